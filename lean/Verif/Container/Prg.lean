import Verif.Image.Model
import Verif.Container.Model
/-!
# Commodore and MEGA65 programs (`xlink/commodore.c`), F256 kernel user programs (`xlink/foenix.c`)
-/
namespace Verif.Container
open Verif.Image (writeAt writeBinary)

/-! ## Commodore -/

/-- The digits that `%d` prints for a number that is not negative. `fuel` is at least the number of digits. -/
def digits : Nat → Nat → Bytes
  | 0, _ => []
  | fuel + 1, n => if n < 10 then [byte (0x30 + n)] else digits fuel (n / 10) ++ [byte (0x30 + n % 10)]

/-- `snprintf(…, 6, "%d", …)`: at most five characters, then a zero. -/
def printed (v : Int) : Bytes :=
  ((if v < 0 then 0x2D :: digits 10 (-v).toNat else digits 10 v.toNat).take 5) ++ [0]

/-- `basicSys` (xlink/commodore.c 33-38). -/
def basicSys : Bytes := [0x0C, 0x08, 0x0A, 0x00, 0x9E, 0x31, 0x32, 0x33, 0x34, 0x00, 0x00, 0x00, 0x00]

/-- `mega65BasicSys` (xlink/commodore.c 41-47). -/
def mega65BasicSys : Bytes :=
  [0x10, 0x20, 0x0A, 0x00, 0xFE, 0x02, 0x30, 0x3A, 0x9E, 0x31, 0x32, 0x33, 0x34, 0x00, 0x00, 0x00, 0x00]

/-- `writeHeader` (xlink/commodore.c 103-112). -/
def prgHeader (address : Nat) (start : Int) : Bytes :=
  put8 (address % 256) ++ put8 (address / 256 % 256) ++
    writeAt (writeAt basicSys 1 (put8 (address / 256 % 256))) 5 (printed start)

/-- `writeMega65Header` (xlink/commodore.c 125-133). -/
def mega65Header (start : Int) : Bytes := [0x01, 0x20] ++ writeAt mega65BasicSys 9 (printed start)

/-- `commodore_WritePrg` (xlink/commodore.c 114-123) with `findStartAddress` (92-101). The header is in the file before
the image is written behind it (xlink/image.c 88). -/
def prgFile (address : Nat) (entry : Option (Option Int)) (first : Option Int) (l : List Image.Sect) : Outcome Bytes :=
  match startAddress entry first with
  | .ok start =>
    match writeBinary (prgHeader address start) none l with
    | .ok fs => .ok (fs none)
    | .fail => .fail
    | .ub => .ub
  | .fail => .fail
  | .ub => .ub

/-- `commodore_WriteMega65Prg` (xlink/commodore.c 135-144). -/
def mega65File (entry : Option (Option Int)) (first : Option Int) (l : List Image.Sect) : Outcome Bytes :=
  match startAddress entry first with
  | .ok start =>
    match writeBinary (mega65Header start) none l with
    | .ok fs => .ok (fs none)
    | .fail => .fail
    | .ub => .ub
  | .fail => .fail
  | .ub => .ub

/-! ## F256 -/

/-- The fields of `SSection` used by the writer: those of `Image.Sect`, and the location that
`sect_StartAddressOfFirstCodeSection` and `sect_EndAddressOfLastCodeSection` use (xlink/section.c 328-352). -/
structure KupSect where
  sect : Image.Sect
  loc : Int
  deriving Repr, DecidableEq

/-- Used text sections (xlink/section.c 331, 343). -/
def codeSections (l : List KupSect) : List KupSect := l.filter fun s => s.sect.used && !s.sect.equ && !s.sect.bss

/-- `sect_StartAddressOfFirstCodeSection` (xlink/section.c 328-337). -/
def firstCode (l : List KupSect) : Outcome Int :=
  match (codeSections l).head? with
  | some s => .ok s.loc
  | none => .fail

/-- `sect_EndAddressOfLastCodeSection` (xlink/section.c 339-352). -/
def lastCode (l : List KupSect) : Outcome Int :=
  match (codeSections l).getLast? with
  | some s => if s.loc + s.sect.data.length - 1 = 0 then .fail else .ok (s.loc + s.sect.data.length - 1)
  | none => .fail

/-- `writeKUPSections` without the padding (xlink/foenix.c 94-117). The size of the file is `currentFileSize`. -/
def kupSections (imageStart : Nat) : List KupSect → Bytes → Outcome Bytes
  | [], f => .ok f
  | s :: l, f =>
    match Image.written s.sect with
    | none => kupSections imageStart l f
    | some loc =>
      if loc < imageStart + 10 then .fail
      else
        let start := loc - imageStart
        kupSections imageStart l (writeAt (f ++ List.replicate (start - f.length) 0xFF) start s.sect.data)

/-- `foenix_WriteExecutableKUP` (xlink/foenix.c 153-196) with the padding (119-122). Without an entry option the linker
stops (168). Addresses are not negative, so that `/` rounds down. -/
def kupFile (entry : Option (Option Int)) (pad : Bool) (l : List KupSect) : Outcome Bytes :=
  match entry with
  | some (some start) =>
    match firstCode l with
    | .ok first =>
      match lastCode l with
      | .ok last =>
        let firstSlot := first / 8192
        let totalSlots := last / 8192 - firstSlot + 1
        if start < 12 then .fail
        else if firstSlot = 0 then .fail
        else if totalSlots > 4 then .fail
        else
          let header := put16le 0x56F2 ++ put8 (totalSlots % 256).toNat ++ put8 (firstSlot % 256).toNat ++
            put16le (u16 start) ++ [0, 0, 0, 0]
          match kupSections (firstSlot * 8192).toNat l header with
          | .ok f => .ok (if pad then f ++ List.replicate (8192 - f.length % 8192) 0xFF else f)
          | .fail => .fail
          | .ub => .ub
      | .fail => .fail
      | .ub => .ub
    | .fail => .fail
    | .ub => .ub
  | _ => .fail

end Verif.Container
