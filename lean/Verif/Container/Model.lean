import Verif.Image.Model
/-!
# Executable containers: CoCo `.BIN` and Foenix PGZ (`xlink/coco.c`, `xlink/foenix.c`)
-/
namespace Verif.Container
open Verif.Image (writeAt)

/-- The fields of `SSection` (xlink/section.h 42-77) that matter here. `data` is `none` for `NULL` (sections without
data, xlink/object.c 305-311), otherwise it has `size` bytes. Locations are `int32_t`. -/
structure Sect where
  used : Bool
  data : Option Bytes
  loc : Int
  deriving Repr, DecidableEq

/-- The sections that are written (xlink/coco.c 66, xlink/foenix.c 77). -/
def loaded (l : List Sect) : List (Int × Bytes) :=
  l.filterMap fun s => if s.used then s.data.map fun d => (s.loc, d) else none

/-- Where the program starts (xlink/coco.c 75-83, xlink/foenix.c 139-147). `entry` is `none` without an entry option,
`some none` when there is no such exported symbol. `first` is what `sect_StartAddressOfFirstCodeSection` finds
(xlink/section.c 328-337). -/
def startAddress (entry : Option (Option Int)) (first : Option Int) : Outcome Int :=
  match entry, first with
  | some (some v), _ => .ok v
  | some none, _ => .fail
  | none, some v => .ok v
  | none, none => .fail

/-- Conversion to `uint16_t`. -/
def u16 (v : Int) : Nat := (v % 65536).toNat

/-- Conversion to `uint32_t`. -/
def u32 (v : Int) : Nat := (v % 4294967296).toNat

/-! ## CoCo -/

/-- `writeSection` (xlink/coco.c 45-54); size and location are `uint16_t`. -/
def cocoSection (s : Int × Bytes) : Bytes :=
  put8 0 ++ put16be (s.2.length % 65536) ++ put16be (u16 s.1) ++ s.2.take (s.2.length % 65536)

/-- `writeEndSection` (xlink/coco.c 56-61). -/
def cocoEnd (start : Int) : Bytes := put8 0xFF ++ put16be 0 ++ put16be (u16 start)

/-- `coco_WriteQuickloadBin` (xlink/coco.c 72-100). That the file can be opened is assumed. -/
def cocoFile (entry : Option (Option Int)) (first : Option Int) (l : List Sect) : Outcome Bytes :=
  match startAddress entry first with
  | .ok start => if start ≥ 0x8000 then .fail else .ok ((loaded l).flatMap cocoSection ++ cocoEnd start)
  | .fail => .fail
  | .ub => .ub

/-! ## Foenix PGZ -/

/-- The file and the global variables of xlink/foenix.c 39-41; `sizeLoc` is `none` for -1. `next` is an `int32_t`. -/
structure Pgz where
  file : Bytes
  sizeLoc : Option Nat
  size : Int
  next : Int

/-- Conversion to `int32_t`. -/
def i32 (v : Int) : Int := if v % 4294967296 < 2147483648 then v % 4294967296 else v % 4294967296 - 4294967296

/-- Setting the size of the current section (xlink/foenix.c 47-52). -/
def pgzClose (st : Pgz) : Bytes :=
  match st.sizeLoc with
  | some p => writeAt st.file p (put32le (u32 st.size))
  | none => st.file

/-- `writePGZSection` (xlink/foenix.c 43-68). The sums are computed in `uint32_t`. -/
def pgzSection (st : Pgz) (s : Int × Bytes) : Pgz :=
  let st :=
    if s.1 ≠ st.next then
      let f := pgzClose st ++ put32le (u32 s.1)
      ⟨f ++ put32le 0, some f.length, 0, st.next⟩
    else st
  ⟨st.file ++ s.2, st.sizeLoc, i32 (st.size + s.2.length), i32 (s.1 + s.2.length)⟩

/-- `writePGZSections` (xlink/foenix.c 70-81) behind the header (132-133). -/
def pgzSections (l : List Sect) : Pgz := (loaded l).foldl pgzSection ⟨[0x7A], none, -1, -1⟩

/-- `foenix_WriteExecutablePGZ` (xlink/foenix.c 125-151). That the file can be opened is assumed. -/
def pgzFile (entry : Option (Option Int)) (first : Option Int) (l : List Sect) : Outcome Bytes :=
  match startAddress entry first with
  | .ok start => .ok (pgzSection (pgzSections l) (start, [])).file
  | .fail => .fail
  | .ub => .ub

end Verif.Container
