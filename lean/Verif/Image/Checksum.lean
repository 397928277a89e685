import Verif.Image.Model
/-!
# Headers and checksums of cartridges (`xlink/gameboy.c`, `xlink/sega.c`, `xlink/hc800.c`)

The functions work on the finished file: a position in it is an offset, `fseek` followed by `fwrite` or `fputc` is
`writeAt`. The numbers `fputbl`, `fputbw` and `fputlw` write are those of `Verif.Bytes`.
-/
namespace Verif.Image

/-! ## Game Boy -/

/-- `g_nintendoChar` (xlink/gameboy.c 33-37). -/
def nintendoChar : Bytes :=
  [0xCE, 0xED, 0x66, 0x66, 0xCC, 0x0D, 0x00, 0x0B, 0x03, 0x73, 0x00, 0x83, 0x00, 0x0C, 0x00, 0x0D,
   0x00, 0x08, 0x11, 0x1F, 0x88, 0x89, 0x00, 0x0E, 0xDC, 0xCC, 0x6E, 0xE6, 0xDD, 0xDD, 0xD9, 0x99,
   0xBB, 0xBB, 0x67, 0x63, 0x6E, 0x0E, 0xEC, 0xCC, 0xDD, 0xDC, 0x99, 0x9F, 0xBB, 0xB9, 0x33, 0x3E]

/-- `updateNintendoCharacterArea` (xlink/gameboy.c 39-43). -/
def updateLogo (f : Bytes) : Bytes := writeAt f 0x104 nintendoChar

/-- `fgetc` at an offset, with `EOF` read as 0 (xlink/gameboy.c 50-52, 69-71, 95-97). -/
def getOr0 (f : Bytes) (i : Nat) : UInt8 := (f[i]?).getD 0

/-- The loop of `updateRomSize` (xlink/gameboy.c 54-57). The first argument bounds the number of rounds: `unsigned long`
is taken to have 64 bits and a file to be no longer than 2^63 bytes, so 48 rounds are enough. -/
def romCode (size : Nat) : Nat → Nat → Nat
  | 0, code => code
  | n + 1, code => if size > 0x8000 * 2 ^ code then romCode size n (code + 1) else code

/-- `updateRomSize` (xlink/gameboy.c 45-63). -/
def updateRomSize (f : Bytes) : Bytes :=
  let code := byte (romCode f.length 48 0)
  if code ≠ getOr0 f 0x148 then writeAt f 0x148 [code] else f

/-- `updateCartridgeType` (xlink/gameboy.c 65-81). Line 80 writes the first byte of an `int`, which is its value on a
little endian host only; that is assumed here. -/
def updateCartridgeType (f : Bytes) : Bytes :=
  if f.length ≤ 0x8000 ∨ getOr0 f 0x147 ≠ 0 then f else writeAt f 0x147 [1]

/-- The local variables of `updateChecksum` (xlink/gameboy.c 87-90). -/
structure Sums where
  cart : UInt16
  total : UInt16
  cartComp : UInt8
  calcComp : UInt8

/-- One round of the loop (xlink/gameboy.c 95-112). -/
def sumStep (i : Nat) (ch : UInt8) (s : Sums) : Sums :=
  if i < 0x134 then { s with total := s.total + ch.toUInt16 }
  else if i < 0x14D then { s with calcComp := s.calcComp + ch, total := s.total + ch.toUInt16 }
  else if i = 0x14D then { s with cartComp := ch }
  else if i = 0x14E then { s with cart := ch.toUInt16 <<< 8 }
  else if i = 0x14F then { s with cart := s.cart ||| ch.toUInt16 }
  else { s with total := s.total + ch.toUInt16 }

/-- The first `n` rounds of the loop (xlink/gameboy.c 94-113). -/
def sums (f : Bytes) : Nat → Sums
  | 0 => ⟨0, 0, 0, 0⟩
  | n + 1 => sumStep n (getOr0 f n) (sums f n)

/-- `updateChecksum` (xlink/gameboy.c 83-128). -/
def updateChecksum (f : Bytes) : Bytes :=
  let s := sums f f.length
  let comp := 0xE7 - s.calcComp
  let total := s.total + comp.toUInt16
  let f := if s.cart ≠ total then writeAt f 0x14E [(total >>> 8).toUInt8, total.toUInt8] else f
  if s.cartComp ≠ comp then writeAt f 0x14D [comp] else f

/-- `updateGameBoyHeader` (xlink/gameboy.c 130-136). -/
def updateGameBoy (f : Bytes) : Bytes := updateChecksum (updateCartridgeType (updateRomSize (updateLogo f)))

/-- `gameboy_WriteImage` (xlink/gameboy.c 138-149): the main file. That the file can be opened is assumed. -/
def gameboyImage (l : List Sect) : Outcome Bytes :=
  match writeBinary [] (some 0) l with
  | .ok fs => .ok (updateGameBoy (fs none))
  | .fail => .fail
  | .ub => .ub

/-! ## Mega Drive -/

/-- The number of words `sega_CalcMegaDriveChecksum` reads (xlink/sega.c 30); `size_t` has 64 bits. -/
def megaCount (length : Nat) : Nat := (length + 2 ^ 64 - 0x200) % 2 ^ 64 / 2

/-- The loop of `sega_CalcMegaDriveChecksum` (xlink/sega.c 32-34) after `n` rounds. What `fgetbw` returns behind the end
of the file is not specified: `ub`. -/
def megaSum (f : Bytes) : Nat → Outcome UInt16
  | 0 => .ok 0
  | n + 1 =>
    match megaSum f n, f[0x200 + 2 * n]?, f[0x200 + 2 * n + 1]? with
    | .ok r, some a, some b => .ok (r + (a.toUInt16 * 256 + b.toUInt16))
    | _, _, _ => .ub

/-- `sega_UpdateMegaDriveHeader` (xlink/sega.c 39-50). A file of less than 512 bytes makes the loop of the checksum run
for about 2^63 rounds, see `C22_short_mega_drive_image`: this is `fail` here. -/
def updateMegaDrive (f : Bytes) : Outcome Bytes :=
  let f1 := writeAt f 0x1A4 (put32be ((f.length + 2 ^ 64 - 1) % 2 ^ 64))
  if megaCount f.length > 2 ^ 62 then .fail
  else
    match megaSum f1 (megaCount f.length) with
    | .ok sum => .ok (writeAt f1 0x18E (put16be sum.toNat))
    | .fail => .fail
    | .ub => .ub

/-- `sega_WriteMegaDriveImage` (xlink/sega.c 52-63): the main file. That the file can be opened is assumed. -/
def megaDriveImage (l : List Sect) : Outcome Bytes :=
  match writeBinary [] (some 0) l with
  | .ok fs => updateMegaDrive (fs none)
  | .fail => .fail
  | .ub => .ub

/-! ## Master System -/

/-- `sega_CalcMasterSystemCheckSumPart` (xlink/sega.c 65-71): `EOF` is -1, so every byte behind the end of the file
counts as 65535. -/
def masterPart (f : Bytes) (start : Nat) : Nat → UInt16 → UInt16
  | 0, sum => sum
  | n + 1, sum => masterPart f (start + 1) n (sum + match f[start]? with | some b => b.toUInt16 | none => 0xFFFF)

/-- `sega_CalcMasterSystemCheckSum` (xlink/sega.c 73-86). When the file ends before the header, the position after the
first part is not `header`, but then there is no second part. File sizes are below 2^31. -/
def masterSum (f : Bytes) (header : Nat) : UInt16 :=
  let sum := masterPart f 0 header 0
  if f.length > header + 16 then masterPart f (header + 16) (f.length - (header + 16)) sum else sum

/-- `sega_CalcSizeCode` (xlink/sega.c 88-124). -/
def sizeCode (code : UInt8) (size : Nat) : UInt8 :=
  let new : UInt8 :=
    if size = 0x2000 then 0xA else if size = 0x4000 then 0xB else if size = 0x8000 then 0xC
    else if size = 0xC000 then 0xD else if size = 0x10000 then 0xE else if size = 0x20000 then 0xF
    else if size = 0x40000 then 0 else if size = 0x80000 then 1 else 2
  (code &&& 0xF0) ||| new

/-- `"TMR SEGA  "` (xlink/sega.c 138). -/
def tmrSega : Bytes := [0x54, 0x4D, 0x52, 0x20, 0x53, 0x45, 0x47, 0x41, 0x20, 0x20]

/-- `sega_UpdateMasterSystemHeader` (xlink/sega.c 126-144). The code is read back from the file (line 141), `EOF` becomes
255. `header` is the offset given by the caller, 16 below a positive number. -/
def updateMasterSystem (f : Bytes) (header : Nat) : Bytes :=
  let sum := masterSum f header
  let f1 := writeAt f header (tmrSega ++ put16le sum.toNat)
  let code : UInt8 := (f1[header + 15]?).getD 255
  writeAt f1 (header + 15) [sizeCode code f.length]

/-- What `sega_WriteMasterSystemImage` (xlink/sega.c 146-159) does with the output file. It is opened with `"r+b"`, which
fails unless the file exists already (its contents are `old`). `image_WriteBinaryToFile` (xlink/image.c 143-151) hands
the file to a map that closes it when the map is freed (`freeVecFileHandle` xlink/image.c 40-43), so the header update works
with a closed file. That `map_Free` calls the function given to `map_Create` for the values is a contract of `util`. -/
def masterSystemImage (old : Option Bytes) : Outcome Bytes :=
  match old with
  | none => .fail
  | some _ => .ub

/-! ## HC800 kernal -/

/-- The loop of `updateKernalHeader` (xlink/hc800.c 172-177) over the first `n` bytes. `int8_t` is taken modulo 256. -/
def kernalSum (f : Bytes) : Nat → UInt8
  | 0 => 0
  | n + 1 => kernalSum f n + getOr0 f n

/-- `updateKernalHeader` (xlink/hc800.c 164-183). -/
def updateKernal (f : Bytes) : Bytes :=
  let f := writeAt f 7 [0]
  writeAt f 7 [0xA5 - kernalSum f f.length]

/-- `hc800_WriteKernal` (xlink/hc800.c 185-196): the main file. -/
def kernalImage (l : List Sect) : Outcome Bytes :=
  match writeBinary [] (some 0) l with
  | .ok fs => .ok (updateKernal (fs none))
  | .fail => .fail
  | .ub => .ub

end Verif.Image
