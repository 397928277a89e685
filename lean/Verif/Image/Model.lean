import Verif.CInt
import Verif.Bytes
/-!
# Binary images (`xlink/image.c`)

A file is the list of its bytes. The main file and the overlay files are told apart by the overlay number, `none` for
the main file (`UINT32_MAX`).
-/
namespace Verif.Image

/-- The fields of `SSection` (xlink/section.h 42-77) that matter here. `equ` is `group == NULL`, `image` is
`imageLocation` with `none` for -1 (other negative locations do not occur), `data` has `size` bytes; sections of `BSS`
groups have none. -/
structure Sect where
  equ : Bool
  used : Bool
  assigned : Bool
  bss : Bool
  image : Option Nat
  overlay : Option Nat
  data : Bytes
  deriving Repr, DecidableEq

abbrev Files := Option Nat → Bytes

def Files.set (fs : Files) (o : Option Nat) (b : Bytes) : Files := fun p => if p = o then b else fs p

/-- Is the section written (xlink/image.c 93-96)? -/
def written (s : Sect) : Option Nat :=
  if s.equ then none else if s.used && s.assigned && !s.bss then s.image else none

/-- `fseek` and `fwrite`: bytes written at an offset. If the offset is behind the end of the file, the gap reads as
zeros, unless nothing is written. -/
def writeAt (f : Bytes) (off : Nat) (b : Bytes) : Bytes :=
  if b = [] then f
  else (f ++ List.replicate (off - f.length) 0).take off ++ b ++ f.drop (off + b.length)

/-- `writeRepeatedBytes` with `emptyBytes` at the end of a file (xlink/image.c 45-65). `bytes` is an `int`: nothing is
written if it does not fit. Writing in blocks of 16384 bytes makes no difference. -/
def fillEnd (f : Bytes) (n : Nat) : Bytes := if n < 2147483648 then f ++ List.replicate n 0xFF else f

/-- The body of the loop for a section that is written (xlink/image.c 97-117). -/
def writeSection (header : Nat) (fs : Files) (s : Sect) (loc : Nat) : Files :=
  let start := if s.overlay = none then add32 loc header else loc
  let f := fs s.overlay
  let f := if start > f.length then fillEnd f (start - f.length) else f
  fs.set s.overlay (writeAt f start s.data)

/-- The loop (xlink/image.c 91-119). -/
def writeAll (header : Nat) : List Sect → Files → Files
  | [], fs => fs
  | s :: l, fs =>
    match written s with
    | none => writeAll header l fs
    | some loc => writeAll header l (writeSection header fs s loc)

/-- The number of bytes to add (xlink/image.c 122-123), computed in `uint32_t`. `log2n` is a function from `util`,
taken to be the position of the highest bit; it has none for 0. A shift by 32 or more is undefined. `padding` is
positive or 0; a negative one other than -1 does not occur. -/
def padBytes (padding size : Nat) : Outcome Nat :=
  if padding = 0 then
    if size = 0 then .ub else if size.log2 ≥ 32 then .ub else .ok (sub32 (2 * 2 ^ size.log2 % W32) size)
  else .ok (padding - size % padding)

/-- `internalWriteBinary` (xlink/image.c 83-128): the main file has the header only, overlay files are empty.
`padding = none` is -1. -/
def writeBinary (header : Bytes) (padding : Option Nat) (l : List Sect) : Outcome Files :=
  let fs := writeAll header.length l (Files.set (fun _ => []) none header)
  match padding with
  | none => .ok fs
  | some p =>
    match padBytes p (fs none).length with
    | .ok n => .ok (fs.set none (fillEnd (fs none) n))
    | .fail => .fail
    | .ub => .ub

end Verif.Image
