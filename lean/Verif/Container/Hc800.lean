import Verif.Image.Model
/-!
# HC800 executables (`xlink/hc800.c`)
-/
namespace Verif.Container.Hc800
open Verif.Image (writeAt)

/-- What a section is: the one for exported constants (`group == NULL`), BSS (no data), or text with its bytes. -/
inductive Kind
  | equ
  | bss
  | text (data : Bytes)
  deriving Repr, DecidableEq

/-- The fields of `SSection` (xlink/section.h 42-77) used here. Sections that have not been placed have image location 0
(xlink/section.c 252). Negative image locations are left out: all pools for this format have an image location
(xlink/group.c 620-951). -/
structure Sect where
  used : Bool
  bank : Int
  image : Nat
  kind : Kind
  deriving Repr, DecidableEq

/-- Adding a section to the hunk (xlink/hc800.c 91-103): zeros up to its location, then its bytes. The hunk is the end
of the file. -/
def addSection (buf : Bytes) (image : Nat) (d : Bytes) : Bytes :=
  writeAt (buf ++ List.replicate (image - buf.length) 0) image d

/-- The loop of `writeBank` (xlink/hc800.c 87-110). Gives the contents of the hunk and the sections left. A failed
assertion (88) stops the linker. The group of the section for constants is `NULL` (90). -/
def bankLoop (bank : Int) : List Sect → Bytes → Outcome (Bytes × List Sect)
  | [], buf => .ok (buf, [])
  | s :: l, buf =>
    if s.bank < bank then .fail
    else if s.bank = bank then
      match s.kind with
      | .equ => .ub
      | .bss => bankLoop bank l buf
      | .text d => bankLoop bank l (addSection buf s.image d)
    else .ok (buf, s :: l)

/-- A hunk: type, length (`writeHunkStart`, `writeHunkEnd`, xlink/hc800.c 57-74) and contents. -/
def hunk (type : Nat) (b : Bytes) : Bytes := put8 type ++ put16le (b.length % 65536) ++ b

/-- The inner loop of `writeDataHunks` (xlink/hc800.c 121-127). `fuel` bounds the number of rounds; every round drops at
least one section. -/
def hunksOfBank (bank : Nat) : Nat → List Sect → Outcome Bytes
  | _, [] => .ok []
  | 0, _ :: _ => .ub
  | fuel + 1, s :: l =>
    match s.kind with
    | .text _ =>
      if s.bank = bank then
        match bankLoop bank (s :: l) [] with
        | .ok (buf, rest) =>
          match hunksOfBank bank fuel rest with
          | .ok r => .ok (hunk 2 (put8 bank ++ buf) ++ r)
          | .fail => .fail
          | .ub => .ub
        | .fail => .fail
        | .ub => .ub
      else hunksOfBank bank fuel l
    | _ => hunksOfBank bank fuel l

/-- `writeDataHunks` (xlink/hc800.c 118-129) for a list of banks. -/
def dataHunks (l : List Sect) : List Nat → Outcome Bytes
  | [] => .ok []
  | b :: bs =>
    match hunksOfBank b l.length l with
    | .ok a =>
      match dataHunks l bs with
      | .ok r => .ok (a ++ r)
      | .fail => .fail
      | .ub => .ub
    | .fail => .fail
    | .ub => .ub

/-- The banks (xlink/hc800.c 120). -/
def banks : List Nat := (List.range 0x7F).map fun i => 0x81 + i

/-- `hc800_WriteExecutable` (xlink/hc800.c 131-162). That the file can be opened is assumed. -/
def writeExecutable (config : Bytes) (l : List Sect) : Outcome Bytes :=
  match dataHunks l banks with
  | .ok d => .ok ([0x55, 0x43] ++ hunk 0 (config.take 9) ++ d ++ hunk 1 [])
  | .fail => .fail
  | .ub => .ub

/-! ## The loader -/

/-- Data hunks up to the end hunk, which ends the file. -/
def loadHunks : Nat → Bytes → Option (List (Nat × Bytes))
  | 0, _ => none
  | fuel + 1, f =>
    match get8 f with
    | some (type, f) =>
      match get16le f with
      | some (n, f) =>
        match getN n f with
        | some (d, f) =>
          if type = 1 then if n = 0 ∧ f = [] then some [] else none
          else if type = 2 then
            match get8 d with
            | some (bank, d) => (loadHunks fuel f).map fun r => (bank, d) :: r
            | none => none
          else none
        | none => none
      | none => none
    | none => none

/-- The configuration of the memory management unit, and the contents of banks. -/
def load (f : Bytes) : Option (Bytes × List (Nat × Bytes)) :=
  match getN 5 f with
  | some ([0x55, 0x43, 0, 9, 0], f) =>
    match getN 9 f with
    | some (c, f) => (loadHunks (f.length + 1) f).map fun r => (c, r)
    | none => none
  | _ => none

end Verif.Container.Hc800
