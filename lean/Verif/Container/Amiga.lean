import Verif.Bytes
import Verif.CInt
/-!
# Amiga executables (`xlink/amiga.c`)
-/
namespace Verif.Container.Amiga

/-- A patch (xlink/patch.h): whether its type is `PATCH_RELOC`, its offset, and the position of `valueSection` in the
list of sections (`none` for `NULL`). -/
structure Patch where
  reloc : Bool
  offset : Nat
  target : Option Nat
  deriving Repr, DecidableEq

/-- The fields of `SSection` (xlink/section.h 42-77) used here. `equ` is `group == NULL`; `text` is
`group->type == GROUP_TEXT`; `dataFlag` and `shared` are flags of the group. `data` has `size` bytes if the group is a
`GROUP_TEXT` group (xlink/object.c 304-311). -/
structure Sect where
  used : Bool
  equ : Bool
  text : Bool
  dataFlag : Bool
  shared : Bool
  size : Nat
  data : Bytes
  patches : List Patch
  deriving Repr, DecidableEq

/-- Sections that become hunks (xlink/amiga.c 90, 254, 264). -/
def live (s : Sect) : Bool := s.used && !s.equ

/-- `sectionId` as set by `updateSectionIds` (xlink/amiga.c 259-271) for the section at a position of the list; `none`
is `UINT32_MAX`. -/
def sectionId (l : List Sect) (j : Nat) : Option Nat :=
  match l[j]? with
  | some s => if live s then some ((l.take j).countP live) else none
  | none => none

/-- `longSize` (xlink/amiga.c 53-56). -/
def longSize (size : Nat) : Nat := (size + 3) % 4294967296 / 4

/-- `sectionSize` (xlink/amiga.c 66-73). -/
def sectionSize (s : Sect) : Nat := if s.shared then longSize s.size ||| 0x40000000 else longSize s.size

/-- `hunkType` (xlink/amiga.c 127-147). -/
def hunkType (s : Sect) : Nat := if s.text then (if s.dataFlag then 0x3EA else 0x3E9) else 0x3EB

/-- `writeBuffer` (xlink/amiga.c 43-51). -/
def padded (b : Bytes) : Bytes := b ++ List.replicate ((4 - b.length % 4) % 4) 0

/-- Is the patch a relocation (xlink/amiga.c 183-184)? -/
def isReloc (p : Patch) : Bool := p.reloc && p.target.isSome

/-- The offsets collected for one hunk (`getPatchSectionOffsets`, xlink/amiga.c 176-202). -/
def offsetsFor (l : List Sect) (ps : List Patch) (id : Nat) : List Nat :=
  (ps.filter fun p => isReloc p && p.target.bind (sectionId l) == some id).map fun p => p.offset

/-- `writeReloc32` (xlink/amiga.c 204-224). A relocation whose section has no hunk indexes the table of offsets with
`UINT32_MAX` (185). -/
def reloc32 (l : List Sect) (total : Nat) (ps : List Patch) : Outcome Bytes :=
  if ps.any fun p => isReloc p && (p.target.bind (sectionId l)).isNone then .ub
  else if ps.any isReloc then
    .ok (put32be 0x3EC ++ ((List.range total).flatMap fun id =>
      let o := offsetsFor l ps id
      if o = [] then [] else put32be o.length ++ put32be id ++ o.flatMap put32be) ++ put32be 0)
  else .ok []

/-- `writeSection` with `linkObject` and `debugInfo` off (xlink/amiga.c 229-249). -/
def writeSection (l : List Sect) (total : Nat) (s : Sect) : Outcome Bytes :=
  if s.text then
    match reloc32 l total s.patches with
    | .ok r => .ok (put32be (hunkType s) ++ put32be (longSize s.size) ++ padded s.data ++ r ++ put32be 0x3F2)
    | .fail => .fail
    | .ub => .ub
  else .ok (put32be (hunkType s) ++ put32be (longSize s.size) ++ put32be 0x3F2)

/-- `writeSections` (xlink/amiga.c 251-257); `todo` is the rest of the list. -/
def writeSections (l : List Sect) (total : Nat) : List Sect → Outcome Bytes
  | [] => .ok []
  | s :: todo =>
    if live s then
      match writeSection l total s with
      | .ok a =>
        match writeSections l total todo with
        | .ok b => .ok (a ++ b)
        | .fail => .fail
        | .ub => .ub
      | .fail => .fail
      | .ub => .ub
    else writeSections l total todo

/-- `writeHunkHeader` (xlink/amiga.c 111-120) without debug information. -/
def header (l : List Sect) (total : Nat) : Bytes :=
  put32be 0x3F3 ++ put32be 0 ++ put32be total ++ put32be 0 ++ put32be ((total + 4294967295) % 4294967296) ++
    (l.filter live).flatMap fun s => put32be (sectionSize s)

/-- `writeExecutable` (xlink/amiga.c 273-287). `entry` is `none` without an entry option, `some none` if there is no such
symbol, otherwise the position of the symbol's section (if it has one) and the symbol's value. -/
def writeExecutable (entry : Option (Option (Option Nat × Int))) (l : List Sect) : Outcome Bytes :=
  let total := l.countP live
  let write :=
    match writeSections l total l with
    | .ok b => .ok (header l total ++ b)
    | .fail => .fail
    | .ub => .ub
  match entry with
  | none => write
  | some none => .fail
  | some (some (sec, v)) => if sec ≠ some 0 ∨ v ≠ 0 then .fail else write

/-! ## How AmigaDOS reads such a file -/

/-- A hunk: its type, the memory it is given (in longwords, and whether in chip memory), its contents, and the places to
relocate with the hunk whose address is added. -/
structure Hunk where
  kind : Nat
  longs : Nat
  chip : Bool
  data : Bytes
  relocs : List (Nat × List Nat)
  deriving Repr, DecidableEq

def longs : Nat → Bytes → Option (List Nat × Bytes)
  | 0, f => some ([], f)
  | n + 1, f =>
    match get32be f with
    | some (v, f) => (longs n f).map fun r => (v :: r.1, r.2)
    | none => none

/-- The groups of a relocation block, up to the empty one. -/
def relocs : Nat → Bytes → Option (List (Nat × List Nat) × Bytes)
  | 0, _ => none
  | fuel + 1, f =>
    match get32be f with
    | some (0, f) => some ([], f)
    | some (n + 1, f) =>
      match get32be f with
      | some (id, f) =>
        match longs (n + 1) f with
        | some (o, f) => (relocs fuel f).map fun r => ((id, o) :: r.1, r.2)
        | none => none
      | none => none
    | none => none

/-- What follows the contents of a hunk, up to its end. -/
def hunkTail (f : Bytes) : Option (List (Nat × List Nat) × Bytes) :=
  match get32be f with
  | some (0x3F2, f) => some ([], f)
  | some (0x3EC, f) =>
    match relocs (f.length + 1) f with
    | some (r, f) =>
      match get32be f with
      | some (0x3F2, f) => some (r, f)
      | _ => none
    | none => none
  | _ => none

/-- One hunk; `size` is its entry in the header. The contents must fit into the memory. -/
def hunk (size : Nat) (f : Bytes) : Option (Hunk × Bytes) :=
  match get32be f with
  | some (kind, f) =>
    match get32be f with
    | some (n, f) =>
      if n ≤ size % 1073741824 then
        if kind = 0x3EB then
          (hunkTail f).map fun t => (⟨kind, size % 1073741824, size / 1073741824 == 1, [], t.1⟩, t.2)
        else if kind = 0x3E9 ∨ kind = 0x3EA then
          match getN (4 * n) f with
          | some (d, f) => (hunkTail f).map fun t => (⟨kind, size % 1073741824, size / 1073741824 == 1, d, t.1⟩, t.2)
          | none => none
        else none
      else none
    | none => none
  | none => none

def hunks : List Nat → Bytes → Option (List Hunk × Bytes)
  | [], f => some ([], f)
  | s :: ss, f =>
    match hunk s f with
    | some (h, f) => (hunks ss f).map fun r => (h :: r.1, r.2)
    | none => none

/-- Loads a file: the header without resident libraries, the table of sizes, the hunks. Nothing may follow. -/
def load (f : Bytes) : Option (List Hunk) :=
  match longs 5 f with
  | some ([0x3F3, 0, n, 0, last], f) =>
    if n = last + 1 then
      match longs n f with
      | some (sizes, f) =>
        match hunks sizes f with
        | some (hs, []) => some hs
        | _ => none
      | none => none
    else none
  | _ => none

/-- The offsets relocated by the address of a hunk. -/
def Hunk.offsets (h : Hunk) (id : Nat) : List Nat := (h.relocs.filter fun r => r.1 == id).flatMap fun r => r.2

end Verif.Container.Amiga
