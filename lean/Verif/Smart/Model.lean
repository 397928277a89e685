import Verif.CInt
import Verif.Bytes
/-!
# Smart linking (`xlink/smart.c` and the searches in `xlink/section.c`)

The linker's list of sections is a Lean list; a section pointer is a position in it.
-/
namespace Verif.Smart

/-- `ESymbolType` (xlink/symbol.h 30-37). -/
inductive SymType where
  | exported | imported | «local» | localExport | localImport | linker
  deriving Repr, DecidableEq

/-- `SSymbol` (xlink/symbol.h 39-51), as far as it matters before sections are placed. Only linker symbols, which
come from `SYMBOL` lines in the memory layout, have their `section` set (xlink/machinedefinition.c 406, xlink/object.c
185). -/
structure Sym where
  name : Bytes
  type : SymType
  value : Int
  deriving Repr, DecidableEq

/-- `SSection` (xlink/section.h 42-77), as far as it matters here. `equ` is `group == NULL`; `loc` is
`cpuLocation`, -1 for a section without fixed address. -/
structure Sect where
  fileId : Nat
  equ : Bool
  root : Bool
  loc : Int
  size : Nat
  symbols : List Sym
  deriving Repr, DecidableEq

/-- The position of the first element with property `p` in the list, counted from `i`. -/
def firstFrom {α : Type} (p : α → Bool) : Nat → List α → Option Nat
  | _, [] => none
  | i, a :: l => if p a then some i else firstFrom p (i + 1) l

/-- `sectionHasSymbol` (xlink/section.c 166-175). -/
def hasSymbol (s : Sect) (name : Bytes) (type : SymType) : Option Sym :=
  s.symbols.find? (fun y => y.type == type && y.name == name)

/-- `findSectionContainingAddress` (xlink/section.c 177-185). `section->size` is converted to `int32_t`; sizes are
taken to be below 2^31 and sums not to overflow. -/
def containing (secs : List Sect) (value : Int) (fileId : Nat) : Option Nat :=
  firstFrom (fun s => s.fileId == fileId && decide (s.loc ≤ value) && decide (value < s.loc + s.size)) 0 secs

/-- The symbol that `sect_FindSectionWithExportedSymbol` finds in a section (xlink/section.c 300-301). -/
def exportOf (name : Bytes) (s : Sect) : Option Sym :=
  (hasSymbol s name .exported).or (hasSymbol s name .linker)

/-- `sect_FindSectionWithExportedSymbol` (xlink/section.c 297-310). -/
def findGlobal (secs : List Sect) (name : Bytes) : Option Nat := do
  let i ← firstFrom (fun s => (exportOf name s).isSome) 0 secs
  let s ← secs[i]?
  let y ← exportOf name s
  if y.type ≠ .linker ∧ s.equ then containing secs y.value s.fileId else some i

/-- `sect_FindSectionWithLocallyExportedSymbol` (xlink/section.c 312-326). -/
def findLocal (secs : List Sect) (name : Bytes) (fileId : Nat) : Option Nat :=
  match firstFrom (fun s => s.fileId == fileId && (hasSymbol s name .localExport).isSome) 0 secs with
  | some i => do
    let s ← secs[i]?
    let y ← hasSymbol s name .localExport
    if s.equ then containing secs y.value s.fileId else some i
  | none => findGlobal secs name

/-- The sections that are marked (`used`), by position. -/
abbrev Marks := List Nat

/-- What `useSectionWithLocalExport` and `useSectionWithGlobalExport` make of a symbol (xlink/smart.c 32-35, 40-57):
nothing to do, an error, or the section that is needed. -/
inductive Need where
  | nothing
  | missing
  | section (i : Nat)
  deriving Repr, DecidableEq

def need (secs : List Sect) (s : Sect) (y : Sym) : Need :=
  match y.type with
  | .localImport =>
    match findLocal secs y.name s.fileId with
    | some i => .section i
    | none => .nothing
  | .imported =>
    match findGlobal secs y.name with
    | some i => .section i
    | none => .missing
  | _ => .nothing

/-- The loop in `markReferencedSectionsUsed` (xlink/smart.c 30-37); `f` marks one more section. -/
def markList (f : Marks → Nat → Outcome Marks) : Marks → List Need → Outcome Marks
  | m, [] => .ok m
  | m, .nothing :: ns => markList f m ns
  | _, .missing :: _ => .fail
  | m, .section j :: ns =>
    if j ∈ m then markList f m ns
    else
      match f m j with
      | .ok m => markList f m ns
      | .fail => .fail
      | .ub => .ub

/-- `markReferencedSectionsUsed` (xlink/smart.c 28-38). `fuel` bounds the depth of the recursion; running out of it
is `ub`, which never happens (`mark_total`). The depth of the C stack is not modelled. -/
def mark (secs : List Sect) : Nat → Marks → Nat → Outcome Marks
  | 0, _, _ => .ub
  | fuel + 1, m, i =>
    match secs[i]? with
    | none => .ub
    | some s => markList (mark secs fuel) (i :: m) (s.symbols.map (need secs s))

def markAll (secs : List Sect) (fuel : Nat) (m : Marks) (ns : List Need) : Outcome Marks :=
  markList (mark secs fuel) m ns

/-- The sections in order, from position `i` on, that are `root`. -/
def roots : Nat → List Sect → List Nat
  | _, [] => []
  | i, s :: rest => if s.root then i :: roots (i + 1) rest else roots (i + 1) rest

/-- `useRootedSections` (xlink/smart.c 59-66). -/
def markRoots (secs : List Sect) (fuel : Nat) : Marks → List Nat → Outcome Marks
  | m, [] => .ok m
  | m, i :: is =>
    match mark secs fuel m i with
    | .ok m => markRoots secs fuel m is
    | .fail => .fail
    | .ub => .ub

/-- `smart_Process` (xlink/smart.c 70-84): the used sections. Sections that were in use before (`used0`, the
section of the linker symbols, xlink/machinedefinition.c 393) stay so. -/
def process (secs : List Sect) (used0 : Marks) : Option Bytes → Outcome Marks
  | none => .ok (List.range secs.length)
  | some name =>
    match markAll secs (secs.length + 1) used0
        [match findGlobal secs name with | some i => .section i | none => .missing] with
    | .ok m => markRoots secs (secs.length + 1) m (roots 0 secs)
    | .fail => .fail
    | .ub => .ub

end Verif.Smart
