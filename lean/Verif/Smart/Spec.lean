import Verif.Smart.Model
/-!
# What smart linking is supposed to do
-/
namespace Verif.Smart

/-- `a`, at position `i`, is the first element of the list with property `P`. -/
def First {α : Type} (l : List α) (P : α → Prop) (i : Nat) (a : α) : Prop :=
  l[i]? = some a ∧ P a ∧ ∀ k, k < i → ∀ b, l[k]? = some b → ¬ P b

/-- Does the section export a symbol of this name to all files? -/
def Exports (name : Bytes) (s : Sect) : Prop :=
  ∃ y ∈ s.symbols, (y.type = .exported ∨ y.type = .linker) ∧ y.name = name

def ExportedAs (name : Bytes) (y : Sym) : Prop := y.type = .exported ∧ y.name = name
def LocallyExportedAs (name : Bytes) (y : Sym) : Prop := y.type = .localExport ∧ y.name = name

/-- The section `t` belongs to the file and has a fixed address, and `v` is an address inside of it. -/
def HoldsAddress (file : Nat) (v : Int) (t : Sect) : Prop :=
  t.fileId = file ∧ 0 ≤ t.loc ∧ t.loc ≤ v ∧ v < t.loc + t.size

/-- Section `j` is needed by whoever imports `name`. The first section that exports it; if that is the section for
constants, the section of the same file that the constant points into. -/
inductive Provides (secs : List Sect) (name : Bytes) : Nat → Prop
  | plain {i : Nat} {s : Sect} (h : First secs (Exports name) i s) (he : s.equ = false) : Provides secs name i
  | linker {i : Nat} {s : Sect} (h : First secs (Exports name) i s) (he : s.equ = true)
      (hl : ∀ y ∈ s.symbols, ¬ ExportedAs name y) : Provides secs name i
  | address {i k j : Nat} {s t : Sect} {y : Sym} (h : First secs (Exports name) i s) (he : s.equ = true)
      (hy : First s.symbols (ExportedAs name) k y) (ht : First secs (HoldsAddress s.fileId y.value) j t) :
      Provides secs name j

/-- The section is in the file and exports the name to other sections of the file. -/
def ExportsLocally (file : Nat) (name : Bytes) (s : Sect) : Prop :=
  s.fileId = file ∧ ∃ y ∈ s.symbols, LocallyExportedAs name y

/-- Section `j` is needed by whoever imports `name` from another section of the same file. -/
inductive ProvidesLocally (secs : List Sect) (file : Nat) (name : Bytes) : Nat → Prop
  | plain {i : Nat} {s : Sect} (h : First secs (ExportsLocally file name) i s) (he : s.equ = false) :
      ProvidesLocally secs file name i
  | address {i k j : Nat} {s t : Sect} {y : Sym} (h : First secs (ExportsLocally file name) i s) (he : s.equ = true)
      (hy : First s.symbols (LocallyExportedAs name) k y) (ht : First secs (HoldsAddress s.fileId y.value) j t) :
      ProvidesLocally secs file name j
  | global {j : Nat} (h : ∀ s ∈ secs, ¬ ExportsLocally file name s) (hg : Provides secs name j) :
      ProvidesLocally secs file name j

/-- Section `i` refers to section `j`. -/
def Refs (secs : List Sect) (i j : Nat) : Prop :=
  ∃ s y, secs[i]? = some s ∧ y ∈ s.symbols ∧
    ((y.type = .imported ∧ Provides secs y.name j) ∨ (y.type = .localImport ∧ ProvidesLocally secs s.fileId y.name j))

/-- The sections that have to be kept. -/
inductive Kept (secs : List Sect) (used0 : Marks) (entry : Bytes) : Nat → Prop
  | before {i : Nat} (h : i ∈ used0) : Kept secs used0 entry i
  | entry {i : Nat} (h : Provides secs entry i) : Kept secs used0 entry i
  | root {i : Nat} {s : Sect} (h : secs[i]? = some s) (hr : s.root = true) : Kept secs used0 entry i
  | ref {i j : Nat} (h : Kept secs used0 entry i) (hr : Refs secs i j) : Kept secs used0 entry j

/-- No constant looks like an address in a section that has no address: a section of the same file without fixed
address (-1) is not taken for one that holds the constant. Without this the code keeps too much, see
`C10_constant_keeps_unrelated_section`. -/
def NoPhantom (secs : List Sect) : Prop :=
  ∀ s ∈ secs, s.equ = true → ∀ y ∈ s.symbols, ∀ t ∈ secs, t.fileId = s.fileId → t.loc < 0 →
    ¬ (t.loc ≤ y.value ∧ y.value < t.loc + t.size)

/-- The sections that are in use from the start, those with linker symbols, refer to nothing. -/
def NoRefs (secs : List Sect) (used0 : Marks) : Prop :=
  ∀ i ∈ used0, ∀ s, secs[i]? = some s → ∀ y ∈ s.symbols, y.type ≠ .imported ∧ y.type ≠ .localImport

end Verif.Smart
