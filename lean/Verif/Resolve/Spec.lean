import Verif.Resolve.Model
/-!
# What symbols are supposed to stand for
-/
namespace Verif.Resolve
open Verif.Smart (SymType)

/-- The symbol `y` of the section `s` is in the slot `x`. -/
def At (secs : List Sect) (x : Slot) (s : Sect) (y : Sym) : Prop :=
  secs[x.1]? = some s ∧ s.symbols[x.2]? = some y

/-- The address offsets in a section are relative to: none if the section has not been placed. -/
def Sect.base (s : Sect) : Int := if s.loc = -1 then 0 else s.loc

/-- Types of symbols that stand for a place in their own section. -/
def Own (t : SymType) : Prop := t = .exported ∨ t = .localExport ∨ t = .local

/-- `w` in section `t` can be imported under this name by any file. -/
def GivesGlobal (name : Bytes) (t : Sect) (w : Sym) : Prop :=
  (t.used = true ∨ t.equ = true) ∧ (w.type = .exported ∨ w.type = .linker) ∧ w.name = name

/-- `w` in section `t` can be imported under this name inside the file. -/
def GivesLocal (file : Nat) (name : Bytes) (t : Sect) (w : Sym) : Prop :=
  t.used = true ∧ t.fileId = file ∧ (w.type = .localExport ∨ w.type = .exported ∨ w.type = .linker) ∧ w.name = name

/-- What a symbol stands for: its value and the section it is in. -/
inductive Means (secs : List Sect) (lnk : Slot → Outcome Res) : Slot → Res → Prop
  | own {x : Slot} {s : Sect} {y : Sym} (h : At secs x s y) (ht : Own y.type) :
      Means secs lnk x ⟨y.value + s.base, some x.1⟩
  | imported {x z : Slot} {s t : Sect} {y w : Sym} {r : Res} (h : At secs x s y) (ht : y.type = .imported)
      (hz : At secs z t w) (hg : GivesGlobal y.name t w) (hr : Means secs lnk z r) :
      Means secs lnk x ⟨r.value, some z.1⟩
  | localImport {x z : Slot} {s t : Sect} {y w : Sym} {r : Res} (h : At secs x s y) (ht : y.type = .localImport)
      (hz : At secs z t w) (hg : GivesLocal s.fileId y.name t w) (hr : Means secs lnk z r) :
      Means secs lnk x ⟨r.value, some z.1⟩
  | linker {x : Slot} {s : Sect} {y : Sym} {r : Res} (h : At secs x s y) (ht : y.type = .linker) (hl : lnk x = .ok r) :
      Means secs lnk x r

/-- Slots in the order of sections and of symbols in them. -/
def Before (a b : Slot) : Prop := a.1 < b.1 ∨ (a.1 = b.1 ∧ a.2 < b.2)

/-- Symbols of the memory layout do not share their names with each other or with symbols that object files
export. -/
def NoClash (secs : List Sect) : Prop :=
  ∀ x s y z t w, At secs x s y → At secs z t w → y.type = .linker →
    (w.type = .exported ∨ w.type = .localExport ∨ w.type = .linker) → y.name = w.name → x = z

/-- Nothing is resolved yet. -/
def start : State := fun _ => none

end Verif.Resolve
