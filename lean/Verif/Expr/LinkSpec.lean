import Verif.Expr.Link
import Verif.Expr.Tree
/-!
# Specification of link-time evaluation

`Env.Places env ρ`: every symbol has its final address, and `ρ` says which.
`Env.Relocates env ρ addr`: symbols may be relocatable; `addr` gives the addresses they will have when the program
is loaded, `ρ` the resulting meaning of the leaves.
-/
namespace Verif.Expr

/-- What the linker finds in its tables is what `ρ` says; all symbols have addresses. -/
structure Env.Places (env : Env) (ρ : Den) : Prop where
  symbol : ∀ id v, env.symbol id = .ok ⟨none, v⟩ ↔ ρ.sym id = some v
  absolute : ∀ id e, env.symbol id = .ok e → e.sym = none
  bank : ∀ id v, env.bank id = .ok (some v) ↔ ρ.bank id = some v
  group : ∀ a b v, env.groupProperty a b = .ok v ↔ ρ.group a b = some v
  pc : ρ.pc = env.cpuLocation + env.offset
  symRange : ∀ id v, ρ.sym id = some v → I32 v
  bankRange : ∀ id v, ρ.bank id = some v → I32 v
  groupRange : ∀ a b v, ρ.group a b = some v → I32 v

/-- `INT32_MIN % -1` is not computed in the expression: its value is 0, but the C operator traps. -/
def Tree.Regular (fm : FMath) (ρ : Den) : Tree → Prop
  | .const _ => True
  | .sym _ => True
  | .bank _ => True
  | .pcRel l r => l.Regular fm ρ ∧ r.Regular fm ρ
  | .group l r => l.Regular fm ρ ∧ r.Regular fm ρ
  | .bin op l r => l.Regular fm ρ ∧ r.Regular fm ρ ∧
      ¬ (op = .mod ∧ l.value fm ρ = some (-2147483648) ∧ r.value fm ρ = some (-1))
  | .un _ e => e.Regular fm ρ

/-- The number a stack entry stands for, once the symbols have addresses. -/
def Entry.at (addr : RelSym → Int) (e : Entry) : Int :=
  match e.sym with
  | none => e.value
  | some s => addr s + e.value

/-- Sections that have no address yet will be loaded at `base`: a symbol in section `i` gets the address
`base i + value`. Symbols that were not found get any address. -/
structure Env.Relocates (env : Env) (ρ : Den) (base : Nat → Int) (addr : RelSym → Int) : Prop where
  symbol : ∀ id e, env.symbol id = .ok e → ρ.sym id = some (e.at addr)
  placed : ∀ s i, s.sect = some i → addr s = base i + s.value
  bank : ∀ id v, env.bank id = .ok (some v) → ρ.bank id = some v
  group : ∀ a b v, env.groupProperty a b = .ok v → ρ.group a b = some v
  pc : ρ.pc = env.cpuLocation + env.offset

/-- Wherever one relocatable value is subtracted from another, both are symbols without addend whose section is
known. -/
def Tree.PlainDiff (fm : FMath) (env : Env) : Tree → Prop
  | .const _ => True
  | .sym _ => True
  | .bank _ => True
  | .pcRel l r => l.PlainDiff fm env ∧ r.PlainDiff fm env
  | .group l r => l.PlainDiff fm env ∧ r.PlainDiff fm env
  | .bin op l r => l.PlainDiff fm env ∧ r.PlainDiff fm env ∧
      (op = .sub → ∀ a b s t, calculate fm env l.serialize = .ok (some ⟨some s, a⟩) →
        calculate fm env r.serialize = .ok (some ⟨some t, b⟩) → a = 0 ∧ b = 0 ∧ s.sect ≠ none)
  | .un _ e => e.PlainDiff fm env

/-- No group property depends on a relocatable value. -/
def Tree.GroupsAbsolute (fm : FMath) (env : Env) : Tree → Prop
  | .const _ => True
  | .sym _ => True
  | .bank _ => True
  | .pcRel l r => l.GroupsAbsolute fm env ∧ r.GroupsAbsolute fm env
  | .group l r => (∃ a b, l = .const a ∧ r = .const b)
  | .bin _ l r => l.GroupsAbsolute fm env ∧ r.GroupsAbsolute fm env
  | .un _ e => e.GroupsAbsolute fm env

end Verif.Expr
