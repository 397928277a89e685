import Verif.Expr.Asm
import Verif.Expr.LinkLemmas
/-!
# Specification: expressions in source code

An expression in the source has a value that depends on where sections are placed. `Src.value` is defined without
the trees, constants and caches of the assembler.
-/
namespace Verif.Expr

/-- What to do with a result: results outside the range of 32-bit numbers do not count (`strict`) or are taken
modulo `2^32` (`wrap`). -/
structure Rng where
  f : Int → Option Int
  keep : ∀ v, I32 v → f v = some v
  range : ∀ v w, f v = some w → I32 w

def strict : Rng where
  f := inRange
  keep _ h := inRange_some.2 ⟨rfl, h⟩
  range _ _ h := (inRange_some.1 h).2

def wrap : Rng where
  f v := some (toI32 v)
  keep v h := by rw [toI32_of h]
  range _ _ h := by cases h; exact toI32_range _

/-- An expression as it is written. -/
inductive Src where
  | num (v : Int)
  | sym (s : Nat)
  | bank (s : Nat)
  /-- The distance of a target from the place where it is stored, plus a constant. -/
  | pcRel (adj : Int) (e : Src)
  | parens (e : Src)
  | bin (op : BinOp) (l r : Src)
  | un (op : UnOp) (e : Src)
  /-- The number of the only bit that is set. -/
  | bit (e : Src)
  deriving Repr, DecidableEq

/-- A limit on both sides (`expr_CheckRange`, xasm/motor/expression.c 357-368). -/
def Src.checkRange (e : Src) (low high : Int) : Src :=
  .bin .highLimit (.bin .lowLimit e (.num low)) (.num high)

/-- The number of the bit that is set. -/
def bitOf (a : Int) : Option Int :=
  ((List.range 32).find? fun (k : Nat) => toI32 (2 ^ k : Nat) == a).map Int.ofNat

/-- The value of an expression in the source. A symbol that is constant where the expression stands (`now`) has the
value that it has there; other symbols have the address they finally get. -/
def Src.value (fm : FMath) (R : Rng) (now : Nat → ASym) (ρ : Den) : Src → Option Int
  | .num v => inRange v
  | .sym s => if (now s).type.constant then inRange (now s).value else (ρ.sym s).bind inRange
  | .bank s => (ρ.bank s).bind inRange
  | .pcRel adj e => do
    let a ← e.value fm R now ρ
    let t ← R.f (a + adj)
    let _ ← R.f (adj - ρ.pc)
    R.f (t - ρ.pc)
  | .parens e => e.value fm R now ρ
  | .bin op l r => do
    let a ← l.value fm R now ρ
    let b ← r.value fm R now ρ
    (meaning fm op a b).bind R.f
  | .un op e => do
    let a ← e.value fm R now ρ
    some (meaningUn fm op a)
  | .bit e => do
    let a ← e.value fm R now ρ
    bitOf a

/-- `ρ` gives the symbols of the assembler the addresses that they have when section `k` is placed at `base k`.
Sections whose origin is fixed are placed there. -/
structure Asm.Places (A : Asm) (base : Nat → Int) (ρ : Den) : Prop where
  constant : ∀ s, (A.syms s).type.constant → ρ.sym s = some (A.syms s).value ∧ I32 (A.syms s).value
  placed : ∀ s k, (A.syms s).type.reloc → (A.syms s).sect = some k →
    ρ.sym s = some (base k + (A.syms s).value) ∧ I32 (base k + (A.syms s).value)
  loaded : ∀ k sec, A.sects[k]? = some sec → sec.loadFixed → base k = sec.origin
  bank : ∀ s k sec, (A.syms s).sect = some k → A.sects[k]? = some sec → sec.bankFixed →
    ρ.bank s = some (toI32 sec.bank)

/-- From `now` to the end of the source labels keep their meaning, and labels are in a section. Constants may get
other values. -/
structure Evolves (now later : Nat → ASym) : Prop where
  label : ∀ s, (now s).type = .label → later s = now s
  inSection : ∀ s, (now s).type = .label → ∃ k, (now s).sect = some k
  range : ∀ s, (now s).type.constant → I32 (now s).value

/-- The numbers in the source have 32 bits. -/
def Src.Ok : Src → Prop
  | .num v => I32 v
  | .sym _ => True
  | .bank _ => True
  | .pcRel adj e => I32 adj ∧ e.Ok
  | .parens e => e.Ok
  | .bin _ l r => l.Ok ∧ r.Ok
  | .un _ e => e.Ok
  | .bit e => e.Ok

/-- The outermost node of the tree that is built for the expression may be a pair of parentheses. -/
def Src.rootParens : Src → Bool
  | .parens _ => true
  | .pcRel _ e => e.rootParens
  | .bin .assert l _ => l.rootParens
  | _ => false

/-- A distance to a target that is written in parentheses. -/
def Src.bare : Src → Bool
  | .pcRel _ e => e.rootParens
  | _ => false

def Src.isNum : Src → Bool
  | .num _ => true
  | _ => false

/-- How distances are used by the parsers of instructions: a distance to a target in parentheses is only used as
the operand of a function or as the left operand of an operator whose right operand is a number (the range check,
in particular), and not as the operand of an assertion. -/
def Src.PcOk : Src → Prop
  | .num _ => True
  | .sym _ => True
  | .bank _ => True
  | .pcRel _ e => e.PcOk ∧ e.bare = false
  | .parens e => e.PcOk ∧ e.bare = false
  | .bin op l r => l.PcOk ∧ r.PcOk ∧ (l.bare = true → op ≠ .assert ∧ r.isNum = true) ∧ r.bare = false
  | .un _ e => e.PcOk
  | .bit e => e.PcOk

/-- The expression does not compute `INT32_MIN % -1`, for which C has no result, the number of the bit 31 or a fixed
point division by zero. -/
def Src.Regular (fm : FMath) (now : Nat → ASym) (ρ : Den) : Src → Prop
  | .num _ => True
  | .sym _ => True
  | .bank _ => True
  | .pcRel _ e => e.Regular fm now ρ
  | .parens e => e.Regular fm now ρ
  | .bin op l r => l.Regular fm now ρ ∧ r.Regular fm now ρ ∧
      ¬ (op = .mod ∧ l.value fm strict now ρ = some (-2147483648) ∧ r.value fm strict now ρ = some (-1)) ∧
      ¬ (op = .fdiv ∧ r.value fm strict now ρ = some 0)
  | .un _ e => e.Regular fm now ρ
  | .bit e => e.Regular fm now ρ ∧ e.value fm strict now ρ ≠ some (-2147483648)

/-- The symbols that occur in the expression. -/
def Src.syms : Src → List Nat
  | .num _ => []
  | .sym s => [s]
  | .bank _ => []
  | .pcRel _ e => e.syms
  | .parens e => e.syms
  | .bin _ l r => l.syms ++ r.syms
  | .un _ e => e.syms
  | .bit e => e.syms

/-- How many values are waiting at most while the expression is evaluated from left to right. -/
def Src.depth : Src → Nat
  | .num _ => 1
  | .sym _ => 1
  | .bank _ => 1
  | .pcRel _ e => e.depth + 1
  | .parens e => e.depth
  | .bin _ l r => max l.depth (r.depth + 1)
  | .un _ e => e.depth
  | .bit e => e.depth

/-- The calls that the parser makes for an expression. -/
def build (fm : FMath) (now : Nat → ASym) (junk : AExpr → Bool) (here : Here) : Src → Outcome AExpr
  | .num v => .ok (.const v)
  | .sym s => mkSym now s
  | .bank s => .ok (.bank s)
  | .pcRel adj e => do
    let e ← build fm now junk here e
    mkPcRel fm now junk here adj e
  | .parens e => do
    let e ← build fm now junk here e
    .ok (mkParens e)
  | .bin op l r => do
    let l ← build fm now junk here l
    let r ← build fm now junk here r
    mkBin fm now junk op l r
  | .un op e => do
    let e ← build fm now junk here e
    .ok (mkUn fm op e)
  | .bit e => do
    let e ← build fm now junk here e
    mkBit e

/-- What becomes of an expression whose value is stored in the place `p`: either its value is known when the
assembler has read the source, or the rest of it is written to the object file (`sect_OutputExpr8` etc.,
xasm/motor/section.c 232-435; `patch_OptimizeAll`, `patch_BackPatch`, xasm/motor/patch.c 480-505; the order is that
of xasm/motor/xasm.c 242-246). -/
def compile (fm : FMath) (now : Nat → ASym) (junk : AExpr → Bool) (here : Here) (A : Asm) (p : Site) (s : Src) :
    Outcome (Int ⊕ AExpr) := do
  let e ← build fm now junk here s
  match e.cached with
  | some v => .ok (.inl v)
  | none =>
    let (e', x) ← reduce fm A p (optimize A.syms e)
    match x with
    | some v => .ok (.inl v)
    | none => .ok (.inr e')

/-- The denotation of symbol numbers in the object file is that of the symbols. -/
structure SameDen (ids : Nat → Nat) (ρ ρ' : Den) : Prop where
  sym : ∀ s, ρ'.sym (ids s) = ρ.sym s
  bank : ∀ s, ρ'.bank (ids s) = ρ.bank s
  pc : ρ'.pc = ρ.pc

end Verif.Expr
