import Verif.Expr.AsmReduce
import Verif.Expr.LinkSpec
/-! The bytes that the assembler writes for an expression. -/
namespace Verif.Expr

/-- The tree in the object file. -/
def toTree (ids : Nat → Nat) : AExpr → Option Tree
  | .const v => some (.const v)
  | .sym s => some (.sym (ids s))
  | .bank s => some (.bank (ids s))
  | .pcRel l r => do
    let a ← toTree ids l
    let b ← toTree ids r
    some (.pcRel a b)
  | .parens _ _ => none
  | .bin _ op l r => do
    let a ← toTree ids l
    let b ← toTree ids r
    some (.bin op a b)
  | .un _ op e => do
    let a ← toTree ids e
    some (.un op a)
  | .bit _ _ => none

theorem asmCode_eq (op : BinOp) : asmCode op = op.code := by cases op <;> rfl
theorem asmUnCode_eq (op : UnOp) : asmUnCode op = op.code := by cases op <;> rfl

/-- The bytes are the postfix form of the tree. -/
theorem writeExpr_eq (ids : Nat → Nat) (e : AExpr) (hn : e.Plain) :
    writeExpr ids e = (toTree ids e).map Tree.serialize := by
  induction e with
  | const v => rfl
  | sym s => rfl
  | bank s => rfl
  | pcRel l r ihl ihr =>
    rw [writeExpr, toTree, ihl hn.1, ihr hn.2]
    cases toTree ids l with
    | none => rfl
    | some a =>
      cases toTree ids r with
      | none => rfl
      | some b => rfl
  | parens c e ih => exact hn.elim
  | bin c op l r ihl ihr =>
    rw [writeExpr, toTree, ihl hn.2.1, ihr hn.2.2, asmCode_eq]
    cases toTree ids l with
    | none => rfl
    | some a =>
      cases toTree ids r with
      | none => rfl
      | some b => rfl
  | un c op e ih =>
    rw [writeExpr, toTree, ih hn.2, asmUnCode_eq]
    cases toTree ids e with
    | none => rfl
    | some a => rfl
  | bit c e ih => rfl

def AExpr.depth : AExpr → Nat
  | .const _ => 1
  | .sym _ => 1
  | .bank _ => 1
  | .pcRel l r => max l.depth (r.depth + 1)
  | .parens _ e => e.depth
  | .bin _ _ l r => max l.depth (r.depth + 1)
  | .un _ _ e => e.depth
  | .bit _ e => e.depth

theorem AExpr.depth_pos (e : AExpr) : 1 ≤ e.depth := by
  induction e <;> simp only [AExpr.depth] <;> omega

/-- The expression does not compute something that has a value for which C has no result. -/
def AExpr.Regular (fm : FMath) (ρ : Den) : AExpr → Prop
  | .const _ => True
  | .sym _ => True
  | .bank _ => True
  | .pcRel l r => l.Regular fm ρ ∧ r.Regular fm ρ
  | .parens none e => e.Regular fm ρ
  | .bin none op l r => l.Regular fm ρ ∧ r.Regular fm ρ ∧
      ¬ (op = .mod ∧ l.den fm strict ρ = some (-2147483648) ∧ r.den fm strict ρ = some (-1))
  | .un none _ e => e.Regular fm ρ
  | .bit none e => e.Regular fm ρ ∧ e.den fm strict ρ ≠ some (-2147483648)
  | _ => True

theorem toTree_ok (ids : Nat → Nat) (hids : ∀ s, ids s < 4294967296) (e : AExpr) (ho : e.Ok) :
    ∀ {t : Tree}, toTree ids e = some t → t.Ok ∧ t.depth = e.depth := by
  induction e with
  | const v => intro t h; cases h; exact ⟨ho, rfl⟩
  | sym s => intro t h; cases h; exact ⟨hids s, rfl⟩
  | bank s => intro t h; cases h; exact ⟨hids s, rfl⟩
  | pcRel l r ihl ihr =>
    intro t h
    obtain ⟨a, ha, h⟩ := Option.bind_eq_some_iff.1 h
    obtain ⟨b, hb, h⟩ := Option.bind_eq_some_iff.1 h
    cases h
    obtain ⟨h1, d1⟩ := ihl ho.1 ha
    obtain ⟨h2, d2⟩ := ihr ho.2 hb
    exact ⟨⟨h1, h2⟩, by simp only [Tree.depth, AExpr.depth, d1, d2]⟩
  | parens c e ih => intro t h; cases h
  | bin c op l r ihl ihr =>
    intro t h
    obtain ⟨a, ha, h⟩ := Option.bind_eq_some_iff.1 h
    obtain ⟨b, hb, h⟩ := Option.bind_eq_some_iff.1 h
    cases h
    obtain ⟨h1, d1⟩ := ihl ho.2.1 ha
    obtain ⟨h2, d2⟩ := ihr ho.2.2 hb
    exact ⟨⟨h1, h2⟩, by simp only [Tree.depth, AExpr.depth, d1, d2]⟩
  | un c op e ih =>
    intro t h
    obtain ⟨a, ha, h⟩ := Option.bind_eq_some_iff.1 h
    cases h
    obtain ⟨h1, d1⟩ := ih ho.2 ha
    exact ⟨h1, by simp only [Tree.depth, AExpr.depth, d1]⟩
  | bit c e ih => intro t h; cases h

/-- The tree in the object file has the value of the assembler's tree. -/
theorem toTree_value (fm : FMath) (ids : Nat → Nat) {ρ ρ' : Den} (hd : SameDen ids ρ ρ') (e : AExpr) (ho : e.Ok)
    (hn : e.Plain) : ∀ {t : Tree}, toTree ids e = some t →
      t.value fm ρ' = e.den fm strict ρ ∧ (e.Regular fm ρ → t.Regular fm ρ') := by
  induction e with
  | const v => intro t h; cases h; exact ⟨inRange_some.2 ⟨rfl, ho⟩, fun _ => trivial⟩
  | sym s =>
    intro t h; cases h
    exact ⟨by show (ρ'.sym (ids s)).bind inRange = _; rw [hd.sym]; rfl, fun _ => trivial⟩
  | bank s =>
    intro t h; cases h
    exact ⟨by show (ρ'.bank (ids s)).bind inRange = _; rw [hd.bank]; rfl, fun _ => trivial⟩
  | pcRel l r ihl ihr =>
    intro t h
    obtain ⟨a, ha, h⟩ := Option.bind_eq_some_iff.1 h
    obtain ⟨b, hb, h⟩ := Option.bind_eq_some_iff.1 h
    cases h
    obtain ⟨h1, r1⟩ := ihl ho.1 hn.1 ha
    obtain ⟨h2, r2⟩ := ihr ho.2 hn.2 hb
    refine ⟨?_, fun hr => ⟨r1 hr.1, r2 hr.2⟩⟩
    rw [den_pcRel, ← h1, ← h2, ← hd.pc]
    rfl
  | parens c e ih => intro t h; cases h
  | bin c op l r ihl ihr =>
    intro t h
    obtain ⟨rfl, nl, nr⟩ := hn
    obtain ⟨a, ha, h⟩ := Option.bind_eq_some_iff.1 h
    obtain ⟨b, hb, h⟩ := Option.bind_eq_some_iff.1 h
    cases h
    obtain ⟨h1, r1⟩ := ihl ho.2.1 nl ha
    obtain ⟨h2, r2⟩ := ihr ho.2.2 nr hb
    refine ⟨?_, fun hr => ⟨r1 hr.1, r2 hr.2.1, ?_⟩⟩
    · rw [den_bin, ← h1, ← h2]; rfl
    · rw [h1, h2]; exact hr.2.2
  | un c op e ih =>
    intro t h
    obtain ⟨rfl, ne⟩ := hn
    obtain ⟨a, ha, h⟩ := Option.bind_eq_some_iff.1 h
    cases h
    obtain ⟨h1, r1⟩ := ih ho.2 ne ha
    refine ⟨?_, r1⟩
    show (a.value fm ρ').bind _ = (e.den fm strict ρ).bind _
    rw [h1]
  | bit c e ih => intro t h; cases h

end Verif.Expr
