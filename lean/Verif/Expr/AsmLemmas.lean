import Verif.Expr.AsmSpec
/-! What the assembler's expression trees stand for, and that building them preserves it. -/
namespace Verif.Expr

/-- The value of a node: that of the cache, if the node is constant. -/
def AExpr.den (fm : FMath) (R : Rng) (ρ : Den) : AExpr → Option Int
  | .const v => some v
  | .sym s => (ρ.sym s).bind inRange
  | .bank s => (ρ.bank s).bind inRange
  | .pcRel l r => do
    let a ← l.den fm R ρ
    let b ← r.den fm R ρ
    let t ← R.f (a + b)
    some (toI32 (t - ρ.pc))
  | .parens (some v) _ => some v
  | .parens none e => e.den fm R ρ
  | .bin (some v) _ _ _ => some v
  | .bin none op l r => do
    let a ← l.den fm R ρ
    let b ← r.den fm R ρ
    (meaning fm op a b).bind R.f
  | .un (some v) _ _ => some v
  | .un none op e => do
    let a ← e.den fm R ρ
    some (meaningUn fm op a)
  | .bit (some v) _ => some v
  | .bit none e => do
    let a ← e.den fm R ρ
    bitOf a

def okVal : Option Int → Prop
  | none => True
  | some v => I32 v

/-- Constants have 32 bits. -/
def AExpr.Ok : AExpr → Prop
  | .const v => I32 v
  | .sym _ => True
  | .bank _ => True
  | .pcRel l r => l.Ok ∧ r.Ok
  | .parens c e => okVal c ∧ e.Ok
  | .bin c _ l r => okVal c ∧ l.Ok ∧ r.Ok
  | .un c _ e => okVal c ∧ e.Ok
  | .bit c e => okVal c ∧ e.Ok

/-- A node in parentheses is constant if and only if its operand is, with the same value. Below a constant node
nothing matters. -/
def AExpr.Coherent : AExpr → Prop
  | .pcRel l r => l.Coherent ∧ r.Coherent
  | .parens c e => c = e.cached ∧ e.Coherent
  | .bin none _ l r => l.Coherent ∧ r.Coherent
  | .un none _ e => e.Coherent
  | .bit none e => e.Coherent
  | _ => True

theorem cached_den (fm : FMath) (R : Rng) (ρ : Den) {e : AExpr} {v : Int} (h : e.cached = some v) :
    e.den fm R ρ = some v := by
  cases e <;> simp only [AExpr.cached] at h <;> first | (cases h; rfl) | cases h

theorem cached_range {e : AExpr} (he : e.Ok) {v : Int} (h : e.cached = some v) : I32 v := by
  cases e <;> simp only [AExpr.cached] at h
  case const => cases h; exact he
  case parens => subst h; exact he.1
  case bin => subst h; exact he.1
  case un => subst h; exact he.1
  case bit => subst h; exact he.1
  all_goals cases h

theorem bitOf_range {a v : Int} (h : bitOf a = some v) : 0 ≤ v ∧ v < 32 := by
  unfold bitOf at h
  obtain ⟨k, hk, rfl⟩ := Option.map_eq_some_iff.1 h
  have := List.mem_of_find?_eq_some hk
  simp at this
  show 0 ≤ (k : Int) ∧ (k : Int) < 32
  omega

theorem bitOf_i32 {a v : Int} (h : bitOf a = some v) : I32 v := by
  have := bitOf_range h; unfold I32; omega

theorem bind_inRange {o : Option Int} {v : Int} : o.bind inRange = some v ↔ o = some v ∧ I32 v := by
  rw [Option.bind_eq_some_iff]
  constructor
  · rintro ⟨w, hw, h⟩
    obtain ⟨rfl, hr⟩ := inRange_some.1 h
    exact ⟨hw, hr⟩
  · rintro ⟨h, hr⟩
    exact ⟨v, h, inRange_some.2 ⟨rfl, hr⟩⟩

theorem den_range (fm : FMath) (R : Rng) (ρ : Den) {e : AExpr} (he : e.Ok) {v : Int}
    (h : e.den fm R ρ = some v) : I32 v := by
  induction e generalizing v with
  | const w => cases h; exact he
  | sym s => exact (bind_inRange.1 h).2
  | bank s => exact (bind_inRange.1 h).2
  | pcRel l r _ _ =>
    obtain ⟨a, _, h⟩ := Option.bind_eq_some_iff.1 h
    obtain ⟨b, _, h⟩ := Option.bind_eq_some_iff.1 h
    obtain ⟨t, _, h⟩ := Option.bind_eq_some_iff.1 h
    cases h; exact toI32_range _
  | parens c e ih =>
    cases c with
    | some w => cases h; exact he.1
    | none => exact ih he.2 h
  | bin c op l r _ _ =>
    cases c with
    | some w => cases h; exact he.1
    | none =>
      obtain ⟨a, _, h⟩ := Option.bind_eq_some_iff.1 h
      obtain ⟨b, _, h⟩ := Option.bind_eq_some_iff.1 h
      obtain ⟨t, _, h⟩ := Option.bind_eq_some_iff.1 h
      exact R.range _ _ h
  | un c op e _ =>
    cases c with
    | some w => cases h; exact he.1
    | none =>
      obtain ⟨a, _, h⟩ := Option.bind_eq_some_iff.1 h
      cases h; exact meaningUn_range _ _ _
  | bit c e _ =>
    cases c with
    | some w => cases h; exact he.1
    | none =>
      obtain ⟨a, _, h⟩ := Option.bind_eq_some_iff.1 h
      exact bitOf_i32 h

theorem den_bin (fm : FMath) (R : Rng) (ρ : Den) (op : BinOp) (l r : AExpr) :
    (AExpr.bin none op l r).den fm R ρ =
      (l.den fm R ρ).bind fun a => (r.den fm R ρ).bind fun b => (meaning fm op a b).bind R.f := rfl

theorem merge_den (fm : FMath) (R : Rng) (ρ : Den) (op : BinOp) {l r e : AExpr} (hl : l.Ok) (hr : r.Ok)
    (h : merge fm op l r = .ok e) :
    e.Ok ∧ e.den fm R ρ =
      (l.den fm R ρ).bind fun a => (r.den fm R ρ).bind fun b => (meaning fm op a b).bind R.f := by
  unfold merge at h
  split at h
  · rename_i a b ha hb
    obtain ⟨v, hv, h⟩ := Outcome.bind_ok.1 h
    cases h
    have ia := cached_range hl ha
    have ib := cached_range hr hb
    obtain ⟨hm, hi, _⟩ := (linkBin_iff fm op ia ib v).1 (foldBin_ok fm op ib hv)
    refine ⟨⟨hi, hl, hr⟩, ?_⟩
    rw [cached_den fm R ρ ha, cached_den fm R ρ hb]
    simp only [Option.bind_some, hm]
    rw [R.keep v hi]; rfl
  · cases h
    exact ⟨⟨trivial, hl, hr⟩, rfl⟩

theorem merge_coherent (fm : FMath) (op : BinOp) {l r e : AExpr} (hl : l.Coherent) (hr : r.Coherent)
    (h : merge fm op l r = .ok e) : e.Coherent := by
  unfold merge at h
  split at h
  · obtain ⟨v, hv, h⟩ := Outcome.bind_ok.1 h
    cases h; trivial
  · cases h; exact ⟨hl, hr⟩

theorem constant_not_label {t : SymType} (h : t.constant) : t ≠ .label := by
  intro h'; subst h'; exact absurd h (by decide)

theorem labelDiff_some {now : Nat → ASym} {l r : AExpr} {d : Int} (h : labelDiff now l r = some d) :
    ∃ a b, l = .sym a ∧ r = .sym b ∧ (now a).sect = (now b).sect ∧ (now a).type = .label ∧ (now b).type = .label ∧
      d = (now a).value - (now b).value := by
  cases l <;> try (cases h; done)
  rename_i a
  cases r <;> try (cases h; done)
  rename_i b
  unfold labelDiff at h
  by_cases hc : (now a).sect = (now b).sect ∧ (now a).type = .label ∧ (now b).type = .label
  · simp only [if_pos hc] at h
    cases h
    exact ⟨a, b, rfl, rfl, hc.1, hc.2.1, hc.2.2, rfl⟩
  · simp only [if_neg hc] at h
    cases h

theorem mkBin_den (fm : FMath) (R : Rng) {A : Asm} {base : Nat → Int} {ρ : Den} (hp : A.Places base ρ)
    {now : Nat → ASym} (hev : Evolves now A.syms) (junk : AExpr → Bool) (op : BinOp) {l r e : AExpr}
    (hl : l.Ok) (hr : r.Ok) (h : mkBin fm now junk op l r = .ok e) :
    e.Ok ∧ e.den fm R ρ =
      (l.den fm R ρ).bind fun a => (r.den fm R ρ).bind fun b => (meaning fm op a b).bind R.f := by
  have hdiv : ∀ op, (match r.cached with
      | some b => if b = 0 then Outcome.fail else merge fm op l r
      | none => if junk r then .fail else .ok (.bin none op l r)) = .ok e →
      e.Ok ∧ e.den fm R ρ =
        (l.den fm R ρ).bind fun a => (r.den fm R ρ).bind fun b => (meaning fm op a b).bind R.f := by
    intro op h
    split at h
    · split at h
      · cases h
      · exact merge_den fm R ρ op hl hr h
    · split at h
      · cases h
      · cases h; exact ⟨⟨trivial, hl, hr⟩, rfl⟩
  unfold mkBin at h
  split at h
  · -- assert
    split at h
    · rename_i b hb
      split at h
      · rename_i hb0
        cases h
        refine ⟨hl, ?_⟩
        rw [cached_den fm R ρ hb]
        cases hd : l.den fm R ρ with
        | none => rfl
        | some a =>
          simp only [Option.bind_some, meaning]
          rw [if_neg hb0]
          simp only [Option.bind_some]
          rw [R.keep a (den_range fm R ρ hl hd)]
      · cases h
    · cases h; exact ⟨⟨trivial, hl, hr⟩, rfl⟩
  · -- sub
    split at h
    · exact merge_den fm R ρ .sub hl hr h
    · split at h
      · rename_i d hd
        obtain ⟨v, hv, h⟩ := Outcome.bind_ok.1 h
        cases h
        obtain ⟨a, b, rfl, rfl, hs, ta, tb, rfl⟩ := labelDiff_some hd
        obtain ⟨hv, hi⟩ := chk_ok.1 hv
        obtain ⟨k, hk⟩ := hev.inSection a ta
        have ea := hev.label a ta
        have eb := hev.label b tb
        have pa := hp.placed a k (by rw [ea, ta]; rfl) (by rw [ea]; exact hk)
        have pb := hp.placed b k (by rw [eb, tb]; rfl) (by rw [eb, ← hs]; exact hk)
        rw [ea] at pa; rw [eb] at pb
        refine ⟨hi, ?_⟩
        have da : (AExpr.sym a).den fm R ρ = some (base k + (now a).value) :=
          bind_inRange.2 pa
        have db : (AExpr.sym b).den fm R ρ = some (base k + (now b).value) :=
          bind_inRange.2 pb
        rw [da, db]
        show some v = R.f (base k + (now a).value - (base k + (now b).value))
        rw [show base k + (now a).value - (base k + (now b).value) = v by omega]
        exact (R.keep v hi).symm
      · cases h; exact ⟨⟨trivial, hl, hr⟩, rfl⟩
  · exact hdiv _ h
  · exact hdiv _ h
  · exact hdiv _ h
  · exact merge_den fm R ρ op hl hr h

theorem mkBin_coherent (fm : FMath) (now : Nat → ASym) (junk : AExpr → Bool) (op : BinOp) {l r e : AExpr}
    (hl : l.Coherent) (hr : r.Coherent) (h : mkBin fm now junk op l r = .ok e) : e.Coherent := by
  unfold mkBin at h
  split at h
  · split at h
    · split at h
      · cases h; exact hl
      · cases h
    · cases h; exact ⟨hl, hr⟩
  · split at h
    · exact merge_coherent fm _ hl hr h
    · split at h
      · obtain ⟨v, hv, h⟩ := Outcome.bind_ok.1 h
        cases h; trivial
      · cases h; exact ⟨hl, hr⟩
  iterate 3
    · split at h
      · split at h
        · cases h
        · exact merge_coherent fm _ hl hr h
      · split at h
        · cases h
        · cases h; exact ⟨hl, hr⟩
  · exact merge_coherent fm _ hl hr h

theorem foldUn_meaning (fm : FMath) (op : UnOp) (a : Int) : foldUn fm op a = meaningUn fm op a := by
  rw [foldUn_eq, linkUn_eq]

theorem mkUn_den (fm : FMath) (R : Rng) (ρ : Den) (op : UnOp) {e : AExpr} (he : e.Ok) :
    (mkUn fm op e).Ok ∧ (mkUn fm op e).den fm R ρ = (e.den fm R ρ).bind fun a => some (meaningUn fm op a) := by
  unfold mkUn
  split
  · rename_i a ha
    refine ⟨⟨by rw [foldUn_meaning]; exact meaningUn_range _ _ _, he⟩, ?_⟩
    rw [cached_den fm R ρ ha]
    show some _ = some _
    rw [foldUn_meaning]
  · exact ⟨⟨trivial, he⟩, rfl⟩

theorem u32_pow2 {a : Int} (ha : I32 a) (h : isPow2 (u32 a)) :
    (u32 a).log2 < 32 ∧ toI32 (2 ^ (u32 a).log2 : Nat) = a := by
  have he : u32 a = 2 ^ (u32 a).log2 := by
    unfold isPow2 at h; exact eq_of_beq h
  have hlt : u32 a < 2 ^ 32 := u32_lt a
  have hne : u32 a ≠ 0 := by
    intro h0; rw [h0] at he; simp at he
  refine ⟨(Nat.log2_lt hne).2 hlt, ?_⟩
  rw [← he]
  exact toI32_u32 ha

theorem bitOf_eq {a : Int} (ha : I32 a) (h : isPow2 (u32 a)) : bitOf a = some ((u32 a).log2 : Int) := by
  obtain ⟨h1, h2⟩ := u32_pow2 ha h
  generalize (u32 a).log2 = k at h1 h2
  subst h2
  clear ha h
  have : ∀ k : Fin 32, bitOf (toI32 (2 ^ k.val : Nat)) = some (k.val : Int) := by decide +kernel
  exact this ⟨k, h1⟩

theorem mkBit_den (fm : FMath) (R : Rng) (ρ : Den) {e e' : AExpr} (he : e.Ok) (h : mkBit e = .ok e') :
    e'.Ok ∧ e'.den fm R ρ = (e.den fm R ρ).bind bitOf := by
  unfold mkBit at h
  split at h
  · rename_i a ha
    split at h
    · rename_i hb
      cases h
      have ia := cached_range he ha
      have hb' := bitOf_eq ia hb
      refine ⟨⟨bitOf_i32 hb', he⟩, ?_⟩
      rw [cached_den fm R ρ ha]
      exact hb'.symm
    · cases h
  · cases h; exact ⟨⟨trivial, he⟩, rfl⟩

theorem mkParens_den (fm : FMath) (R : Rng) (ρ : Den) {e : AExpr} (he : e.Ok) :
    (mkParens e).Ok ∧ (mkParens e).den fm R ρ = e.den fm R ρ := by
  unfold mkParens
  cases hc : e.cached with
  | none => exact ⟨⟨trivial, he⟩, rfl⟩
  | some v => exact ⟨⟨cached_range he hc, he⟩, (cached_den fm R ρ hc).symm⟩

theorem withValue_den (fm : FMath) (R : Rng) (ρ : Den) {e : AExpr} (he : e.Ok) {v w : Int} (h : e.cached = some v)
    (hw : I32 w) : (e.withValue w).Ok ∧ (e.withValue w).den fm R ρ = some w := by
  cases e <;> simp only [AExpr.cached] at h
  case const => exact ⟨hw, rfl⟩
  case parens => exact ⟨⟨hw, he.2⟩, rfl⟩
  case bin => exact ⟨⟨hw, he.2⟩, rfl⟩
  case un => exact ⟨⟨hw, he.2⟩, rfl⟩
  case bit => exact ⟨⟨hw, he.2⟩, rfl⟩
  all_goals cases h

end Verif.Expr
