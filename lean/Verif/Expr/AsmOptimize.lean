import Verif.Expr.AsmBuild
/-! Simplifying an expression preserves its value. -/
namespace Verif.Expr

def AExpr.isParens : AExpr → Bool
  | .parens _ _ => true
  | _ => false

theorem mkBin_isParens (fm : FMath) (now : Nat → ASym) (junk : AExpr → Bool) (op : BinOp) {l r e : AExpr}
    (h : mkBin fm now junk op l r = .ok e) (hp : e.isParens = true) : op = .assert ∧ e = l := by
  have hm : ∀ op, merge fm op l r = .ok e → False := by
    intro op h
    unfold merge at h
    split at h
    · obtain ⟨v, hv, h⟩ := Outcome.bind_ok.1 h
      cases h; cases hp
    · cases h; cases hp
  unfold mkBin at h
  split at h
  · split at h
    · split at h
      · cases h; exact ⟨rfl, rfl⟩
      · cases h
    · cases h; cases hp
  · split at h
    · exact (hm _ h).elim
    · split at h
      · obtain ⟨v, hv, h⟩ := Outcome.bind_ok.1 h
        cases h; cases hp
      · cases h; cases hp
  iterate 3
    · split at h
      · split at h
        · cases h
        · exact (hm _ h).elim
      · split at h
        · cases h
        · cases h; cases hp
  · exact (hm _ h).elim

theorem withValue_isParens {v : Int} {e : AExpr} : (e.withValue v).isParens = e.isParens := by
  cases e <;> rfl

theorem build_isParens (fm : FMath) (now : Nat → ASym) (junk : AExpr → Bool) (here : Here) (s : Src) :
    ∀ {e : AExpr}, build fm now junk here s = .ok e → e.isParens = true → s.rootParens = true := by
  induction s with
  | num v => intro e h hp; cases h; cases hp
  | sym s =>
    intro e h hp
    simp only [build, mkSym] at h
    split at h
    · split at h <;> (cases h; cases hp)
    · cases h
  | bank s => intro e h hp; cases h; cases hp
  | pcRel adj e ih =>
    intro e' h hp
    obtain ⟨e1, h1, h⟩ := Outcome.bind_ok.1 h
    unfold mkPcRel at h
    split at h
    · split at h
      · cases h
        rw [withValue_isParens] at hp
        exact ih h1 hp
      · exact absurd (mkBin_isParens fm now junk _ h hp).1 (by decide)
    · cases h; cases hp
  | parens e ih => intro e' h hp; rfl
  | bin op l r ihl ihr =>
    intro e' h hp
    obtain ⟨l1, h1, h⟩ := Outcome.bind_ok.1 h
    obtain ⟨r1, h2, h⟩ := Outcome.bind_ok.1 h
    obtain ⟨rfl, rfl⟩ := mkBin_isParens fm now junk _ h hp
    exact ihl h1 hp
  | un op e ih =>
    intro e' h hp
    obtain ⟨e1, h1, h⟩ := Outcome.bind_ok.1 h
    cases h
    unfold mkUn at hp
    split at hp <;> cases hp
  | bit e ih =>
    intro e' h hp
    obtain ⟨e1, h1, h⟩ := Outcome.bind_ok.1 h
    unfold mkBit at h
    split at h
    · split at h
      · cases h; cases hp
      · cases h
    · cases h; cases hp

/-- An operator other than an assertion, applied to two constants, yields a constant. -/
theorem mkBin_frozen (fm : FMath) (now : Nat → ASym) (junk : AExpr → Bool) {op : BinOp} (hop : op ≠ .assert)
    {l r e : AExpr} {a b : Int} (ha : l.cached = some a) (hb : r.cached = some b)
    (h : mkBin fm now junk op l r = .ok e) : e.Coherent := by
  have hm : ∀ op, merge fm op l r = .ok e → e.Coherent := by
    intro op h
    unfold merge at h
    rw [ha, hb] at h
    obtain ⟨v, hv, h⟩ := Outcome.bind_ok.1 h
    cases h; trivial
  unfold mkBin at h
  split at h
  · exact absurd rfl hop
  · rw [ha, hb] at h
    exact hm _ h
  iterate 3
    · rw [hb] at h
      simp only at h
      split at h
      · cases h
      · exact hm _ h
  · exact hm _ h

theorem build_coherent (fm : FMath) (now : Nat → ASym) (junk : AExpr → Bool) (here : Here) (s : Src) (hs : s.PcOk) :
    ∀ {e : AExpr}, build fm now junk here s = .ok e → e.Coherent ∨ (s.bare = true ∧ ∃ v, e.cached = some v) := by
  induction s with
  | num v => intro e h; cases h; exact .inl trivial
  | sym s =>
    intro e h
    simp only [build, mkSym] at h
    split at h
    · split at h <;> (cases h; exact .inl trivial)
    · cases h
  | bank s => intro e h; cases h; exact .inl trivial
  | pcRel adj e ih =>
    intro e' h
    obtain ⟨e1, h1, h⟩ := Outcome.bind_ok.1 h
    have hc : e1.Coherent := by
      rcases ih hs.1 h1 with hc | ⟨hb, _⟩
      · exact hc
      · rw [hs.2] at hb; cases hb
    unfold mkPcRel at h
    split at h
    · split at h
      · rename_i v hv
        cases h
        by_cases hp : e1.isParens
        · right
          refine ⟨build_isParens fm now junk here e h1 hp, ?_⟩
          cases e1 <;> first | cases hp | skip
          exact ⟨_, rfl⟩
        · left
          cases e1 <;> first | exact trivial | skip
          · cases hv
          · exact absurd rfl hp
      · exact .inl (mkBin_coherent fm now junk _ (r := .const _) hc trivial h)
    · cases h; exact .inl ⟨trivial, hc⟩
  | parens e ih =>
    intro e' h
    obtain ⟨e1, h1, h⟩ := Outcome.bind_ok.1 h
    cases h
    rcases ih hs.1 h1 with hc | ⟨hb, _⟩
    · exact .inl ⟨rfl, hc⟩
    · rw [hs.2] at hb; cases hb
  | bin op l r ihl ihr =>
    intro e' h
    obtain ⟨l1, h1, h⟩ := Outcome.bind_ok.1 h
    obtain ⟨r1, h2, h⟩ := Outcome.bind_ok.1 h
    have hr : r1.Coherent := by
      rcases ihr hs.2.1 h2 with hc | ⟨hb, _⟩
      · exact hc
      · rw [hs.2.2.2] at hb; cases hb
    rcases ihl hs.1 h1 with hl | ⟨hb, v, hv⟩
    · exact .inl (mkBin_coherent fm now junk _ hl hr h)
    · obtain ⟨hop, hn⟩ := hs.2.2.1 hb
      cases r <;> first | cases hn | skip
      cases h2
      exact .inl (mkBin_frozen fm now junk hop hv rfl h)
  | un op e ih =>
    intro e' h
    obtain ⟨e1, h1, h⟩ := Outcome.bind_ok.1 h
    cases h
    left
    unfold mkUn
    split
    · trivial
    · rename_i hn
      rcases ih hs h1 with hc | ⟨_, v, hv⟩
      · exact hc
      · rw [hv] at hn; cases hn
  | bit e ih =>
    intro e' h
    obtain ⟨e1, h1, h⟩ := Outcome.bind_ok.1 h
    left
    unfold mkBit at h
    split at h
    · split at h
      · cases h; trivial
      · cases h
    · rename_i hn
      cases h
      rcases ih hs h1 with hc | ⟨_, v, hv⟩
      · exact hc
      · rw [hv] at hn; cases hn

/-! ### `expr_Optimize` -/

theorem optimize_den (fm : FMath) (R : Rng) {A : Asm} {base : Nat → Int} {ρ : Den} (hp : A.Places base ρ)
    (e : AExpr) (hc : e.Coherent) : (optimize A.syms e).den fm R ρ = e.den fm R ρ := by
  induction e with
  | const v => rfl
  | sym s =>
    unfold optimize
    split
    · rename_i h
      exact (bind_inRange.2 (hp.constant s h)).symm
    · rfl
  | bank s => rfl
  | pcRel l r ihl ihr =>
    rw [optimize, den_pcRel, den_pcRel, ihl hc.1, ihr hc.2]
  | parens c e ih =>
    obtain ⟨rfl, hc⟩ := hc
    rw [optimize, ih hc]
    cases h : e.cached with
    | none => rfl
    | some v => rw [cached_den fm R ρ h]; rfl
  | bin c op l r ihl ihr =>
    cases c with
    | some v => rfl
    | none => rw [optimize, den_bin, den_bin, ihl hc.1, ihr hc.2]
  | un c op e ih =>
    cases c with
    | some v => rfl
    | none =>
      rw [optimize]
      show ((optimize A.syms e).den fm R ρ).bind _ = (e.den fm R ρ).bind _
      rw [ih hc]
  | bit c e ih =>
    cases c with
    | some v => rfl
    | none =>
      rw [optimize]
      show ((optimize A.syms e).den fm R ρ).bind _ = (e.den fm R ρ).bind _
      rw [ih hc]

/-- No parentheses, and what is constant is a number. -/
def AExpr.Plain : AExpr → Prop
  | .const _ => True
  | .sym _ => True
  | .bank _ => True
  | .pcRel l r => l.Plain ∧ r.Plain
  | .parens _ _ => False
  | .bin c _ l r => c = none ∧ l.Plain ∧ r.Plain
  | .un c _ e => c = none ∧ e.Plain
  | .bit c e => c = none ∧ e.Plain

theorem optimize_plain (syms : Nat → ASym) (e : AExpr) : (optimize syms e).Plain := by
  induction e with
  | const v => trivial
  | sym s => unfold optimize; split <;> trivial
  | bank s => trivial
  | pcRel l r ihl ihr => exact ⟨ihl, ihr⟩
  | parens c e ih => exact ih
  | bin c op l r ihl ihr =>
    cases c with
    | some v => trivial
    | none => exact ⟨rfl, ihl, ihr⟩
  | un c op e ih =>
    cases c with
    | some v => trivial
    | none => exact ⟨rfl, ih⟩
  | bit c e ih =>
    cases c with
    | some v => trivial
    | none => exact ⟨rfl, ih⟩

theorem optimize_ok {A : Asm} {base : Nat → Int} {ρ : Den} (hp : A.Places base ρ) (e : AExpr) (he : e.Ok) :
    (optimize A.syms e).Ok := by
  induction e with
  | const v => exact he
  | sym s =>
    unfold optimize
    split
    · rename_i h; exact (hp.constant s h).2
    · trivial
  | bank s => trivial
  | pcRel l r ihl ihr => exact ⟨ihl he.1, ihr he.2⟩
  | parens c e ih => exact ih he.2
  | bin c op l r ihl ihr =>
    cases c with
    | some v => exact he.1
    | none => exact ⟨trivial, ihl he.2.1, ihr he.2.2⟩
  | un c op e ih =>
    cases c with
    | some v => exact he.1
    | none => exact ⟨trivial, ih he.2⟩
  | bit c e ih =>
    cases c with
    | some v => exact he.1
    | none => exact ⟨trivial, ih he.2⟩

end Verif.Expr
