import Verif.Expr.AsmWrite
/-! Expressions that have a value are not refused. -/
namespace Verif.Expr

def AExpr.syms : AExpr → List Nat
  | .const _ => []
  | .sym s => [s]
  | .bank _ => []
  | .pcRel l r => l.syms ++ r.syms
  | .parens _ e => e.syms
  | .bin _ _ l r => l.syms ++ r.syms
  | .un _ _ e => e.syms
  | .bit _ e => e.syms

theorem odd_iff {fm : FMath} {ρ : Den} {op : BinOp} {l r : AExpr} {a b : Int} (ha : l.den fm strict ρ = some a)
    (hb : r.den fm strict ρ = some b)
    (h : ¬ (op = .mod ∧ l.den fm strict ρ = some (-2147483648) ∧ r.den fm strict ρ = some (-1))) : ¬ Odd op a b := by
  rintro ⟨h1, h2, h3⟩
  exact h ⟨h1, by rw [ha, h2], by rw [hb, h3]⟩

/-- What is known about the result of an operator. -/
structure Built (fm : FMath) (ρ : Den) (l r e : AExpr) : Prop where
  regular : e.Regular fm ρ
  depth : e.depth ≤ max l.depth (r.depth + 1)
  syms : ∀ s ∈ e.syms, s ∈ l.syms ∨ s ∈ r.syms

theorem Built.bin {fm : FMath} {ρ : Den} {l r : AExpr} {op : BinOp} {c : Option Int}
    (h : (AExpr.bin c op l r).Regular fm ρ) : Built fm ρ l r (.bin c op l r) :=
  ⟨h, Nat.le_refl _, fun _ hs => List.mem_append.1 hs⟩

theorem merge_total (fm : FMath) (ρ : Den) (op : BinOp) {l r : AExpr} (hl : l.Ok) (hr : r.Ok) {a b v : Int}
    (ha : l.den fm strict ρ = some a) (hb : r.den fm strict ρ = some b) (hm : meaning fm op a b = some v) (hv : I32 v)
    (hz : op = .fdiv → b ≠ 0) (hreg : (AExpr.bin none op l r).Regular fm ρ) :
    ∃ e, merge fm op l r = .ok e ∧ Built fm ρ l r e := by
  unfold merge
  split
  · rename_i x y hx hy
    rw [cached_den fm strict ρ hx] at ha
    rw [cached_den fm strict ρ hy] at hb
    obtain rfl := Option.some.inj ha
    obtain rfl := Option.some.inj hb
    have ix := cached_range hl hx
    have iy := cached_range hr hy
    have ho : ¬ Odd op x y := odd_iff (cached_den fm strict ρ hx) (cached_den fm strict ρ hy) hreg.2.2
    have := linkBin_fold fm op iy ((linkBin_iff fm op ix iy v).2 ⟨hm, hv, ho⟩) hz
    rw [this]
    exact ⟨_, rfl, .bin trivial⟩
  · exact ⟨_, rfl, .bin hreg⟩

theorem mkBin_total (fm : FMath) {A : Asm} {base : Nat → Int} {ρ : Den} (hp : A.Places base ρ)
    {now : Nat → ASym} (hev : Evolves now A.syms) (op : BinOp) {l r : AExpr} (hl : l.Ok) (hr : r.Ok) {a b v : Int}
    (ha : l.den fm strict ρ = some a) (hb : r.den fm strict ρ = some b) (hm : meaning fm op a b = some v) (hv : I32 v)
    (hz : op = .fdiv → b ≠ 0) (hreg : (AExpr.bin none op l r).Regular fm ρ) :
    ∃ e, mkBin fm now (fun _ => false) op l r = .ok e ∧ Built fm ρ l r e := by
  have hmerge := merge_total fm ρ op hl hr ha hb hm hv hz hreg
  have hdiv : ∀ op', op' = op → (b = 0 → False) → ∃ e, (match r.cached with
      | some b => if b = 0 then Outcome.fail else merge fm op' l r
      | none => if (fun _ : AExpr => false) r then .fail else .ok (.bin none op' l r)) = .ok e ∧
        Built fm ρ l r e := by
    rintro _ rfl hb0
    split
    · rename_i y hy
      rw [cached_den fm strict ρ hy] at hb
      rw [if_neg (by rw [Option.some.inj hb]; exact hb0)]
      exact hmerge
    · exact ⟨_, rfl, .bin hreg⟩
  unfold mkBin
  split
  · split
    · rename_i y hy
      rw [cached_den fm strict ρ hy] at hb
      obtain rfl := Option.some.inj hb
      simp only [meaning] at hm
      by_cases h0 : y = 0
      · rw [if_pos h0] at hm; cases hm
      · rw [if_pos h0]
        refine ⟨_, rfl, hreg.1, Nat.le_max_left _ _, fun s hs => .inl hs⟩
    · exact ⟨_, rfl, .bin hreg⟩
  · split
    · exact hmerge
    · split
      · rename_i d hd
        obtain ⟨x, y, rfl, rfl, hs, ta, tb, rfl⟩ := labelDiff_some hd
        obtain ⟨k, hk⟩ := hev.inSection x ta
        have ea := hev.label x ta
        have eb := hev.label y tb
        have pa := hp.placed x k (by rw [ea, ta]; rfl) (by rw [ea]; exact hk)
        have pb := hp.placed y k (by rw [eb, tb]; rfl) (by rw [eb, ← hs]; exact hk)
        rw [ea] at pa; rw [eb] at pb
        have da : (AExpr.sym x).den fm strict ρ = some (base k + (now x).value) := bind_inRange.2 pa
        have db : (AExpr.sym y).den fm strict ρ = some (base k + (now y).value) := bind_inRange.2 pb
        rw [da] at ha; rw [db] at hb
        obtain rfl := Option.some.inj ha
        obtain rfl := Option.some.inj hb
        have hm' : base k + (now x).value - (base k + (now y).value) = v := Option.some.inj hm
        have : chk ((now x).value - (now y).value) = .ok v := chk_ok.2 ⟨by omega, hv⟩
        rw [this]
        refine ⟨_, rfl, trivial, ?_, ?_⟩
        · simp only [AExpr.depth]; omega
        · intro s hs; cases hs
      · exact ⟨_, rfl, .bin hreg⟩
  · refine hdiv _ rfl ?_
    rintro rfl
    simp [meaning] at hm
  · refine hdiv _ rfl ?_
    rintro rfl
    simp [meaning] at hm
  · exact hdiv _ rfl (hz rfl)
  · exact hmerge

theorem build_total (fm : FMath) {A : Asm} {base : Nat → Int} {ρ : Den} (hp : A.Places base ρ)
    {now : Nat → ASym} (hev : Evolves now A.syms) {here : Here} (hh : here.Matches ρ) (s : Src) (hs : s.Ok)
    (hreg : s.Regular fm now ρ) (hsym : ∀ x ∈ s.syms, (now x).type.expression = true) :
    ∀ {w : Int}, s.value fm strict now ρ = some w →
      ∃ e, build fm now (fun _ => false) here s = .ok e ∧ e.Regular fm ρ ∧ e.depth ≤ s.depth ∧
        ∀ x ∈ e.syms, x ∈ s.syms := by
  induction s with
  | num v => intro w _; exact ⟨_, rfl, trivial, Nat.le_refl _, fun x hx => by cases hx⟩
  | sym s =>
    intro w _
    have := hsym s (by simp [Src.syms])
    unfold build mkSym
    rw [if_pos this]
    split
    · exact ⟨_, rfl, trivial, Nat.le_refl _, fun x hx => by cases hx⟩
    · exact ⟨_, rfl, trivial, Nat.le_refl _, fun x hx => hx⟩
  | bank s => intro w _; exact ⟨_, rfl, trivial, Nat.le_refl _, fun x hx => by cases hx⟩
  | pcRel adj e ih =>
    intro w hv
    have hv0 := hv
    rw [value_pcRel] at hv
    obtain ⟨a, ha, hv⟩ := Option.bind_eq_some_iff.1 hv
    obtain ⟨t, ht, hv⟩ := Option.bind_eq_some_iff.1 hv
    obtain ⟨d, hd, hv⟩ := Option.bind_eq_some_iff.1 hv
    obtain ⟨rfl, i1⟩ := strict_f.1 ht
    obtain ⟨rfl, i2⟩ := strict_f.1 hd
    obtain ⟨rfl, i3⟩ := strict_f.1 hv
    obtain ⟨e1, h1, hr, hdp, hsy⟩ := ih hs.2 hreg hsym ha
    have ok1 := build_ok fm hp hev _ e hs.2 h1
    have d1 := build_strict fm hp hev _ hh e hs.2 h1 ha
    simp only [build]
    rw [h1]
    simp only [Outcome.ok_bind, mkPcRel]
    split
    · rename_i hf
      split
      · rename_i v hc
        refine ⟨_, rfl, ?_, ?_, ?_⟩
        · cases e1 <;> first | exact trivial | exact hr
        · have : (AExpr.withValue (toI32 (v - (↑here.pc - adj))) e1).depth = e1.depth := by cases e1 <;> rfl
          rw [this]; simp only [Src.depth]; omega
        · intro x hx
          have : (AExpr.withValue (toI32 (v - (↑here.pc - adj))) e1).syms = e1.syms := by cases e1 <;> rfl
          rw [this] at hx
          exact hsy x hx
      · have hpc := hh hf
        have e2 : toI32 (adj - here.pc) = adj - ρ.pc := by
          rw [show toI32 (adj - here.pc) = toI32 (adj - ρ.pc) from toI32_congr (by omega), toI32_of i2]
        rw [e2]
        obtain ⟨e', he', hb'⟩ := mkBin_total (now := now) fm hp hev .add ok1 (r := .const (adj - ρ.pc)) i2 d1 rfl
          (v := a + adj - ρ.pc)
          (by simp only [meaning]; rw [show a + (adj - ρ.pc) = a + adj - ρ.pc by omega]) i3 (by intro h; cases h)
          ⟨hr, trivial, by rintro ⟨h, _⟩; cases h⟩
        refine ⟨e', he', hb'.regular, ?_, ?_⟩
        · have := hb'.depth
          have := e1.depth_pos
          simp only [AExpr.depth, Src.depth] at *; omega
        · intro x hx
          rcases hb'.syms x hx with h | h
          · exact hsy x h
          · cases h
    · refine ⟨_, rfl, ⟨trivial, hr⟩, ?_, ?_⟩
      · simp only [AExpr.depth, Src.depth]; omega
      · intro x hx
        exact hsy x (by simpa [AExpr.syms] using hx)
  | parens e ih =>
    intro w hv
    obtain ⟨e1, h1, hr, hdp, hsy⟩ := ih hs hreg hsym hv
    simp only [build]
    rw [h1]
    refine ⟨_, rfl, ?_, hdp, hsy⟩
    unfold mkParens
    cases e1.cached with
    | none => exact hr
    | some v => trivial
  | bin op l r ihl ihr =>
    intro w hv
    rw [value_bin] at hv
    obtain ⟨a, ha, hv⟩ := Option.bind_eq_some_iff.1 hv
    obtain ⟨b, hb, hv⟩ := Option.bind_eq_some_iff.1 hv
    obtain ⟨t, ht, hv⟩ := Option.bind_eq_some_iff.1 hv
    obtain ⟨rfl, hi⟩ := strict_f.1 hv
    obtain ⟨l1, h1, r1, d1, s1⟩ := ihl hs.1 hreg.1 (fun x hx => hsym x (by simp [Src.syms, hx])) ha
    obtain ⟨l2, h2, r2, d2, s2⟩ := ihr hs.2 hreg.2.1 (fun x hx => hsym x (by simp [Src.syms, hx])) hb
    have v1 := build_strict fm hp hev _ hh l hs.1 h1 ha
    have v2 := build_strict fm hp hev _ hh r hs.2 h2 hb
    obtain ⟨e', he', hb'⟩ := mkBin_total (now := now) fm hp hev op (build_ok fm hp hev _ l hs.1 h1)
      (build_ok fm hp hev _ r hs.2 h2) v1 v2 ht hi
      (by rintro rfl h0; exact hreg.2.2.2 ⟨rfl, by rw [hb, h0]⟩)
      ⟨r1, r2, by
        rw [v1, v2]
        intro h
        exact hreg.2.2.1 (by rw [ha, hb]; exact h)⟩
    simp only [build]
    rw [h1, h2]
    refine ⟨e', he', hb'.regular, ?_, ?_⟩
    · have := hb'.depth
      simp only [Src.depth]; omega
    · intro x hx
      rcases hb'.syms x hx with h | h
      · exact List.mem_append.2 (.inl (s1 x h))
      · exact List.mem_append.2 (.inr (s2 x h))
  | un op e ih =>
    intro w hv
    obtain ⟨a, ha, hv⟩ := Option.bind_eq_some_iff.1 hv
    obtain ⟨e1, h1, hr, hdp, hsy⟩ := ih hs hreg hsym ha
    simp only [build]
    rw [h1]
    refine ⟨_, rfl, ?_⟩
    unfold mkUn
    split
    · exact ⟨trivial, hdp, hsy⟩
    · exact ⟨hr, hdp, hsy⟩
  | bit e ih =>
    intro w hv
    obtain ⟨a, ha, hv⟩ := Option.bind_eq_some_iff.1 hv
    obtain ⟨e1, h1, hr, hdp, hsy⟩ := ih hs hreg.1 hsym ha
    have v1 := build_strict fm hp hev _ hh e hs h1 ha
    simp only [build]
    rw [h1]
    simp only [Outcome.ok_bind, mkBit]
    split
    · rename_i x hx
      rw [cached_den fm strict ρ hx] at v1
      obtain rfl := Option.some.inj v1
      have : isPow2 (u32 x) = true := by
        unfold bitOf at hv
        obtain ⟨k, hk, _⟩ := Option.map_eq_some_iff.1 hv
        have hlt := List.mem_of_find?_eq_some hk
        have heq := List.find?_some hk
        simp only [List.mem_range] at hlt
        have heq := eq_of_beq heq
        rw [← heq]
        have hall : ∀ k : Fin 32, isPow2 (u32 (toI32 (2 ^ k.val : Nat))) = true := by decide +kernel
        exact hall ⟨k, hlt⟩
      rw [if_pos this]
      exact ⟨_, rfl, trivial, hdp, hsy⟩
    · refine ⟨_, rfl, ⟨hr, ?_⟩, hdp, hsy⟩
      rw [v1, ← ha]; exact hreg.2

theorem optimize_regular (fm : FMath) {A : Asm} {base : Nat → Int} {ρ : Den} (hp : A.Places base ρ)
    (e : AExpr) (hc : e.Coherent) (hr : e.Regular fm ρ) : (optimize A.syms e).Regular fm ρ := by
  induction e with
  | const v => trivial
  | sym s => unfold optimize; split <;> trivial
  | bank s => trivial
  | pcRel l r ihl ihr => exact ⟨ihl hc.1 hr.1, ihr hc.2 hr.2⟩
  | parens c e ih =>
    obtain ⟨rfl, hc⟩ := hc
    cases h : e.cached with
    | none => rw [h] at hr; exact ih hc hr
    | some v =>
      unfold optimize
      cases e <;> simp only [AExpr.cached] at h
      case const => trivial
      case parens => subst h; exact ih hc trivial
      case bin => subst h; trivial
      case un => subst h; trivial
      case bit => subst h; trivial
      all_goals cases h
  | bin c op l r ihl ihr =>
    cases c with
    | some v => trivial
    | none =>
      refine ⟨ihl hc.1 hr.1, ihr hc.2 hr.2.1, ?_⟩
      rw [optimize_den fm strict hp l hc.1, optimize_den fm strict hp r hc.2]
      exact hr.2.2
  | un c op e ih =>
    cases c with
    | some v => trivial
    | none => exact ih hc hr
  | bit c e ih =>
    cases c with
    | some v => trivial
    | none =>
      refine ⟨ih hc hr.1, ?_⟩
      rw [optimize_den fm strict hp e hc]
      exact hr.2

theorem optimize_depth (syms : Nat → ASym) (e : AExpr) : (optimize syms e).depth ≤ e.depth := by
  induction e with
  | const v => exact Nat.le_refl _
  | sym s => unfold optimize; split <;> exact Nat.le_refl _
  | bank s => exact Nat.le_refl _
  | pcRel l r ihl ihr => simp only [optimize, AExpr.depth]; omega
  | parens c e ih => exact ih
  | bin c op l r ihl ihr =>
    cases c with
    | some v => have := l.depth_pos; simp only [optimize, AExpr.depth]; omega
    | none => simp only [optimize, AExpr.depth]; omega
  | un c op e ih =>
    cases c with
    | some v => have := e.depth_pos; simp only [optimize, AExpr.depth]; omega
    | none => exact ih
  | bit c e ih =>
    cases c with
    | some v => have := e.depth_pos; simp only [optimize, AExpr.depth]; omega
    | none => exact ih

theorem optimize_syms (syms : Nat → ASym) (e : AExpr) : ∀ x ∈ (optimize syms e).syms, x ∈ e.syms := by
  induction e with
  | const v => intro x hx; exact hx
  | sym s =>
    intro x hx; unfold optimize at hx
    split at hx
    · cases hx
    · exact hx
  | bank s => intro x hx; exact hx
  | pcRel l r ihl ihr =>
    intro x hx
    rcases List.mem_append.1 hx with h | h
    · exact List.mem_append.2 (.inl (ihl x h))
    · exact List.mem_append.2 (.inr (ihr x h))
  | parens c e ih => exact ih
  | bin c op l r ihl ihr =>
    cases c with
    | some v => intro x hx; cases hx
    | none =>
      intro x hx
      rcases List.mem_append.1 hx with h | h
      · exact List.mem_append.2 (.inl (ihl x h))
      · exact List.mem_append.2 (.inr (ihr x h))
  | un c op e ih =>
    cases c with
    | some v => intro x hx; cases hx
    | none => exact ih
  | bit c e ih =>
    cases c with
    | some v => intro x hx; cases hx
    | none => exact ih

/-- What is known about the result of `reduceExpression`. -/
def Fine (fm : FMath) (ρ : Den) (e : AExpr) (x : AExpr × Option Int) : Prop :=
  x.1.Regular fm ρ ∧ x.1.depth ≤ e.depth

theorem fine_const {fm : FMath} {ρ : Den} {e : AExpr} {v : Int} {y : Option Int} : Fine fm ρ e (.const v, y) :=
  ⟨trivial, e.depth_pos⟩

theorem fine_bin {fm : FMath} {ρ : Den} {op : BinOp} {l r l' r' : AExpr} {y z u : Option Int}
    (rl : Refines fm ρ l l') (rr : Refines fm ρ r r') (hl : Fine fm ρ l (l', y)) (hr : Fine fm ρ r (r', z))
    {a b : Int} (ha : l.den fm strict ρ = some a) (hb : r.den fm strict ρ = some b)
    (h : ¬ (op = .mod ∧ l.den fm strict ρ = some (-2147483648) ∧ r.den fm strict ρ = some (-1))) :
    Fine fm ρ (.bin none op l r) (.bin none op l' r', u) := by
  refine ⟨⟨hl.1, hr.1, ?_⟩, ?_⟩
  · rw [rl.strict a ha, rr.strict b hb, ← ha, ← hb]; exact h
  · have h1 := hl.2
    have h2 := hr.2
    simp only [AExpr.depth] at *; omega

theorem reduce_total (fm : FMath) {A : Asm} {base : Nat → Int} {ρ : Den} (hp : A.Places base ρ) (p : Site)
    (hpc : ρ.pc % 4294967296 = (base p.sect + p.offset) % 4294967296) (e : AExpr) (ho : e.Ok) (hn : e.Plain)
    (hreg : e.Regular fm ρ) (hsym : ∀ x ∈ e.syms, (A.syms x).type ≠ .undefined) :
    ∀ {w : Int}, e.den fm strict ρ = some w → ∃ x, reduce fm A p e = .ok x ∧ Fine fm ρ e x := by
  induction e with
  | const v => intro w _; exact ⟨_, rfl, fine_const⟩
  | sym s =>
    intro w _
    unfold reduce
    have := hsym s (by simp [AExpr.syms])
    split
    · exact ⟨_, rfl, trivial, Nat.le_refl _⟩
    · exact ⟨_, rfl, trivial, Nat.le_refl _⟩
  | bank s => intro w _; exact ⟨_, rfl, trivial, Nat.le_refl _⟩
  | pcRel l r ihl ihr =>
    intro w hw
    rw [den_pcRel] at hw
    obtain ⟨a, ha, hw⟩ := Option.bind_eq_some_iff.1 hw
    obtain ⟨⟨l', y⟩, h1, f1⟩ := ihl ho.1 hn.1 hreg.1 (fun x hx => hsym x (by simp [AExpr.syms, hx])) ha
    unfold reduce
    split
    · rw [h1]
      cases y with
      | none =>
        refine ⟨_, rfl, ⟨f1.1, hreg.2⟩, ?_⟩
        have := f1.2
        simp only [AExpr.depth] at *; omega
      | some v => exact ⟨_, rfl, fine_const⟩
    · exact ⟨_, rfl, hreg, Nat.le_refl _⟩
  | parens c e ih => exact hn.elim
  | bin c op l r ihl ihr =>
    intro w hw
    obtain ⟨rfl, nl, nr⟩ := hn
    obtain ⟨_, ol, or⟩ := ho
    rw [den_bin] at hw
    obtain ⟨a, ha, hw⟩ := Option.bind_eq_some_iff.1 hw
    obtain ⟨b, hb, hw⟩ := Option.bind_eq_some_iff.1 hw
    obtain ⟨t, ht, hw⟩ := Option.bind_eq_some_iff.1 hw
    obtain ⟨rfl, hi⟩ := strict_f.1 hw
    obtain ⟨⟨l', y⟩, h1, f1⟩ := ihl ol nl hreg.1 (fun x hx => hsym x (by simp [AExpr.syms, hx])) ha
    obtain ⟨⟨r', z⟩, h2, f2⟩ := ihr or nr hreg.2.1 (fun x hx => hsym x (by simp [AExpr.syms, hx])) hb
    obtain ⟨rl, vl⟩ := reduce_sound fm hp p hpc l ol nl h1
    obtain ⟨rr, vr⟩ := reduce_sound fm hp p hpc r or nr h2
    have hlf : Fine fm ρ l (l, none) := ⟨hreg.1, Nat.le_refl _⟩
    have hrf : Fine fm ρ r (r, none) := ⟨hreg.2.1, Nat.le_refl _⟩
    have hval : ∀ x y', y = some x → z = some y' → reduceBin fm op x y' = .ok t := by
      intro x y' hx hy
      have e1 := vl x hx
      rw [strict_wrap fm ρ l ha] at e1
      have e2 := vr y' hy
      rw [strict_wrap fm ρ r hb] at e2
      obtain rfl := Option.some.inj e1
      obtain rfl := Option.some.inj e2
      rw [reduceBin_eq]
      exact (linkBin_iff fm op (den_range fm _ ρ ol ha) (den_range fm _ ρ or hb) t).2
        ⟨ht, hi, odd_iff ha hb hreg.2.2⟩
    unfold reduce
    split
    · exact ⟨_, rfl, fine_const⟩
    · split
      · rw [h2]
        cases z with
        | none => exact ⟨_, rfl, fine_bin (.refl ol nl) rr hlf f2 ha hb hreg.2.2⟩
        | some y' =>
          simp only [Outcome.ok_bind]
          rw [h1]
          cases y with
          | none => exact ⟨_, rfl, fine_bin rl rr f1 f2 ha hb hreg.2.2⟩
          | some x =>
            simp only [Outcome.ok_bind]
            rw [hval x y' rfl rfl]
            exact ⟨_, rfl, fine_const⟩
      · rw [h1]
        cases y with
        | none => exact ⟨_, rfl, fine_bin rl (.refl or nr) f1 hrf ha hb hreg.2.2⟩
        | some x =>
          simp only [Outcome.ok_bind]
          rw [h2]
          cases z with
          | none => exact ⟨_, rfl, fine_bin rl rr f1 f2 ha hb hreg.2.2⟩
          | some y' =>
            simp only [Outcome.ok_bind]
            rw [hval x y' rfl rfl]
            exact ⟨_, rfl, fine_const⟩
  | un c op e ih =>
    intro w hw
    obtain ⟨rfl, ne⟩ := hn
    obtain ⟨a, ha, hw⟩ := Option.bind_eq_some_iff.1 hw
    obtain ⟨⟨e', y⟩, h1, f1⟩ := ih ho.2 ne hreg hsym ha
    unfold reduce
    rw [h1]
    cases y with
    | none => exact ⟨_, rfl, f1⟩
    | some x => exact ⟨_, rfl, fine_const⟩
  | bit c e ih =>
    intro w hw
    obtain ⟨rfl, ne⟩ := hn
    obtain ⟨a, ha, hw⟩ := Option.bind_eq_some_iff.1 hw
    obtain ⟨⟨e', y⟩, h1, f1⟩ := ih ho.2 ne hreg.1 hsym ha
    obtain ⟨er, ev⟩ := reduce_sound fm hp p hpc e ho.2 ne h1
    unfold reduce
    rw [h1]
    cases y with
    | none =>
      refine ⟨_, rfl, ⟨f1.1, ?_⟩, f1.2⟩
      rw [er.strict a ha, ← ha]; exact hreg.2
    | some x =>
      have e1 := ev x rfl
      rw [strict_wrap fm ρ e ha] at e1
      obtain rfl := Option.some.inj e1
      have hpow : isPow2 (u32 a) = true := by
        unfold bitOf at hw
        obtain ⟨k, hk, _⟩ := Option.map_eq_some_iff.1 hw
        have hlt := List.mem_of_find?_eq_some hk
        have heq := List.find?_some hk
        simp only [List.mem_range] at hlt
        have heq := eq_of_beq heq
        rw [← heq]
        have hall : ∀ k : Fin 32, isPow2 (u32 (toI32 (2 ^ k.val : Nat))) = true := by decide +kernel
        exact hall ⟨k, hlt⟩
      have hne : a ≠ -2147483648 := fun h => hreg.2 (by rw [ha, h])
      simp only [Outcome.ok_bind]
      unfold reduceBitValue
      rw [if_neg hne, if_pos hpow]
      exact ⟨_, rfl, fine_const⟩

/-! ### Expressions without `BIT` can be written -/

def Src.noBit : Src → Bool
  | .pcRel _ e => e.noBit
  | .parens e => e.noBit
  | .bin _ l r => l.noBit && r.noBit
  | .un _ e => e.noBit
  | .bit _ => false
  | _ => true

def AExpr.noBit : AExpr → Bool
  | .pcRel l r => l.noBit && r.noBit
  | .parens _ e => e.noBit
  | .bin _ _ l r => l.noBit && r.noBit
  | .un _ _ e => e.noBit
  | .bit _ _ => false
  | _ => true

theorem merge_noBit {fm : FMath} {op : BinOp} {l r e : AExpr} (hl : l.noBit) (hr : r.noBit)
    (h : merge fm op l r = .ok e) : e.noBit := by
  unfold merge at h
  split at h
  · obtain ⟨v, _, h⟩ := Outcome.bind_ok.1 h
    cases h; simp [AExpr.noBit, hl, hr]
  · cases h; simp [AExpr.noBit, hl, hr]

theorem mkBin_noBit {fm : FMath} {now : Nat → ASym} {junk : AExpr → Bool} {op : BinOp} {l r e : AExpr}
    (hl : l.noBit) (hr : r.noBit) (h : mkBin fm now junk op l r = .ok e) : e.noBit := by
  have hdiv : ∀ op', (match r.cached with
      | some b => if b = 0 then Outcome.fail else merge fm op' l r
      | none => if junk r then .fail else .ok (.bin none op' l r)) = .ok e → e.noBit := by
    intro op' h
    split at h
    · split at h
      · cases h
      · exact merge_noBit hl hr h
    · split at h
      · cases h
      · cases h; simp [AExpr.noBit, hl, hr]
  unfold mkBin at h
  split at h
  · split at h
    · split at h
      · cases h; exact hl
      · cases h
    · cases h; simp [AExpr.noBit, hl, hr]
  · split at h
    · exact merge_noBit hl hr h
    · split at h
      · obtain ⟨v, _, h⟩ := Outcome.bind_ok.1 h
        cases h; rfl
      · cases h; simp [AExpr.noBit, hl, hr]
  · exact hdiv _ h
  · exact hdiv _ h
  · exact hdiv _ h
  · exact merge_noBit hl hr h

theorem build_noBit {fm : FMath} {now : Nat → ASym} {junk : AExpr → Bool} {here : Here} (s : Src) (hs : s.noBit) :
    ∀ {e : AExpr}, build fm now junk here s = .ok e → e.noBit := by
  induction s with
  | num v => intro e h; cases h; rfl
  | sym s =>
    intro e h
    simp only [build, mkSym] at h
    split at h
    · split at h <;> cases h <;> rfl
    · cases h
  | bank s => intro e h; cases h; rfl
  | pcRel adj e ih =>
    intro e' h
    obtain ⟨e1, h1, h⟩ := Outcome.bind_ok.1 h
    have hb := ih hs h1
    unfold mkPcRel at h
    split at h
    · split at h
      · cases h; cases e1 <;> first | exact hb | rfl
      · exact mkBin_noBit hb rfl h
    · cases h; simp [AExpr.noBit, hb]
  | parens e ih =>
    intro e' h
    obtain ⟨e1, h1, h⟩ := Outcome.bind_ok.1 h
    have := ih hs h1
    cases h; exact this
  | bin op l r ihl ihr =>
    intro e' h
    obtain ⟨l1, h1, h⟩ := Outcome.bind_ok.1 h
    obtain ⟨r1, h2, h⟩ := Outcome.bind_ok.1 h
    simp only [Src.noBit, Bool.and_eq_true] at hs
    exact mkBin_noBit (ihl hs.1 h1) (ihr hs.2 h2) h
  | un op e ih =>
    intro e' h
    obtain ⟨e1, h1, h⟩ := Outcome.bind_ok.1 h
    cases h
    have := ih hs h1
    unfold mkUn; split <;> exact this
  | bit e ih => cases hs

theorem optimize_noBit {syms : Nat → ASym} (e : AExpr) (h : e.noBit) : (optimize syms e).noBit := by
  induction e with
  | const v => rfl
  | sym s => unfold optimize; split <;> rfl
  | bank s => rfl
  | pcRel l r ihl ihr =>
    simp only [AExpr.noBit, Bool.and_eq_true] at h
    simp only [optimize, AExpr.noBit, Bool.and_eq_true]
    exact ⟨ihl h.1, ihr h.2⟩
  | parens c e ih => exact ih h
  | bin c op l r ihl ihr =>
    simp only [AExpr.noBit, Bool.and_eq_true] at h
    cases c with
    | some v => rfl
    | none =>
      simp only [optimize, AExpr.noBit, Bool.and_eq_true]
      exact ⟨ihl h.1, ihr h.2⟩
  | un c op e ih =>
    cases c with
    | some v => rfl
    | none => exact ih h
  | bit c e ih => cases h

theorem reduce_noBit {fm : FMath} {A : Asm} {p : Site} (e : AExpr) (h : e.noBit) (hn : e.Plain) :
    ∀ {x : AExpr × Option Int}, reduce fm A p e = .ok x → x.1.noBit := by
  induction e with
  | const v => intro x hx; cases hx; rfl
  | sym s =>
    intro x hx
    unfold reduce at hx
    split at hx
    · cases hx; rfl
    · split at hx
      · cases hx
      · cases hx; rfl
  | bank s => intro x hx; cases hx; rfl
  | pcRel l r ihl ihr =>
    intro x hx
    have h0 := h
    simp only [AExpr.noBit, Bool.and_eq_true] at h
    unfold reduce at hx
    split at hx
    · obtain ⟨⟨l', a⟩, h1, hx⟩ := Outcome.bind_ok.1 hx
      cases a with
      | none => cases hx; simp only [AExpr.noBit, Bool.and_eq_true]; exact ⟨ihl h.1 hn.1 h1, h.2⟩
      | some a => cases hx; rfl
    · cases hx; exact h0
  | parens c e ih => exact hn.elim
  | bin c op l r ihl ihr =>
    intro x hx
    obtain ⟨rfl, nl, nr⟩ := hn
    simp only [AExpr.noBit, Bool.and_eq_true] at h
    unfold reduce at hx
    split at hx
    · cases hx; rfl
    · split at hx
      · obtain ⟨⟨r', b⟩, h1, hx⟩ := Outcome.bind_ok.1 hx
        cases b with
        | none => cases hx; simp only [AExpr.noBit, Bool.and_eq_true]; exact ⟨h.1, ihr h.2 nr h1⟩
        | some b =>
          obtain ⟨⟨l', a⟩, h2, hx⟩ := Outcome.bind_ok.1 hx
          cases a with
          | none => cases hx; simp only [AExpr.noBit, Bool.and_eq_true]; exact ⟨ihl h.1 nl h2, ihr h.2 nr h1⟩
          | some a =>
            obtain ⟨v, _, hx⟩ := Outcome.bind_ok.1 hx
            cases hx; rfl
      · obtain ⟨⟨l', a⟩, h2, hx⟩ := Outcome.bind_ok.1 hx
        cases a with
        | none => cases hx; simp only [AExpr.noBit, Bool.and_eq_true]; exact ⟨ihl h.1 nl h2, h.2⟩
        | some a =>
          obtain ⟨⟨r', b⟩, h1, hx⟩ := Outcome.bind_ok.1 hx
          cases b with
          | none => cases hx; simp only [AExpr.noBit, Bool.and_eq_true]; exact ⟨ihl h.1 nl h2, ihr h.2 nr h1⟩
          | some b =>
            obtain ⟨v, _, hx⟩ := Outcome.bind_ok.1 hx
            cases hx; rfl
  | un c op e ih =>
    intro x hx
    obtain ⟨rfl, ne⟩ := hn
    unfold reduce at hx
    obtain ⟨⟨e', a⟩, h1, hx⟩ := Outcome.bind_ok.1 hx
    cases a with
    | none =>
      have := ih h ne h1
      cases hx; exact this
    | some a => cases hx; rfl
  | bit c e ih => cases h

theorem toTree_noBit (ids : Nat → Nat) (e : AExpr) (h : e.noBit) (hn : e.Plain) : ∃ t, toTree ids e = some t := by
  induction e with
  | const v => exact ⟨_, rfl⟩
  | sym s => exact ⟨_, rfl⟩
  | bank s => exact ⟨_, rfl⟩
  | pcRel l r ihl ihr =>
    simp only [AExpr.noBit, Bool.and_eq_true] at h
    obtain ⟨a, ha⟩ := ihl h.1 hn.1
    obtain ⟨b, hb⟩ := ihr h.2 hn.2
    exact ⟨_, by rw [toTree, ha, hb]; rfl⟩
  | parens c e ih => exact hn.elim
  | bin c op l r ihl ihr =>
    simp only [AExpr.noBit, Bool.and_eq_true] at h
    obtain ⟨a, ha⟩ := ihl h.1 hn.2.1
    obtain ⟨b, hb⟩ := ihr h.2 hn.2.2
    exact ⟨_, by rw [toTree, ha, hb]; rfl⟩
  | un c op e ih =>
    obtain ⟨a, ha⟩ := ih h hn.2
    exact ⟨_, by rw [toTree, ha]; rfl⟩
  | bit c e ih => cases h

end Verif.Expr
