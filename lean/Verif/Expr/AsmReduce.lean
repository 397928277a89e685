import Verif.Expr.AsmOptimize
/-! Evaluating an expression when the assembler back-patches preserves its value. -/
namespace Verif.Expr

theorem strict_f {v w : Int} : strict.f v = some w ↔ v = w ∧ I32 w := inRange_some

/-- Without overflow, both ways to treat overflow agree. -/
theorem strict_wrap (fm : FMath) (ρ : Den) (e : AExpr) {w : Int} (h : e.den fm strict ρ = some w) :
    e.den fm wrap ρ = some w := by
  have hf : ∀ {v w : Int}, strict.f v = some w → wrap.f v = some w := by
    intro v w h
    obtain ⟨rfl, hi⟩ := strict_f.1 h
    exact wrap.keep _ hi
  induction e generalizing w with
  | const v => exact h
  | sym s => exact h
  | bank s => exact h
  | pcRel l r ihl ihr =>
    rw [den_pcRel] at h ⊢
    obtain ⟨a, ha, h⟩ := Option.bind_eq_some_iff.1 h
    obtain ⟨b, hb, h⟩ := Option.bind_eq_some_iff.1 h
    obtain ⟨t, ht, h⟩ := Option.bind_eq_some_iff.1 h
    rw [ihl ha, ihr hb]
    simp only [Option.bind_some]
    rw [hf ht]
    exact h
  | parens c e ih =>
    cases c with
    | some v => exact h
    | none => exact ih h
  | bin c op l r ihl ihr =>
    cases c with
    | some v => exact h
    | none =>
      rw [den_bin] at h ⊢
      obtain ⟨a, ha, h⟩ := Option.bind_eq_some_iff.1 h
      obtain ⟨b, hb, h⟩ := Option.bind_eq_some_iff.1 h
      obtain ⟨t, ht, h⟩ := Option.bind_eq_some_iff.1 h
      rw [ihl ha, ihr hb]
      simp only [Option.bind_some, ht]
      exact hf h
  | un c op e ih =>
    cases c with
    | some v => exact h
    | none =>
      obtain ⟨a, ha, h⟩ := Option.bind_eq_some_iff.1 h
      exact Option.bind_eq_some_iff.2 ⟨a, ih ha, h⟩
  | bit c e ih =>
    cases c with
    | some v => exact h
    | none =>
      obtain ⟨a, ha, h⟩ := Option.bind_eq_some_iff.1 h
      exact Option.bind_eq_some_iff.2 ⟨a, ih ha, h⟩

theorem plain_cached {e : AExpr} (he : e.Plain) {v : Int} (h : e.cached = some v) : e = .const v := by
  cases e <;> simp only [AExpr.cached] at h
  case const => cases h; rfl
  case parens => exact he.elim
  case bin => rw [he.1] at h; cases h
  case un => rw [he.1] at h; cases h
  case bit => rw [he.1] at h; cases h
  all_goals cases h

theorem u32_mod (a : Int) : (u32 a : Int) % 4294967296 = a % 4294967296 := by
  rw [u32_cast]; omega

/-! ### Offsets in sections -/

theorem symSectionOffset_sound {A : Asm} {base : Nat → Int} {ρ : Den} (hp : A.Places base ρ) {s k : Nat}
    {sec : ASect} (hk : A.sects[k]? = some sec) {o : Nat} (h : symSectionOffset (A.syms s) k sec = some o) :
    ∃ w, ρ.sym s = some w ∧ I32 w ∧ w % 4294967296 = (base k + o) % 4294967296 := by
  have hfix : (A.syms s).type.constant = true → sec.loadFixed = true → some (u32 ((A.syms s).value - sec.origin)) = some o →
      ∃ w, ρ.sym s = some w ∧ I32 w ∧ w % 4294967296 = (base k + o) % 4294967296 := by
    intro hc hl ho
    obtain ⟨h1, h2⟩ := hp.constant s hc
    refine ⟨_, h1, h2, ?_⟩
    have hb := hp.loaded k sec hk hl
    have ho' : u32 ((A.syms s).value - sec.origin) = o := Option.some.inj ho
    have := u32_mod ((A.syms s).value - sec.origin)
    rw [ho'] at this
    omega
  unfold symSectionOffset at h
  split at h
  · rename_i hc
    exact hfix (by rw [hc.1]; rfl) hc.2 h
  · split at h
    · rename_i hs
      split at h
      · rename_i hc
        exact hfix hc.1 hc.2 h
      · split at h
        · rename_i hr
          obtain ⟨h1, h2⟩ := hp.placed s k hr.1 hs
          refine ⟨_, h1, h2, ?_⟩
          have ho' : u32 (A.syms s).value = o := Option.some.inj h
          have := u32_mod (A.syms s).value
          rw [ho'] at this
          omega
        · cases h
    · cases h

theorem shifted_some {o : Option Nat} {c : Option Int} {f : Int → Int → Int} {r : Nat}
    (h : shifted o c f = some r) : ∃ a b, o = some a ∧ c = some b ∧ r = u32 (f a b) := by
  unfold shifted at h
  split at h
  · cases h; exact ⟨_, _, rfl, rfl, rfl⟩
  · cases h

/-- The offset in a section that is calculated for an expression is the distance of its value from the start of the
section. -/
theorem sectionOffset_sound (fm : FMath) {A : Asm} {base : Nat → Int} {ρ : Den} (hp : A.Places base ρ) {k : Nat}
    {sec : ASect} (hk : A.sects[k]? = some sec) (e : AExpr) (he : e.Plain) :
    ∀ {o : Nat}, sectionOffset A.syms k sec e = some o →
      ∃ w, e.den fm wrap ρ = some w ∧ w % 4294967296 = (base k + o) % 4294967296 := by
  induction e with
  | const v =>
    intro o h
    simp only [sectionOffset] at h
    split at h
    · rename_i hl
      refine ⟨v, rfl, ?_⟩
      have hb := hp.loaded k sec hk hl
      have ho : u32 (v - sec.origin) = o := Option.some.inj h
      have := u32_mod (v - sec.origin)
      rw [ho] at this
      omega
    · cases h
  | sym s =>
    intro o h
    obtain ⟨w, h1, h2, h3⟩ := symSectionOffset_sound hp hk (show symSectionOffset (A.syms s) k sec = some o from h)
    exact ⟨w, bind_inRange.2 ⟨h1, h2⟩, h3⟩
  | bank s => intro o h; cases h
  | pcRel l r _ _ => intro o h; cases h
  | parens c e ih => exact he.elim
  | bin c op l r ihl ihr =>
    intro o h
    obtain ⟨rfl, hl, hr⟩ := he
    by_cases hadd : op = .add
    · subst hadd
      simp only [sectionOffset] at h
      cases h1 : shifted (sectionOffset A.syms k sec l) r.cached (· + ·) with
      | some x =>
        rw [h1] at h
        have hx : x = o := Option.some.inj h
        subst hx
        obtain ⟨a, b, ha, hb, rfl⟩ := shifted_some h1
        obtain ⟨w, hw, hm⟩ := ihl hl ha
        have hrc := plain_cached hr hb
        refine ⟨toI32 (w + b), ?_, ?_⟩
        · rw [den_bin, hw, hrc]
          simp only [AExpr.den, Option.bind_some, meaning, wrap_f]
        · have m1 := u32_mod (a + b)
          have m2 := toI32_mod (w + b)
          omega
      | none =>
        rw [h1] at h
        obtain ⟨a, b, ha, hb, rfl⟩ := shifted_some
          (show shifted (sectionOffset A.syms k sec r) l.cached (fun o c => c + o) = some o from h)
        obtain ⟨w, hw, hm⟩ := ihr hr ha
        have hlc := plain_cached hl hb
        refine ⟨toI32 (b + w), ?_, ?_⟩
        · rw [den_bin, hw, hlc]
          simp only [AExpr.den, Option.bind_some, meaning, wrap_f]
        · have m1 := u32_mod (b + a)
          have m2 := toI32_mod (b + w)
          omega
    · by_cases hsub : op = .sub
      · subst hsub
        simp only [sectionOffset] at h
        obtain ⟨a, b, ha, hb, rfl⟩ := shifted_some h
        obtain ⟨w, hw, hm⟩ := ihl hl ha
        have hrc := plain_cached hr hb
        refine ⟨toI32 (w - b), ?_, ?_⟩
        · rw [den_bin, hw, hrc]
          simp only [AExpr.den, Option.bind_some, meaning, wrap_f]
        · have m1 := u32_mod (a - b)
          have m2 := toI32_mod (w - b)
          omega
      · exfalso
        cases op <;> first | cases h | exact hadd rfl | exact hsub rfl
  | un c op e _ => intro o h; cases h
  | bit c e _ => intro o h; cases h

theorem findSection_some (syms : Nat → ASym) (e : AExpr) (l : List ASect) :
    ∀ (n : Nat) {k o : Nat}, findSection syms e n l = some (k, o) →
      ∃ (i : Nat) (sec : ASect), k = n + i ∧ l[i]? = some sec ∧ sectionOffset syms k sec e = some o := by
  induction l with
  | nil => intro n k o h; cases h
  | cons a l ih =>
    intro n k o h
    unfold findSection at h
    split at h
    · rename_i o' ho
      cases h
      exact ⟨0, a, rfl, rfl, ho⟩
    · obtain ⟨i, sec, h1, h2, h3⟩ := ih (n + 1) h
      exact ⟨i + 1, sec, by omega, by simpa using h2, h3⟩

theorem sectionAndOffset_sound (fm : FMath) {A : Asm} {base : Nat → Int} {ρ : Den} (hp : A.Places base ρ)
    {e : AExpr} (he : e.Plain) {k o : Nat} (h : sectionAndOffset A e = some (k, o)) :
    ∃ w, e.den fm wrap ρ = some w ∧ w % 4294967296 = (base k + o) % 4294967296 := by
  obtain ⟨i, sec, hk, hs, ho⟩ := findSection_some A.syms e A.sects 0 h
  have : k = i := by omega
  subst this
  exact sectionOffset_sound fm hp hs e he ho

theorem sameSectionDiff_sound (fm : FMath) {A : Asm} {base : Nat → Int} {ρ : Den} (hp : A.Places base ρ)
    {l r : AExpr} (hl : l.Plain) (hr : r.Plain) {d : Int} (h : sameSectionDiff A l r = some d) :
    (AExpr.bin none .sub l r).den fm wrap ρ = some d := by
  unfold sameSectionDiff at h
  split at h
  · rename_i i a j b h1 h2
    split at h
    · rename_i hij
      subst hij
      obtain ⟨v, hv, m1⟩ := sectionAndOffset_sound fm hp hl h1
      obtain ⟨w, hw, m2⟩ := sectionAndOffset_sound fm hp hr h2
      rw [den_bin, hv, hw]
      simp only [Option.bind_some, meaning, wrap_f]
      rw [← Option.some.inj h]
      rw [show toI32 (v - w) = toI32 (a - b) from toI32_congr (by omega)]
    · cases h
  · cases h

/-! ### `reduceExpression` -/

/-- `e'` stands for the same value as `e`. -/
structure Refines (fm : FMath) (ρ : Den) (e e' : AExpr) : Prop where
  ok : e'.Ok
  plain : e'.Plain
  wrap : e'.den fm wrap ρ = e.den fm wrap ρ
  strict : ∀ w, e.den fm strict ρ = some w → e'.den fm strict ρ = some w

theorem Refines.refl {fm : FMath} {ρ : Den} {e : AExpr} (ho : e.Ok) (hp : e.Plain) : Refines fm ρ e e :=
  ⟨ho, hp, rfl, fun _ h => h⟩

theorem Refines.const {fm : FMath} {ρ : Den} {e : AExpr} (he : e.Ok) {v : Int} (h : e.den fm Verif.Expr.wrap ρ = some v) :
    Refines fm ρ e (.const v) :=
  ⟨den_range fm _ ρ he h, trivial, h.symm, fun w hw => by
    have := strict_wrap fm ρ e hw
    rw [this] at h; cases h; rfl⟩

theorem Refines.bin {fm : FMath} {ρ : Den} {op : BinOp} {l r l' r' : AExpr} (hl : Refines fm ρ l l')
    (hr : Refines fm ρ r r') : Refines fm ρ (.bin none op l r) (.bin none op l' r') where
  ok := ⟨trivial, hl.ok, hr.ok⟩
  plain := ⟨rfl, hl.plain, hr.plain⟩
  wrap := by rw [den_bin, den_bin, hl.wrap, hr.wrap]
  strict w h := by
    rw [den_bin] at h ⊢
    obtain ⟨a, ha, h⟩ := Option.bind_eq_some_iff.1 h
    obtain ⟨b, hb, h⟩ := Option.bind_eq_some_iff.1 h
    rw [hl.strict a ha, hr.strict b hb]
    exact h

/-- What a successful `reduceExpression` establishes. -/
def Reduced (fm : FMath) (ρ : Den) (e : AExpr) (x : AExpr × Option Int) : Prop :=
  Refines fm ρ e x.1 ∧ ∀ v, x.2 = some v → e.den fm wrap ρ = some v

theorem Reduced.const {fm : FMath} {ρ : Den} {e : AExpr} (he : e.Ok) {v : Int} (h : e.den fm wrap ρ = some v) :
    Reduced fm ρ e (.const v, some v) :=
  ⟨.const he h, fun w hw => by cases hw; exact h⟩

theorem Reduced.stuck {fm : FMath} {ρ : Den} {e e' : AExpr} (h : Refines fm ρ e e') : Reduced fm ρ e (e', none) :=
  ⟨h, fun w hw => by cases hw⟩

theorem reduceBin_den (fm : FMath) {ρ : Den} {op : BinOp} {l r : AExpr} {a b v : Int} (hl : l.Ok) (hr : r.Ok)
    (ha : l.den fm wrap ρ = some a) (hb : r.den fm wrap ρ = some b) (h : reduceBin fm op a b = .ok v) :
    (AExpr.bin none op l r).den fm wrap ρ = some v := by
  rw [reduceBin_eq] at h
  obtain ⟨hm, hi, _⟩ := (linkBin_iff fm op (den_range fm _ ρ hl ha) (den_range fm _ ρ hr hb) v).1 h
  rw [den_bin, ha, hb]
  simp only [Option.bind_some, hm]
  exact wrap.keep v hi

theorem reduceUn_meaning (fm : FMath) (op : UnOp) (a : Int) : reduceUn fm op a = meaningUn fm op a := by
  rw [reduceUn_eq, linkUn_eq]

theorem symBank_sound {A : Asm} {base : Nat → Int} {ρ : Den} (hp : A.Places base ρ) {s : Nat} {v : Int}
    (h : symBank A s = some v) : ρ.bank s = some v ∧ I32 v := by
  unfold symBank at h
  split at h
  · rename_i k hk
    split at h
    · rename_i sec hs
      split at h
      · rename_i hb
        rw [← Option.some.inj h]
        exact ⟨hp.bank s k sec hk hs hb, toI32_range _⟩
      · cases h
    · cases h
  · cases h

theorem reduce_sound (fm : FMath) {A : Asm} {base : Nat → Int} {ρ : Den} (hp : A.Places base ρ) (p : Site)
    (hpc : ρ.pc % 4294967296 = (base p.sect + p.offset) % 4294967296)
    (e : AExpr) (ho : e.Ok) (hn : e.Plain) :
    ∀ {x : AExpr × Option Int}, reduce fm A p e = .ok x → Reduced fm ρ e x := by
  induction e with
  | const v => intro x h; cases h; exact .const ho rfl
  | sym s =>
    intro x h
    unfold reduce at h
    split at h
    · rename_i hc
      cases h
      refine ⟨.refl trivial trivial, fun v hv => ?_⟩
      cases hv
      exact bind_inRange.2 (hp.constant s hc)
    · split at h
      · cases h
      · cases h; exact .stuck (.refl trivial trivial)
  | bank s =>
    intro x h
    cases h
    refine ⟨.refl trivial trivial, fun v hv => ?_⟩
    exact bind_inRange.2 (symBank_sound hp hv)
  | pcRel l r ihl ihr =>
    intro x h
    unfold reduce at h
    split at h
    · rename_i o hso
      obtain ⟨sec, hsec, hso⟩ := Option.bind_eq_some_iff.1 hso
      obtain ⟨b, hb, hm⟩ := sectionOffset_sound fm hp hsec r hn.2 hso
      obtain ⟨⟨l', a⟩, h1, h⟩ := Outcome.bind_ok.1 h
      obtain ⟨hr, hv⟩ := ihl ho.1 hn.1 h1
      cases a with
      | none =>
        cases h
        refine .stuck ⟨⟨hr.ok, ho.2⟩, ⟨hr.plain, hn.2⟩, ?_, ?_⟩
        · rw [den_pcRel, den_pcRel, hr.wrap]
        · intro w hw
          rw [den_pcRel] at hw ⊢
          obtain ⟨a, ha, hw⟩ := Option.bind_eq_some_iff.1 hw
          rw [hr.strict a ha]; exact hw
      | some a =>
        cases h
        refine .const ho ?_
        rw [den_pcRel, hv a rfl, hb]
        simp only [Option.bind_some, wrap_f]
        have := toI32_mod (a + b)
        rw [show toI32 (toI32 (a + b) - ρ.pc) = toI32 (o + a - p.offset) from toI32_congr (by omega)]
    · cases h; exact .stuck (.refl ho hn)
  | parens c e ih => exact hn.elim
  | bin c op l r ihl ihr =>
    intro x h
    obtain ⟨rfl, nl, nr⟩ := hn
    obtain ⟨_, ol, or⟩ := ho
    unfold reduce at h
    split at h
    · rename_i d hd
      by_cases hop : op = .sub
      · subst hop
        rw [if_pos rfl] at hd
        cases h
        exact .const (show (AExpr.bin none _ l r).Ok from ⟨trivial, ol, or⟩) (sameSectionDiff_sound fm hp nl nr hd)
      · rw [if_neg hop] at hd; cases hd
    · split at h
      · obtain ⟨⟨r', b⟩, h1, h⟩ := Outcome.bind_ok.1 h
        obtain ⟨rr, rv⟩ := ihr or nr h1
        cases b with
        | none => cases h; exact .stuck (.bin (.refl ol nl) rr)
        | some b =>
          obtain ⟨⟨l', a⟩, h2, h⟩ := Outcome.bind_ok.1 h
          obtain ⟨lr, lv⟩ := ihl ol nl h2
          cases a with
          | none => cases h; exact .stuck (.bin lr rr)
          | some a =>
            obtain ⟨v, hv, h⟩ := Outcome.bind_ok.1 h
            cases h
            exact .const (show (AExpr.bin none _ l r).Ok from ⟨trivial, ol, or⟩) (reduceBin_den fm ol or (lv a rfl) (rv b rfl) hv)
      · obtain ⟨⟨l', a⟩, h1, h⟩ := Outcome.bind_ok.1 h
        obtain ⟨lr, lv⟩ := ihl ol nl h1
        cases a with
        | none => cases h; exact .stuck (.bin lr (.refl or nr))
        | some a =>
          obtain ⟨⟨r', b⟩, h2, h⟩ := Outcome.bind_ok.1 h
          obtain ⟨rr, rv⟩ := ihr or nr h2
          cases b with
          | none => cases h; exact .stuck (.bin lr rr)
          | some b =>
            obtain ⟨v, hv, h⟩ := Outcome.bind_ok.1 h
            cases h
            exact .const (show (AExpr.bin none _ l r).Ok from ⟨trivial, ol, or⟩) (reduceBin_den fm ol or (lv a rfl) (rv b rfl) hv)
  | un c op e ih =>
    intro x h
    obtain ⟨rfl, ne⟩ := hn
    unfold reduce at h
    obtain ⟨⟨e', a⟩, h1, h⟩ := Outcome.bind_ok.1 h
    obtain ⟨er, ev⟩ := ih ho.2 ne h1
    cases a with
    | none =>
      cases h
      refine .stuck ⟨⟨trivial, er.ok⟩, ⟨rfl, er.plain⟩, ?_, ?_⟩
      · show (e'.den fm wrap ρ).bind _ = (e.den fm wrap ρ).bind _
        rw [er.wrap]
      · intro w hw
        obtain ⟨a, ha, hw⟩ := Option.bind_eq_some_iff.1 hw
        exact Option.bind_eq_some_iff.2 ⟨a, er.strict a ha, hw⟩
    | some a =>
      cases h
      refine .const ho ?_
      rw [reduceUn_meaning]
      exact Option.bind_eq_some_iff.2 ⟨a, ev a rfl, rfl⟩
  | bit c e ih =>
    intro x h
    obtain ⟨rfl, ne⟩ := hn
    unfold reduce at h
    obtain ⟨⟨e', a⟩, h1, h⟩ := Outcome.bind_ok.1 h
    obtain ⟨er, ev⟩ := ih ho.2 ne h1
    cases a with
    | none =>
      cases h
      refine .stuck ⟨⟨trivial, er.ok⟩, ⟨rfl, er.plain⟩, ?_, ?_⟩
      · show (e'.den fm wrap ρ).bind _ = (e.den fm wrap ρ).bind _
        rw [er.wrap]
      · intro w hw
        obtain ⟨a, ha, hw⟩ := Option.bind_eq_some_iff.1 hw
        exact Option.bind_eq_some_iff.2 ⟨a, er.strict a ha, hw⟩
    | some a =>
      obtain ⟨v, hv, h⟩ := Outcome.bind_ok.1 h
      cases h
      refine .const ho ?_
      have ha := ev a rfl
      unfold reduceBitValue at hv
      split at hv
      · cases hv
      · split at hv
        · rename_i hb
          cases hv
          exact Option.bind_eq_some_iff.2 ⟨a, ha, bitOf_eq (den_range fm _ ρ ho.2 ha) hb⟩
        · cases hv

end Verif.Expr
