import Verif.Expr.AsmLemmas
/-! Building an expression preserves its value. -/
namespace Verif.Expr

/-- The program counter while the expression is parsed is the address where its value will be stored. It only
matters in a section whose address is known. -/
def Here.Matches (here : Here) (ρ : Den) : Prop :=
  here.fixed = true → ρ.pc % 4294967296 = (here.pc : Int) % 4294967296

theorem toI32_mod (a : Int) : toI32 a % 4294967296 = a % 4294967296 := by
  unfold toI32; omega

theorem wrap_f (v : Int) : wrap.f v = some (toI32 v) := rfl

theorem ok_const (v : Int) : (AExpr.const (toI32 v)).Ok := toI32_range v

theorem value_bin (fm : FMath) (R : Rng) (now : Nat → ASym) (ρ : Den) (op : BinOp) (l r : Src) :
    (Src.bin op l r).value fm R now ρ =
      (l.value fm R now ρ).bind fun a => (r.value fm R now ρ).bind fun b => (meaning fm op a b).bind R.f := rfl

theorem value_pcRel (fm : FMath) (R : Rng) (now : Nat → ASym) (ρ : Den) (adj : Int) (e : Src) :
    (Src.pcRel adj e).value fm R now ρ =
      (e.value fm R now ρ).bind fun a => (R.f (a + adj)).bind fun t => (R.f (adj - ρ.pc)).bind fun _ =>
        R.f (t - ρ.pc) := rfl

theorem den_pcRel (fm : FMath) (R : Rng) (ρ : Den) (l r : AExpr) :
    (AExpr.pcRel l r).den fm R ρ =
      (l.den fm R ρ).bind fun a => (r.den fm R ρ).bind fun b => (R.f (a + b)).bind fun t =>
        some (toI32 (t - ρ.pc)) := rfl

/-- Modulo `2^32`, a distance is the same in all three ways of computing it. -/
theorem pcRel_wrap (fm : FMath) {A : Asm} {base : Nat → Int} {ρ : Den} (hp : A.Places base ρ)
    {now : Nat → ASym} (hev : Evolves now A.syms) (junk : AExpr → Bool) {here : Here} (hh : here.Matches ρ)
    {adj : Int} {e e' : AExpr} (he : e.Ok) (h : mkPcRel fm now junk here adj e = .ok e') :
    e'.den fm wrap ρ = (e.den fm wrap ρ).bind fun a => some (toI32 (toI32 (a + adj) - ρ.pc)) := by
  unfold mkPcRel at h
  by_cases hf : here.fixed
  · have hpc := hh hf
    rw [if_pos hf] at h
    cases hc : e.cached with
    | some v =>
      rw [hc] at h
      simp only at h
      cases h
      rw [(withValue_den fm wrap ρ he hc (toI32_range _)).2, cached_den fm wrap ρ hc]
      simp only [Option.bind_some]
      have := toI32_mod (v + adj)
      rw [show toI32 (v - (here.pc - adj)) = toI32 (toI32 (v + adj) - ρ.pc) from toI32_congr (by omega)]
    | none =>
      rw [hc] at h
      simp only at h
      rw [(mkBin_den fm wrap hp hev junk .add he (ok_const _) h).2]
      cases e.den fm wrap ρ with
      | none => simp only [Option.bind_none]
      | some a =>
        simp only [Option.bind_some, AExpr.den, meaning, wrap_f]
        have h1 := toI32_mod (a + adj)
        have h2 := toI32_mod (adj - here.pc)
        rw [show toI32 (a + toI32 (adj - here.pc)) = toI32 (toI32 (a + adj) - ρ.pc) from toI32_congr (by omega)]
  · rw [if_neg hf] at h
    cases h
    rw [den_pcRel]
    cases e.den fm wrap ρ with
    | none => simp only [Option.bind_none, AExpr.den, Option.bind_some]
    | some a =>
      simp only [Option.bind_some, AExpr.den, wrap_f]
      rw [Int.add_comm adj a]

theorem pcRel_strict (fm : FMath) {A : Asm} {base : Nat → Int} {ρ : Den} (hp : A.Places base ρ)
    {now : Nat → ASym} (hev : Evolves now A.syms) (junk : AExpr → Bool) {here : Here} (hh : here.Matches ρ)
    {adj : Int} {e e' : AExpr} (he : e.Ok) (h : mkPcRel fm now junk here adj e = .ok e') {a : Int}
    (ha : e.den fm strict ρ = some a) (h1 : I32 (a + adj)) (h2 : I32 (adj - ρ.pc)) (h3 : I32 (a + adj - ρ.pc)) :
    e'.den fm strict ρ = some (a + adj - ρ.pc) := by
  unfold mkPcRel at h
  by_cases hf : here.fixed
  · have hpc := hh hf
    rw [if_pos hf] at h
    cases hc : e.cached with
    | some v =>
      rw [hc] at h
      simp only at h
      cases h
      rw [cached_den fm strict ρ hc] at ha
      have hva : v = a := Option.some.inj ha
      rw [hva] at hc ⊢
      rw [(withValue_den fm strict ρ he hc (toI32_range _)).2]
      rw [show toI32 (a - (here.pc - adj)) = toI32 (a + adj - ρ.pc) from toI32_congr (by omega), toI32_of h3]
    | none =>
      rw [hc] at h
      simp only at h
      rw [(mkBin_den fm strict hp hev junk .add he (ok_const _) h).2, ha]
      show inRange (a + toI32 (adj - here.pc)) = _
      rw [show toI32 (adj - here.pc) = toI32 (adj - ρ.pc) from toI32_congr (by omega), toI32_of h2]
      rw [inRange_some]
      exact ⟨by omega, h3⟩
  · rw [if_neg hf] at h
    cases h
    rw [den_pcRel, ha]
    show (inRange (adj + a)).bind _ = _
    rw [Int.add_comm adj a, inRange_some.2 ⟨rfl, h1⟩]
    show some (toI32 (a + adj - ρ.pc)) = _
    rw [toI32_of h3]

theorem mkPcRel_ok (fm : FMath) {A : Asm} {base : Nat → Int} {ρ : Den} (hp : A.Places base ρ)
    {now : Nat → ASym} (hev : Evolves now A.syms) (junk : AExpr → Bool) {here : Here}
    {adj : Int} (hadj : I32 adj) {e e' : AExpr} (he : e.Ok) (h : mkPcRel fm now junk here adj e = .ok e') : e'.Ok := by
  unfold mkPcRel at h
  by_cases hf : here.fixed
  · rw [if_pos hf] at h
    cases hc : e.cached with
    | some v =>
      rw [hc] at h
      simp only at h
      cases h
      exact (withValue_den fm strict ρ he hc (toI32_range _)).1
    | none =>
      rw [hc] at h
      simp only at h
      exact (mkBin_den fm strict hp hev junk .add he (ok_const _) h).1
  · rw [if_neg hf] at h
    cases h
    exact ⟨hadj, he⟩

theorem build_ok (fm : FMath) {A : Asm} {base : Nat → Int} {ρ : Den} (hp : A.Places base ρ)
    {now : Nat → ASym} (hev : Evolves now A.syms) (junk : AExpr → Bool) {here : Here} (s : Src) (hs : s.Ok) :
    ∀ {e : AExpr}, build fm now junk here s = .ok e → e.Ok := by
  induction s with
  | num v => intro e h; cases h; exact hs
  | sym s =>
    intro e h
    simp only [build, mkSym] at h
    split at h
    · split at h
      · rename_i hc; cases h; exact hev.range s hc
      · cases h; trivial
    · cases h
  | bank s => intro e h; cases h; trivial
  | pcRel adj e ih =>
    intro e' h
    obtain ⟨e1, h1, h⟩ := Outcome.bind_ok.1 h
    exact mkPcRel_ok fm hp hev junk hs.1 (ih hs.2 h1) h
  | parens e ih =>
    intro e' h
    obtain ⟨e1, h1, h⟩ := Outcome.bind_ok.1 h
    cases h
    exact (mkParens_den fm strict ρ (ih hs h1)).1
  | bin op l r ihl ihr =>
    intro e' h
    obtain ⟨l1, h1, h⟩ := Outcome.bind_ok.1 h
    obtain ⟨r1, h2, h⟩ := Outcome.bind_ok.1 h
    exact (mkBin_den fm strict hp hev junk op (ihl hs.1 h1) (ihr hs.2 h2) h).1
  | un op e ih =>
    intro e' h
    obtain ⟨e1, h1, h⟩ := Outcome.bind_ok.1 h
    cases h
    exact (mkUn_den fm strict ρ op (ih hs h1)).1
  | bit e ih =>
    intro e' h
    obtain ⟨e1, h1, h⟩ := Outcome.bind_ok.1 h
    exact (mkBit_den fm strict ρ (ih hs h1) h).1

theorem mkSym_den (fm : FMath) (R : Rng) {now later : Nat → ASym} (hev : Evolves now later) (ρ : Den) (s : Nat)
    {e : AExpr} (h : mkSym now s = .ok e) : e.den fm R ρ = (Src.sym s).value fm R now ρ := by
  unfold mkSym at h
  show _ = if (now s).type.constant then inRange (now s).value else (ρ.sym s).bind inRange
  split at h
  · split at h
    · rename_i hc
      cases h
      rw [if_pos hc, inRange_some.2 ⟨rfl, hev.range s hc⟩]; rfl
    · rename_i hc
      cases h
      rw [if_neg hc]; rfl
  · cases h

/-- Modulo `2^32`, the tree has the value of the source. -/
theorem build_wrap (fm : FMath) {A : Asm} {base : Nat → Int} {ρ : Den} (hp : A.Places base ρ)
    {now : Nat → ASym} (hev : Evolves now A.syms) (junk : AExpr → Bool) {here : Here} (hh : here.Matches ρ)
    (s : Src) (hs : s.Ok) :
    ∀ {e : AExpr}, build fm now junk here s = .ok e → e.den fm wrap ρ = s.value fm wrap now ρ := by
  induction s with
  | num v => intro e h; cases h; exact (inRange_some.2 ⟨rfl, hs⟩).symm
  | sym s => intro e h; exact mkSym_den fm wrap hev ρ s h
  | bank s => intro e h; cases h; rfl
  | pcRel adj e ih =>
    intro e' h
    obtain ⟨e1, h1, h⟩ := Outcome.bind_ok.1 h
    rw [pcRel_wrap fm hp hev junk hh (build_ok fm hp hev junk e hs.2 h1) h, ih hs.2 h1, value_pcRel]
    cases e.value fm wrap now ρ <;> rfl
  | parens e ih =>
    intro e' h
    obtain ⟨e1, h1, h⟩ := Outcome.bind_ok.1 h
    cases h
    rw [(mkParens_den fm wrap ρ (build_ok fm hp hev junk e hs h1)).2]
    exact ih hs h1
  | bin op l r ihl ihr =>
    intro e' h
    obtain ⟨l1, h1, h⟩ := Outcome.bind_ok.1 h
    obtain ⟨r1, h2, h⟩ := Outcome.bind_ok.1 h
    rw [(mkBin_den fm wrap hp hev junk op (build_ok fm hp hev junk l hs.1 h1)
      (build_ok fm hp hev junk r hs.2 h2) h).2, ihl hs.1 h1, ihr hs.2 h2, value_bin]
  | un op e ih =>
    intro e' h
    obtain ⟨e1, h1, h⟩ := Outcome.bind_ok.1 h
    cases h
    rw [(mkUn_den fm wrap ρ op (build_ok fm hp hev junk e hs h1)).2, ih hs h1]
    rfl
  | bit e ih =>
    intro e' h
    obtain ⟨e1, h1, h⟩ := Outcome.bind_ok.1 h
    rw [(mkBit_den fm wrap ρ (build_ok fm hp hev junk e hs h1) h).2, ih hs h1]
    rfl

/-- If the source has a value without overflow, the tree has it too. -/
theorem build_strict (fm : FMath) {A : Asm} {base : Nat → Int} {ρ : Den} (hp : A.Places base ρ)
    {now : Nat → ASym} (hev : Evolves now A.syms) (junk : AExpr → Bool) {here : Here} (hh : here.Matches ρ)
    (s : Src) (hs : s.Ok) :
    ∀ {e : AExpr} {w : Int}, build fm now junk here s = .ok e → s.value fm strict now ρ = some w →
      e.den fm strict ρ = some w := by
  induction s with
  | num v => intro e w h hv; cases h; obtain ⟨rfl, _⟩ := inRange_some.1 hv; rfl
  | sym s => intro e w h hv; rw [mkSym_den fm strict hev ρ s h]; exact hv
  | bank s => intro e w h hv; cases h; exact hv
  | pcRel adj e ih =>
    intro e' w h hv
    obtain ⟨e1, h1, h⟩ := Outcome.bind_ok.1 h
    rw [value_pcRel] at hv
    obtain ⟨a, ha, hv⟩ := Option.bind_eq_some_iff.1 hv
    obtain ⟨t, ht, hv⟩ := Option.bind_eq_some_iff.1 hv
    obtain ⟨d, hd, hv⟩ := Option.bind_eq_some_iff.1 hv
    obtain ⟨rfl, i1⟩ := inRange_some.1 ht
    obtain ⟨rfl, i2⟩ := inRange_some.1 hd
    obtain ⟨rfl, i3⟩ := inRange_some.1 hv
    exact pcRel_strict fm hp hev junk hh (build_ok fm hp hev junk e hs.2 h1) h (ih hs.2 h1 ha) i1 i2 i3
  | parens e ih =>
    intro e' w h hv
    obtain ⟨e1, h1, h⟩ := Outcome.bind_ok.1 h
    cases h
    rw [(mkParens_den fm strict ρ (build_ok fm hp hev junk e hs h1)).2]
    exact ih hs h1 hv
  | bin op l r ihl ihr =>
    intro e' w h hv
    obtain ⟨l1, h1, h⟩ := Outcome.bind_ok.1 h
    obtain ⟨r1, h2, h⟩ := Outcome.bind_ok.1 h
    rw [value_bin] at hv
    obtain ⟨a, ha, hv⟩ := Option.bind_eq_some_iff.1 hv
    obtain ⟨b, hb, hv⟩ := Option.bind_eq_some_iff.1 hv
    rw [(mkBin_den fm strict hp hev junk op (build_ok fm hp hev junk l hs.1 h1)
      (build_ok fm hp hev junk r hs.2 h2) h).2, ihl hs.1 h1 ha, ihr hs.2 h2 hb]
    exact hv
  | un op e ih =>
    intro e' w h hv
    obtain ⟨e1, h1, h⟩ := Outcome.bind_ok.1 h
    cases h
    obtain ⟨a, ha, hv⟩ := Option.bind_eq_some_iff.1 hv
    rw [(mkUn_den fm strict ρ op (build_ok fm hp hev junk e hs h1)).2, ih hs h1 ha]
    exact hv
  | bit e ih =>
    intro e' w h hv
    obtain ⟨e1, h1, h⟩ := Outcome.bind_ok.1 h
    obtain ⟨a, ha, hv⟩ := Option.bind_eq_some_iff.1 hv
    rw [(mkBit_den fm strict ρ (build_ok fm hp hev junk e hs h1) h).2, ih hs h1 ha]
    exact hv

end Verif.Expr
