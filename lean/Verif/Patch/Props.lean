import Verif.Patch.Lemmas
import Verif.Expr.LinkProps
import Verif.Util
/-!
# C13: patches are range checked and touch only their bytes
-/
namespace Verif.Patch
open Verif.Expr

/-- The numbers the tables of the linker contain are 32-bit numbers. -/
structure EnvOk (env : Env) : Prop where
  symbol : ∀ id e, env.symbol id = .ok e → I32 e.value
  bank : ∀ id v, env.bank id = .ok (some v) → I32 v
  group : ∀ a b v, env.groupProperty a b = .ok v → I32 v

theorem push_ok {e : Entry} {st st' : List Entry} (h : push e st = .ok st') : st' = e :: st := by
  unfold push at h
  by_cases hl : st.length ≥ 256
  · rw [if_pos hl] at h; cases h
  · rw [if_neg hl] at h; cases h; rfl

theorem combine_range {fm : FMath} {op : BinOp} {l r e : Entry} (hl : I32 l.value) (hr : I32 r.value)
    (h : combine fm op l r = .ok e) : I32 e.value := by
  obtain ⟨sl, vl⟩ := l
  obtain ⟨sr, vr⟩ := r
  cases sl with
  | none =>
    cases sr with
    | none =>
      rw [combine_abs] at h
      obtain ⟨v, h1, h2⟩ := Outcome.bind_ok.1 h
      cases h2
      exact linkBin_range fm op hl hr h1
    | some s =>
      cases op <;> simp [combine] at h
      obtain ⟨v, h1, h2⟩ := Outcome.bind_ok.1 h
      cases h2
      exact (chk_ok.1 h1).2
  | some s =>
    cases sr with
    | none =>
      cases op <;> simp [combine] at h
      all_goals
        obtain ⟨v, h1, h2⟩ := Outcome.bind_ok.1 h
        cases h2
        exact (chk_ok.1 h1).2
    | some s' =>
      cases op <;> try (simp [combine] at h; done)
      simp only [combine] at h
      by_cases hs : s.sect = s'.sect
      · rw [if_pos hs] at h
        obtain ⟨v, h1, h2⟩ := Outcome.bind_ok.1 h
        cases h2
        exact (chk_ok.1 h1).2
      · rw [if_neg hs] at h; cases h

theorem step_range {fm : FMath} {env : Env} (he : EnvOk env) {o : StackOp} {st st' : List Entry}
    (hs : ∀ e ∈ st, I32 e.value) (h : step fm env o st = .ok st') : ∀ e ∈ st', I32 e.value := by
  have two : ∀ {l r e : Entry} {tl : List Entry}, st = r :: l :: tl → I32 e.value → push e tl = .ok st' →
      ∀ e ∈ st', I32 e.value := by
    intro l r e tl hst he' hp
    have := push_ok hp
    subst this
    intro x hx
    rcases List.mem_cons.1 hx with rfl | hx
    · exact he'
    · exact hs x (by rw [hst]; simp [hx])
  match o, st, h with
  | .bin op, r :: l :: tl, h =>
    obtain ⟨e, h1, h2⟩ := Outcome.bind_ok.1 h
    exact two rfl (combine_range (hs l (by simp)) (hs r (by simp)) h1) h2
  | .pcRel, r :: l :: tl, h =>
    obtain ⟨e, h1, h2⟩ := Outcome.bind_ok.1 h
    refine two rfl ?_ h2
    obtain ⟨sl, vl⟩ := l
    obtain ⟨sr, vr⟩ := r
    cases sl <;> cases sr <;> simp [combinePcRel] at h1
    obtain ⟨v, _, h4⟩ := Outcome.bind_ok.1 h1
    cases h4
    exact toI32_range _
  | .group, r :: l :: tl, h =>
    obtain ⟨e, h1, h2⟩ := Outcome.bind_ok.1 h
    refine two rfl ?_ h2
    obtain ⟨v, h3, h4⟩ := Outcome.bind_ok.1 h1
    cases h4
    exact he.group _ _ _ h3
  | .un op, a :: tl, h =>
    obtain ⟨e, h1, h2⟩ := Outcome.bind_ok.1 h
    have := push_ok h2
    subst this
    intro x hx
    rcases List.mem_cons.1 hx with rfl | hx
    · obtain ⟨sa, va⟩ := a
      cases sa <;> simp [combineUn] at h1
      subst h1
      simp only [linkUn_eq]
      exact meaningUn_range _ _ _
    · exact hs x (by simp [hx])
  | .bin _, [], h => simp [step] at h
  | .bin _, [_], h => simp [step] at h
  | .pcRel, [], h => simp [step] at h
  | .pcRel, [_], h => simp [step] at h
  | .group, [], h => simp [step] at h
  | .group, [_], h => simp [step] at h
  | .un _, [], h => simp [step] at h

theorem run_range {fm : FMath} {env : Env} (he : EnvOk env) : ∀ (n : Nat) {bs : Bytes} {st st' : List Entry},
    bs.length ≤ n → (∀ e ∈ st, I32 e.value) → run fm env bs st = .ok (some st') → ∀ e ∈ st', I32 e.value := by
  have hcons : ∀ {e : Entry} {st st' : List Entry}, (∀ e ∈ st, I32 e.value) → I32 e.value →
      push e st = .ok st' → ∀ e ∈ st', I32 e.value := by
    intro e st st' hs h1 h2
    have := push_ok h2
    subst this
    intro x hx
    rcases List.mem_cons.1 hx with rfl | hx
    · exact h1
    · exact hs x hx
  intro n
  induction n with
  | zero =>
    intro bs st st' hn hs h
    have : bs = [] := List.length_eq_zero_iff.1 (by omega)
    subst this
    rw [run] at h
    cases h
    exact hs
  | succ n ih =>
    intro bs st st' hn hs h
    match bs with
    | [] => rw [run] at h; cases h; exact hs
    | op :: bs =>
      rw [run.eq_def] at h
      simp only at h
      by_cases h30 : op.toNat = 30
      · rw [if_pos h30] at h
        match bs, h with
        | a :: b :: c :: d :: bs, h =>
          obtain ⟨s2, h1, h2⟩ := Outcome.bind_ok.1 h
          simp only [List.length_cons] at hn
          exact ih (by omega) (hcons hs (toI32_range _) h1) h2
      · rw [if_neg h30] at h
        by_cases h31 : op.toNat = 31
        · rw [if_pos h31] at h
          match bs, h with
          | a :: b :: c :: d :: bs, h =>
            obtain ⟨e, h0, h⟩ := Outcome.bind_ok.1 h
            obtain ⟨s2, h1, h2⟩ := Outcome.bind_ok.1 h
            simp only [List.length_cons] at hn
            exact ih (by omega) (hcons hs (he.symbol _ _ h0) h1) h2
        · rw [if_neg h31] at h
          by_cases h33 : op.toNat = 33
          · rw [if_pos h33] at h
            match bs, h with
            | a :: b :: c :: d :: bs, h =>
              obtain ⟨e, h0, h⟩ := Outcome.bind_ok.1 h
              cases e with
              | none => cases h
              | some v =>
                obtain ⟨s2, h1, h2⟩ := Outcome.bind_ok.1 h
                simp only [List.length_cons] at hn
                exact ih (by omega) (hcons hs (he.bank _ _ h0) h1) h2
          · rw [if_neg h33] at h
            cases ho : stackOp op.toNat with
            | none => rw [ho] at h; cases h
            | some o =>
              rw [ho] at h
              obtain ⟨s2, h1, h2⟩ := Outcome.bind_ok.1 h
              simp only [List.length_cons] at hn
              exact ih (by omega) (step_range he hs h1) h2

theorem calculate_range {fm : FMath} {env : Env} (he : EnvOk env) {bs : Bytes} {e : Entry}
    (h : calculate fm env bs = .ok (some e)) : I32 e.value := by
  obtain ⟨r, h1, h2⟩ := Outcome.bind_ok.1 h
  match r, h1, h2 with
  | some [x], h1, h2 =>
    simp only [Outcome.ok.injEq, Option.some.injEq] at h2
    subst h2
    exact run_range he bs.length (Nat.le_refl _) (by simp) h1 x (by simp)

/-- The environment of a patch: that of its section, with the patch's own offset. -/
def envAt (env : Env) (p : SPatch) : Env := { env with offset := p.offset }

/-- What one patch does: either its expression yields nothing and nothing happens, or its value is stored. -/
theorem applyPatch_ok {fm : FMath} {ar osr : Bool} {env : Env} (he : EnvOk env) {p p' : SPatch} (hp : p.Ok)
    {data data' : Bytes} (hd : data.length < 4294967296)
    (h : applyPatch fm ar osr env p data = .ok (p', data')) :
    (calculate fm (envAt env p) p.expression = .ok none ∧ p' = p ∧ data' = data) ∨
    ∃ e v q, calculate fm (envAt env p) p.expression = .ok (some e) ∧
      relocate ar osr p e = .ok (v, q) ∧ p' = finish ar q ∧ I32 v ∧ Fits p.type v ∧
      (p.type < 3 → e.sym = none) ∧ Stored p.type p.offset v data data' := by
  unfold applyPatch at h
  obtain ⟨r, h1, h2⟩ := Outcome.bind_ok.1 h
  cases r with
  | none => cases h2; exact Or.inl ⟨h1, rfl, rfl⟩
  | some e =>
    obtain ⟨⟨v, q⟩, h3, h4⟩ := Outcome.bind_ok.1 h2
    obtain ⟨d2, h5, h6⟩ := Outcome.bind_ok.1 h4
    simp only [Outcome.ok.injEq, Prod.mk.injEq] at h6
    obtain ⟨rfl, rfl⟩ := h6
    have he' : EnvOk (envAt env p) := ⟨he.symbol, he.bank, he.group⟩
    have hev : I32 e.value := calculate_range he' h1
    have hv : I32 v := by
      unfold relocate at h3
      cases hs : e.sym with
      | none => rw [hs] at h3; cases h3; exact hev
      | some s =>
        rw [hs] at h3
        simp only at h3
        by_cases h7 : (!ar) = true
        · rw [if_pos h7] at h3; cases h3
        · rw [if_neg h7] at h3
          by_cases h8 : (osr || s.isLocal) = true
          · rw [if_pos h8] at h3
            obtain ⟨w, h9, h10⟩ := Outcome.bind_ok.1 h3
            cases h10
            exact (chk_ok.1 h9).2
          · rw [if_neg h8] at h3; cases h3; exact hev
    have hst := (store_iff hp.1 hp.2 hd hv).1 h5
    refine Or.inr ⟨e, v, q, h1, h3, rfl, hv, hst.1, ?_, store_stored hp.1 hp.2 hd hv h5⟩
    intro ht
    have := hst.2.1 ht
    cases hs : e.sym with
    | none => rfl
    | some s => rw [hs] at this; simp at this

/-- C13, the frame: applying the patches of a section keeps its size, and changes no byte outside the windows of
the patches. -/
theorem C13_other_bytes_unchanged (fm : FMath) (ar osr : Bool) (env : Env) (he : EnvOk env) (ps ps' : List SPatch)
    (hp : ∀ p ∈ ps, p.Ok) (data data' : Bytes) (hd : data.length < 4294967296)
    (h : patchSection fm ar osr env ps data = .ok (ps', data')) :
    data'.length = data.length ∧ ∀ i : Nat, Untouched ps i → data'[i]? = data[i]? := by
  induction ps generalizing data ps' with
  | nil => cases h; exact ⟨rfl, fun _ _ => rfl⟩
  | cons p ps ih =>
    obtain ⟨⟨p1, d1⟩, h1, h2⟩ := Outcome.bind_ok.1 h
    obtain ⟨⟨ps2, d2⟩, h3, h4⟩ := Outcome.bind_ok.1 h2
    simp only [Outcome.ok.injEq, Prod.mk.injEq] at h4
    obtain ⟨rfl, rfl⟩ := h4
    have key : d1.length = data.length ∧
        ∀ i : Nat, ¬ (p.offset ≤ i ∧ i < p.offset + width p.type) → d1[i]? = data[i]? := by
      rcases applyPatch_ok he (hp p (by simp)) hd h1 with ⟨_, _, rfl⟩ | ⟨e, v, q, _, _, _, _, _, _, hst⟩
      · exact ⟨rfl, fun _ _ => rfl⟩
      · exact ⟨hst.length, hst.outside⟩
    obtain ⟨g1, g2⟩ := ih ps2 (fun p hp' => hp p (by simp [hp'])) d1 (by rw [key.1]; exact hd) h3
    refine ⟨by rw [g1, key.1], ?_⟩
    intro i hi
    rw [g2 i (fun q hq => hi q (by simp [hq])), key.2 i (hi p (by simp))]

theorem window_eq {type offset : Nat} {a b : Bytes}
    (h : ∀ i : Nat, offset ≤ i ∧ i < offset + width type → a[i]? = b[i]?) : window type offset a = window type offset b := by
  unfold window
  apply List.ext_getElem?
  intro j
  simp only [List.getElem?_take, List.getElem?_drop]
  by_cases hj : j < width type
  · rw [if_pos hj, if_pos hj]
    exact h _ ⟨by omega, by omega⟩
  · rw [if_neg hj, if_neg hj]

/-- C13 for relocatable and absolute values: after the patches of a section have been applied, each window reads
as the number that was to be stored, unless the expression had no value at all. -/
theorem C13_patches_stored (fm : FMath) (ar osr : Bool) (env : Env) (he : EnvOk env) (ps ps' : List SPatch)
    (hp : ∀ p ∈ ps, p.Ok) (hap : ps.Pairwise Apart) (data data' : Bytes) (hd : data.length < 4294967296)
    (h : patchSection fm ar osr env ps data = .ok (ps', data')) :
    All2 (fun p p' =>
      (calculate fm (envAt env p) p.expression = .ok none ∧ p' = p ∧
        window p.type p.offset data' = window p.type p.offset data) ∨
      ∃ e v q, calculate fm (envAt env p) p.expression = .ok (some e) ∧
        relocate ar osr p e = .ok (v, q) ∧ p' = finish ar q ∧ Fits p.type v ∧ (p.type < 3 → e.sym = none) ∧
        (decode p.type (window p.type p.offset data') : Int) = v % (256 : Int) ^ width p.type) ps ps' := by
  induction ps generalizing data ps' with
  | nil => cases h; exact .nil
  | cons p ps ih =>
    obtain ⟨⟨p1, d1⟩, h1, h2⟩ := Outcome.bind_ok.1 h
    obtain ⟨⟨ps2, d2⟩, h3, h4⟩ := Outcome.bind_ok.1 h2
    simp only [Outcome.ok.injEq, Prod.mk.injEq] at h4
    obtain ⟨rfl, rfl⟩ := h4
    have hap' := List.pairwise_cons.1 hap
    have hl : d1.length = data.length := by
      rcases applyPatch_ok he (hp p (by simp)) hd h1 with ⟨_, _, rfl⟩ | ⟨e, v, q, _, _, _, _, _, _, hst⟩
      · rfl
      · exact hst.length
    have hps : ∀ q ∈ ps, q.Ok := fun q hq => hp q (by simp [hq])
    have hd1 : d1.length < 4294967296 := by rw [hl]; exact hd
    have hframe := C13_other_bytes_unchanged fm ar osr env he ps ps2 hps d1 d2 hd1 h3
    have hwin : window p.type p.offset d2 = window p.type p.offset d1 := by
      apply window_eq
      intro i hi
      apply hframe.2
      intro q hq
      have := hap'.1 q hq
      unfold Apart at this
      omega
    refine .cons ?_ ?_
    · rcases applyPatch_ok he (hp p (by simp)) hd h1 with ⟨g1, g2, rfl⟩ | ⟨e, v, q, g1, g2, g3, _, g4, g5, hst⟩
      · exact Or.inl ⟨g1, g2, hwin⟩
      · exact Or.inr ⟨e, v, q, g1, g2, g3, g4, g5, by rw [hwin]; exact hst.value⟩
    · have hb : ∀ q ∈ ps, window q.type q.offset d1 = window q.type q.offset data := by
        intro q hq
        apply window_eq
        intro i hi
        rcases applyPatch_ok he (hp p (by simp)) hd h1 with ⟨_, _, rfl⟩ | ⟨e, v, q', _, _, _, _, _, _, hst⟩
        · rfl
        · apply hst.outside
          have := hap'.1 q hq
          unfold Apart at this
          omega
      have := ih ps2 hps hap'.2 d1 hd1 h3
      clear ih h h1 h2 h3 hframe hap hap' hwin hps hp
      induction this with
      | nil => exact .nil
      | cons hr _ ih2 =>
        refine .cons ?_ (ih2 (fun q hq => hb q (by simp [hq])))
        rcases hr with ⟨g1, g2, g3⟩ | g
        · exact Or.inl ⟨g1, g2, by rw [g3]; exact hb _ (by simp)⟩
        · exact Or.inr g

/-- C13, end to end for output with fixed addresses: the patches of a section were written as expression trees and
patching succeeds. Then each patch whose expression has a value has been stored: the bytes in its window read as
that value, the value fits the patch and nothing was truncated. -/
theorem C13_values_stored (fm : FMath) (osr : Bool) (env : Env) (ρ : SPatch → Den) (ps ps' : List SPatch)
    (hρ : ∀ p ∈ ps, (envAt env p).Places (ρ p))
    (tree : SPatch → Tree) (ht : ∀ p ∈ ps, p.expression = (tree p).serialize ∧ (tree p).Ok)
    (hp : ∀ p ∈ ps, p.Ok) (hap : ps.Pairwise Apart) (data data' : Bytes) (hd : data.length < 4294967296)
    (h : patchSection fm false osr env ps data = .ok (ps', data')) :
    ∀ p ∈ ps, calculate fm (envAt env p) p.expression ≠ .ok none →
      ∃ v, (tree p).value fm (ρ p) = some v ∧ Fits p.type v ∧
        (decode p.type (window p.type p.offset data') : Int) = v % (256 : Int) ^ width p.type := by
  by_cases hne : ps = []
  · subst hne; simp
  obtain ⟨p0, hp0⟩ := List.exists_mem_of_ne_nil ps hne
  have he : EnvOk env := by
    have hpl := hρ p0 hp0
    refine ⟨?_, ?_, ?_⟩
    · intro id e h1
      have h2 := hpl.absolute id e h1
      obtain ⟨s, v⟩ := e
      subst h2
      exact hpl.symRange id v ((hpl.symbol id v).1 h1)
    · intro id v h1
      exact hpl.bankRange id v ((hpl.bank id v).1 h1)
    · intro a b v h1
      exact hpl.groupRange a b v ((hpl.group a b v).1 h1)
  have hall := C13_patches_stored fm false osr env he ps ps' hp hap data data' hd h
  intro p hpm hn
  obtain ⟨i, hi⟩ := List.mem_iff_getElem?.1 hpm
  obtain ⟨p', _, hr⟩ := hall.get_right hi
  rcases hr with ⟨g1, _⟩ | ⟨e, v, q, g1, g2, _, g3, _, g4⟩
  · exact absurd g1 hn
  · rw [(ht p hpm).1] at g1
    obtain ⟨hs, hv⟩ := C12_link_value_is_value fm _ (ρ p) (hρ p hpm) (tree p) (ht p hpm).2 e g1
    unfold relocate at g2
    rw [hs] at g2
    simp only [Outcome.ok.injEq, Prod.mk.injEq] at g2
    obtain ⟨rfl, _⟩ := g2
    exact ⟨e.value, hv, g3, g4⟩

/-- C13, acceptance: patches inside the section whose expressions have values that fit are applied; the linker does
not refuse them. -/
theorem C13_fitting_values_accepted (fm : FMath) (ar osr : Bool) (env : Env) (ps : List SPatch)
    (hp : ∀ p ∈ ps, p.Ok)
    (val : SPatch → Int)
    (hv : ∀ p ∈ ps, calculate fm (envAt env p) p.expression = .ok (some ⟨none, val p⟩) ∧ I32 (val p) ∧
      Fits p.type (val p)) (data : Bytes) (hd : data.length < 4294967296)
    (hin : ∀ p ∈ ps, p.offset + width p.type ≤ data.length) :
    ∃ ps' data', patchSection fm ar osr env ps data = .ok (ps', data') := by
  induction ps generalizing data with
  | nil => exact ⟨[], data, rfl⟩
  | cons p ps ih =>
    have h1 := hv p (by simp)
    have h2 := hp p (by simp)
    have h3 := hin p (by simp)
    have hst := (store_iff (r := false) (data := data) (data' := splice data p.offset (bytesOf p.type (u32 (val p))))
      h2.1 h2.2 hd h1.2.1).2 ⟨h1.2.2, fun _ => rfl, h3, rfl⟩
    have hl := (store_stored h2.1 h2.2 hd h1.2.1 hst).length
    obtain ⟨ps', data', h4⟩ := ih (fun q hq => hp q (by simp [hq])) (fun q hq => hv q (by simp [hq]))
      (splice data p.offset (bytesOf p.type (u32 (val p)))) (by rw [hl]; exact hd)
      (fun q hq => by rw [hl]; exact hin q (by simp [hq]))
    refine ⟨finish ar p :: ps', data', ?_⟩
    refine Outcome.bind_ok.2 ⟨(finish ar p, splice data p.offset (bytesOf p.type (u32 (val p)))), ?_, ?_⟩
    · unfold applyPatch
      refine Outcome.bind_ok.2 ⟨_, h1.1, ?_⟩
      refine Outcome.bind_ok.2 ⟨(val p, p), rfl, ?_⟩
      exact Outcome.bind_ok.2 ⟨_, hst, rfl⟩
    · exact Outcome.bind_ok.2 ⟨(ps', data'), h4, rfl⟩

/-- Relocation: a 32-bit patch with a relocatable value stores the number that becomes the value of the expression
when the address at which the section of the patch's relocation is loaded is added to it. -/
theorem C13_relocation (fm : FMath) (env : Env) (ρ : Den) (base : Nat → Int) (addr : RelSym → Int) (p q : SPatch)
    (t : Tree) (ht : p.expression = t.serialize) (hok : t.Ok) (hr : (envAt env p).Relocates ρ base addr)
    (hs : t.PlainDiff fm (envAt env p)) (hg : t.GroupsAbsolute fm (envAt env p)) (e : Entry) (s : RelSym) (i : Nat)
    (he : calculate fm (envAt env p) p.expression = .ok (some e)) (hes : e.sym = some s) (hi : s.sect = some i)
    (stored : Int) (hrel : relocate true true p e = .ok (stored, q)) (v : Int) (hv : t.value fm ρ = some v) :
    q.valueSection = some i ∧ stored + base i = v := by
  rw [ht] at he
  have h1 := C12_relocatable_value fm _ ρ base addr hr t hok hs hg e v he hv
  have h2 := hr.placed s i hi
  unfold relocate at hrel
  rw [hes] at hrel
  simp only [Bool.not_true, Bool.false_eq_true, if_false, Bool.true_or, if_true] at hrel
  obtain ⟨w, h3, h4⟩ := Outcome.bind_ok.1 hrel
  simp only [Outcome.ok.injEq, Prod.mk.injEq] at h4
  obtain ⟨rfl, rfl⟩ := h4
  have h5 := (chk_ok.1 h3).1
  refine ⟨hi, ?_⟩
  rw [h1, Entry.at, hes]
  simp only
  omega

/-- C13 for relocatable output, all patches of a section: what is left of a patch whose value is relocatable says
where the value is (`offset`) and which section's address has to be added to it (`valueSection`); adding it gives the
value of the expression. A patch with an absolute value leaves no relocation. -/
theorem C13_relocations (fm : FMath) (env : Env) (he : EnvOk env) (base : Nat → Int) (addr : RelSym → Int)
    (ρ : SPatch → Den) (tree : SPatch → Tree) (ps ps' : List SPatch) (hp : ∀ p ∈ ps, p.Ok)
    (hfresh : ∀ p ∈ ps, p.valueSection = none ∧ p.valueSymbol = none)
    (ht : ∀ p ∈ ps, p.expression = (tree p).serialize ∧ (tree p).Ok ∧
      (envAt env p).Relocates (ρ p) base addr ∧ (tree p).PlainDiff fm (envAt env p) ∧
      (tree p).GroupsAbsolute fm (envAt env p))
    (hap : ps.Pairwise Apart) (data data' : Bytes) (hd : data.length < 4294967296)
    (h : patchSection fm true true env ps data = .ok (ps', data')) :
    All2 (fun p p' => ∀ e, calculate fm (envAt env p) p.expression = .ok (some e) →
      p'.type = 6 ∧ p'.offset = p.offset ∧ p'.valueSymbol = none ∧
      match e.sym with
      | none => p'.valueSection = none
      | some s => width p.type = 4 ∧ p'.valueSection = s.sect ∧ ∀ i v, s.sect = some i →
          (tree p).value fm (ρ p) = some v →
          ((decode p.type (window p.type p.offset data') : Int) + base i) % 4294967296 = v % 4294967296) ps ps' := by
  have hall := C13_patches_stored fm true true env he ps ps' hp hap data data' hd h
  have hmem : ∀ (ps ps' : List SPatch) (R : SPatch → SPatch → Prop), All2 R ps ps' →
      All2 (fun p p' => p ∈ ps ∧ R p p') ps ps' := by
    intro ps ps' R h
    induction h with
    | nil => exact .nil
    | cons h _ ih => exact .cons ⟨by simp, h⟩ (ih.imp fun a b hab => ⟨by simp [hab.1], hab.2⟩)
  refine (hmem _ _ _ hall).imp ?_
  rintro p p' ⟨hpm, hr⟩ e he'
  rcases hr with ⟨g1, _⟩ | ⟨e1, v1, q, g1, g2, rfl, g3, g4, g5⟩
  · rw [he'] at g1; cases g1
  rw [he'] at g1
  obtain rfl : e = e1 := by injection g1 with g1; injection g1
  obtain ⟨t1, t2, t3, t4, t5⟩ := ht p hpm
  obtain ⟨f1, f2⟩ := hfresh p hpm
  cases hs : e.sym with
  | none =>
    unfold relocate at g2
    rw [hs] at g2
    simp only [Outcome.ok.injEq, Prod.mk.injEq] at g2
    obtain ⟨rfl, rfl⟩ := g2
    exact ⟨rfl, rfl, f2, f1⟩
  | some s =>
    have hw : width p.type = 4 := by
      have h1 := (hp p hpm).1
      have h2 : ¬ p.type < 3 := fun h => by rw [hs] at g4; cases g4 h
      have : p.type = 3 ∨ p.type = 4 := by omega
      rcases this with h | h <;> rw [h] <;> rfl
    have g2' := g2
    unfold relocate at g2
    rw [hs] at g2
    simp only [Bool.not_true, Bool.false_eq_true, if_false, Bool.true_or, if_true] at g2
    obtain ⟨w, h3, h4⟩ := Outcome.bind_ok.1 g2
    simp only [Outcome.ok.injEq, Prod.mk.injEq] at h4
    obtain ⟨rfl, rfl⟩ := h4
    refine ⟨rfl, rfl, rfl, hw, rfl, ?_⟩
    intro i v hi hv
    obtain ⟨_, h5⟩ := C13_relocation fm env (ρ p) base addr p _ (tree p) t1 t2 t3 t4 t5 e s i he' hs hi _ g2' v hv
    rw [g5, hw, ← h5]
    have e4 : (256 : Int) ^ 4 = 4294967296 := by decide
    rw [e4]
    omega

/-! ### A concrete case -/

def patch0 : SPatch := ⟨2, none, none, 1, (Tree.bin .sub (.sym 1) (.sym 0)).serialize⟩
def patch1 : SPatch := ⟨0, none, none, 3, (Tree.bin .and (.sym 0) (.const 255)).serialize⟩

example : patchSection fm0 false false env0 [patch0, patch1] [9, 9, 9, 9, 9] =
    .ok ([⟨5, none, none, 0, []⟩, ⟨5, none, none, 0, []⟩], [9, 0x6D, 0xCC, 0x34, 9]) := by decide +kernel
example : [patch0, patch1].Pairwise Apart := by
  refine .cons ?_ (.cons (by simp) .nil)
  intro q hq; simp at hq; subst hq; left; decide
example : ∀ p ∈ [patch0, patch1], p.Ok := by intro p hp; simp at hp; rcases hp with rfl | rfl <;> (constructor <;> decide)

/-- Symbol 0 is 8 bytes into section 3, which is not placed yet. -/
def envReloc : Env where
  symbol := fun i => if i = 0 then .ok ⟨some ⟨7, some 3, 8, false⟩, 0⟩ else .fail
  bank := fun _ => .ok none
  groupProperty := fun _ _ => .fail
  cpuLocation := 0
  offset := 0

example : patchSection fm0 true true envReloc [⟨4, none, none, 1, (Tree.bin .add (.sym 0) (.const 2)).serialize⟩]
    [9, 9, 9, 9, 9] = .ok ([⟨6, none, some 3, 1, []⟩], [9, 0, 0, 0, 10]) := by decide +kernel

/-- A value that does not fit is refused. -/
example : patchSection fm0 false false env0 [⟨0, none, none, 0, (Tree.sym 1).serialize⟩] [9] = .fail := by
  decide +kernel

/-! ### Where the code does not do what is expected -/

/-- C13 fails for `BANK` of a symbol whose section has no bank: the link succeeds, no value is stored, and the
operand keeps whatever the assembler left there. -/
theorem C13_bank_patch_silently_skipped :
    ∃ (env : Env) (p : SPatch) (data : Bytes), p.Ok ∧ p.expression = (Tree.bank 0).serialize ∧
      patchSection fm0 false false env [p] data = .ok ([p], data) :=
  ⟨env0, ⟨0, none, none, 0, (Tree.bank 0).serialize⟩, [9], by constructor <;> decide, rfl, by decide +kernel⟩

/-- C13 fails for objects with a patch beyond the end of its section: nothing checks the offset, the linker writes
outside of the buffer. -/
theorem C13_patch_offset_unchecked :
    ∃ (env : Env) (p : SPatch) (data : Bytes), p.Ok ∧ p.expression = (Tree.const 1).serialize ∧
      patchSection fm0 false false env [p] data = .ub :=
  ⟨env0, ⟨1, none, none, 1, (Tree.const 1).serialize⟩, [9, 9], by constructor <;> decide, rfl, by decide +kernel⟩

end Verif.Patch
