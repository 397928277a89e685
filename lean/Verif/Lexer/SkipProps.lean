import Verif.Lexer.SkipSpec
import Verif.Lexer.NumberProps
/-!
# C34: skipped text ends at the matching directive
-/
namespace Verif.Lexer

/-! ### Directives -/

theorem closer_eq (d : Dir) : closer d = (begins d).map ends := by cases d <;> rfl

section

variable {σ α : Type} {id : σ → Dir} {next : σ → Outcome (Bool × σ)} {dir : α → Option Dir} {R : σ → List α → Prop}

/-- The directives of a list, each with what follows it. -/
def events (dir : α → Option Dir) : List α → List (Dir × List α)
  | [] => []
  | a :: as => match dir a with
    | some d => (d, as) :: events dir as
    | none => events dir as

theorem events_append {pre as : List α} (h : ∀ a ∈ pre, dir a = none) : events dir (pre ++ as) = events dir as := by
  induction pre with
  | nil => rfl
  | cons a pre ih =>
    show events dir (a :: (pre ++ as)) = _
    rw [events, h a (by simp)]
    exact ih (fun b hb => h b (by simp [hb]))

theorem events_split {as : List α} {d : Dir} {r : List α} {evs : List (Dir × List α)} (h : events dir as = (d, r) :: evs) :
    ∃ pre a, as = pre ++ a :: r ∧ (∀ b ∈ pre, dir b = none) ∧ dir a = some d ∧ events dir r = evs := by
  induction as with
  | nil => cases h
  | cons a as ih =>
    rw [events] at h
    cases ha : dir a with
    | some d' =>
      rw [ha] at h
      injection h with h1 h2
      injection h1 with h3 h4
      subst h3 h4
      exact ⟨[], a, rfl, by simp, ha, h2⟩
    | none =>
      rw [ha] at h
      obtain ⟨pre, b, h1, h2, h3, h4⟩ := ih h
      refine ⟨a :: pre, b, by rw [h1]; rfl, ?_, h3, h4⟩
      intro c hc
      rcases List.mem_cons.mp hc with rfl | hc
      · exact ha
      · exact h2 c hc

theorem events_fst (as : List α) : (events dir as).map Prod.fst = as.filterMap dir := by
  induction as with
  | nil => rfl
  | cons a as ih =>
    rw [events]
    cases ha : dir a with
    | some d => simp [ha, ih]
    | none => simp [ha, ih]

theorem events_nil {as : List α} (h : events dir as = []) : ∀ a ∈ as, dir a = none := by
  have := events_fst (dir := dir) as
  rw [h] at this
  simpa using this.symm

/-- `next` goes from directive to directive. -/
structure Follows (id : σ → Dir) (next : σ → Outcome (Bool × σ)) (dir : α → Option Dir) (R : σ → List α → Prop) : Prop where
  some : ∀ s as d r evs, R s as → events dir as = (d, r) :: evs → ∃ s', next s = .ok (true, s') ∧ id s' = d ∧ R s' r
  none : ∀ s as, R s as → events dir as = [] → ∃ s', next s = .ok (false, s') ∧ id s' = id s

/-- The token is the first of the directives, the others are still to come. -/
def Sees (id : σ → Dir) (dir : α → Option Dir) (R : σ → List α → Prop) (s : σ) : List (Dir × List α) → Prop
  | [] => False
  | (d, r) :: evs => id s = d ∧ R s r ∧ events dir r = evs

theorem Follows.step (hf : Follows id next dir R) {s : σ} {d e : Dir} {r r' : List α} {evs : List (Dir × List α)}
    (h : Sees id dir R s ((d, r) :: (e, r') :: evs)) : ∃ s', next s = .ok (true, s') ∧ Sees id dir R s' ((e, r') :: evs) := by
  obtain ⟨_, hR, he⟩ := h
  obtain ⟨s', h1, h2, h3⟩ := hf.some s r e r' evs hR he
  obtain ⟨_, _, _, _, _, h4⟩ := events_split he
  exact ⟨s', h1, h2, h3, h4⟩

theorem Follows.step' (hf : Follows id next dir R) {s : σ} {d : Dir} {r : List α} {evs : List (Dir × List α)} {ev : Dir × List α}
    {evs' : List (Dir × List α)} (h : Sees id dir R s ((d, r) :: (evs ++ ev :: evs'))) :
    ∃ s', next s = .ok (true, s') ∧ Sees id dir R s' (evs ++ ev :: evs') := by
  cases evs with
  | nil => exact hf.step h
  | cons _ _ => exact hf.step h

/-- Complete blocks are skipped. -/
theorem skipTo_complete (hf : Follows id next dir R) {p : Dir → Prop} {ds : List Dir} (hc : Complete p ds) :
    ∀ (stop : Dir → Bool), (∀ d, stop d = true ↔ p d) → ∀ (evs : List (Dir × List α)), evs.map Prod.fst = ds →
    ∀ (ev : Dir × List α) (evs' : List (Dir × List α)) (s : σ), Sees id dir R s (evs ++ ev :: evs') →
    ∀ (fuel : Nat), ds.length < fuel →
    ∃ s' fuel', skipTo id next fuel stop s = skipTo id next fuel' stop s' ∧ fuel ≤ fuel' + ds.length ∧ Sees id dir R s' (ev :: evs') := by
  induction hc with
  | nil p =>
    intro stop hstop evs hevs ev evs' s hs fuel hfuel
    have : evs = [] := by simpa using hevs
    subst this
    exact ⟨s, fuel, rfl, by simp, hs⟩
  | @plain p d ds hb hd _ ih =>
    intro stop hstop evs hevs ev evs' s hs fuel hfuel
    obtain ⟨f, rfl⟩ : ∃ f, fuel = f + 1 := ⟨fuel - 1, by omega⟩
    cases evs with
    | nil => cases hevs
    | cons e evs =>
      obtain ⟨d', r0⟩ := e
      simp only [List.map_cons, List.cons.injEq] at hevs
      obtain ⟨rfl, hevs⟩ := hevs
      have hid : id s = d' := hs.1
      have hns : ¬ stop (id s) = true := by rw [hid, hstop]; exact hd
      have hcl : closer (id s) = none := by rw [hid, closer_eq, hb]; rfl
      obtain ⟨s1, h1, h2⟩ := hf.step' hs
      simp only [List.length_cons] at hfuel
      obtain ⟨s2, f2, h3, h3', h4⟩ := ih stop hstop evs hevs ev evs' s1 h2 f (by omega)
      refine ⟨s2, f2, ?_, by simp only [List.length_cons]; omega, h4⟩
      rw [skipTo, if_neg hns, hcl]
      show (next s).bind _ = _
      rw [h1, ok_bind]
      exact h3
  | @block p d k body ds hb hd _ _ ihb ih =>
    intro stop hstop evs hevs ev evs' s hs fuel hfuel
    obtain ⟨f, rfl⟩ : ∃ f, fuel = f + 1 := ⟨fuel - 1, by omega⟩
    cases evs with
    | nil => cases hevs
    | cons e evs =>
      obtain ⟨d', r0⟩ := e
      simp only [List.map_cons, List.cons.injEq] at hevs
      obtain ⟨rfl, hevs⟩ := hevs
      obtain ⟨eb, ec, rfl, hebody, hec⟩ := List.map_eq_append_iff.mp hevs
      cases ec with
      | nil => cases hec
      | cons ec er =>
        obtain ⟨c, rc⟩ := ec
        simp only [List.map_cons, List.cons.injEq] at hec
        obtain ⟨rfl, her⟩ := hec
        have hid : id s = d' := hs.1
        have hns : ¬ stop (id s) = true := by rw [hid, hstop]; exact hd
        have hcl : closer (id s) = some (ends k) := by rw [hid, closer_eq, hb]; rfl
        have hs' : Sees id dir R s ((d', r0) :: (eb ++ (ends k, rc) :: (er ++ ev :: evs'))) := by simpa using hs
        obtain ⟨s1, h1, h2⟩ := hf.step' hs'
        simp only [List.length_cons, List.length_append] at hfuel
        obtain ⟨s2, f2, h3, h3', h4⟩ := ihb (· == ends k) (by intro d; simp) eb hebody (ends k, rc) _ s1 h2 f (by omega)
        obtain ⟨g, rfl⟩ : ∃ g, f2 = g + 1 := ⟨f2 - 1, by omega⟩
        have hfound : skipTo id next (g + 1) (· == ends k) s2 = .ok (true, s2) := by
          rw [skipTo, if_pos]
          have hid2 : id s2 = ends k := h4.1
          simp [hid2]
        obtain ⟨s3, h5, h6⟩ := hf.step' h4
        obtain ⟨s4, f4, h7, h7', h8⟩ := ih stop hstop er her ev evs' s3 h6 f (by omega)
        refine ⟨s4, f4, ?_, by simp only [List.length_cons, List.length_append]; omega, h8⟩
        rw [skipTo, if_neg hns, hcl]
        show (next s).bind _ = _
        rw [h1, ok_bind]
        show (skipTo id next f (· == ends k) s1).bind _ = _
        rw [h3, hfound, ok_bind]
        show (if true = true then (next s2).bind _ else _) = _
        rw [if_pos rfl, h5, ok_bind]
        exact h7

/-- From any token that neither begins a block nor is looked for. -/
theorem skipTo_found (hf : Follows id next dir R) {p : Dir → Prop} {stop : Dir → Bool} (hstop : ∀ d, stop d = true ↔ p d)
    {pre post : List α} {a : α} {t : Dir} (hc : Complete p (pre.filterMap dir)) (ha : dir a = some t) (ht : p t)
    {s : σ} (hR : R s (pre ++ a :: post)) (hb : begins (id s) = none) (hs : ¬ p (id s)) {fuel : Nat}
    (hfuel : pre.length + 2 ≤ fuel) : ∃ s', skipTo id next fuel stop s = .ok (true, s') ∧ id s' = t ∧ R s' post := by
  have hev : ∀ pre : List α, ∃ evs, events dir (pre ++ a :: post) = evs ++ (t, post) :: events dir post ∧
      evs.map Prod.fst = pre.filterMap dir := by
    intro pre
    induction pre with
    | nil => exact ⟨[], by simp [events, ha], rfl⟩
    | cons b pre ih =>
      obtain ⟨evs, h1, h2⟩ := ih
      cases hb : dir b with
      | none => exact ⟨evs, by simp [events, hb, h1], by simp [hb, h2]⟩
      | some d => exact ⟨(d, pre ++ a :: post) :: evs, by simp [events, hb, h1], by simp [hb, h2]⟩
  obtain ⟨evs, h1, h2⟩ := hev pre
  have hlen := List.length_filterMap_le dir pre
  obtain ⟨s', f', h3, h3', h4⟩ := skipTo_complete hf (Complete.plain hb hs hc) stop hstop ((id s, pre ++ a :: post) :: evs)
    (by simp [h2]) (t, post) (events dir post) s ⟨rfl, hR, h1⟩ fuel (by simp only [List.length_cons]; omega)
  refine ⟨s', ?_, h4.1, h4.2.1⟩
  simp only [List.length_cons] at h3'
  obtain ⟨g, rfl⟩ : ∃ g, f' = g + 1 := ⟨f' - 1, by omega⟩
  rw [h3, skipTo, if_pos]
  have h5 : id s' = t := h4.1
  rw [h5]; exact (hstop t).mpr ht

/-- If there are only complete blocks and the last directive ends no block, nothing is found. -/
theorem skipTo_missing (hf : Follows id next dir R) {p : Dir → Prop} {stop : Dir → Bool} (hstop : ∀ d, stop d = true ↔ p d)
    {as : List α} {s : σ} {ds : List Dir} {t : Dir} (hR : R s as) (hds : id s :: as.filterMap dir = ds ++ [t])
    (hc : Complete p ds) (hb : begins t = none) (hs : ¬ p t) {fuel : Nat} (hfuel : as.length + 2 ≤ fuel) :
    ∃ s', skipTo id next fuel stop s = .ok (false, s') ∧ id s' = t := by
  have hlen := List.length_filterMap_le dir as
  have hdl : ds.length = (as.filterMap dir).length := by
    have := congrArg List.length hds
    simpa using this.symm
  have hsee : Sees id dir R s ((id s, as) :: events dir as) := ⟨rfl, hR, rfl⟩
  have hmap : ((id s, as) :: events dir as).map Prod.fst = ds ++ [t] := by rw [← hds, List.map_cons, events_fst]
  obtain ⟨evs, last, heq, hevs, hlast⟩ := List.map_eq_append_iff.mp hmap
  rw [heq] at hsee
  cases last with
  | nil => cases hlast
  | cons ev evs' =>
    have : evs' = [] := by simpa using congrArg List.tail hlast
    subst this
    have hev : ev.1 = t := by simpa using hlast
    obtain ⟨s', f', h3, h3', h4⟩ := skipTo_complete hf hc stop hstop evs hevs ev [] s hsee fuel (by omega)
    obtain ⟨g, rfl⟩ : ∃ g, f' = g + 1 := ⟨f' - 1, by omega⟩
    obtain ⟨h5, h6, h7⟩ := h4
    rw [hev] at h5
    obtain ⟨s2, h8, h9⟩ := hf.none s' _ h6 h7
    refine ⟨s2, ?_, h9.trans h5⟩
    rw [h3, skipTo, if_neg (by rw [h5, hstop]; exact hs), h5, closer_eq, hb]
    show (next s').bind _ = _
    rw [h8]; rfl

end

end Verif.Lexer
