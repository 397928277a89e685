import Verif.Symbol.Props
/-!
# Offsets of fields (C36)
-/
namespace Verif.Symbol
open Spec (Path Entry Def World Result)

/-- `name RB count`, `RW` and `RL` with the multipliers 2 and 4; the name can be left out. -/
structure Res where
  name : Option String
  multiplier : Nat
  count : Nat
  deriving Repr, DecidableEq

namespace Res

def size (r : Res) : Nat := r.multiplier * r.count

def op (r : Res) : Op :=
  match r.name with
  | some n => .rsfield n r.multiplier r.count
  | none => .rsskip r.multiplier r.count

end Res

/-- The number of bytes reserved. -/
def total (rs : List Res) : Nat := (rs.map Res.size).sum

theorem counter_again {w : World} {v : Int} (hr : w.rs = true) (hc : (w.entry ["__RS"]).d = .variable v) :
    Spec.counter w = some (v, w) := by
  simp only [Spec.counter, hr, if_true, hc]

theorem advance_again {w : World} {v size : Int} (hr : w.rs = true) (hc : (w.entry ["__RS"]).d = .variable v)
    (hf : Spec.fits (v + size)) : Spec.advance size w = some (v, Spec.define ["__RS"] (.variable (v + size)) w) := by
  simp only [Spec.advance, counter_again hr hc, if_pos hf]

theorem enter_entry (n : String) (w : World) (p : Path) : (Spec.enter n w).entry p = w.entry p := by
  unfold Spec.enter
  split <;> rfl

theorem define_entry_other {p q : Path} (d : Def) (w : World) (h : q ≠ p) : (Spec.define p d w).entry q = w.entry q := by
  simp only [Spec.define, entry_put, if_neg h]

theorem set_ok {n : String} {u : Int} {w : World}
    (h : (w.entry (Spec.resolve n w)).d = .unknown ∨ ∃ v, (w.entry (Spec.resolve n w)).d = .variable v) :
    Spec.set n u w = Spec.enter n (Spec.define (Spec.resolve n w) (.variable u) w) := by
  unfold Spec.set
  rcases h with h | ⟨v, h⟩ <;> rw [h]

/-- Names of variables, and names not in use. -/
def Free (p : Path) (w : World) : Prop := (w.entry p).d = .unknown ∨ ∃ v, (w.entry p).d = .variable v

theorem fits_mono {a b c : Int} (ha : Spec.fits a) (hc : Spec.fits c) (h1 : a ≤ b) (h2 : b ≤ c) : Spec.fits b := by
  unfold Spec.fits at *
  omega

theorem total_cons (r : Res) (rs : List Res) : total (r :: rs) = r.size + total rs := by simp [total]

theorem size_cast (r : Res) : (r.multiplier : Int) * (r.count : Int) = (r.size : Int) := by
  rw [Res.size, Int.natCast_mul]

/-! ## Names that are not local -/

theorem field_global {r : Res} {w : World} {v : Int} (hr : w.rs = true) (hc : (w.entry ["__RS"]).d = .variable v)
    (hf : Spec.fits (v + r.size)) (hsz : Spec.fits r.size)
    (hn : ∀ n, r.name = some n → Spec.isLocal n = false ∧ n ≠ "__RS" ∧ Free [n] w) :
    ∃ w', Spec.step r.op w = .good w' ∧ w'.rs = true ∧ (w'.entry ["__RS"]).d = .variable (v + r.size) ∧
      w'.errors = w.errors ∧ (∀ n, r.name = some n → (w'.entry [n]).d = .variable v) ∧
      ∀ q, (∀ n, r.name = some n → q ≠ [n]) → q ≠ ["__RS"] → (w'.entry q).d = (w.entry q).d := by
  cases hname : r.name with
  | none =>
    have hstep : Spec.step r.op w = .good (Spec.define ["__RS"] (.variable (v + r.size)) w) := by
      simp only [Res.op, hname, Spec.step]
      rw [Int.mul_comm, size_cast, if_pos hsz, advance_again hr hc hf]
    refine ⟨_, hstep, hr, ?_, rfl, ?_, ?_⟩
    · rw [entry_define, if_pos rfl]
    · intro n h; cases h
    · intro q _ hq
      rw [define_entry_other _ _ hq]
  | some n =>
    obtain ⟨hl, hne, hfree⟩ := hn n hname
    have hdot : ¬ n.toList.head? = some '.' := by
      intro h
      unfold Spec.isLocal at hl
      cases ht : n.toList with
      | nil => rw [ht] at h; cases h
      | cons a as =>
        rw [ht] at h hl
        simp only [List.head?_cons, Option.some.injEq] at h
        simp [h] at hl
    have hp : ([n] : Path) ≠ ["__RS"] := by
      intro h
      injection h with h _
      exact hne h
    have hres : Spec.resolve n (Spec.define ["__RS"] (.variable (v + r.size)) w) = [n] := by
      simp [Spec.resolve, hl]
    have hset : Spec.set n v (Spec.define ["__RS"] (.variable (v + r.size)) w) =
        Spec.enter n (Spec.define [n] (.variable v) (Spec.define ["__RS"] (.variable (v + r.size)) w)) := by
      rw [set_ok, hres]
      rw [hres, define_entry_other _ _ hp]
      exact hfree
    have hstep : Spec.step r.op w =
        .good (Spec.enter n (Spec.define [n] (.variable v) (Spec.define ["__RS"] (.variable (v + r.size)) w))) := by
      simp only [Res.op, hname, Spec.step, Spec.field]
      rw [size_cast, if_pos hsz, if_neg hdot, advance_again hr hc hf]
      simp only [hset]
    refine ⟨_, hstep, ?_, ?_, ?_, ?_, ?_⟩
    · unfold Spec.enter
      split <;> exact hr
    · rw [enter_entry, entry_define, if_neg (Ne.symm hp), entry_define, if_pos rfl]
    · unfold Spec.enter
      split <;> rfl
    · rintro m h
      cases h
      rw [enter_entry, entry_define, if_pos rfl]
    · intro q h1 h2
      rw [enter_entry, define_entry_other _ _ (h1 n rfl), define_entry_other _ _ h2]

/-- The names of the reservations. -/
def names (rs : List Res) : List String := rs.filterMap Res.name

theorem names_some {r : Res} {rs : List Res} {n : String} (h : r.name = some n) : names (r :: rs) = n :: names rs := by
  simp [names, h]

theorem names_none {r : Res} {rs : List Res} (h : r.name = none) : names (r :: rs) = names rs := by
  simp [names, h]

theorem fits_zero : Spec.fits 0 := by decide

theorem fields_global (rs : List Res) {w : World} {v : Int} (hr : w.rs = true) (hc : (w.entry ["__RS"]).d = .variable v)
    (hv : Spec.fits v) (hf : Spec.fits (v + total rs)) (ht : Spec.fits (total rs)) (hnd : (names rs).Nodup)
    (hn : ∀ n ∈ names rs, Spec.isLocal n = false ∧ n ≠ "__RS" ∧ Free [n] w) :
    ∃ w', Spec.run (rs.map Res.op) w = .good w' ∧ (w'.entry ["__RS"]).d = .variable (v + total rs) ∧ w'.errors = w.errors ∧
      (∀ i r n, rs[i]? = some r → r.name = some n → (w'.entry [n]).d = .variable (v + total (rs.take i))) ∧
      ∀ q, (∀ n ∈ names rs, q ≠ [n]) → q ≠ ["__RS"] → (w'.entry q).d = (w.entry q).d := by
  induction rs generalizing w v with
  | nil =>
    refine ⟨w, rfl, ?_, rfl, ?_, fun q _ _ => rfl⟩
    · simpa [total] using hc
    · intro i r n h; simp at h
  | cons r rs ih =>
    rw [total_cons] at hf ht
    have hsz : Spec.fits r.size := fits_mono fits_zero ht (by omega) (by omega)
    have hf1 : Spec.fits (v + r.size) := fits_mono hv hf (by omega) (by omega)
    have hmem : ∀ n, r.name = some n → n ∈ names (r :: rs) := by
      intro n h
      rw [names_some h]
      exact List.mem_cons_self
    obtain ⟨w1, h1, hr1, hc1, he1, hn1, ho1⟩ := field_global hr hc hf1 hsz (fun n h => hn n (hmem n h))
    have hsub : ∀ n ∈ names rs, n ∈ names (r :: rs) := by
      intro n h
      cases hname : r.name with
      | none => rw [names_none hname]; exact h
      | some m => rw [names_some hname]; exact List.mem_cons_of_mem _ h
    have hnot : ∀ n, r.name = some n → n ∉ names rs := by
      intro n h
      rw [names_some h, List.nodup_cons] at hnd
      exact hnd.1
    have hnd' : (names rs).Nodup := by
      cases hname : r.name with
      | none => rw [names_none hname] at hnd; exact hnd
      | some m => rw [names_some hname, List.nodup_cons] at hnd; exact hnd.2
    have hpath : ∀ m : String, m ≠ "__RS" → ([m] : Path) ≠ ["__RS"] := by
      intro m h e
      injection e with e _
      exact h e
    have hkeep : ∀ n ∈ names rs, (w1.entry [n]).d = (w.entry [n]).d := by
      intro n h
      refine ho1 [n] ?_ (hpath n (hn n (hsub n h)).2.1)
      intro m hm e
      injection e with e _
      exact hnot m hm (e ▸ h)
    obtain ⟨w', h2, hc2, he2, hn2, ho2⟩ := ih hr1 hc1 hf1 (by
        refine fits_mono hv hf ?_ ?_ <;> omega) (fits_mono fits_zero ht (by omega) (by omega)) hnd' (by
        intro n h
        obtain ⟨a, b, c⟩ := hn n (hsub n h)
        exact ⟨a, b, by unfold Free at *; rw [hkeep n h]; exact c⟩)
    refine ⟨w', ?_, ?_, he2.trans he1, ?_, ?_⟩
    · simp only [List.map_cons, Spec.run, h1, Result.bind]
      exact h2
    · rw [hc2, total_cons]
      congr 1
      omega
    · intro i r' n hi hname
      cases i with
      | zero =>
        simp only [List.getElem?_cons_zero, Option.some.injEq] at hi
        subst hi
        rw [ho2 [n] ?_ (hpath n (hn n (hmem n hname)).2.1), hn1 n hname]
        · simp [total]
        · intro m hm e
          injection e with e _
          exact hnot n hname (e ▸ hm)
      | succ i =>
        simp only [List.getElem?_cons_succ] at hi
        rw [hn2 i r' n hi hname, List.take_succ_cons, total_cons]
        congr 1
        omega
    · intro q h3 h4
      rw [ho2 q (fun n h => h3 n (hsub n h)) h4, ho1 q (fun n h => h3 n (hmem n h)) h4]

theorem setCounter_ok {w : World} (h : Spec.counter w ≠ none) (v : Int) :
    ∃ w', Spec.setCounter v w = .good w' ∧ w'.rs = true ∧ (w'.entry ["__RS"]).d = .variable v ∧ w'.errors = w.errors ∧
      ∀ q, q ≠ ["__RS"] → (w'.entry q).d = (w.entry q).d := by
  cases hc : Spec.counter w with
  | none => exact absurd hc h
  | some r =>
    obtain ⟨u, w1⟩ := r
    have hall := fun q hq => counter_get hc (q := q) hq
    obtain ⟨_, _, h3, h4, h5, h6⟩ := hall [] (by decide)
    refine ⟨Spec.define ["__RS"] (.variable v) w1, by simp only [Spec.setCounter, hc], h3, ?_, h4, ?_⟩
    · rw [entry_define, if_pos rfl]
    · intro q hq
      rw [define_entry_other _ _ hq, World.entry, (hall q hq).1, World.fresh, h6]
      rfl

theorem run_append : ∀ (a b : List Op) (s : State), run (a ++ b) s = (run a s).bind fun s => run b s
  | [], _, _ => rfl
  | op :: a, b, s => by
    simp only [List.cons_append, run]
    cases step op s with
    | ok s1 => exact run_append a b s1
    | fail => rfl
    | ub => rfl

/-- After `RSRESET` or `RSSET v` the names get consecutive offsets: each is as far from `v` as the reservations before it are
long, and the counter ends at the end of the last. -/
theorem C36_fields {a : List Op} {w : World} (ha : Spec.run a Spec.start = .good w) (hc : Spec.counter w ≠ none) {v : Int}
    {rs : List Res} (hv : Spec.fits v) (hf : Spec.fits (v + total rs)) (ht : Spec.fits (total rs)) (hnd : (names rs).Nodup)
    (hn : ∀ n ∈ names rs, Spec.isLocal n = false ∧ n ≠ "__RS" ∧ Free [n] w) :
    ∃ s0 s s' x, init = .ok s0 ∧ run a s0 = .ok s ∧ run (.rsset v :: rs.map Res.op) s = .ok s' ∧ s'.errors = s.errors ∧
      find ["__RS"] s' = some x ∧ x.type = .set ∧ x.integer = v + total rs ∧
      ∀ i r n, rs[i]? = some r → r.name = some n →
        ∃ y, find [n] s' = some y ∧ y.type = .set ∧ y.integer = v + total (rs.take i) := by
  obtain ⟨s0, s, h0, h1, hR⟩ := history_rel ha
  obtain ⟨w1, h2, hr1, hc1, he1, ho1⟩ := setCounter_ok hc v
  obtain ⟨w', h3, hc2, he2, hn2, _⟩ := fields_global rs hr1 hc1 hv hf ht hnd (by
    intro n h
    obtain ⟨a, b, c⟩ := hn n h
    refine ⟨a, b, ?_⟩
    unfold Free at *
    rw [ho1 [n] (by intro e; injection e with e _; exact b e)]
    exact c)
  have hrun : Spec.run (.rsset v :: rs.map Res.op) w = .good w' := by
    simp only [Spec.run, Spec.step, h2, Result.bind, h3]
  have := run_refines (.rsset v :: rs.map Res.op) hR
  rw [hrun] at this
  obtain ⟨s', h4, hR'⟩ := this
  have hread : ∀ (p : Path) (u : Int), (w'.entry p).d = .variable u → ∃ y, find p s' = some y ∧ y.type = .set ∧ y.integer = u := by
    intro p u hp
    rw [World.entry, hR'.get] at hp
    cases hy : find p s' with
    | none => rw [hy] at hp; simp [World.fresh] at hp
    | some y =>
      rw [hy] at hp
      exact ⟨y, rfl, variable_type hp⟩
  obtain ⟨x, hx1, hx2, hx3⟩ := hread _ _ hc2
  refine ⟨s0, s, s', x, h0, h1, h4, ?_, hx1, hx2, hx3, ?_⟩
  · rw [← hR'.errors, ← hR.errors, he2, he1]
  · intro i r n hi hname
    exact hread _ _ (hn2 i r n hi hname)

/-! ## Structures -/

theorem isLocal_of_dot {n : String} (h : n.toList.head? = some '.') : Spec.isLocal n = true := by
  unfold Spec.isLocal
  cases hn : n.toList with
  | nil => rw [hn] at h; cases h
  | cons a l => rw [hn] at h; simp at h; simp [h]

theorem field_local {r : Res} {S : String} {w : World} {v u : Int} (hcur : w.cur = [S]) (hS : S ≠ "__RS") (hr : w.rs = true)
    (hc : (w.entry ["__RS"]).d = .variable v) (hs : (w.entry [S]).d = .struct u)
    (hf : Spec.fits (v + r.size)) (hfu : Spec.fits (u + r.size)) (hsz : Spec.fits r.size)
    (hn : ∀ n, r.name = some n → n.toList.head? = some '.' ∧ Free [n, S] w) :
    ∃ w' u', Spec.step r.op w = .good w' ∧ w'.cur = [S] ∧ w'.rs = true ∧ (w'.entry ["__RS"]).d = .variable (v + r.size) ∧
      w'.errors = w.errors ∧ (w'.entry [S]).d = .struct u' ∧ u ≤ u' ∧ u' ≤ u + r.size ∧
      (∀ n, r.name = some n → (w'.entry [n, S]).d = .variable v) ∧
      ∀ q, (∀ n, r.name = some n → q ≠ [n, S]) → q ≠ ["__RS"] → q ≠ [S] → (w'.entry q).d = (w.entry q).d := by
  have hpS : ([S] : Path) ≠ ["__RS"] := by
    intro h
    injection h with h _
    exact hS h
  cases hname : r.name with
  | none =>
    have hstep : Spec.step r.op w = .good (Spec.define ["__RS"] (.variable (v + r.size)) w) := by
      simp only [Res.op, hname, Spec.step]
      rw [Int.mul_comm, size_cast, if_pos hsz, advance_again hr hc hf]
    refine ⟨_, u, hstep, hcur, hr, ?_, rfl, ?_, Int.le_refl u, by omega, ?_, ?_⟩
    · rw [entry_define, if_pos rfl]
    · rw [define_entry_other _ _ hpS, hs]
    · intro n h; cases h
    · intro q _ hq _
      rw [define_entry_other _ _ hq]
  | some n =>
    obtain ⟨hdot, hfree⟩ := hn n hname
    have hl := isLocal_of_dot hdot
    have hp1 : ([n, S] : Path) ≠ ["__RS"] := by intro h; cases h
    have hp2 : ([n, S] : Path) ≠ [S] := by intro h; cases h
    have hres : Spec.resolve n (Spec.define ["__RS"] (.variable (v + r.size)) w) = [n, S] := by
      simp only [Spec.resolve, hl, if_true]
      show n :: w.cur = [n, S]
      rw [hcur]
    have hset : Spec.set n v (Spec.define ["__RS"] (.variable (v + r.size)) w) =
        Spec.define [n, S] (.variable v) (Spec.define ["__RS"] (.variable (v + r.size)) w) := by
      rw [set_ok, hres]
      · simp [Spec.enter, hl]
      · rw [hres, define_entry_other _ _ hp1]
        exact hfree
    have hstep : Spec.step r.op w = .good (Spec.define [S] (.struct (u + r.size))
        (Spec.define [n, S] (.variable v) (Spec.define ["__RS"] (.variable (v + r.size)) w))) := by
      simp only [Res.op, hname, Spec.step, Spec.field]
      rw [size_cast, if_pos hsz, if_pos hdot, hcur, hs, advance_again hr hc hf]
      simp only [hset]
      have hcur2 : (Spec.define [n, S] (.variable v) (Spec.define ["__RS"] (.variable (v + r.size)) w)).cur = [S] := hcur
      rw [hcur2, define_entry_other _ _ (Ne.symm hp2), define_entry_other _ _ hpS, hs]
      simp only [if_pos hfu]
    refine ⟨_, u + r.size, hstep, hcur, hr, ?_, rfl, ?_, by omega, Int.le_refl _, ?_, ?_⟩
    · rw [entry_define, if_neg (Ne.symm hpS), entry_define, if_neg (Ne.symm hp1), entry_define, if_pos rfl]
    · rw [entry_define, if_pos rfl]
    · rintro m h
      cases h
      rw [entry_define, if_neg hp2, entry_define, if_pos rfl]
    · intro q h1 h2 h3
      rw [define_entry_other _ _ h3, define_entry_other _ _ (h1 n rfl), define_entry_other _ _ h2]

theorem fields_local (rs : List Res) {S : String} {w : World} {v u : Int} (hcur : w.cur = [S]) (hS : S ≠ "__RS")
    (hr : w.rs = true) (hc : (w.entry ["__RS"]).d = .variable v) (hs : (w.entry [S]).d = .struct u)
    (hv : Spec.fits v) (hf : Spec.fits (v + total rs)) (ht : Spec.fits (total rs)) (hu : Spec.fits u) (huv : u ≤ v)
    (hnd : (names rs).Nodup) (hn : ∀ n ∈ names rs, n.toList.head? = some '.' ∧ Free [n, S] w) :
    ∃ w' u', Spec.run (rs.map Res.op) w = .good w' ∧ w'.cur = [S] ∧ w'.rs = true ∧
      (w'.entry ["__RS"]).d = .variable (v + total rs) ∧ w'.errors = w.errors ∧ (w'.entry [S]).d = .struct u' ∧
      ∀ i r n, rs[i]? = some r → r.name = some n → (w'.entry [n, S]).d = .variable (v + total (rs.take i)) := by
  suffices h : ∃ w' u', Spec.run (rs.map Res.op) w = .good w' ∧ w'.cur = [S] ∧ w'.rs = true ∧
      (w'.entry ["__RS"]).d = .variable (v + total rs) ∧ w'.errors = w.errors ∧ (w'.entry [S]).d = .struct u' ∧
      (∀ i r n, rs[i]? = some r → r.name = some n → (w'.entry [n, S]).d = .variable (v + total (rs.take i))) ∧
      ∀ q, (∀ n ∈ names rs, q ≠ [n, S]) → q ≠ ["__RS"] → q ≠ [S] → (w'.entry q).d = (w.entry q).d by
    obtain ⟨w', u', h1, h2, h3, h4, h5, h6, h7, _⟩ := h
    exact ⟨w', u', h1, h2, h3, h4, h5, h6, h7⟩
  induction rs generalizing w v u with
  | nil =>
    refine ⟨w, u, rfl, hcur, hr, ?_, rfl, hs, ?_, fun q _ _ _ => rfl⟩
    · simpa [total] using hc
    · intro i r n h; simp at h
  | cons r rs ih =>
    rw [total_cons] at hf ht
    have hsz : Spec.fits r.size := fits_mono fits_zero ht (by omega) (by omega)
    have hf1 : Spec.fits (v + r.size) := fits_mono hv hf (by omega) (by omega)
    have hmem : ∀ n, r.name = some n → n ∈ names (r :: rs) := by
      intro n h
      rw [names_some h]
      exact List.mem_cons_self
    obtain ⟨w1, u1, h1, hcur1, hr1, hc1, he1, hs1, hu1, hu1', hn1, ho1⟩ := field_local hcur hS hr hc hs hf1
      (fits_mono hu hf1 (by omega) (by omega)) hsz (fun n h => hn n (hmem n h))
    have hsub : ∀ n ∈ names rs, n ∈ names (r :: rs) := by
      intro n h
      cases hname : r.name with
      | none => rw [names_none hname]; exact h
      | some m => rw [names_some hname]; exact List.mem_cons_of_mem _ h
    have hnot : ∀ n, r.name = some n → n ∉ names rs := by
      intro n h
      rw [names_some h, List.nodup_cons] at hnd
      exact hnd.1
    have hnd' : (names rs).Nodup := by
      cases hname : r.name with
      | none => rw [names_none hname] at hnd; exact hnd
      | some m => rw [names_some hname, List.nodup_cons] at hnd; exact hnd.2
    have hp1 : ∀ m : String, ([m, S] : Path) ≠ ["__RS"] := by intro m h; cases h
    have hp2 : ∀ m : String, ([m, S] : Path) ≠ [S] := by intro m h; cases h
    have hkeep : ∀ n ∈ names rs, (w1.entry [n, S]).d = (w.entry [n, S]).d := by
      intro n h
      refine ho1 [n, S] ?_ (hp1 n) (hp2 n)
      intro m hm e
      injection e with e _
      exact hnot m hm (e ▸ h)
    obtain ⟨w', u', h2, hcur2, hr2, hc2, he2, hs2, hn2, ho2⟩ := ih hcur1 hr1 hc1 hs1 hf1 (by
        refine fits_mono hv hf ?_ ?_ <;> omega) (fits_mono fits_zero ht (by omega) (by omega))
      (fits_mono hu hf1 hu1 (by omega)) (by omega) hnd' (by
        intro n h
        obtain ⟨a, c⟩ := hn n (hsub n h)
        exact ⟨a, by unfold Free at *; rw [hkeep n h]; exact c⟩)
    refine ⟨w', u', ?_, hcur2, hr2, ?_, he2.trans he1, hs2, ?_, ?_⟩
    · simp only [List.map_cons, Spec.run, h1, Result.bind]
      exact h2
    · rw [hc2, total_cons]
      congr 1
      omega
    · intro i r' n hi hname
      cases i with
      | zero =>
        simp only [List.getElem?_cons_zero, Option.some.injEq] at hi
        subst hi
        rw [ho2 [n, S] ?_ (hp1 n) (hp2 n), hn1 n hname]
        · simp [total]
        · intro m hm e
          injection e with e _
          exact hnot n hname (e ▸ hm)
      | succ i =>
        simp only [List.getElem?_cons_succ] at hi
        rw [hn2 i r' n hi hname, List.take_succ_cons, total_cons]
        congr 1
        omega
    · intro q h3 h4 h5
      rw [ho2 q (fun n h => h3 n (hsub n h)) h4 h5, ho1 q (fun n h => h3 n (hmem n h)) h4 h5]

/-- `S RSSET v` (or `RSRESET`), fields and `RSEND` define a structure: its fields have consecutive offsets and belong to the
scope `S`, and `S` is the offset of its end. -/
theorem C36_structure {a : List Op} {w : World} (ha : Spec.run a Spec.start = .good w) (hc : Spec.counter w ≠ none) {v : Int}
    {S : String} {rs : List Res} (hv : Spec.fits v) (hf : Spec.fits (v + total rs)) (ht : Spec.fits (total rs))
    (hS : S ≠ "__RS") (hSl : Spec.isLocal S = false) (hSu : (w.entry [S]).d = .unknown) (hnd : (names rs).Nodup)
    (hn : ∀ n ∈ names rs, n.toList.head? = some '.' ∧ Free [n, S] w) :
    ∃ s0 s s' x y, init = .ok s0 ∧ run a s0 = .ok s ∧ run (.rsbegin S v :: (rs.map Res.op ++ [.rsend])) s = .ok s' ∧
      s'.errors = s.errors ∧ s'.scope = none ∧
      find ["__RS"] s' = some x ∧ x.type = .set ∧ x.integer = v + total rs ∧
      find [S] s' = some y ∧ y.type = .structure ∧ y.integer = v + total rs ∧
      ∀ i r n, rs[i]? = some r → r.name = some n →
        ∃ z, find [n, S] s' = some z ∧ z.type = .set ∧ z.integer = v + total (rs.take i) := by
  obtain ⟨s0, s, h0, h1, hR⟩ := history_rel ha
  have hpS : ([S] : Path) ≠ ["__RS"] := by
    intro h
    injection h with h _
    exact hS h
  have hdot : ¬ S.toList.head? = some '.' := by
    intro h
    rw [isLocal_of_dot h] at hSl
    cases hSl
  obtain ⟨w1, h2, hr1, hc1, he1, ho1⟩ := setCounter_ok hc v
  have hres : Spec.resolve S w1 = [S] := by simp [Spec.resolve, hSl]
  have hbegin : Spec.step (.rsbegin S v) w = .good (Spec.enter S (Spec.define [S] (.struct v) w1)) := by
    simp only [Spec.step, Spec.begin_, h2, Result.bind, if_neg hdot]
    simp only [Spec.struct, hres, ho1 [S] hpS, hSu]
  have hcur2 : (Spec.enter S (Spec.define [S] (.struct v) w1)).cur = [S] := by simp [Spec.enter, hSl]
  have hr2 : (Spec.enter S (Spec.define [S] (.struct v) w1)).rs = true := by
    unfold Spec.enter
    split <;> exact hr1
  have he2 : (Spec.enter S (Spec.define [S] (.struct v) w1)).errors = w1.errors := by
    unfold Spec.enter
    split <;> rfl
  obtain ⟨w', u', h3, hcur3, hr3, hc3, he3, hs3, hn3⟩ := fields_local rs (v := v) (u := v) hcur2 hS hr2
    (by rw [enter_entry, define_entry_other _ _ (Ne.symm hpS), hc1])
    (by rw [enter_entry, entry_define, if_pos rfl]) hv hf ht hv (Int.le_refl v) hnd (by
      intro n h
      obtain ⟨a, c⟩ := hn n h
      refine ⟨a, ?_⟩
      unfold Free at *
      rw [enter_entry, define_entry_other _ _ (by intro h; cases h), ho1 [n, S] (by intro h; cases h)]
      exact c)
  have hend : Spec.step .rsend w' = .good { Spec.define [S] (.struct (v + total rs)) w' with cur := [] } := by
    simp only [Spec.step, Spec.end_, hcur3, hs3, hr3, if_true, hc3]
  have hrun : Spec.run (.rsbegin S v :: (rs.map Res.op ++ [.rsend])) w =
      .good { Spec.define [S] (.struct (v + total rs)) w' with cur := [] } := by
    rw [Spec.run, hbegin]
    simp only [Result.bind]
    rw [spec_run_append, h3]
    simp only [Result.bind, Spec.run, hend]
  have := run_refines (.rsbegin S v :: (rs.map Res.op ++ [.rsend])) hR
  rw [hrun] at this
  obtain ⟨s', h4, hR'⟩ := this
  have hw : ∀ p, (World.entry p { Spec.define [S] (.struct (v + total rs)) w' with cur := [] }) =
      (Spec.define [S] (.struct (v + total rs)) w').entry p := fun _ => rfl
  have hread : ∀ (p : Path) (d : Def), d ≠ .unknown →
      (World.entry p { Spec.define [S] (.struct (v + total rs)) w' with cur := [] }).d = d →
      ∃ y, find p s' = some y ∧ defOf y = d := by
    intro p d hd hp
    rw [World.entry, hR'.get] at hp
    cases hy : find p s' with
    | none => rw [hy] at hp; exact absurd hp.symm hd
    | some y =>
      rw [hy] at hp
      exact ⟨y, rfl, hp⟩
  obtain ⟨x, hx1, hx2⟩ := hread ["__RS"] (.variable (v + total rs)) (by simp)
    (by rw [hw, define_entry_other _ _ (Ne.symm hpS), hc3])
  obtain ⟨y, hy1, hy2⟩ := hread [S] (.struct (v + total rs)) (by simp) (by rw [hw, entry_define, if_pos rfl])
  refine ⟨s0, s, s', x, y, h0, h1, h4, ?_, ?_, hx1, (variable_type hx2).1, (variable_type hx2).2, hy1, (struct_type hy2).1,
    (struct_type hy2).2, ?_⟩
  · rw [← hR'.errors, ← hR.errors]
    show w'.errors = w.errors
    rw [he3, he2, he1]
  · have := hR'.cur
    exact (Option.some.inj this).symm
  · intro i r n hi hname
    obtain ⟨z, hz1, hz2⟩ := hread [n, S] (.variable (v + total (rs.take i))) (by simp)
      (by rw [hw, define_entry_other _ _ (by intro h; cases h), hn3 i r n hi hname])
    exact ⟨z, hz1, variable_type hz2⟩

theorem take_disjoint {rs : List Res} {v : Int} {i j : Nat} {r : Res} (hi : rs[i]? = some r) (hij : i < j) :
    v + total (rs.take i) + r.size ≤ v + total (rs.take j) ∧ v + total (rs.take i) + r.size ≤ v + total rs := by
  have h1 : ∀ (rs : List Res) (i j : Nat) (r : Res), rs[i]? = some r → i < j →
      total (rs.take i) + r.size ≤ total (rs.take j) ∧ total (rs.take j) ≤ total rs := by
    intro rs
    induction rs with
    | nil => intro i j r h; simp at h
    | cons a rs ih =>
      intro i j r h hij
      cases j with
      | zero => omega
      | succ j =>
        rw [List.take_succ_cons, total_cons, total_cons]
        cases i with
        | zero =>
          simp only [List.getElem?_cons_zero, Option.some.injEq] at h
          subst h
          have : ∀ (rs : List Res) (j : Nat), total (rs.take j) ≤ total rs := by
            intro rs
            induction rs with
            | nil => intro j; simp
            | cons b rs ih =>
              intro j
              cases j with
              | zero => simp [total]
              | succ j =>
                rw [List.take_succ_cons, total_cons, total_cons]
                have := ih j
                omega
          have := this rs j
          simp only [List.take_zero]
          have h0 : total ([] : List Res) = 0 := rfl
          omega
        | succ i =>
          simp only [List.getElem?_cons_succ] at h
          have := ih i j r h (by omega)
          rw [List.take_succ_cons, total_cons]
          omega
  have := h1 rs i j r hi hij
  omega

/-- The areas reserved for different names do not overlap, and all end before the final value of the counter. -/
theorem C36_disjoint {a : List Op} {w : World} (ha : Spec.run a Spec.start = .good w) (hc : Spec.counter w ≠ none) {v : Int}
    {rs : List Res} (hv : Spec.fits v) (hf : Spec.fits (v + total rs)) (ht : Spec.fits (total rs)) (hnd : (names rs).Nodup)
    (hn : ∀ n ∈ names rs, Spec.isLocal n = false ∧ n ≠ "__RS" ∧ Free [n] w) {i j : Nat} {r r' : Res} {n n' : String}
    (hij : i < j) (hi : rs[i]? = some r) (hj : rs[j]? = some r') (hri : r.name = some n) (hrj : r'.name = some n') :
    ∃ s0 s x y z, init = .ok s0 ∧ run (a ++ .rsset v :: rs.map Res.op) s0 = .ok s ∧
      find [n] s = some x ∧ find [n'] s = some y ∧ find ["__RS"] s = some z ∧
      x.integer + r.size ≤ y.integer ∧ y.integer + r'.size ≤ z.integer := by
  obtain ⟨s0, s, s', z, h0, h1, h2, _, h3, _, h4, h5⟩ := C36_fields ha hc hv hf ht hnd hn
  obtain ⟨x, hx, _, hx'⟩ := h5 i r n hi hri
  obtain ⟨y, hy, _, hy'⟩ := h5 j r' n' hj hrj
  refine ⟨s0, s', x, y, z, h0, ?_, hx, hy, h3, ?_, ?_⟩
  · rw [run_append, h1]
    exact h2
  · rw [hx', hy']
    exact (take_disjoint hi hij).1
  · rw [hy', h4]
    exact (take_disjoint hj (Nat.lt_succ_self j)).2

end Verif.Symbol
