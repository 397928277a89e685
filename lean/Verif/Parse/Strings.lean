import Verif.Parse.Main
/-!
# Expressions in which no strings are compared
-/
namespace Verif.Parse

open Verif.Expr (BinOp UnOp)

/-! ### Without strings -/

theorem strPri_plain (e : Toks → Outcome (Option (List Char) × Toks)) (t : Tree) :
    ∀ rest, t.Plain → (∀ (u : Tree) rest', u.Plain → u.toks.length < t.toks.length → ∃ r, e (u.toks ++ rest') = .ok (none, r)) →
    strPri e (t.toks ++ rest) = .ok (none, t.toks ++ rest) := by
  induction t with
  | chars s => intro _ h; exact h.elim
  | sym w =>
    intro rest h _
    simp only [Tree.Plain] at h
    show (match member w with | some true => _ | some false => _ | none => _) = _
    rw [h]; rfl
  | pc s => intro rest _ _; cases s <;> rfl
  | paren t ih =>
    intro rest h he
    simp only [Tree.toks, List.cons_append, List.append_assoc, List.nil_append]
    obtain ⟨r, hr⟩ := he t (.rp :: rest) h (by simp only [Tree.toks, List.length_cons, List.length_append]; omega)
    show (e (t.toks ++ .rp :: rest)).bind _ = _
    rw [hr]; rfl
  | bin o l r ihl ihr =>
    intro rest h he
    simp only [Tree.toks, List.append_assoc]
    exact ihl _ h.1 (fun u rest' hu hl => he u rest' hu (by simp only [Tree.toks, List.length_append]; omega))
  | _ => intro rest _ _; rfl

theorem plus_tail (t : Tree) : ∀ rest tl, t.Plain → t.toks ++ rest = .op .add :: tl →
    ∃ (u : Tree) (rest' : Toks), u.Plain ∧ tl = u.toks ++ rest' ∧ u.toks.length < t.toks.length := by
  induction t with
  | plus u _ =>
    intro rest tl h heq
    simp only [Tree.toks, List.cons_append, List.cons.injEq, true_and] at heq
    exact ⟨u, rest, h, heq.symm, by simp [Tree.toks]⟩
  | bin o l r ihl _ =>
    intro rest tl h heq
    simp only [Tree.toks, List.append_assoc] at heq
    obtain ⟨u, rest', hu, he, hl⟩ := ihl _ _ h.1 heq
    exact ⟨u, rest', hu, he, by simp only [Tree.toks, List.length_append]; omega⟩
  | pc s => intro rest tl _ heq; cases s <;> simp [Tree.toks] at heq
  | _ => intro rest tl _ heq; simp [Tree.toks] at heq

theorem strExpr_plain (n : Nat) : ∀ (t : Tree) rest, t.Plain → t.toks.length ≤ n → ∃ r, strExpr n (t.toks ++ rest) = .ok (none, r) := by
  induction n with
  | zero =>
    intro t rest _ h
    exact absurd (List.length_eq_zero_iff.1 (Nat.le_zero.1 h)) t.toks_ne
  | succ n ih =>
    intro t rest h hl
    have hp := strPri_plain (strExpr n) t rest h (fun u rest' hu hlt => ih u rest' hu (by omega))
    unfold strExpr
    rw [hp, ok_bind]
    show ∃ r, strLoop (strExpr n) (n + 1) none (t.toks ++ rest) = .ok (none, r)
    by_cases hadd : ∃ tl, t.toks ++ rest = .op .add :: tl
    · obtain ⟨tl, htl⟩ := hadd
      obtain ⟨u, rest', hu, he, hlt⟩ := plus_tail t rest tl h htl
      refine ⟨u.toks ++ rest', ?_⟩
      rw [htl, he]
      show (strPri (strExpr n) (u.toks ++ rest')).bind _ = _
      rw [strPri_plain (strExpr n) u rest' hu (fun v rest'' hv hlv => ih v rest'' hv (by omega))]
      rfl
    · refine ⟨t.toks ++ rest, ?_⟩
      unfold strLoop
      split
      · omega
      · rename_i heq; exact absurd ⟨_, heq⟩ hadd
      · rfl

theorem quietAt_plain (t : Tree) (rest : Toks) (h : t.Plain) : QuietAt (t.toks ++ rest) := by
  obtain ⟨r, hr⟩ := strExpr_plain ((t.toks ++ rest).length + 1) t rest h (by rw [List.length_append]; omega)
  exact ⟨none, r, hr, Or.inl rfl⟩

theorem quiet_plain (t : Tree) : ∀ rest, t.Plain → t.Quiet rest := by
  induction t with
  | num v => intro rest h; exact quietAt_plain (.num v) rest h
  | chars s => intro _ h; exact h.elim
  | sym w => intro rest h; exact quietAt_plain (.sym w) rest h
  | pc s => intro rest h; cases s <;> exact quietAt_plain (.pc _) rest h
  | paren t ih =>
    intro rest h
    refine ⟨?_, ih _ h⟩
    have := quietAt_plain (.paren t) rest h
    simpa [Tree.toks] using this
  | bin o l r ihl ihr => intro rest h; exact ⟨ihl _ h.1, ihr _ h.2⟩
  | atan2 l r ihl ihr => intro rest h; exact ⟨ihl _ h.1, ihr _ h.2⟩
  | fn f t ih => intro rest h; exact ih (.rp :: rest) h
  | _ t ih => intro rest h; exact ih rest h

/-! ### Without comparisons -/

/-- What the loop of `parse_StringExpression` does behind a string: it ends at `fin` or at an operator that is not a
comparison. -/
def After (fin r : Toks) : Prop :=
  ∀ n m s, r.length ≤ n → r.length < m → ∃ s' r', strLoop (strExpr n) m (some s) r = .ok (s', r') ∧
    (s' = none ∨ r' = fin ∨ ∃ o r'', r' = .op o :: r'' ∧ isCmp o = false)

theorem strLoop_other (e : Toks → Outcome (Option (List Char) × Toks)) (m : Nat) (s : Option (List Char)) (r : Toks) (hm : 0 < m)
    (h : r.head? ≠ some (.op .add)) : strLoop e m s r = .ok (s, r) := by
  cases m with
  | zero => omega
  | succ m =>
    unfold strLoop
    split
    · omega
    · exact absurd rfl h
    · rfl

theorem after_self (r : Toks) (h : r.head? ≠ some (.op .add)) : After r r := fun n m s _ hm =>
  ⟨some s, r, strLoop_other _ m _ r (by omega) h, Or.inr (Or.inl rfl)⟩

theorem calm_head (t : Tree) (h : t.Calm) : t.toks.head? ≠ some (.op .add) := by
  induction t with
  | plus _ => exact h.elim
  | pc s => cases s <;> simp [Tree.toks]
  | bin o l r ihl _ => simp only [Tree.toks]; rw [head_append]; exact ihl h.2.1
  | _ => simp [Tree.toks]

theorem strPri_calm (t : Tree) : ∀ n rest fin, t.Calm → After fin rest → NoDot rest → (t.toks ++ rest).length ≤ n →
    strPri (strExpr n) (t.toks ++ rest) = .ok (none, t.toks ++ rest) ∨
    ∃ s r, strPri (strExpr n) (t.toks ++ rest) = .ok (some s, r) ∧ r.length < (t.toks ++ rest).length ∧ After fin r := by
  induction t with
  | num v => intro n rest fin _ _ _ _; exact Or.inl rfl
  | neg v => intro n rest fin _ _ _ _; exact Or.inl rfl
  | cpl v => intro n rest fin _ _ _ _; exact Or.inl rfl
  | not v => intro n rest fin _ _ _ _; exact Or.inl rfl
  | notIn v => intro n rest fin _ _ _ _; exact Or.inl rfl
  | fn f v => intro n rest fin _ _ _ _; exact Or.inl rfl
  | atan2 a b => intro n rest fin _ _ _ _; exact Or.inl rfl
  | pc s => intro n rest fin _ _ _ _; cases s <;> exact Or.inl rfl
  | plus t => intro n rest fin h _ _ _; exact h.elim
  | sym w =>
    intro n rest fin h _ _ _
    refine Or.inl ?_
    simp only [Tree.Calm] at h
    show (match member w with | some true => _ | some false => _ | none => _) = _
    rw [h]; rfl
  | chars s =>
    intro n rest fin _ ha hd _
    refine Or.inr ⟨s, rest, ?_, by simp [Tree.toks], ha⟩
    show strPri (strExpr n) (.str s :: rest) = _
    unfold strPri
    split
    · rename_i heq
      simp only [List.cons.injEq] at heq
      exact absurd (by rw [heq.2]; rfl) (hd _)
    all_goals simp_all
  | bin o l r ihl ihr =>
    intro n rest fin h ha hd hn
    simp only [Tree.toks, List.append_assoc, List.cons_append] at hn ⊢
    refine ihl n _ fin h.2.1 ?_ (fun w => by simp) hn
    intro n' m s hn' hm
    by_cases hadd : o = .add
    · subst hadd
      simp only [List.length_cons] at hn' hm
      cases m with
      | zero => omega
      | succ m =>
        show ∃ s' r', (strPri (strExpr n') (r.toks ++ rest)).bind _ = _ ∧ _
        rcases ihr n' rest fin h.2.2 ha hd (by omega) with h1 | ⟨s2, r2, h1, hl2, ha2⟩
        · rw [h1]; exact ⟨none, _, rfl, Or.inl rfl⟩
        · rw [h1, ok_bind]
          exact ha2 n' m (s ++ s2) (by omega) (by omega)
    · refine ⟨some s, .op o :: (r.toks ++ rest), strLoop_other _ m _ _ (by omega) ?_, Or.inr (Or.inr ⟨o, _, rfl, h.1⟩)⟩
      simpa using hadd
  | paren t ih =>
    intro n rest fin h ha hd hn
    simp only [Tree.toks, List.cons_append, List.append_assoc, List.nil_append, List.length_cons] at hn ⊢
    cases n with
    | zero => omega
    | succ n =>
      have hrp : After (.rp :: rest) (.rp :: rest) := after_self _ (by simp)
      have key : (∃ r, strExpr (n + 1) (t.toks ++ .rp :: rest) = .ok (none, r)) ∨
          ∃ s r', strExpr (n + 1) (t.toks ++ .rp :: rest) = .ok (some s, r') ∧
            (r' = .rp :: rest ∨ ∃ o r'', r' = .op o :: r'' ∧ isCmp o = false) := by
        unfold strExpr
        rcases ih n (.rp :: rest) (.rp :: rest) h hrp (fun w => by simp) (by omega) with h1 | ⟨s, r, h1, hl, ha1⟩
        · rw [h1, ok_bind]
          refine Or.inl ⟨_, strLoop_other _ _ none _ (by omega) ?_⟩
          rw [head_append]; exact calm_head t h
        · rw [h1, ok_bind]
          obtain ⟨s', r', h2, h3⟩ := ha1 n (n + 1) s (by omega) (by omega)
          show (∃ x, strLoop (strExpr n) (n + 1) (some s) r = _) ∨ (∃ s x, strLoop (strExpr n) (n + 1) _ r = _ ∧ _)
          cases s' with
          | none => exact Or.inl ⟨r', h2⟩
          | some s' =>
            refine Or.inr ⟨s', r', h2, ?_⟩
            rcases h3 with h3 | h3
            · exact absurd h3 (by simp)
            · exact h3
      rcases key with ⟨r, hk⟩ | ⟨s, r', hk, h3⟩
      · refine Or.inl ?_
        show (strExpr (n + 1) (t.toks ++ .rp :: rest)).bind _ = _
        rw [hk]; rfl
      · rcases h3 with h3 | ⟨o, r'', h3, _⟩
        · subst h3
          refine Or.inr ⟨s, rest, ?_, by simp only [List.length_cons, List.length_append]; omega, ha⟩
          show (strExpr (n + 1) (t.toks ++ .rp :: rest)).bind _ = _
          rw [hk, ok_bind]
          split
          · rename_i heq
            simp only [Prod.mk.injEq, Option.some.injEq, List.cons.injEq, true_and] at heq
            exact absurd (by rw [heq.2]; rfl) (hd _)
          · rename_i heq
            simp only [Prod.mk.injEq, Option.some.injEq, List.cons.injEq, true_and] at heq
            rw [heq.1, heq.2]
          · simp_all
        · subst h3
          refine Or.inl ?_
          show (strExpr (n + 1) (t.toks ++ .rp :: rest)).bind _ = _
          rw [hk]; rfl

theorem quietAt_calm (t : Tree) (rest fin : Toks) (h : t.Calm) (ha : After fin rest) (hd : NoDot rest)
    (hf : ∀ o, fin.head? = some (.op o) → isCmp o = false) : QuietAt (t.toks ++ rest) := by
  unfold QuietAt
  unfold strExpr
  rcases strPri_calm t (t.toks ++ rest).length rest fin h ha hd (Nat.le_refl _) with h1 | ⟨s, r, h1, hl, ha1⟩
  · rw [h1]
    refine ⟨none, t.toks ++ rest, strLoop_other _ _ none _ (by omega) ?_, Or.inl rfl⟩
    rw [head_append]; exact calm_head t h
  · rw [h1]
    obtain ⟨s', r', h2, h3⟩ := ha1 (t.toks ++ rest).length ((t.toks ++ rest).length + 1) s (by omega) (by omega)
    refine ⟨s', r', h2, ?_⟩
    rcases h3 with h3 | h3 | ⟨o, r'', h3, ho⟩
    · exact Or.inl h3
    · subst h3; exact Or.inr hf
    · subst h3
      refine Or.inr fun o' ho' => ?_
      simp only [List.head?_cons, Option.some.injEq, Tok.op.injEq] at ho'
      subst ho'; exact ho

theorem after_bin (o : BinOp) (r : Tree) (rest fin : Toks) (ho : isCmp o = false) (h : r.Calm) (ha : After fin rest) (hd : NoDot rest) :
    After fin (.op o :: (r.toks ++ rest)) := by
  intro n' m s hn' hm
  by_cases hadd : o = .add
  · subst hadd
    simp only [List.length_cons] at hn' hm
    cases m with
    | zero => omega
    | succ m =>
      show ∃ s' r', (strPri (strExpr n') (r.toks ++ rest)).bind _ = _ ∧ _
      rcases strPri_calm r n' rest fin h ha hd (by omega) with h1 | ⟨s2, r2, h1, hl2, ha2⟩
      · rw [h1]; exact ⟨none, _, rfl, Or.inl rfl⟩
      · rw [h1, ok_bind]
        exact ha2 n' m (s ++ s2) (by omega) (by omega)
  · refine ⟨some s, .op o :: (r.toks ++ rest), strLoop_other _ m _ _ (by omega) ?_, Or.inr (Or.inr ⟨o, _, rfl, ho⟩)⟩
    simpa using hadd

theorem quiet_calm' (t : Tree) : ∀ rest fin, t.Calm → After fin rest → NoDot rest →
    (∀ o, fin.head? = some (.op o) → isCmp o = false) → t.Quiet rest := by
  induction t with
  | num v => intro rest fin h ha hd hf; exact quietAt_calm (.num v) rest fin h ha hd hf
  | chars s => intro rest fin h ha hd hf; exact quietAt_calm (.chars s) rest fin h ha hd hf
  | sym w => intro rest fin h ha hd hf; exact quietAt_calm (.sym w) rest fin h ha hd hf
  | pc s => intro rest fin h ha hd hf; cases s <;> exact quietAt_calm (.pc _) rest fin h ha hd hf
  | paren t ih =>
    intro rest fin h ha hd hf
    refine ⟨?_, ih (.rp :: rest) (.rp :: rest) h (after_self _ (by simp)) (fun w => by simp) (fun o => by simp)⟩
    have := quietAt_calm (.paren t) rest fin h ha hd hf
    simpa [Tree.toks] using this
  | bin o l r ihl ihr =>
    intro rest fin h ha hd hf
    exact ⟨ihl _ fin h.2.1 (after_bin o r rest fin h.1 h.2.2 ha hd) (fun w => by simp) hf, ihr rest fin h.2.2 ha hd hf⟩
  | atan2 l r ihl ihr =>
    intro rest fin h ha hd hf
    exact ⟨ihl _ _ h.1 (after_self _ (by simp)) (fun w => by simp) (fun o => by simp),
      ihr _ _ h.2 (after_self _ (by simp)) (fun w => by simp) (fun o => by simp)⟩
  | fn f t ih =>
    intro rest fin h ha hd hf
    exact ih (.rp :: rest) (.rp :: rest) h (after_self _ (by simp)) (fun w => by simp) (fun o => by simp)
  | plus t _ => intro rest fin h; exact h.elim
  | neg t ih => intro rest fin h ha hd hf; exact ih rest fin h ha hd hf
  | cpl t ih => intro rest fin h ha hd hf; exact ih rest fin h ha hd hf
  | not t ih => intro rest fin h ha hd hf; exact ih rest fin h ha hd hf
  | notIn t ih => intro rest fin h ha hd hf; exact ih rest fin h ha hd hf

theorem quiet_calm (t : Tree) (rest : Toks) (h : t.Calm) (hs : Stops 0 rest) (hd : NoDot rest) : t.Quiet rest := by
  refine quiet_calm' t rest rest h (after_self rest ?_) hd ?_
  · intro hadd
    exact absurd (hs _ hadd 3 rfl) (by omega)
  · intro o ho
    have := hs o ho
    cases o <;> simp_all [opLevel, isCmp]

end Verif.Parse
