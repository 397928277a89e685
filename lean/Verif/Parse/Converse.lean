import Verif.Parse.Strings
/-!
# Whatever the parser accepts is an expression
-/
namespace Verif.Parse

open Verif.Expr (BinOp UnOp)

theorem bind_ok {α γ : Type} {o : Outcome α} {f : α → Outcome γ} {b : γ} (h : o.bind f = .ok b) :
    ∃ a, o = .ok a ∧ f a = .ok b := by
  cases o with
  | ok a => exact ⟨a, rfl, h⟩
  | fail => exact absurd h (by simp [Outcome.bind])
  | ub => exact absurd h (by simp [Outcome.bind])

section

variable {β : Type} (alg : Alg β) (max : Nat)

theorem ret_ok {r : Outcome (Option β)} {toks : Toks} {x : Option β × Toks} (h : ret r toks = .ok x) :
    r = .ok x.1 ∧ toks = x.2 := by
  obtain ⟨a, h1, h2⟩ := bind_ok h
  cases h2
  exact ⟨h1, rfl⟩

/-- What has been read is an expression of the level. -/
structure IsTree (k : Nat) (toks : Toks) (v : β) (rest : Toks) (t : Tree) : Prop where
  toks : toks = t.toks ++ rest
  fits : t.Fits opLevel 1 6
  nots : t.Nots
  plain : t.Plain
  level : k ≤ t.CodeLevel
  leads : k ≤ 1 → t.leads = false
  value : t.value alg = some v

/-- A parser that accepts only expressions of the level. -/
def Sound (k : Nat) (p : Toks → Res β) : Prop :=
  ∀ toks v rest, StringFree toks → p toks = .ok (some v, rest) → ∃ t, IsTree alg k toks v rest t

theorem StringFree.tail {c : Tok} {toks : Toks} (h : StringFree (c :: toks)) : StringFree toks :=
  fun s hs => h s (List.mem_cons_of_mem _ hs)

theorem StringFree.right {a b : Toks} (h : StringFree (a ++ b)) : StringFree b :=
  fun s hs => h s (List.mem_append_right _ hs)

theorem StringFree.of_isTree {k : Nat} {toks rest : Toks} {v : β} {t : Tree} (h : StringFree toks) (ht : IsTree alg k toks v rest t) :
    StringFree rest := by
  have h' : StringFree (t.toks ++ rest) := by rw [← ht.toks]; exact h
  exact h'.right

/-- Without strings there are no string expressions. -/
theorem strPri_none (e : Toks → Outcome (Option (List Char) × Toks)) (toks : Toks) (hs : StringFree toks)
    (he : ∀ toks s rest, StringFree toks → e toks = .ok (s, rest) → s = none) {s : Option (List Char)} {rest : Toks}
    (h : strPri e toks = .ok (s, rest)) : s = none ∧ rest = toks := by
  unfold strPri at h
  split at h
  · exact absurd h (by simp)
  · exact absurd (List.mem_cons_self) (hs _)
  · obtain ⟨⟨s', r⟩, h1, h2⟩ := bind_ok h
    have := he _ _ _ hs.tail h1
    subst this
    simp only [Outcome.ok.injEq, Prod.mk.injEq] at h2
    exact ⟨h2.1.symm, h2.2.symm⟩
  · exact absurd h (by simp)
  · split at h
    · exact absurd h (by simp)
    · exact absurd h (by simp)
    · simp only [Outcome.ok.injEq, Prod.mk.injEq] at h
      exact ⟨h.1.symm, h.2.symm⟩
  · simp only [Outcome.ok.injEq, Prod.mk.injEq] at h
    exact ⟨h.1.symm, h.2.symm⟩

theorem strLoop_none (e : Toks → Outcome (Option (List Char) × Toks)) (m : Nat) (toks : Toks) (hs : StringFree toks)
    (he : ∀ toks s rest, StringFree toks → e toks = .ok (s, rest) → s = none) {s : Option (List Char)} {rest : Toks}
    (h : strLoop e m none toks = .ok (s, rest)) : s = none := by
  unfold strLoop at h
  split at h
  · exact absurd h (by simp)
  · obtain ⟨⟨s', r⟩, h1, h2⟩ := bind_ok h
    have := (strPri_none e _ hs.tail he h1).1
    subst this
    simp only [Outcome.ok.injEq, Prod.mk.injEq] at h2
    exact h2.1.symm
  · simp only [Outcome.ok.injEq, Prod.mk.injEq] at h
    exact h.1.symm

theorem strExpr_none (n : Nat) : ∀ toks s rest, StringFree toks → strExpr n toks = .ok (s, rest) → s = none := by
  induction n with
  | zero => intro _ _ _ _ h; exact absurd h (by simp [strExpr])
  | succ n ih =>
    intro toks s rest hs h
    unfold strExpr at h
    obtain ⟨⟨s', r⟩, h1, h2⟩ := bind_ok h
    obtain ⟨h3, h4⟩ := strPri_none _ _ hs ih h1
    subst h3 h4
    exact strLoop_none _ _ _ hs ih h2

theorem prio8_free (e0 : Toks → Res β) (toks : Toks) (hs : StringFree toks) {x : Option β × Toks}
    (h : prio8 alg max e0 toks = .ok x) : prio9 alg max e0 toks = .ok x ∧ ∃ r, strExpr (toks.length + 1) toks = .ok (none, r) := by
  unfold prio8 at h
  obtain ⟨⟨s, r⟩, h1, h2⟩ := bind_ok h
  have := strExpr_none _ _ _ _ hs h1
  subst this
  exact ⟨h2, r, h1⟩

theorem member_of_strExpr (n : Nat) (name : List Char) (rest r : Toks) (s : Option (List Char))
    (h : strExpr n (.sym name :: rest) = .ok (s, r)) : member name = none := by
  cases n with
  | zero => exact absurd h (by simp [strExpr])
  | succ n =>
    unfold strExpr at h
    obtain ⟨x, h1, _⟩ := bind_ok h
    have h1 : (match member name with
      | some true => Outcome.ub
      | some false => .fail
      | none => .ok (none, Tok.sym name :: rest)) = .ok x := h1
    split at h1
    · exact absurd h1 (by simp)
    · exact absurd h1 (by simp)
    · assumption

theorem done_ok {o : Outcome (Option β)} {v : β} (h : o = .ok (some v)) : done o = some v := by rw [h]; rfl

theorem sound8 (e0 : Toks → Res β) (he : Sound alg 0 e0) : Sound alg 7 (prio8 alg max e0) := by
  intro toks v rest hs h
  obtain ⟨h9, r, hstr⟩ := prio8_free alg max e0 toks hs h
  unfold prio9 at h9
  split at h9
  · exact absurd List.mem_cons_self (hs _)
  · rename_i x rest'
    simp only [Outcome.ok.injEq, Prod.mk.injEq, Option.some.injEq] at h9
    obtain ⟨h1, h2⟩ := h9
    subst h1 h2
    exact ⟨.num x, rfl, trivial, trivial, trivial, Nat.le_refl _, fun _ => rfl, rfl⟩
  · rename_i rest'
    obtain ⟨⟨w, r'⟩, h1, h2⟩ := bind_ok h9
    split at h2
    · rename_i w' rest'' heq
      cases heq
      obtain ⟨h3, h4⟩ := ret_ok h2
      subst h4
      obtain ⟨t, ht⟩ := he _ _ _ hs.tail h1
      refine ⟨.paren t, ?_, ht.fits, ⟨ht.leads (by omega), ht.nots⟩, ht.plain, Nat.le_refl _, fun _ => rfl, ?_⟩
      · simp only [Tree.toks, List.cons_append, List.append_assoc, List.nil_append]
        rw [ht.toks]
      · simp only [Tree.value, ht.value, Option.bind_some]
        exact done_ok h3
    · exact absurd h2 (by simp)
  · rename_i name rest'
    obtain ⟨h3, h4⟩ := ret_ok h9
    subst h4
    exact ⟨.sym name, rfl, trivial, trivial, member_of_strExpr _ _ _ _ _ hstr, Nat.le_refl _, fun _ => rfl, done_ok h3⟩
  · obtain ⟨h3, h4⟩ := ret_ok h9
    subst h4
    exact ⟨.pc true, rfl, trivial, trivial, trivial, Nat.le_refl _, fun _ => rfl, done_ok h3⟩
  · obtain ⟨h3, h4⟩ := ret_ok h9
    subst h4
    exact ⟨.pc false, rfl, trivial, trivial, trivial, Nat.le_refl _, fun _ => rfl, done_ok h3⟩
  · exact absurd h9 (by simp)

theorem sound7 (e0 : Toks → Res β) (he : Sound alg 0 e0) : Sound alg 7 (prio7 alg max e0) := by
  intro toks v rest hs h
  unfold prio7 at h
  split at h
  · rename_i f rest'
    obtain ⟨⟨w, r'⟩, h1, h2⟩ := bind_ok h
    split at h2
    · rename_i w' rest'' heq
      cases heq
      obtain ⟨h3, h4⟩ := ret_ok h2
      subst h4
      obtain ⟨t, ht⟩ := he _ _ _ hs.tail.tail h1
      refine ⟨.fn f t, ?_, ht.fits, ⟨ht.leads (by omega), ht.nots⟩, ht.plain, Nat.le_refl _, fun _ => rfl, ?_⟩
      · simp only [Tree.toks, List.cons_append, List.append_assoc, List.nil_append]
        rw [ht.toks]
      · simp only [Tree.value, ht.value, Option.bind_some]
        exact done_ok h3
    · exact absurd h2 (by simp)
    · exact absurd h2 (by simp)
  · exact absurd h (by simp)
  · rename_i rest'
    obtain ⟨⟨w, r'⟩, h1, h2⟩ := bind_ok h
    split at h2
    · rename_i a rest'' heq
      cases heq
      obtain ⟨t, ht⟩ := he _ _ _ hs.tail.tail h1
      have hs' : StringFree rest'' := (hs.tail.tail.of_isTree alg ht).tail
      obtain ⟨⟨w2, r2⟩, h3, h4⟩ := bind_ok h2
      split at h4
      · rename_i b rest3 heq
        cases heq
        obtain ⟨h5, h6⟩ := ret_ok h4
        subst h6
        obtain ⟨u, hu⟩ := he _ _ _ hs' h3
        refine ⟨.atan2 t u, ?_, ⟨ht.fits, hu.fits⟩, ⟨ht.leads (by omega), hu.leads (by omega), ht.nots, hu.nots⟩,
          ⟨ht.plain, hu.plain⟩, Nat.le_refl _, fun _ => rfl, ?_⟩
        · simp only [Tree.toks, List.cons_append, List.append_assoc, List.nil_append]
          rw [ht.toks, hu.toks]
        · simp only [Tree.value, ht.value, hu.value, Option.bind_some]
          exact done_ok h5
      · exact absurd h4 (by simp)
      · exact absurd h4 (by simp)
    · exact absurd h2 (by simp)
    · exact absurd h2 (by simp)
  · exact absurd h (by simp)
  · exact sound8 alg max e0 he _ _ _ hs h

theorem Sound.weaken {k j : Nat} {p : Toks → Res β} (h : Sound alg k p) (hj : j ≤ k) (hj2 : 2 ≤ j) : Sound alg j p := by
  intro toks v rest hs hp
  obtain ⟨t, ht⟩ := h _ _ _ hs hp
  exact ⟨t, ht.toks, ht.fits, ht.nots, ht.plain, Nat.le_trans hj ht.level, fun h => by omega, ht.value⟩

theorem combine_ok {o : BinOp} {a b : Option β} {x : Option β} (h : combine alg o a b = .ok x) :
    ∃ a' b', a = some a' ∧ b = some b' ∧ alg.bin o a' b' = .ok x := by
  cases a with
  | none => exact absurd h (by simp [combine])
  | some a =>
    cases b with
    | none => exact absurd h (by simp [combine])
    | some b => exact ⟨a, b, rfl, rfl, h⟩

theorem boolNot_ok {a : Option β} {x : Option β} (h : boolNot alg a = .ok x) : ∃ a', a = some a' ∧ alg.un .not a' = .ok x := by
  cases a with
  | none => exact absurd h (by simp [boolNot])
  | some a => exact ⟨a, rfl, h⟩

theorem sound6 (e0 : Toks → Res β) (he : Sound alg 0 e0) (n : Nat) : Sound alg 6 (prio6 alg max e0 n) := by
  induction n with
  | zero => intro toks v rest _ h; exact absurd h (by simp [prio6])
  | succ n ih =>
    intro toks v rest hs h
    unfold prio6 at h
    split at h
    · exact absurd h (by simp)
    · rename_i hn
      cases hn
      obtain ⟨⟨w, r'⟩, h1, h2⟩ := bind_ok h
      obtain ⟨h3, h4⟩ := ret_ok h2
      subst h4
      obtain ⟨a, b, h5, h6, h7⟩ := combine_ok alg h3
      cases h5
      subst h6
      obtain ⟨t, ht⟩ := ih _ _ _ hs.tail h1
      refine ⟨.neg t, by simp only [Tree.toks, List.cons_append, ht.toks], ⟨ht.level, ht.fits⟩, ht.nots, ht.plain, Nat.le_refl _,
        fun _ => rfl, ?_⟩
      simp only [Tree.value, ht.value, Option.bind_some]
      exact done_ok h7
    · rename_i hn
      cases hn
      obtain ⟨⟨w, r'⟩, h1, h2⟩ := bind_ok h
      obtain ⟨h3, h4⟩ := ret_ok h2
      subst h4
      obtain ⟨b, h6, h7⟩ := boolNot_ok alg h3
      subst h6
      obtain ⟨t, ht⟩ := ih _ _ _ hs.tail h1
      refine ⟨.notIn t, by simp only [Tree.toks, List.cons_append, ht.toks], ⟨ht.level, ht.fits⟩, ht.nots, ht.plain, Nat.le_refl _,
        fun h => by omega, ?_⟩
      simp only [Tree.value, ht.value, Option.bind_some]
      exact done_ok h7
    · rename_i hn
      cases hn
      obtain ⟨⟨w, r'⟩, h1, h2⟩ := bind_ok h
      obtain ⟨h3, h4⟩ := ret_ok h2
      subst h4
      obtain ⟨a, b, h5, h6, h7⟩ := combine_ok alg h3
      cases h5
      subst h6
      obtain ⟨t, ht⟩ := ih _ _ _ hs.tail h1
      refine ⟨.cpl t, by simp only [Tree.toks, List.cons_append, ht.toks], ⟨ht.level, ht.fits⟩, ht.nots, ht.plain, Nat.le_refl _,
        fun _ => rfl, ?_⟩
      simp only [Tree.value, ht.value, Option.bind_some]
      exact done_ok h7
    · rename_i hn
      cases hn
      obtain ⟨t, ht⟩ := ih _ _ _ hs.tail h
      exact ⟨.plus t, by simp only [Tree.toks, List.cons_append, ht.toks], ⟨ht.level, ht.fits⟩, ht.nots, ht.plain, Nat.le_refl _,
        fun _ => rfl, ht.value⟩
    · exact (sound7 alg max e0 he).weaken alg (by omega) (by omega) _ _ _ hs h

/-- A tree that gets another operand. -/
theorem IsTree.bin {k : Nat} {o : BinOp} {toks0 r1 rest : Toks} {a b v : β} {t u : Tree} (ho : opLevel o = some k)
    (ht : IsTree alg k toks0 a (.op o :: r1) t) (hu : IsTree alg (k + 1) r1 b rest u) (hv : alg.bin o a b = .ok (some v)) :
    IsTree alg k toks0 v rest (.bin o t u) where
  toks := by rw [ht.toks, hu.toks]; simp only [Tree.toks, List.append_assoc, List.cons_append]
  fits := ⟨⟨k, ho, ht.level, hu.level⟩, ht.fits, hu.fits⟩
  nots := ⟨fun h0 => by
    have : k = 0 := by rw [ho] at h0; cases h0; rfl
    subst this
    exact ⟨ht.leads (by omega), hu.leads (by omega)⟩, ht.nots, hu.nots⟩
  plain := ⟨ht.plain, hu.plain⟩
  level := by rw [level_bin o t u k ho]; omega
  leads := fun h => ht.leads h
  value := by simp only [Tree.value, ht.value, hu.value, Option.bind_some]; exact done_ok hv

theorem chain_none (isOp : BinOp → Bool) (next : Toks → Res β) (m : Nat) (toks : Toks) (v : β) (rest : Toks) :
    chain alg isOp next m none toks ≠ .ok (some v, rest) := by
  intro h
  unfold chain at h
  split at h
  · exact absurd h (by simp)
  · split at h
    · obtain ⟨⟨w, r⟩, h1, h2⟩ := bind_ok h
      obtain ⟨x, h3, h4⟩ := bind_ok h2
      obtain ⟨a, b, h5, _⟩ := combine_ok alg h3
      exact absurd h5 (by simp)
    · exact absurd h (by simp)
  · exact absurd h (by simp)

theorem chain3_none (next : Toks → Res β) (m : Nat) (toks : Toks) (v : β) (rest : Toks) :
    chain3 alg next m none toks ≠ .ok (some v, rest) := by
  intro h
  unfold chain3 at h
  split at h
  · exact absurd h (by simp)
  · obtain ⟨⟨w, r⟩, h1, h2⟩ := bind_ok h
    split at h2
    · obtain ⟨x, h3, h4⟩ := bind_ok h2
      obtain ⟨a, b, h5, _⟩ := combine_ok alg h3
      exact absurd h5 (by simp)
    · exact absurd h2 (by simp)
  · obtain ⟨⟨w, r⟩, h1, h2⟩ := bind_ok h
    obtain ⟨x, h3, h4⟩ := bind_ok h2
    obtain ⟨a, b, h5, _⟩ := combine_ok alg h3
    exact absurd h5 (by simp)
  · exact absurd h (by simp)

theorem chain_sound (k : Nat) (isOp : BinOp → Bool) (hop : ∀ o, isOp o = true → opLevel o = some k) (next : Toks → Res β)
    (hnext : Sound alg (k + 1) next) (toks0 : Toks) (hs : StringFree toks0) (m : Nat) :
    ∀ t1 toks v rest, (∃ t, IsTree alg k toks0 t1 toks t) → chain alg isOp next m (some t1) toks = .ok (some v, rest) →
      ∃ t, IsTree alg k toks0 v rest t := by
  induction m with
  | zero => intro _ _ _ _ _ h; exact absurd h (by simp [chain])
  | succ m ih =>
    intro t1 toks v rest ⟨t, ht⟩ h
    unfold chain at h
    split at h
    · exact absurd h (by simp)
    · rename_i n o r1 heq
      cases heq
      split at h
      · rename_i ho
        obtain ⟨⟨w, r⟩, h1, h2⟩ := bind_ok h
        obtain ⟨x, h3, h4⟩ := bind_ok h2
        obtain ⟨a, b, h5, h6, h7⟩ := combine_ok alg h3
        cases h5
        subst h6
        cases x with
        | none => exact absurd h4 (chain_none alg _ _ _ _ _ _)
        | some x =>
          obtain ⟨u, hu⟩ := hnext _ _ _ (hs.of_isTree alg ht).tail h1
          exact ih x r v rest ⟨.bin o t u, IsTree.bin alg (hop o ho) ht hu h7⟩ h4
      · simp only [Outcome.ok.injEq, Prod.mk.injEq, Option.some.injEq] at h
        obtain ⟨h1, h2⟩ := h
        subst h1 h2
        exact ⟨t, ht⟩
    · simp only [Outcome.ok.injEq, Prod.mk.injEq, Option.some.injEq] at h
      obtain ⟨h1, h2⟩ := h
      subst h1 h2
      exact ⟨t, ht⟩

theorem chain3_sound (next : Toks → Res β)
    (hnext : Sound alg 4 next) (toks0 : Toks) (hs : StringFree toks0) (m : Nat) :
    ∀ t1 toks v rest, (∃ t, IsTree alg 3 toks0 t1 toks t) → chain3 alg next m (some t1) toks = .ok (some v, rest) →
      ∃ t, IsTree alg 3 toks0 v rest t := by
  induction m with
  | zero => intro _ _ _ _ _ h; exact absurd h (by simp [chain3])
  | succ m ih =>
    intro t1 toks v rest ⟨t, ht⟩ h
    unfold chain3 at h
    split at h
    · exact absurd h (by simp)
    · rename_i n r1 heq
      cases heq
      obtain ⟨⟨w, r⟩, h1, h2⟩ := bind_ok h
      split at h2
      · rename_i heq3
        cases heq3
        obtain ⟨x, h3, h4⟩ := bind_ok h2
        obtain ⟨a, b, h5, h6, h7⟩ := combine_ok alg h3
        cases h5
        cases h6
        cases x with
        | none => exact absurd h4 (chain3_none alg _ _ _ _ _)
        | some x =>
          obtain ⟨u, hu⟩ := hnext _ _ _ (hs.of_isTree alg ht).tail h1
          exact ih x _ v rest ⟨.bin .add t u, IsTree.bin alg rfl ht hu h7⟩ h4
      · simp only [Outcome.ok.injEq, Prod.mk.injEq, Option.some.injEq] at h2
        obtain ⟨h3, h4⟩ := h2
        subst h3 h4
        exact ⟨t, ht⟩
    · rename_i n r1 heq
      cases heq
      obtain ⟨⟨w, r⟩, h1, h2⟩ := bind_ok h
      obtain ⟨x, h3, h4⟩ := bind_ok h2
      obtain ⟨a, b, h5, h6, h7⟩ := combine_ok alg h3
      cases h5
      subst h6
      cases x with
      | none => exact absurd h4 (chain3_none alg _ _ _ _ _)
      | some x =>
        obtain ⟨u, hu⟩ := hnext _ _ _ (hs.of_isTree alg ht).tail h1
        exact ih x r v rest ⟨.bin .sub t u, IsTree.bin alg rfl ht hu h7⟩ h4
    · simp only [Outcome.ok.injEq, Prod.mk.injEq, Option.some.injEq] at h
      obtain ⟨h1, h2⟩ := h
      subst h1 h2
      exact ⟨t, ht⟩

theorem level_sound (k : Nat) (hk : 2 ≤ k) (isOp : BinOp → Bool) (hop : ∀ o, isOp o = true → opLevel o = some k) (next : Toks → Res β)
    (hnext : Sound alg (k + 1) next) (n : Nat) :
    Sound alg k (fun toks => (next toks).bind fun (t, rest) => chain alg isOp next n t rest) := by
  intro toks v rest hs h
  obtain ⟨⟨w, r⟩, h1, h2⟩ := bind_ok h
  cases w with
  | none => exact absurd h2 (chain_none alg _ _ _ _ _ _)
  | some w =>
    exact chain_sound alg k isOp hop next hnext toks hs n w r v rest
      (hnext.weaken alg (by omega) hk _ _ _ hs h1) h2

theorem sound5 (e0 : Toks → Res β) (he : Sound alg 0 e0) (n : Nat) : Sound alg 5 (prio5 alg max e0 n) :=
  level_sound alg 5 (by omega) isMul (fun o h => by cases o <;> simp_all [isMul, opLevel]) _ (sound6 alg max e0 he n) n

theorem sound4 (e0 : Toks → Res β) (he : Sound alg 0 e0) (n : Nat) : Sound alg 4 (prio4 alg max e0 n) :=
  level_sound alg 4 (by omega) isBits (fun o h => by cases o <;> simp_all [isBits, opLevel]) _ (sound5 alg max e0 he n) n

theorem sound3 (e0 : Toks → Res β) (he : Sound alg 0 e0) (n : Nat) : Sound alg 3 (prio3 alg max e0 n) := by
  intro toks v rest hs h
  obtain ⟨⟨w, r⟩, h1, h2⟩ := bind_ok h
  cases w with
  | none => exact absurd h2 (chain3_none alg _ _ _ _ _)
  | some w =>
    exact chain3_sound alg _ (sound4 alg max e0 he n) toks hs n w r v rest
      ((sound4 alg max e0 he n).weaken alg (by omega) (by omega) _ _ _ hs h1) h2

theorem sound2 (e0 : Toks → Res β) (he : Sound alg 0 e0) (n : Nat) : Sound alg 2 (prio2 alg max e0 n) :=
  level_sound alg 2 (by omega) isCmp (fun o h => by cases o <;> simp_all [isCmp, opLevel]) _ (sound3 alg max e0 he n) n

theorem leads_head (t : Tree) (h : t.leads = true) : t.toks.head? = some .not := by
  induction t with
  | notIn t => rfl
  | bin o l r ihl _ => simp only [Tree.toks]; rw [head_append]; exact ihl h
  | _ => simp [Tree.leads] at h

theorem sound1 (e0 : Toks → Res β) (he : Sound alg 0 e0) (n m : Nat) : Sound alg 1 (prio1 alg max e0 n m) := by
  induction m with
  | zero => intro toks v rest _ h; exact absurd h (by simp [prio1])
  | succ m ih =>
    intro toks v rest hs h
    unfold prio1 at h
    split at h
    · exact absurd h (by simp)
    · rename_i hn
      cases hn
      obtain ⟨⟨w, r'⟩, h1, h2⟩ := bind_ok h
      obtain ⟨h3, h4⟩ := ret_ok h2
      subst h4
      obtain ⟨b, h6, h7⟩ := boolNot_ok alg h3
      subst h6
      obtain ⟨t, ht⟩ := ih _ _ _ hs.tail h1
      refine ⟨.not t, by simp only [Tree.toks, List.cons_append, ht.toks], ⟨ht.level, ht.fits⟩, ⟨ht.leads (by omega), ht.nots⟩,
        ht.plain, Nat.le_refl _, fun _ => rfl, ?_⟩
      simp only [Tree.value, ht.value, Option.bind_some]
      exact done_ok h7
    · rename_i hne
      obtain ⟨t, ht⟩ := sound2 alg max e0 he n _ _ _ hs h
      refine ⟨t, ht.toks, ht.fits, ht.nots, ht.plain, Nat.le_trans (by omega) ht.level, fun _ => ?_, ht.value⟩
      cases hl : t.leads with
      | false => rfl
      | true =>
        have h1 := leads_head t hl
        rw [← head_append t rest, ← ht.toks] at h1
        obtain ⟨tl, htl⟩ := List.head?_eq_some_iff.1 h1
        exact absurd htl (hne tl)

theorem sound0 (e0 : Toks → Res β) (he : Sound alg 0 e0) (n : Nat) : Sound alg 0 (prio0 alg max e0 n) := by
  intro toks v rest hs h
  obtain ⟨⟨w, r⟩, h1, h2⟩ := bind_ok h
  cases w with
  | none => exact absurd h2 (chain_none alg _ _ _ _ _ _)
  | some w =>
    refine chain_sound alg 0 isBool (fun o h => by cases o <;> simp_all [isBool, opLevel]) _ (sound1 alg max e0 he n n) toks hs n
      w r v rest ?_ h2
    obtain ⟨t, ht⟩ := sound1 alg max e0 he n n _ _ _ hs h1
    exact ⟨t, ht.toks, ht.fits, ht.nots, ht.plain, Nat.zero_le _, fun _ => ht.leads (by omega), ht.value⟩

/-- Without strings, what the parser accepts is an expression with the parentheses that the precedence needs. -/
theorem expr_sound (n : Nat) : Sound alg 0 (expr alg max n) := by
  induction n with
  | zero => intro toks v rest _ h; exact absurd h (by simp [expr])
  | succ n ih => exact sound0 alg max _ ih (n + 1)

end

end Verif.Parse
