import Verif.Parse.Spec
/-!
# The parser reads an expression as it is written
-/
namespace Verif.Parse

open Verif.Expr (BinOp UnOp)

section

variable {β : Type} (alg : Alg β) (max : Nat)

theorem ok_bind {α γ : Type} (a : α) (f : α → Outcome γ) : (Outcome.ok a).bind f = f a := rfl

/-- The parser of a level, with the bound for the depth of the operators in front of operands. -/
def «at» (e0 : Toks → Res β) (n f : Nat) : Nat → Toks → Res β
  | 0 => prio0 alg max e0 n
  | 1 => prio1 alg max e0 n f
  | 2 => prio2 alg max e0 n
  | 3 => prio3 alg max e0 n
  | 4 => prio4 alg max e0 n
  | 5 => prio5 alg max e0 n
  | 6 => prio6 alg max e0 f
  | _ => prio7 alg max e0

/-- The loop of a level. -/
def loopAt (e0 : Toks → Res β) (n : Nat) : Nat → Nat → Option β → Toks → Res β
  | 0, m, t, rest => chain alg isBool (prio1 alg max e0 n n) m t rest
  | 2, m, t, rest => chain alg isCmp (prio3 alg max e0 n) m t rest
  | 3, m, t, rest => chain3 alg (prio4 alg max e0 n) m t rest
  | 4, m, t, rest => chain alg isBits (prio5 alg max e0 n) m t rest
  | 5, m, t, rest => chain alg isMul (prio6 alg max e0 n) m t rest
  | _, _, t, rest => .ok (t, rest)

theorem chain_stops (isOp : BinOp → Bool) (next : Toks → Res β) (m : Nat) (t : Option β) (rest : Toks) (hm : 0 < m)
    (h : ∀ o, rest.head? = some (.op o) → isOp o = false) : chain alg isOp next m t rest = .ok (t, rest) := by
  cases m with
  | zero => omega
  | succ m =>
    unfold chain
    split
    · omega
    · rename_i n t1 o rest' e1
      have := h o (by simp)
      simp only [this]; rfl
    · rfl

theorem chain3_stops (next : Toks → Res β) (m : Nat) (t : Option β) (rest : Toks) (hm : 0 < m)
    (h : ∀ o, rest.head? = some (.op o) → o ≠ .add ∧ o ≠ .sub) : chain3 alg next m t rest = .ok (t, rest) := by
  cases m with
  | zero => omega
  | succ m =>
    unfold chain3
    split
    · omega
    · exact absurd rfl (h .add (by simp)).1
    · exact absurd rfl (h .sub (by simp)).2
    · rfl

theorem loopAt_stops (e0 : Toks → Res β) (n k m : Nat) (t : Option β) (rest : Toks) (hm : 0 < m) (h : Stops k rest) :
    loopAt alg max e0 n k m t rest = .ok (t, rest) := by
  unfold loopAt
  split
  · refine chain_stops alg _ _ _ _ _ hm fun o ho => ?_
    have := h o ho
    cases o <;> simp_all [opLevel, isBool]
  · refine chain_stops alg _ _ _ _ _ hm fun o ho => ?_
    have := h o ho
    cases o <;> simp_all [opLevel, isCmp]
  · refine chain3_stops alg _ _ _ _ hm fun o ho => ?_
    have := h o ho
    cases o <;> simp_all [opLevel]
  · refine chain_stops alg _ _ _ _ _ hm fun o ho => ?_
    have := h o ho
    cases o <;> simp_all [opLevel, isBits]
  · refine chain_stops alg _ _ _ _ _ hm fun o ho => ?_
    have := h o ho
    cases o <;> simp_all [opLevel, isMul]
  · rfl

/-- The first token of an expression that is not an operator in front of its operand. -/
def plainHead : Tok → Bool
  | .op .sub | .op .add | .cpl | .not => false
  | _ => true

theorem prio6_plain (e0 : Toks → Res β) (f : Nat) (toks : Toks) (hf : 0 < f) (h : ∀ c, toks.head? = some c → plainHead c = true) :
    prio6 alg max e0 f toks = prio7 alg max e0 toks := by
  cases f with
  | zero => omega
  | succ f =>
    unfold prio6
    split
    · omega
    all_goals first | rfl | exact absurd (h _ rfl) (by decide)

theorem prio1_plain (e0 : Toks → Res β) (n f : Nat) (toks : Toks) (hf : 0 < f) (h : toks.head? ≠ some .not) :
    prio1 alg max e0 n f toks = prio2 alg max e0 n toks := by
  cases f with
  | zero => omega
  | succ f =>
    unfold prio1
    split
    · omega
    · exact absurd rfl h
    · rfl

/-- From one level to the one outside it. -/
theorem down (e0 : Toks → Res β) (n f k : Nat) (v : Option β) (toks rest : Toks) (hk : k ≤ 6) (hf : 0 < f)
    (h1 : k = 1 → toks.head? ≠ some .not) (h6 : k = 6 → ∀ c, toks.head? = some c → plainHead c = true)
    (h : ∀ f, toks.length < f → «at» alg max e0 n f (k + 1) toks = .ok (v, rest)) (hn : toks.length < n) :
    «at» alg max e0 n f k toks = loopAt alg max e0 n k n v rest := by
  match k, hk with
  | 0, _ => have := h n hn; show prio0 alg max e0 n toks = _; unfold prio0; rw [show prio1 alg max e0 n n toks = _ from this]; rfl
  | 1, _ =>
    have := h n hn
    show prio1 alg max e0 n f toks = .ok (v, rest)
    rw [prio1_plain alg max e0 n f toks hf (h1 rfl)]; exact this
  | 2, _ => have := h n hn; show prio2 alg max e0 n toks = _; unfold prio2; rw [show prio3 alg max e0 n toks = _ from this]; rfl
  | 3, _ => have := h n hn; show prio3 alg max e0 n toks = _; unfold prio3; rw [show prio4 alg max e0 n toks = _ from this]; rfl
  | 4, _ => have := h n hn; show prio4 alg max e0 n toks = _; unfold prio4; rw [show prio5 alg max e0 n toks = _ from this]; rfl
  | 5, _ => have := h n hn; show prio5 alg max e0 n toks = _; unfold prio5; rw [show prio6 alg max e0 n toks = _ from this]; rfl
  | 6, _ =>
    have := h n hn
    show prio6 alg max e0 f toks = .ok (v, rest)
    rw [prio6_plain alg max e0 f toks hf (h6 rfl)]; exact this

/-- One step of a loop. -/
theorem loop_step (e0 : Toks → Res β) (n k m : Nat) (o : BinOp) (a b : β) (toks rest : Toks) (ho : opLevel o = some k)
    (h : ∀ f, toks.length < f → «at» alg max e0 n f (k + 1) toks = .ok (some b, rest)) (hn : toks.length < n) :
    loopAt alg max e0 n k (m + 1) (some a) (.op o :: toks) =
      (alg.bin o a b).bind fun t => loopAt alg max e0 n k m t rest := by
  have := h n hn
  cases o <;> simp only [opLevel, Option.some.injEq, reduceCtorEq] at ho <;> subst ho <;>
    simp only [loopAt, chain, chain3, isBool, isCmp, isBits, isMul, if_true] <;>
    simp only [«at»] at this <;> rw [this, ok_bind] <;> rfl

theorem Tree.toks_ne (t : Tree) : t.toks ≠ [] := by
  cases t <;> simp [Tree.toks]
  rename_i s; cases s <;> simp [Tree.toks]

theorem head_append (t : Tree) (rest : Toks) : (t.toks ++ rest).head? = t.toks.head? := by
  cases h : t.toks with
  | nil => exact absurd h t.toks_ne
  | cons a l => rfl

theorem opLevel_le (o : BinOp) (k : Nat) (h : opLevel o = some k) : k ≤ 5 := by
  cases o <;> simp only [opLevel, Option.some.injEq, reduceCtorEq] at h <;> omega

theorem level_bin (o : BinOp) (l r : Tree) (k : Nat) (h : opLevel o = some k) : (Tree.bin o l r).CodeLevel = k := by
  simp only [Tree.level, h, Option.getD_some]

theorem head_not (t : Tree) (hl : 2 ≤ t.CodeLevel) (hn : t.leads = false) (hf : t.Fits opLevel 1 6) :
    t.toks.head? ≠ some .not := by
  induction t with
  | pc s => cases s <;> simp [Tree.toks]
  | not t => simp [Tree.level] at hl
  | notIn t => simp [Tree.leads] at hn
  | bin o l r ihl ihr =>
    simp only [Tree.Fits] at hf
    obtain ⟨⟨k, ho, hkl, _⟩, hfl, _⟩ := hf
    rw [level_bin o l r k ho] at hl
    simp only [Tree.toks]
    rw [head_append]
    exact ihl (Nat.le_trans hl hkl) hn hfl
  | _ => simp [Tree.toks]

theorem head_plain (t : Tree) (hl : 7 ≤ t.CodeLevel) (hf : t.Fits opLevel 1 6) (c : Tok) (hc : t.toks.head? = some c) :
    plainHead c = true := by
  cases t with
  | pc s => cases s <;> simp [Tree.toks] at hc <;> subst hc <;> rfl
  | bin o l r =>
    simp only [Tree.Fits] at hf
    obtain ⟨⟨k, ho, hkl, _⟩, hfl, _⟩ := hf
    rw [level_bin o l r k ho] at hl
    have := opLevel_le o k ho
    omega
  | not _ => simp [Tree.level] at hl
  | neg _ => simp [Tree.level] at hl
  | plus _ => simp [Tree.level] at hl
  | cpl _ => simp [Tree.level] at hl
  | notIn _ => simp [Tree.level] at hl
  | _ => simp only [Tree.toks, List.head?_cons, Option.some.injEq] at hc; subst hc; rfl

/-- Without a comparison of strings, a primary is read. -/
theorem prio8_quiet (e0 : Toks → Res β) (toks : Toks) (h : QuietAt toks) :
    prio8 alg max e0 toks = prio9 alg max e0 toks := by
  obtain ⟨s, rest, hs, h⟩ := h
  unfold prio8
  rw [hs, ok_bind]
  rcases h with h | h
  · subst h; rfl
  · cases s with
    | none => rfl
    | some s =>
      cases rest with
      | nil => rfl
      | cons c rest =>
        cases c with
        | op o =>
          have := h o rfl
          show (if isCmp o then _ else _) = _
          rw [this]; rfl
        | _ => rfl

/-- A token that does not begin an expression. -/
theorem prio4_other (e0 : Toks → Res β) (n x : Nat) (rest : Toks) (hn : 0 < n) :
    prio4 alg max e0 n (.other x :: rest) = .ok (none, .other x :: rest) := by
  cases n with
  | zero => omega
  | succ n => rfl

theorem loopAt_halts (e0 : Toks → Res β) (n k m : Nat) (t : Option β) (rest : Toks) (hm : 0 < m) (hn : 0 < n) (h : Halts k rest) :
    loopAt alg max e0 n k m t rest = .ok (t, rest) := by
  rcases h with h | ⟨x, rest, rfl⟩
  · exact loopAt_stops alg max e0 n k m t rest hm h
  · cases m with
    | zero => omega
    | succ m =>
      unfold loopAt
      split
      · rfl
      · rfl
      · show (prio4 alg max e0 n (.other x :: rest)).bind _ = _
        rw [prio4_other alg max e0 n x rest hn]; rfl
      · rfl
      · rfl
      · rfl

/-- What is shown of an expression at a level. -/
def Reads (t : Tree) (k : Nat) : Prop :=
  ∀ n f rest v, (k ≤ 1 → t.leads = false) → t.value alg = some v → t.Quiet rest →
    (t.toks ++ rest).length < n + 1 → (t.toks ++ rest).length < f → Halts (k + 1) rest →
    ∃ m, rest.length < m ∧ «at» alg max (expr alg max n) (n + 1) f k (t.toks ++ rest) =
      loopAt alg max (expr alg max n) (n + 1) k m (some v) rest

/-- If nothing of the level follows, the expression is read. -/
theorem Reads.ok {t : Tree} {k : Nat} (h : Reads alg max t k) {n f : Nat} {rest : Toks} {v : β} (hl : k ≤ 1 → t.leads = false)
    (hv : t.value alg = some v) (hq : t.Quiet rest) (hn : (t.toks ++ rest).length < n + 1)
    (hf : (t.toks ++ rest).length < f) (hs : Halts k rest) :
    «at» alg max (expr alg max n) (n + 1) f k (t.toks ++ rest) = .ok (some v, rest) := by
  obtain ⟨m, hm, h⟩ := h n f rest v hl hv hq hn hf (hs.imp (fun hs o ho j hj => Nat.lt_succ_of_lt (hs o ho j hj)) id)
  rw [h]
  exact loopAt_halts alg max _ _ _ _ _ _ (by omega) (by omega) hs

/-- From the level of the expression to the ones outside it. -/
theorem Reads.down {t : Tree} (d : Nat) : ∀ k, k + d ≤ 7 → Reads alg max t (k + d) → k + d ≤ t.CodeLevel → t.Fits opLevel 1 6 →
    Reads alg max t k := by
  induction d with
  | zero => intro k _ h _ _; exact h
  | succ d ih =>
    intro k hk h hl hf
    have h' : Reads alg max t (k + 1) := ih (k + 1) (by omega) (by rwa [Nat.add_right_comm]) (by omega) hf
    intro n f rest v hld hv hq hn hff hs
    refine ⟨n + 1, ?_, Parse.down alg max _ _ f k (some v) _ rest (by omega) (by omega) ?_ ?_ ?_ hn⟩
    · rw [List.length_append] at hn; omega
    · intro h1
      rw [head_append]
      exact head_not t (by omega) (hld (by omega)) hf
    · intro h6 c hc
      rw [head_append] at hc
      exact head_plain t (by omega) hf c hc
    · intro f' hf'
      exact h'.ok alg max (fun hk1 => hld (by omega)) hv hq hn hf' hs

theorem done_eq {o : Outcome (Option β)} {v : β} (h : done o = some v) : o = .ok (some v) := by
  cases o with
  | ok w => cases w with
    | none => exact absurd h (by simp [done])
    | some w => simp only [done] at h; rw [h]
  | fail => exact absurd h (by simp [done])
  | ub => exact absurd h (by simp [done])

theorem stops_high (k : Nat) (hk : 6 ≤ k) (rest : Toks) : Halts k rest := Or.inl fun o _ j hj => by
  have := opLevel_le o j hj; omega

/-- A primary is read by `expressionPriority7`. -/
theorem reads_prim {t : Tree} (hl : t.CodeLevel = 7) (hf : t.Fits opLevel 1 6)
    (h : ∀ n rest v, t.value alg = some v → t.Quiet rest → (t.toks ++ rest).length < n + 1 →
      prio7 alg max (expr alg max n) (t.toks ++ rest) = .ok (some v, rest)) (k : Nat) (hk : k ≤ t.CodeLevel) :
    Reads alg max t k := by
  refine Reads.down alg max (7 - k) k (by omega) ?_ (by omega) hf
  rw [show k + (7 - k) = 7 by omega]
  intro n f rest v _ hv hq hn _ _
  exact ⟨rest.length + 1, by omega, h n rest v hv hq hn⟩

/-- The whole of an expression in parentheses is read. -/
theorem expr_of_reads {t : Tree} (h : Reads alg max t 0) {n : Nat} {rest : Toks} {v : β} (hl : t.leads = false)
    (hv : t.value alg = some v) (hq : t.Quiet rest) (hn : (t.toks ++ rest).length < n) (hs : Halts 0 rest) :
    expr alg max n (t.toks ++ rest) = .ok (some v, rest) := by
  cases n with
  | zero => omega
  | succ n => exact h.ok alg max (f := n + 1) (fun _ => hl) hv hq hn hn hs

theorem stops_rp (k : Nat) (rest : Toks) : Halts k (.rp :: rest) := Or.inl fun o h => by simp at h
theorem stops_comma (k : Nat) (rest : Toks) : Halts k (.comma :: rest) := Or.inl fun o h => by simp at h

theorem bind_some {γ : Type} {o : Option β} {f : β → Option γ} {v : γ} (h : o.bind f = some v) :
    ∃ a, o = some a ∧ f a = some v := by
  cases o with
  | none => exact absurd h (by simp)
  | some a => exact ⟨a, rfl, h⟩

/-- An operator in front of an operand. -/
theorem reads_unary {t u : Tree} (hl : t.CodeLevel = 6) (hf : t.Fits opLevel 1 6) (c : Tok) (ht : t.toks = c :: u.toks)
    (ih : Reads alg max u 6) (hquiet : ∀ rest, t.Quiet rest → u.Quiet rest)
    (h : ∀ n f rest v, t.value alg = some v → u.Quiet rest → (u.toks ++ rest).length < n + 1 →
      (∀ w, u.value alg = some w → prio6 alg max (expr alg max n) f (u.toks ++ rest) = .ok (some w, rest)) →
      prio6 alg max (expr alg max n) (f + 1) (c :: (u.toks ++ rest)) = .ok (some v, rest)) (k : Nat) (hk : k ≤ t.CodeLevel) :
    Reads alg max t k := by
  refine Reads.down alg max (6 - k) k (by omega) ?_ (by omega) hf
  rw [show k + (6 - k) = 6 by omega]
  intro n f rest v _ hv hq hn hff _
  rw [ht, List.cons_append] at hn hff ⊢
  simp only [List.length_cons] at hn hff
  refine ⟨rest.length + 1, by omega, ?_⟩
  cases f with
  | zero => omega
  | succ f =>
    refine h n f rest v hv (hquiet rest hq) (by omega) fun w hw => ?_
    exact ih.ok alg max (f := f) (fun h => by omega) hw (hquiet rest hq) (by omega) (by omega) (stops_high 6 (by omega) rest)

theorem chars_foldl (s : List Char) : ∀ v, s.foldl (fun v c => (v * 256 + c.toNat % 256) % W32) v % W32 =
    (v * 256 ^ s.length + charsNum s) % W32 := by
  induction s with
  | nil => intro v; simp [charsNum]
  | cons c cs ih =>
    intro v
    rw [List.foldl_cons, ih, charsNum, List.length_cons, Nat.pow_succ, ← Nat.add_assoc]
    generalize 256 ^ cs.length = p
    have h : ((v * 256 + c.toNat % 256) % W32 * p) % W32 = ((v * 256 + c.toNat % 256) * p) % W32 := Nat.mod_mul_mod _ _ _
    rw [Nat.add_mod, h, ← Nat.add_mod, Nat.add_mul, Nat.mul_assoc, Nat.mul_comm 256 p]

theorem charsValue_eq (s : List Char) : charsValue s = Verif.Expr.toI32 (charsNum s : Nat) := by
  have h := chars_foldl s 0
  rw [Nat.zero_mul, Nat.zero_add] at h
  unfold charsValue Verif.Expr.toI32
  omega

/-- Every expression with the parentheses that the precedence of the code needs is read as it is written. -/
theorem reads (t : Tree) : t.Fits opLevel 1 6 → t.Nots → t.Short max → ∀ k, k ≤ t.CodeLevel → Reads alg max t k := by
  induction t with
  | num x =>
    intro hf _ _
    refine reads_prim alg max rfl hf fun n rest v hv hq _ => ?_
    simp only [Tree.value, Option.some.injEq] at hv; subst hv
    exact prio8_quiet alg max _ _ hq
  | chars s =>
    intro hf _ hsh
    refine reads_prim alg max rfl hf fun n rest v hv hq _ => ?_
    simp only [Tree.value, Option.some.injEq] at hv; subst hv
    refine (prio8_quiet alg max _ _ hq).trans ?_
    simp only [Tree.Short] at hsh
    show (if s.length ≤ max then _ else _) = _
    rw [if_pos hsh, charsValue_eq]
  | sym name =>
    intro hf _ _
    refine reads_prim alg max rfl hf fun n rest v hv hq _ => ?_
    refine (prio8_quiet alg max _ _ hq).trans ?_
    show ret (alg.sym name) rest = _
    rw [done_eq hv]; rfl
  | pc s =>
    intro hf _ _
    refine reads_prim alg max rfl hf fun n rest v hv hq _ => ?_
    cases s <;>
    · refine (prio8_quiet alg max _ _ hq).trans ?_
      show ret alg.pc rest = _
      rw [done_eq hv]; rfl
  | paren t ih =>
    intro hf hnt hsh
    simp only [Tree.Nots, Tree.Short] at hnt hsh
    refine reads_prim alg max rfl hf fun n rest v hv hq hn => ?_
    simp only [Tree.value] at hv
    obtain ⟨a, ha, hv⟩ := bind_some hv
    simp only [Tree.toks, List.cons_append, List.append_assoc, List.nil_append, List.length_cons] at hn ⊢
    refine (prio8_quiet alg max _ _ hq.1).trans ?_
    show (expr alg max n (t.toks ++ .rp :: rest)).bind _ = _
    rw [expr_of_reads alg max (ih hf hnt.2 hsh 0 (by omega)) hnt.1 ha hq.2 (by omega)
      (stops_rp 0 rest), ok_bind]
    show ret (alg.paren a) rest = _
    rw [done_eq hv]; rfl
  | fn g t ih =>
    intro hf hnt hsh
    have hf' := hf
    simp only [Tree.Nots, Tree.Short, Tree.Fits] at hnt hsh hf'
    refine reads_prim alg max rfl hf fun n rest v hv hq hn => ?_
    simp only [Tree.value] at hv
    obtain ⟨a, ha, hv⟩ := bind_some hv
    simp only [Tree.toks, List.cons_append, List.append_assoc, List.nil_append, List.length_cons] at hn ⊢
    show (expr alg max n (t.toks ++ .rp :: rest)).bind _ = _
    rw [expr_of_reads alg max (ih hf' hnt.2 hsh 0 (by omega)) hnt.1 ha hq (by omega) (stops_rp 0 rest), ok_bind]
    show ret (alg.un g a) rest = _
    rw [done_eq hv]; rfl
  | atan2 t u iht ihu =>
    intro hf hnt hsh
    have hf' := hf
    simp only [Tree.Nots, Tree.Short, Tree.Fits] at hnt hsh hf'
    obtain ⟨hlt, hlu, hnt, hnu⟩ := hnt
    refine reads_prim alg max rfl hf fun n rest v hv hq hn => ?_
    simp only [Tree.value] at hv
    obtain ⟨a, ha, hv⟩ := bind_some hv
    obtain ⟨b, hb, hv⟩ := bind_some hv
    simp only [Tree.toks, List.cons_append, List.append_assoc, List.nil_append, List.length_cons] at hn ⊢
    obtain ⟨hq', hq''⟩ := hq
    have hn' : (u.toks ++ .rp :: rest).length < n := by
      simp only [List.length_append, List.length_cons] at hn ⊢; omega
    show (expr alg max n (t.toks ++ .comma :: (u.toks ++ .rp :: rest))).bind _ = _
    rw [expr_of_reads alg max (iht hf'.1 hnt hsh.1 0 (by omega)) hlt ha hq' (by omega) (stops_comma 0 _), ok_bind]
    show (expr alg max n (u.toks ++ .rp :: rest)).bind _ = _
    rw [expr_of_reads alg max (ihu hf'.2 hnu hsh.2 0 (by omega)) hlu hb hq'' hn' (stops_rp 0 _), ok_bind]
    show ret (alg.bin .atan2 a b) rest = _
    rw [done_eq hv]; rfl
  | neg t ih =>
    intro hf hnt hsh
    have hf' := hf
    simp only [Tree.Fits] at hf'
    refine reads_unary alg max rfl hf _ rfl (ih hf'.2 hnt hsh 6 hf'.1) (fun _ h => h) fun n f rest v hv hq hn h => ?_
    simp only [Tree.value] at hv
    obtain ⟨a, ha, hv⟩ := bind_some hv
    show (prio6 alg max (expr alg max n) f (t.toks ++ rest)).bind _ = _
    rw [h a ha, ok_bind]
    show ret (alg.bin .sub (alg.num 0) a) rest = _
    rw [done_eq hv]; rfl
  | plus t ih =>
    intro hf hnt hsh
    have hf' := hf
    simp only [Tree.Fits] at hf'
    refine reads_unary alg max rfl hf _ rfl (ih hf'.2 hnt hsh 6 hf'.1) (fun _ h => h) fun n f rest v hv hq hn h => ?_
    exact h v hv
  | cpl t ih =>
    intro hf hnt hsh
    have hf' := hf
    simp only [Tree.Fits] at hf'
    refine reads_unary alg max rfl hf _ rfl (ih hf'.2 hnt hsh 6 hf'.1) (fun _ h => h) fun n f rest v hv hq hn h => ?_
    simp only [Tree.value] at hv
    obtain ⟨a, ha, hv⟩ := bind_some hv
    show (prio6 alg max (expr alg max n) f (t.toks ++ rest)).bind _ = _
    rw [h a ha, ok_bind]
    show ret (alg.bin .xor (alg.num (-1)) a) rest = _
    rw [done_eq hv]; rfl
  | notIn t ih =>
    intro hf hnt hsh
    have hf' := hf
    simp only [Tree.Fits] at hf'
    refine reads_unary alg max rfl hf _ rfl (ih hf'.2 hnt hsh 6 hf'.1) (fun _ h => h) fun n f rest v hv hq hn h => ?_
    simp only [Tree.value] at hv
    obtain ⟨a, ha, hv⟩ := bind_some hv
    show (prio6 alg max (expr alg max n) f (t.toks ++ rest)).bind _ = _
    rw [h a ha, ok_bind]
    show ret (alg.un .not a) rest = _
    rw [done_eq hv]; rfl
  | not t ih =>
    intro hf hnt hsh k hk
    have hf' := hf
    simp only [Tree.Fits, Tree.Nots] at hf' hnt
    have hk : k ≤ 1 := hk
    refine Reads.down alg max (1 - k) k (by omega) ?_ (by show _ ≤ 1; omega) hf
    rw [show k + (1 - k) = 1 by omega]
    intro n f rest v _ hv hq hn hff hs
    simp only [Tree.value] at hv
    obtain ⟨a, ha, hv⟩ := bind_some hv
    simp only [Tree.toks, List.cons_append, List.length_cons] at hn hff ⊢
    refine ⟨rest.length + 1, by omega, ?_⟩
    cases f with
    | zero => omega
    | succ f =>
      show (prio1 alg max (expr alg max n) (n + 1) f (t.toks ++ rest)).bind _ = _
      obtain ⟨m, hm, h⟩ := ih hf'.2 hnt.2 hsh 1 hf'.1 n f rest a (fun _ => hnt.1) ha hq (by omega)
        (by omega) hs
      rw [show prio1 alg max (expr alg max n) (n + 1) f (t.toks ++ rest) = .ok (some a, rest) from h, ok_bind]
      show ret (alg.un .not a) rest = _
      rw [done_eq hv]; rfl
  | bin o l r ihl ihr =>
    intro hf hnt hsh k hk
    have hf' := hf
    simp only [Tree.Fits, Tree.Nots, Tree.Short] at hf' hnt hsh
    obtain ⟨⟨j, ho, hkl, hkr⟩, hfl, hfr⟩ := hf'
    have hlev := level_bin o l r j ho
    have hj := opLevel_le o j ho
    rw [hlev] at hk
    refine Reads.down alg max (j - k) k (by omega) ?_ (by omega) hf
    rw [show k + (j - k) = j by omega]
    intro n f rest v hld hv hq hn hff hs
    simp only [Tree.value] at hv
    obtain ⟨a, ha, hv⟩ := bind_some hv
    obtain ⟨b, hb, hv⟩ := bind_some hv
    simp only [Tree.toks, List.append_assoc, List.cons_append] at hn hff ⊢
    obtain ⟨m, hm, h⟩ := ihl hfl hnt.2.1 hsh.1 j hkl n f (.op o :: (r.toks ++ rest)) a hld ha hq.1 hn hff
      (Or.inl fun o' ho' i hi => by
        simp only [List.head?_cons, Option.some.injEq, Tok.op.injEq] at ho'
        subst ho'; rw [ho] at hi; simp only [Option.some.injEq] at hi; omega)
    rw [h]
    have hn' : (r.toks ++ rest).length < n + 1 := by
      simp only [List.length_append, List.length_cons] at hn ⊢; omega
    have hq' := hq.2
    have hlr : j + 1 ≤ 1 → r.leads = false := fun h0 => (hnt.1 (by rw [ho]; congr; omega)).2
    cases m with
    | zero => omega
    | succ m =>
      simp only [List.length_cons, List.length_append] at hm
      refine ⟨m, by omega, ?_⟩
      rw [loop_step alg max _ _ j m o a b _ rest ho (fun f' hf' =>
        (ihr hfr hnt.2.2 hsh.2 (j + 1) hkr).ok alg max hlr hb hq' hn' hf' hs) hn', done_eq hv, ok_bind]

end

end Verif.Parse
