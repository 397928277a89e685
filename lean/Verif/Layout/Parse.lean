import Verif.Layout.Tokens
import Verif.Expr.LinkProps
/-!
# Parsing expressions
-/
namespace Verif.Layout
open Verif.Expr (Tree I32 inRange Den Env FMath calculate)

/-! ### There are always enough steps -/

/-- No undefined behaviour, and the text has not become longer. -/
def Good (o : Outcome Res) (s : Nat) : Prop := o ≠ .ub ∧ ∀ r, o = .ok r → size r.st ≤ s

theorem good_bind {o : Outcome Res} {s s' : Nat} {f : Res → Outcome Res} (h : Good o s)
    (hf : ∀ r, size r.st ≤ s → Good (f r) s') : Good (o.bind f) s' := by
  cases o with
  | ok r => exact hf r (h.2 r rfl)
  | fail => exact ⟨fun h => (by cases h), fun r h => (by cases h)⟩
  | ub => exact absurd rfl h.1

theorem good_ok {r : Res} {s : Nat} (h : size r.st ≤ s) : Good (.ok r) s :=
  ⟨fun h => (by cases h), fun r' h' => (by cases h'; exact h)⟩

theorem good_fail {s : Nat} : Good .fail s := ⟨fun h => (by cases h), fun r h => (by cases h)⟩

theorem good_mono {o : Outcome Res} {s s' : Nat} (h : Good o s) (hs : s ≤ s') : Good o s' :=
  ⟨h.1, fun r hr => Nat.le_trans (h.2 r hr) hs⟩

theorem parseInteger_size (st : St) : size (parseInteger st).st ≤ size st := by
  unfold parseInteger
  by_cases h : st.tok = []
  · rw [if_pos h]; exact Nat.le_refl _
  · rw [if_neg h]
    simp only
    have hp : size (if st.tok = ['$'] then (16, nextToken st.rest)
      else if st.tok = ['%', '%'] then (2, nextToken st.rest) else (10, st) : Nat × St).2 ≤ size st := by
      split
      · exact nextToken_le st
      · split
        · exact nextToken_le st
        · exact Nat.le_refl _
    generalize (if st.tok = ['$'] then (16, nextToken st.rest)
      else if st.tok = ['%', '%'] then (2, nextToken st.rest) else (10, st) : Nat × St) = p at hp ⊢
    cases digits p.1 p.2.tok 0 with
    | none => exact hp
    | some v => exact Nat.le_trans (nextToken_le _) hp

theorem parse4_good (ctx : Ctx) (st : St) : Good (parse4 ctx st) (size st) := by
  unfold parse4
  split
  · exact good_ok (nextToken_le st)
  · simp only
    have h0 := parseInteger_size st
    split
    · exact good_ok h0
    · split
      · exact good_ok h0
      · split
        · exact good_ok h0
        · split
          · exact good_fail
          · have h1 := nextToken_le (parseInteger st).st
            have h2 := nextToken_le (nextToken (parseInteger st).st.rest)
            have h3 := nextToken_le (nextToken (nextToken (parseInteger st).st.rest).rest)
            split
            · split
              · exact good_ok (by simp only; omega)
              · split
                · exact good_ok (by simp only; omega)
                · exact good_fail
            · exact good_fail

theorem parse_good (ctx : Ctx) (n : Nat) :
    (∀ st, 3 * size st + 1 ≤ n → Good (parse3 ctx n st) (size st)) ∧
    (∀ st, 3 * size st + 2 ≤ n → Good (parse2 ctx n st) (size st)) ∧
    (∀ st, 3 * size st + 1 ≤ n → Good (loop2 ctx n st) (size st)) ∧
    (∀ st, 3 * size st + 3 ≤ n → Good (parse1 ctx n st) (size st)) ∧
    (∀ st, 3 * size st + 1 ≤ n → Good (loop1 ctx n st) (size st)) := by
  induction n with
  | zero => refine ⟨?_, ?_, ?_, ?_, ?_⟩ <;> intro st h <;> omega
  | succ n ih =>
    obtain ⟨i3, i2, il2, i1, il1⟩ := ih
    refine ⟨?_, ?_, ?_, ?_, ?_⟩
    · intro st h
      rw [parse3]
      by_cases h1 : st.tok = ['+']
      · rw [if_pos h1]
        have := nextToken_lt (st := st) (by rw [h1]; simp)
        exact good_mono (i3 _ (by omega)) (by omega)
      · rw [if_neg h1]
        by_cases h2 : st.tok = ['-']
        · rw [if_pos h2]
          have := nextToken_lt (st := st) (by rw [h2]; simp)
          exact good_bind (i3 _ (by omega)) fun r hr => good_ok (by simp only; omega)
        · rw [if_neg h2]
          by_cases h3 : st.tok = ['(']
          · rw [if_pos h3]
            have := nextToken_lt (st := st) (by rw [h3]; simp)
            refine good_bind (i1 _ (by omega)) fun r hr => ?_
            have h4 := nextToken_le r.st
            split
            · exact good_ok (by simp only; omega)
            · exact good_ok (by simp only; omega)
          · rw [if_neg h3]; exact parse4_good ctx st
    · intro st h
      rw [parse2]
      refine good_bind (i3 _ (by omega)) fun r hr => ?_
      split
      · exact good_bind (il2 _ (by omega)) fun t ht => good_ok (by simp only; omega)
      · exact good_ok (by omega)
    · intro st h
      rw [loop2]
      by_cases h1 : st.tok = ['*'] ∨ st.tok = ['/']
      · rw [if_pos h1]
        have := nextToken_lt (st := st) (by rcases h1 with h1 | h1 <;> rw [h1] <;> simp)
        refine good_bind (i3 _ (by omega)) fun r hr => ?_
        exact good_bind (il2 _ (by omega)) fun t ht => good_ok (by simp only; omega)
      · rw [if_neg h1]; exact good_ok (Nat.le_refl _)
    · intro st h
      rw [parse1]
      refine good_bind (i2 _ (by omega)) fun r hr => ?_
      split
      · exact good_bind (il1 _ (by omega)) fun t ht => good_ok (by simp only; omega)
      · exact good_ok (by omega)
    · intro st h
      rw [loop1]
      by_cases h1 : st.tok = ['+'] ∨ st.tok = ['-']
      · rw [if_pos h1]
        have := nextToken_lt (st := st) (by rcases h1 with h1 | h1 <;> rw [h1] <;> simp)
        refine good_bind (i2 _ (by omega)) fun r hr => ?_
        exact good_bind (il1 _ (by omega)) fun t ht => good_ok (by simp only; omega)
      · rw [if_neg h1]; exact good_ok (Nat.le_refl _)

/-- The expression parser ends within `steps st` steps, for every text. -/
theorem parse1_total (ctx : Ctx) (st : St) : parse1 ctx (steps st) st ≠ .ub :=
  ((parse_good ctx (steps st)).2.2.2.1 st (by unfold steps size; omega)).1

/-! ### Numbers -/

theorem digit_of_value {c : Char} {d : Nat} (h : digitValue c = some d) : digit c = some d := by
  have key : ∀ c ∈ "0123456789abcdefABCDEF".toList, digit c = digitValue c := by decide +kernel
  have hm : c ∈ "0123456789abcdefABCDEF".toList := by
    unfold digitValue at h
    cases h1 : "0123456789abcdef".toList.findIdx? (· == c) with
    | some i =>
      obtain ⟨_, hi, _⟩ := List.findIdx?_eq_some_iff_getElem.1 h1
      have := List.getElem_mem (l := "0123456789abcdef".toList) (n := i) (by assumption)
      have e := eq_of_beq hi
      rw [e] at this
      have sub : ∀ x ∈ "0123456789abcdef".toList, x ∈ "0123456789abcdefABCDEF".toList := by decide +kernel
      exact sub c this
    | none =>
      rw [h1] at h
      obtain ⟨_, hi, _⟩ := List.findIdx?_eq_some_iff_getElem.1 h
      have := List.getElem_mem (l := "0123456789ABCDEF".toList) (n := d) (by assumption)
      have e := eq_of_beq hi
      rw [e] at this
      have sub : ∀ x ∈ "0123456789ABCDEF".toList, x ∈ "0123456789abcdefABCDEF".toList := by decide +kernel
      exact sub c this
  rw [key c hm, h]

theorem digits_number (base : Nat) : ∀ (ds : List Char) (v w : Nat), v % W32 = w % W32 →
    (∀ c ∈ ds, ∃ d, digitValue c = some d ∧ d < base) →
    ∃ u, digits base ds v = some u ∧ u % W32 = (ds.foldl (fun v c => v * base + (digitValue c).getD 0) w) % W32
  | [], v, w, hvw, _ => ⟨v, rfl, hvw⟩
  | c :: cs, v, w, hvw, h => by
    obtain ⟨d, hd, hb⟩ := h c (by simp)
    rw [digits, digit_of_value hd]
    simp only
    rw [if_neg (by omega)]
    rw [List.foldl_cons, hd]
    refine digits_number base cs _ _ ?_ (fun x hx => h x (by simp [hx]))
    rw [Nat.mod_mod, Nat.add_mod, Nat.mul_mod, hvw, ← Nat.mul_mod, ← Nat.add_mod]
    rfl

theorem digits_lt (base : Nat) : ∀ (ds : List Char) (v u : Nat), v < W32 → digits base ds v = some u → u < W32
  | [], v, u, hv, h => by cases h; exact hv
  | c :: cs, v, u, hv, h => by
    rw [digits] at h
    cases hd : digit c with
    | none => rw [hd] at h; cases h
    | some d =>
      rw [hd] at h
      simp only at h
      by_cases hb : d ≥ base
      · rw [if_pos hb] at h; cases h
      · rw [if_neg hb] at h
        exact digits_lt base cs _ u (Nat.mod_lt _ (by decide)) h

/-- Digits are read as the number they stand for, modulo `2^32`. -/
theorem digits_value (base : Nat) (ds : List Char) (h : ∀ c ∈ ds, ∃ d, digitValue c = some d ∧ d < base) :
    digits base ds 0 = some (number base ds % W32) := by
  obtain ⟨u, h1, h2⟩ := digits_number base ds 0 0 rfl h
  have h3 := digits_lt base ds 0 u (by decide) h1
  rw [h1, number, ← h2, Nat.mod_eq_of_lt h3]

/-! ### Expressions -/

/-- The operator of the linker. -/
def Op.code : Op → Expr.BinOp
  | .add => .add | .sub => .sub | .mul => .mul | .div => .div

/-- The expression as a tree for the linker. -/
def LExpr.tree (i : Option Nat) : LExpr → Option Tree
  | .dec ds => some (.const (signed (number 10 ds)))
  | .hex ds => some (.const (signed (number 16 ds)))
  | .index => i.map fun n => .const (signed n)
  | .pos e => e.tree i
  | .neg e => (e.tree i).map fun t => .bin .sub (.const 0) t
  | .paren e => e.tree i
  | .bin op l r => (l.tree i).bind fun a => (r.tree i).map fun b =>
      .bin op.code a b

theorem signed_i32 (n : Nat) : I32 (signed n) := by
  unfold signed I32; omega

theorem constant_serialize (n m : Nat) (h : n % W32 = m) : constant m = (Tree.const (signed n)).serialize := by
  rw [constant, Tree.serialize]
  have : Expr.u32 (signed n) = m := by
    unfold Expr.u32 signed; omega
  rw [this]

/-- The words that may follow an expression. -/
def NoOp (ts : List (List Char)) : Prop :=
  ts.head? ≠ some ['+'] ∧ ts.head? ≠ some ['-'] ∧ ts.head? ≠ some ['*'] ∧ ts.head? ≠ some ['/']

/-- Digits are no punctuation. -/
theorem digit_words {ds : List Char} {b : Nat} (h : ∀ c ∈ ds, ∃ d, digitValue c = some d ∧ d < b) :
    ∀ c, digitValue c = none → ds ≠ [c] := by
  intro c hc he
  rw [he] at h
  obtain ⟨d, hd, _⟩ := h c (by simp)
  rw [hc] at hd
  cases hd

def P3 (ctx : Ctx) (st : St) (r : Res) : Prop := ∀ n, 3 * size st + 1 ≤ n → parse3 ctx n st = .ok r
def P2 (ctx : Ctx) (st : St) (r : Res) : Prop := ∀ n, 3 * size st + 2 ≤ n → parse2 ctx n st = .ok r
def L2 (ctx : Ctx) (st : St) (r : Res) : Prop := ∀ n, 3 * size st + 1 ≤ n → loop2 ctx n st = .ok r
def P1 (ctx : Ctx) (st : St) (r : Res) : Prop := ∀ n, 3 * size st + 3 ≤ n → parse1 ctx n st = .ok r
def L1 (ctx : Ctx) (st : St) (r : Res) : Prop := ∀ n, 3 * size st + 1 ≤ n → loop1 ctx n st = .ok r

theorem p2_of_p3 {ctx : Ctx} {st st' : St} {c : Bytes} {t : Res} (h : P3 ctx st ⟨true, c, st'⟩) (hs : size st' ≤ size st)
    (hl : L2 ctx st' t) : P2 ctx st ⟨true, c ++ t.code, t.st⟩ := by
  intro n hn
  cases n with
  | zero => omega
  | succ n =>
    rw [parse2, h n (by omega)]
    simp only [Outcome.bind, if_true]
    rw [hl n (by omega)]

theorem p1_of_p2 {ctx : Ctx} {st st' : St} {c : Bytes} {t : Res} (h : P2 ctx st ⟨true, c, st'⟩) (hs : size st' ≤ size st)
    (hl : L1 ctx st' t) : P1 ctx st ⟨true, c ++ t.code, t.st⟩ := by
  intro n hn
  cases n with
  | zero => omega
  | succ n =>
    rw [parse1, h n (by omega)]
    simp only [Outcome.bind, if_true]
    rw [hl n (by omega)]

theorem l2_step {ctx : Ctx} {st st' : St} {c : Bytes} {t : Res} (ho : st.tok = ['*'] ∨ st.tok = ['/'])
    (h : P3 ctx (nextToken st.rest) ⟨true, c, st'⟩) (hs : size st' ≤ size (nextToken st.rest)) (hl : L2 ctx st' t) :
    L2 ctx st ⟨true, c ++ put8 (if st.tok = ['*'] then 7 else 8) ++ t.code, t.st⟩ := by
  intro n hn
  have hlt := nextToken_lt (st := st) (by rcases ho with h1 | h1 <;> rw [h1] <;> simp)
  cases n with
  | zero => omega
  | succ n =>
    rw [loop2, if_pos ho, h n (by omega)]
    simp only [Outcome.bind, if_true]
    rw [hl n (by omega)]

theorem l1_step {ctx : Ctx} {st st' : St} {c : Bytes} {t : Res} (ho : st.tok = ['+'] ∨ st.tok = ['-'])
    (h : P2 ctx (nextToken st.rest) ⟨true, c, st'⟩) (hs : size st' ≤ size (nextToken st.rest)) (hl : L1 ctx st' t) :
    L1 ctx st ⟨true, c ++ put8 (if st.tok = ['+'] then 1 else 0) ++ t.code, t.st⟩ := by
  intro n hn
  have hlt := nextToken_lt (st := st) (by rcases ho with h1 | h1 <;> rw [h1] <;> simp)
  cases n with
  | zero => omega
  | succ n =>
    rw [loop1, if_pos ho, h n (by omega)]
    simp only [Outcome.bind, if_true]
    rw [hl n (by omega)]

theorem l2_done {ctx : Ctx} {st : St} (h1 : st.tok ≠ ['*']) (h2 : st.tok ≠ ['/']) : L2 ctx st ⟨true, [], st⟩ := by
  intro n hn
  cases n with
  | zero => omega
  | succ n => rw [loop2, if_neg (by simp [h1, h2])]

theorem l1_done {ctx : Ctx} {st : St} (h1 : st.tok ≠ ['+']) (h2 : st.tok ≠ ['-']) : L1 ctx st ⟨true, [], st⟩ := by
  intro n hn
  cases n with
  | zero => omega
  | succ n => rw [loop1, if_neg (by simp [h1, h2])]

/-- What the parser makes of an expression of the highest precedence. -/
def Parses3 (ctx : Ctx) (i : Option Nat) (e : LExpr) : Prop :=
  ∀ t, e.tree i = some t → ∀ st ts, At st (e.words ++ ts) →
    ∃ st', At st' ts ∧ size st' ≤ size st ∧ P3 ctx st ⟨true, t.serialize, st'⟩

/-- A product: the loop continues after it. -/
def Parses2 (ctx : Ctx) (i : Option Nat) (e : LExpr) : Prop :=
  ∀ t, e.tree i = some t → ∀ st ts, At st (e.words ++ ts) →
    ∃ st', At st' ts ∧ size st' ≤ size st ∧
      ∀ r, L2 ctx st' r → P2 ctx st ⟨true, t.serialize ++ r.code, r.st⟩

/-- A sum: the loop continues after it. -/
def Parses1 (ctx : Ctx) (i : Option Nat) (e : LExpr) : Prop :=
  ∀ t, e.tree i = some t → ∀ st ts, At st (e.words ++ ts) → ts.head? ≠ some ['*'] → ts.head? ≠ some ['/'] →
    ∃ st', At st' ts ∧ size st' ≤ size st ∧
      ∀ r, L1 ctx st' r → P1 ctx st ⟨true, t.serialize ++ r.code, r.st⟩

theorem parses2_of_3 {ctx : Ctx} {i : Option Nat} {e : LExpr} (h : Parses3 ctx i e) : Parses2 ctx i e := by
  intro t ht st ts ha
  obtain ⟨st', h1, h2, h3⟩ := h t ht st ts ha
  exact ⟨st', h1, h2, fun r hr => p2_of_p3 h3 h2 hr⟩

theorem at_head {st : St} {ts : List (List Char)} (h : At st ts) {t : List Char} (hne : t ≠ []) (hh : ts.head? ≠ some t) :
    st.tok ≠ t := by
  cases h with
  | nil => exact fun h => hne h.symm
  | cons _ _ _ _ _ => exact fun h => hh (by simpa using h)

theorem parses1_of_2 {ctx : Ctx} {i : Option Nat} {e : LExpr} (h : Parses2 ctx i e) : Parses1 ctx i e := by
  intro t ht st ts ha hm hd
  obtain ⟨st', h1, h2, h3⟩ := h t ht st ts ha
  refine ⟨st', h1, h2, fun r hr => ?_⟩
  have h4 := h3 _ (l2_done (at_head h1 (by simp) hm) (at_head h1 (by simp) hd))
  rw [List.append_nil] at h4
  exact p1_of_p2 h4 h2 hr

theorem p3_of_4 {ctx : Ctx} {st : St} {r : Res} (h1 : st.tok ≠ ['+']) (h2 : st.tok ≠ ['-']) (h3 : st.tok ≠ ['('])
    (h : parse4 ctx st = .ok r) : P3 ctx st r := by
  intro n hn
  cases n with
  | zero => omega
  | succ n => rw [parse3, if_neg h1, if_neg h2, if_neg h3, h]

theorem parse4_integer {ctx : Ctx} {st : St} {c : Bytes} {st' : St} (hat : st.tok ≠ ['@'])
    (h : parseInteger st = ⟨true, c, st'⟩) : parse4 ctx st = .ok ⟨true, c, st'⟩ := by
  unfold parse4
  split
  · rename_i h1 h2; exact absurd h2 hat
  · simp only [h, if_true]

theorem parseInteger_dec {st : St} {v : Nat} (h1 : st.tok ≠ []) (h2 : st.tok ≠ ['$']) (h3 : st.tok ≠ ['%', '%'])
    (hv : digits 10 st.tok 0 = some v) : parseInteger st = ⟨true, constant v, nextToken st.rest⟩ := by
  unfold parseInteger
  rw [if_neg h1]
  simp only [if_neg h2, if_neg h3]
  rw [hv]

theorem parseInteger_hex {st : St} {v : Nat} (h2 : st.tok = ['$'])
    (hv : digits 16 (nextToken st.rest).tok 0 = some v) :
    parseInteger st = ⟨true, constant v, nextToken (nextToken st.rest).rest⟩ := by
  unfold parseInteger
  rw [if_neg (by rw [h2]; simp)]
  simp only [if_pos h2]
  rw [hv]

theorem opWord_head (op : Op) : op.word ≠ [] := by cases op <;> simp [Op.word]

theorem parses_all (ctx : Ctx) (i : Option Nat) (hi : ∀ k, i = some k → ctx.index = some k ∧ k < W32) (e : LExpr) :
    e.Grammatical → (e.level = 3 → Parses3 ctx i e) ∧ (2 ≤ e.level → Parses2 ctx i e) ∧ Parses1 ctx i e := by
  induction e with
  | dec ds =>
    intro hg
    have h3 : Parses3 ctx i (.dec ds) := by
      intro t ht st ts ha
      have ht : Tree.const (signed (number 10 ds)) = t := Option.some.inj ht
      subst ht
      have ha : At st (ds :: ts) := ha
      have hw := digit_words hg.2
      have hp : parseInteger st = ⟨true, constant (number 10 ds % W32), nextToken st.rest⟩ := by
        refine parseInteger_dec ha.tok_ne ?_ ?_ ?_
        · rw [ha.tok]; exact hw _ (by decide)
        · rw [ha.tok]; intro h
          obtain ⟨d, hd, _⟩ := hg.2 '%' (by rw [h]; simp)
          revert hd; decide +revert
        · rw [ha.tok]; exact digits_value 10 ds hg.2
      refine ⟨nextToken st.rest, ha.next, nextToken_le st, ?_⟩
      rw [← constant_serialize (number 10 ds) _ rfl]
      refine p3_of_4 ?_ ?_ ?_ (parse4_integer ?_ hp) <;> rw [ha.tok] <;> exact hw _ (by decide)
    exact ⟨fun _ => h3, fun _ => parses2_of_3 h3, parses1_of_2 (parses2_of_3 h3)⟩
  | hex ds =>
    intro hg
    have h3 : Parses3 ctx i (.hex ds) := by
      intro t ht st ts ha
      have ht : Tree.const (signed (number 16 ds)) = t := Option.some.inj ht
      subst ht
      have ha : At st (['$'] :: ds :: ts) := ha
      have ha2 := ha.next
      have hp : parseInteger st = ⟨true, constant (number 16 ds % W32), nextToken (nextToken st.rest).rest⟩ := by
        refine parseInteger_hex ha.tok ?_
        rw [ha2.tok]; exact digits_value 16 ds hg.2
      refine ⟨nextToken (nextToken st.rest).rest, ha2.next, ?_, ?_⟩
      · have := nextToken_le st
        have := nextToken_le (nextToken st.rest)
        omega
      · rw [← constant_serialize (number 16 ds) _ rfl]
        refine p3_of_4 ?_ ?_ ?_ (parse4_integer ?_ hp) <;> rw [ha.tok] <;> decide
    exact ⟨fun _ => h3, fun _ => parses2_of_3 h3, parses1_of_2 (parses2_of_3 h3)⟩
  | index =>
    intro _
    have h3 : Parses3 ctx i .index := by
      intro t ht st ts ha
      have ha : At st (['@'] :: ts) := ha
      cases i with
      | none => cases ht
      | some k =>
        have ht : Tree.const (signed k) = t := Option.some.inj ht
        subst ht
        obtain ⟨hk, hlt⟩ := hi k rfl
        refine ⟨nextToken st.rest, ha.next, nextToken_le st, ?_⟩
        rw [← constant_serialize k k (Nat.mod_eq_of_lt hlt)]
        refine p3_of_4 ?_ ?_ ?_ ?_
        · rw [ha.tok]; decide
        · rw [ha.tok]; decide
        · rw [ha.tok]; decide
        · unfold parse4
          rw [hk, ha.tok]
          rfl
    exact ⟨fun _ => h3, fun _ => parses2_of_3 h3, parses1_of_2 (parses2_of_3 h3)⟩
  | pos e ih =>
    intro hg
    have ih3 := (ih hg.1).1 hg.2
    have h3 : Parses3 ctx i (.pos e) := by
      intro t ht st ts ha
      have ha : At st (['+'] :: (e.words ++ ts)) := ha
      obtain ⟨st', h1, h2, h4⟩ := ih3 t ht _ ts ha.next
      have hlt := nextToken_lt ha.tok_ne
      refine ⟨st', h1, by omega, ?_⟩
      intro n hn
      cases n with
      | zero => omega
      | succ n => rw [parse3, if_pos ha.tok]; exact h4 n (by omega)
    exact ⟨fun _ => h3, fun _ => parses2_of_3 h3, parses1_of_2 (parses2_of_3 h3)⟩
  | neg e ih =>
    intro hg
    have ih3 := (ih hg.1).1 hg.2
    have h3 : Parses3 ctx i (.neg e) := by
      intro t ht st ts ha
      have ha : At st (['-'] :: (e.words ++ ts)) := ha
      simp only [LExpr.tree] at ht
      cases hte : e.tree i with
      | none => rw [hte] at ht; cases ht
      | some u =>
        rw [hte] at ht
        have ht : Tree.bin .sub (.const 0) u = t := Option.some.inj ht
        subst ht
        obtain ⟨st', h1, h2, h4⟩ := ih3 u hte _ ts ha.next
        have hlt := nextToken_lt ha.tok_ne
        refine ⟨st', h1, by omega, ?_⟩
        intro n hn
        cases n with
        | zero => omega
        | succ n =>
          rw [parse3, if_neg (by rw [ha.tok]; decide), if_pos ha.tok, h4 n (by omega)]
          rfl
    exact ⟨fun _ => h3, fun _ => parses2_of_3 h3, parses1_of_2 (parses2_of_3 h3)⟩
  | paren e ih =>
    intro hg
    have ih1 := (ih hg).2.2
    have h3 : Parses3 ctx i (.paren e) := by
      intro t ht st ts ha
      have ha : At st (['('] :: (e.words ++ ([')'] :: ts))) := by
        simpa [LExpr.words] using ha
      have hlt := nextToken_lt ha.tok_ne
      obtain ⟨st', h1, h2, h4⟩ := ih1 t ht _ _ ha.next (by simp) (by simp)
      have h5 := h4 _ (l1_done (by rw [h1.tok]; decide) (by rw [h1.tok]; decide))
      have h6 := nextToken_le st'
      refine ⟨nextToken st'.rest, h1.next, by omega, ?_⟩
      intro n hn
      cases n with
      | zero => omega
      | succ n =>
        rw [parse3, if_neg (by rw [ha.tok]; decide), if_neg (by rw [ha.tok]; decide), if_pos ha.tok, h5 n (by omega)]
        simp [Outcome.bind, h1.tok]
    exact ⟨fun _ => h3, fun _ => parses2_of_3 h3, parses1_of_2 (parses2_of_3 h3)⟩
  | bin op l r ihl ihr =>
    intro hg
    obtain ⟨hgl, hgr, hlev⟩ := hg
    obtain ⟨_, il2, il1⟩ := ihl hgl
    obtain ⟨ir3, ir2, _⟩ := ihr hgr
    have hl3 : ∀ e : LExpr, e.level ≤ 3 := by
      intro e; cases e <;> simp [LExpr.level]
      rename_i op _ _; cases op <;> simp
    have split : ∀ t, (LExpr.bin op l r).tree i = some t → ∃ a b, l.tree i = some a ∧ r.tree i = some b ∧
        t = .bin op.code a b := by
      intro t ht
      simp only [LExpr.tree] at ht
      cases ha : l.tree i with
      | none => rw [ha] at ht; cases ht
      | some a =>
        cases hb : r.tree i with
        | none => rw [ha, hb] at ht; cases ht
        | some b => rw [ha, hb] at ht; exact ⟨a, b, rfl, rfl, (Option.some.inj ht).symm⟩
    by_cases hop : op = .mul ∨ op = .div
    · have hlev2 : 2 ≤ l.level ∧ 3 ≤ r.level := by rcases hop with h | h <;> subst h <;> exact hlev
      have ir3 := ir3 (by have := hl3 r; omega)
      have il2 := il2 hlev2.1
      have h2 : Parses2 ctx i (.bin op l r) := by
        intro t ht st ts ha
        obtain ⟨a, b, hta, htb, rfl⟩ := split t ht
        have ha : At st (l.words ++ (op.word :: (r.words ++ ts))) := by simpa [LExpr.words] using ha
        obtain ⟨s1, h1, h2, h3⟩ := il2 a hta st _ ha
        obtain ⟨s2, h4, h5, h6⟩ := ir3 b htb _ ts h1.next
        have hlt := nextToken_le s1
        refine ⟨s2, h4, by omega, fun x hx => ?_⟩
        have ho : s1.tok = ['*'] ∨ s1.tok = ['/'] := by
          rw [h1.tok]; rcases hop with h | h <;> subst h <;> simp [Op.word]
        have h7 := h3 _ (l2_step ho h6 h5 hx)
        have hc : put8 (if s1.tok = ['*'] then 7 else 8) =
            put8 op.code.code := by
          rw [h1.tok]; rcases hop with h | h <;> subst h <;> rfl
        rw [hc] at h7
        simpa [Tree.serialize, List.append_assoc] using h7
      have hlv : (LExpr.bin op l r).level = 2 := by rcases hop with h | h <;> subst h <;> rfl
      exact ⟨fun h => by omega, fun _ => h2, parses1_of_2 h2⟩
    · have hop' : op = .add ∨ op = .sub := by cases op <;> simp at hop ⊢
      have hlev2 : 1 ≤ l.level ∧ 2 ≤ r.level := by rcases hop' with h | h <;> subst h <;> exact hlev
      have ir2 := ir2 hlev2.2
      have hlv : (LExpr.bin op l r).level = 1 := by rcases hop' with h | h <;> subst h <;> rfl
      refine ⟨fun h => by omega, fun h => by omega, ?_⟩
      intro t ht st ts ha hm hd
      obtain ⟨a, b, hta, htb, rfl⟩ := split t ht
      have ha : At st (l.words ++ (op.word :: (r.words ++ ts))) := by simpa [LExpr.words] using ha
      obtain ⟨s1, h1, h2, h3⟩ := il1 a hta st _ ha (by rcases hop' with h | h <;> subst h <;> simp [Op.word])
        (by rcases hop' with h | h <;> subst h <;> simp [Op.word])
      obtain ⟨s2, h4, h5, h6⟩ := ir2 b htb _ ts h1.next
      have h6 := h6 _ (l2_done (at_head h4 (by simp) hm) (at_head h4 (by simp) hd))
      rw [List.append_nil] at h6
      have hlt := nextToken_le s1
      refine ⟨s2, h4, by omega, fun x hx => ?_⟩
      have ho : s1.tok = ['+'] ∨ s1.tok = ['-'] := by
        rw [h1.tok]; rcases hop' with h | h <;> subst h <;> simp [Op.word]
      have h7 := h3 _ (l1_step ho h6 h5 hx)
      have hc : put8 (if s1.tok = ['+'] then 1 else 0) =
          put8 op.code.code := by
        rw [h1.tok]; rcases hop' with h | h <;> subst h <;> rfl
      rw [hc] at h7
      simpa [Tree.serialize, List.append_assoc] using h7

/-- An expression is parsed to its postfix form. -/
theorem parse1_words (ctx : Ctx) (i : Option Nat) (hi : ∀ k, i = some k → ctx.index = some k ∧ k < W32) (e : LExpr)
    (hg : e.Grammatical) {t : Tree} (ht : e.tree i = some t) {st : St} {ts : List (List Char)} (ha : At st (e.words ++ ts))
    (hn : NoOp ts) : ∃ st', At st' ts ∧ parse1 ctx (steps st) st = .ok ⟨true, t.serialize, st'⟩ := by
  obtain ⟨hp, hm, hu, hd⟩ := hn
  obtain ⟨st', h1, _, h2⟩ := (parses_all ctx i hi e hg).2.2 t ht st ts ha hu hd
  have h3 := h2 _ (l1_done (at_head h1 (by simp) hp) (at_head h1 (by simp) hm)) (steps st) (by unfold steps size; omega)
  rw [List.append_nil] at h3
  exact ⟨st', h1, h3⟩

end Verif.Layout
