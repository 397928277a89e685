import Verif.Layout.Parse
/-!
# Values of expressions
-/
namespace Verif.Layout
open Verif.Expr (Tree I32 inRange Den Env FMath calculate)

theorem fits_eq (v : Int) : fits v = inRange v := rfl

theorem fits_some {v w : Int} (h : fits v = some w) : v = w ∧ I32 w := by
  unfold fits at h
  by_cases hv : -2147483648 ≤ v ∧ v ≤ 2147483647
  · rw [if_pos hv] at h; cases h; exact ⟨rfl, hv⟩
  · rw [if_neg hv] at h; cases h

theorem inRange_signed (n : Nat) : inRange (signed n) = some (signed n) := by
  unfold inRange
  exact if_pos (signed_i32 n)

theorem const_tree (fm : FMath) (ρ : Den) {i : Option Nat} {e : LExpr} (n : Nat) (he : e.tree i = some (.const (signed n)))
    (hd : e.depth = 1) : ∃ t, e.tree i = some t ∧ t.value fm ρ = some (signed n) ∧ t.Ok ∧ t.Regular fm ρ ∧
      t.depth = e.depth ∧ I32 (signed n) := by
  refine ⟨_, he, ?_, ?_, trivial, hd.symm, signed_i32 n⟩
  · rw [Tree.value]; exact inRange_signed n
  · rw [Tree.Ok]; exact signed_i32 n

theorem value_tree (fm : FMath) (ρ : Den) (i : Option Nat) (e : LExpr) : ∀ v, e.value i = some v →
    ∃ t, e.tree i = some t ∧ t.value fm ρ = some v ∧ t.Ok ∧ t.Regular fm ρ ∧ t.depth = e.depth ∧ I32 v := by
  induction e with
  | dec ds =>
    intro v h
    have h : signed (number 10 ds) = v := Option.some.inj h
    subst h
    exact const_tree fm ρ _ rfl rfl
  | hex ds =>
    intro v h
    have h : signed (number 16 ds) = v := Option.some.inj h
    subst h
    exact const_tree fm ρ _ rfl rfl
  | index =>
    intro v h
    cases i with
    | none => cases h
    | some k =>
      have h : signed k = v := Option.some.inj h
      subst h
      exact const_tree fm ρ _ rfl rfl
  | pos e ih => exact ih
  | paren e ih => exact ih
  | neg e ih =>
    intro v h
    simp only [LExpr.value] at h
    cases hv : e.value i with
    | none => rw [hv] at h; cases h
    | some a =>
      rw [hv] at h
      simp only [Option.bind_some] at h
      obtain ⟨h1, h2⟩ := fits_some h
      obtain ⟨t, ht, hval, hok, hreg, hd, ha⟩ := ih a hv
      refine ⟨.bin .sub (.const 0) t, by simp only [LExpr.tree, ht, Option.map_some], ?_, ⟨by show I32 0; decide, hok⟩, ⟨trivial, hreg, by simp⟩, ?_, h2⟩
      · have h0 : inRange 0 = some 0 := by decide
        show ((inRange 0).bind fun x => (t.value fm ρ).bind fun y => (Expr.meaning fm .sub x y).bind inRange) = some v
        rw [h0, hval]
        show inRange (0 - a) = some v
        rw [← fits_eq, Int.zero_sub]; exact h
      · simp only [Tree.depth, LExpr.depth, hd]; omega
  | bin op l r ihl ihr =>
    intro v h
    simp only [LExpr.value] at h
    cases hl : l.value i with
    | none => rw [hl] at h; cases h
    | some a =>
      cases hr : r.value i with
      | none => rw [hl, hr] at h; cases h
      | some b =>
        rw [hl, hr] at h
        simp only [Option.bind_some] at h
        obtain ⟨t, ht, hval, hok, hreg, hd, _⟩ := ihl a hl
        obtain ⟨u, hu, hval', hok', hreg', hd', _⟩ := ihr b hr
        have key : (Expr.meaning fm op.code a b).bind inRange = some v := by
          cases op with
          | add => exact h
          | sub => exact h
          | mul => exact h
          | div =>
            simp only at h
            show (if b = 0 then none else some (a.tdiv b)).bind inRange = some v
            by_cases hb : b = 0
            · rw [if_pos hb] at h; cases h
            · rw [if_neg hb] at h ⊢; exact h
        refine ⟨.bin op.code t u, by simp only [LExpr.tree, ht, hu, Option.bind_some, Option.map_some], ?_, ⟨hok, hok'⟩,
          ⟨hreg, hreg', ?_⟩, ?_, ?_⟩
        · show ((t.value fm ρ).bind fun x => (u.value fm ρ).bind fun y => (Expr.meaning fm op.code x y).bind inRange) = some v
          rw [hval, hval']
          exact key
        · cases op <;> simp [Op.code]
        · simp only [Tree.depth, LExpr.depth, hd, hd']
        · cases hm : Expr.meaning fm op.code a b with
          | none => rw [hm] at key; cases key
          | some w =>
            rw [hm] at key
            exact (fits_some key).2

/-- There is nothing to look up. -/
def noDen : Den where
  sym _ := none
  bank _ := none
  group _ _ := none
  pc := 0

theorem noPlaces : noEnv.Places noDen where
  symbol id v := by simp [noEnv, noDen]
  absolute id e h := by simp [noEnv] at h
  bank id v := by simp [noEnv, noDen]
  group a b v := by simp [noEnv, noDen]
  pc := rfl
  symRange id v h := by simp [noDen] at h
  bankRange id v h := by simp [noDen] at h
  groupRange a b v h := by simp [noDen] at h

/-- The expression parser and evaluator on the words of an expression. -/
theorem parseExpression_words (ctx : Ctx) (i : Option Nat) (hi : ∀ k, i = some k → ctx.index = some k ∧ k < W32) {e : LExpr}
    {n : Nat} (he : e.Is i n) {st : St} {ts : List (List Char)} (ha : At st (e.words ++ ts)) (hn : NoOp ts) :
    ∃ st', At st' ts ∧ parseExpression ctx st = .ok (some n, st') := by
  obtain ⟨hg, hd, v, hv, rfl⟩ := he
  obtain ⟨t, ht, hval, hok, hreg, hdep, _⟩ := value_tree noFMath noDen i e v hv
  obtain ⟨st', h1, h2⟩ := parse1_words ctx i hi e hg ht ha hn
  refine ⟨st', h1, ?_⟩
  rw [parseExpression, h2]
  simp only [Outcome.bind, if_true]
  rw [Expr.C12_value_is_computed noFMath noEnv noDen noPlaces t hok hreg (by omega) v hval]
  rfl

theorem expectExpression_words (ctx : Ctx) (i : Option Nat) (hi : ∀ k, i = some k → ctx.index = some k ∧ k < W32) {e : LExpr}
    {n : Nat} (he : e.Is i n) {st : St} {ts : List (List Char)} (ha : At st (e.words ++ ts)) (hn : NoOp ts) :
    ∃ st', At st' ts ∧ expectExpression ctx st = .ok (n, st') := by
  obtain ⟨st', h1, h2⟩ := parseExpression_words ctx i hi he ha hn
  exact ⟨st', h1, by rw [expectExpression, h2]; rfl⟩

/-! ### The ordinary value -/

theorem signed_small {n : Nat} (h : n < 2147483648) : signed n = n := by
  unfold signed; omega

theorem tdiv_range {a b : Int} (ha : -2147483648 ≤ a ∧ a ≤ 2147483647) : -2147483648 ≤ a.tdiv b ∧ a.tdiv b ≤ 2147483648 := by
  have h := Int.natAbs_tdiv_le_natAbs a b
  omega

theorem value_of_small (i : Nat) (e : LExpr) : e.Small i → ∀ v, e.exact i = some v →
    e.value (some i) = some v ∧ -2147483648 ≤ v ∧ v ≤ 2147483647 := by
  induction e with
  | dec ds =>
    intro h v hv
    have h : number 10 ds < 2147483648 := h
    cases hv
    exact ⟨by simp only [LExpr.value, signed_small h], by omega, by omega⟩
  | hex ds =>
    intro h v hv
    have h : number 16 ds < 2147483648 := h
    cases hv
    exact ⟨by simp only [LExpr.value, signed_small h], by omega, by omega⟩
  | index =>
    intro h v hv
    have h : i < 2147483648 := h
    cases hv
    exact ⟨by simp only [LExpr.value, Option.map_some, signed_small h], by omega, by omega⟩
  | pos e ih => exact ih
  | paren e ih => exact ih
  | neg e ih =>
    intro h v hv
    simp only [LExpr.exact] at hv
    cases ha : e.exact i with
    | none => rw [ha] at hv; cases hv
    | some a =>
      rw [ha] at hv
      have hv : -a = v := Option.some.inj hv
      subst hv
      have h1 := h.2 a ha
      obtain ⟨h2, h3, h4⟩ := ih h.1 a ha
      refine ⟨?_, by omega, h1⟩
      simp only [LExpr.value, h2, Option.bind_some]
      exact if_pos ⟨by omega, h1⟩
  | bin op l r ihl ihr =>
    intro h v hv
    obtain ⟨hl, hr, hb⟩ := h
    have hb := hb v hv
    simp only [LExpr.exact] at hv
    cases ha : l.exact i with
    | none => rw [ha] at hv; cases hv
    | some a =>
      cases hc : r.exact i with
      | none => rw [ha, hc] at hv; cases hv
      | some b =>
        rw [ha, hc] at hv
        simp only [Option.bind_some] at hv
        obtain ⟨h1, _⟩ := ihl hl a ha
        obtain ⟨h2, _⟩ := ihr hr b hc
        refine ⟨?_, hb⟩
        simp only [LExpr.value, h1, h2, Option.bind_some]
        cases op with
        | add => cases hv; exact if_pos hb
        | sub => cases hv; exact if_pos hb
        | mul => cases hv; exact if_pos hb
        | div =>
          simp only at hv ⊢
          by_cases hz : b = 0
          · rw [if_pos hz] at hv; cases hv
          · rw [if_neg hz] at hv ⊢; cases hv; exact if_pos hb

theorem signed_mod (n : Nat) : (signed n - n) % 4294967296 = 0 := by
  unfold signed; omega

theorem value_mod (i : Nat) (e : LExpr) : e.NoDivision → ∀ v, e.value (some i) = some v →
    ∃ w, e.exact i = some w ∧ v % 4294967296 = w % 4294967296 := by
  induction e with
  | dec ds =>
    intro _ v hv
    have hv : signed (number 10 ds) = v := Option.some.inj hv
    subst hv
    exact ⟨_, rfl, by have := signed_mod (number 10 ds); omega⟩
  | hex ds =>
    intro _ v hv
    have hv : signed (number 16 ds) = v := Option.some.inj hv
    subst hv
    exact ⟨_, rfl, by have := signed_mod (number 16 ds); omega⟩
  | index =>
    intro _ v hv
    have hv : signed i = v := Option.some.inj hv
    subst hv
    exact ⟨_, rfl, by have := signed_mod i; omega⟩
  | pos e ih => exact ih
  | paren e ih => exact ih
  | neg e ih =>
    intro h v hv
    simp only [LExpr.value] at hv
    cases ha : e.value (some i) with
    | none => rw [ha] at hv; cases hv
    | some a =>
      rw [ha] at hv
      simp only [Option.bind_some] at hv
      obtain ⟨h1, _⟩ := fits_some hv
      obtain ⟨w, hw, hm⟩ := ih h a ha
      exact ⟨-w, by simp only [LExpr.exact, hw, Option.map_some], by omega⟩
  | bin op l r ihl ihr =>
    intro h v hv
    obtain ⟨hop, hl, hr⟩ := h
    simp only [LExpr.value] at hv
    cases ha : l.value (some i) with
    | none => rw [ha] at hv; cases hv
    | some a =>
      cases hc : r.value (some i) with
      | none => rw [ha, hc] at hv; cases hv
      | some b =>
        rw [ha, hc] at hv
        simp only [Option.bind_some] at hv
        obtain ⟨w, hw, hm⟩ := ihl hl a ha
        obtain ⟨x, hx, hn⟩ := ihr hr b hc
        simp only [LExpr.exact, hw, hx, Option.bind_some]
        cases op with
        | add =>
          obtain ⟨h1, _⟩ := fits_some hv
          exact ⟨_, rfl, by omega⟩
        | sub =>
          obtain ⟨h1, _⟩ := fits_some hv
          exact ⟨_, rfl, by omega⟩
        | mul =>
          obtain ⟨h1, _⟩ := fits_some hv
          refine ⟨_, rfl, ?_⟩
          rw [← h1, Int.mul_emod, hm, hn, ← Int.mul_emod]
        | div => exact absurd rfl hop

end Verif.Layout
