import Verif.Text.Model
import Verif.Text.Spec
import Verif.Expr.OpsLemmas
/-!
# C40: slices
-/
namespace Verif.Text
open Verif.Expr

theorem ok_bind {α β : Type} (a : α) (f : α → Outcome β) : (Outcome.ok a).bind f = f a := rfl

theorem sliceStart_eq (len : Nat) (start : Int) : sliceStart len start = (position len start : Nat) := by
  unfold sliceStart
  cases start with
  | ofNat n => simp only [Int.ofNat_eq_natCast, position]; split <;> (try split) <;> omega
  | negSucc n => simp only [position]; split <;> (try split) <;> omega

theorem position_le (len : Nat) (start : Int) : position len start ≤ len := by
  unfold position; split <;> omega

/-- The whole behaviour of `slice`: the documented characters, unless `start + count` exceeds an `int32_t`. -/
theorem slice_eq (t : List Char) (start : Int) (count : Option Int) (ht : t.length < 2147483648)
    (hc : ∀ n, count = some n → I32 n) :
    slice t start count =
      if (position t.length start : Int) + count.getD 0 > 2147483647 then .ub
      else .ok (characters t (position t.length start) count) := by
  have hp := position_le t.length start
  unfold slice
  simp only [sliceStart_eq]
  generalize position t.length start = p at hp
  cases count with
  | none =>
    have : ((p : Int) + ((t.length : Int) - p)) = t.length := by omega
    simp only [Option.getD_none, this]
    unfold chk
    rw [if_pos (by unfold I32; omega), if_neg (by omega), ok_bind]
    simp only [ge_iff_le, Int.le_refl, if_true]
    simp only [characters]
    split
    · rw [List.drop_eq_nil_of_le (by omega)]
    · rw [List.take_of_length_le]
      · simp
      · simp
  | some n =>
    have hn := hc n rfl
    unfold I32 at hn
    simp only [Option.getD_some]
    unfold chk
    by_cases h : (p : Int) + n > 2147483647
    · rw [if_neg (by unfold I32; omega), if_pos h]; rfl
    · rw [if_pos (by unfold I32; omega), if_neg h, ok_bind]
      simp only [characters]
      split
      · next hge =>
        split
        · next h2 =>
          have h3 : t.length ≤ p := by omega
          rw [List.drop_eq_nil_of_le h3]
          simp
        · congr 1
          simp only [Int.toNat_natCast]
          rw [List.take_of_length_le (by simp), List.take_of_length_le (by simp; omega)]
      · split
        · next h2 =>
          have : n.toNat = 0 ∨ t.length ≤ p := by omega
          rcases this with h0 | h0
          · rw [h0]; simp
          · rw [List.drop_eq_nil_of_le h0]; simp
        · simp

/-- **C40.** `s.slice(start,count)` is the documented part of the string for every string, every start and every count
up to `2^31 - 1` minus the length of the string; a count that is left out means everything to the end. Larger counts
can overflow, see `C40_large_count`. -/
theorem C40_slice_partial (t : List Char) (start : Int) (count : Option Int)
    (hc : ∀ n, count = some n → -2147483648 ≤ n ∧ n + t.length ≤ 2147483647) (ht : t.length < 2147483648) :
    slice t start count = .ok (characters t (position t.length start) count) := by
  rw [slice_eq t start count ht (fun n h => by have := hc n h; unfold I32; omega)]
  have hp := position_le t.length start
  rw [if_neg]
  cases count with
  | none => simp; omega
  | some n => have := hc n rfl; simp; omega

example : slice "hello".toList (-3) (some 2) = .ok "ll".toList := by decide +kernel
example : slice "hello".toList 2 none = .ok "llo".toList := by decide +kernel
example : slice "hello".toList (-9) (some 2) = .ok "he".toList := by decide +kernel
example : slice "hello".toList 9 (some 2) = .ok [] := by decide +kernel
example : slice "hello".toList (-3) (some 2) = .ok (characters "hello".toList (position 5 (-3)) (some 2)) :=
  C40_slice_partial _ _ _ (by intro n h; cases h; decide) (by decide)

/-- **C40.** The same, character by character: the `i`-th character of the slice is the `i`-th from the start
position, as long as there are that many and `i` is below the count. -/
theorem C40_characters_partial (t r : List Char) (start : Int) (count : Option Int)
    (hc : ∀ n, count = some n → -2147483648 ≤ n ∧ n + t.length ≤ 2147483647) (ht : t.length < 2147483648)
    (h : slice t start count = .ok r) (i : Nat) :
    r[i]? = if (∀ n, count = some n → (i : Int) < n) then t[position t.length start + i]? else none := by
  rw [C40_slice_partial t start count hc ht] at h
  cases h
  unfold characters
  cases count with
  | none => simp
  | some n =>
    simp only [List.getElem?_take, List.getElem?_drop]
    by_cases hi : (i : Int) < n
    · rw [if_pos (by omega), if_pos (by intro m hm; cases hm; exact hi)]
    · rw [if_neg (by omega), if_neg (by intro H; exact hi (H n rfl))]

/-- A start position from the end is that position: `-k` is the `k`-th last character. -/
theorem C40_from_end (t : List Char) (k : Nat) (ht : t.length < 2147483648) :
    slice t (-(k + 1 : Nat)) none = .ok (t.drop (t.length - (k + 1))) := by
  have := C40_slice_partial t (-(k + 1 : Nat)) none (by intro n h; cases h) ht
  rw [this]
  have : position t.length (-(k + 1 : Nat)) = t.length - (k + 1) := rfl
  rw [this]; rfl

example : slice "hello".toList (-(0 + 1 : Nat)) none = .ok "o".toList := C40_from_end "hello".toList 0 (by decide)

/-- **C40 does not hold for every count.** With a start position above 0 and the largest count, `start + count` overflows: `"abc".slice(1,$7FFFFFFF)` is undefined. -/
theorem C40_large_count : slice "abc".toList 1 (some 2147483647) = .ub := by decide +kernel

/-- Exactly the counts that, added to the start position, exceed `2^31 - 1`, are undefined. -/
theorem C40_undefined (t : List Char) (start n : Int) (ht : t.length < 2147483648) (hn : I32 n) :
    slice t start (some n) = .ub ↔ (position t.length start : Int) + n > 2147483647 := by
  rw [slice_eq t start (some n) ht (fun m h => by cases h; exact hn)]
  simp only [Option.getD_some]
  split <;> simp_all

end Verif.Text
