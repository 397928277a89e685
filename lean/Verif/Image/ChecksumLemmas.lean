import Verif.Image.Checksum
import Verif.Image.Props
/-!
# Weighted sums of the bytes of a file
-/
namespace Verif.Image

/-- The byte at an offset as a number, 0 behind the end of the file. -/
def val (f : Bytes) (i : Nat) : Nat := match f[i]? with | some b => b.toNat | none => 0

/-- The sum of the first `n` bytes, each counted `w` times. -/
def wsum (w : Nat → Nat) (f : Bytes) : Nat → Nat
  | 0 => 0
  | n + 1 => wsum w f n + w n * val f n

theorem val_lt (f : Bytes) (i : Nat) : val f i < 256 := by
  unfold val; split
  · exact UInt8.toNat_lt _
  · omega

theorem getOr0_toNat (f : Bytes) (i : Nat) : (getOr0 f i).toNat = val f i := by
  unfold getOr0 val; cases f[i]? <;> rfl

theorem val_behind {f : Bytes} {i : Nat} (h : f.length ≤ i) : val f i = 0 := by
  unfold val; rw [List.getElem?_eq_none h]

theorem val_eq {f : Bytes} {i : Nat} (h : i < f.length) : val f i = f[i].toNat := by
  unfold val; rw [List.getElem?_eq_getElem h]

theorem wsum_congr {w w' : Nat → Nat} {f g : Bytes} : ∀ n, (∀ i, i < n → w i * val f i = w' i * val g i) →
    wsum w f n = wsum w' g n
  | 0, _ => rfl
  | n + 1, h => by
    unfold wsum
    rw [wsum_congr n fun i hi => h i (by omega), h n (by omega)]

theorem wsum_add (w : Nat → Nat) (f : Bytes) (n : Nat) (h : f.length ≤ n) : ∀ m, wsum w f (n + m) = wsum w f n
  | 0 => rfl
  | m + 1 => by
    show wsum w f (n + m) + w (n + m) * val f (n + m) = wsum w f n
    rw [val_behind (by omega), wsum_add w f n h m]; omega

theorem wsum_ext {w : Nat → Nat} {f : Bytes} {n m : Nat} (h : f.length ≤ n) (h' : f.length ≤ m) :
    wsum w f n = wsum w f m := by
  rcases Nat.le_total n m with h1 | h1
  · rw [← wsum_add w f n h (m - n)]; congr 1; omega
  · rw [← wsum_add w f m h' (n - m)]; congr 1; omega

theorem wsum_single {w w' : Nat → Nat} {f : Bytes} {k : Nat} (h : ∀ i, w i = w' i + if i = k then 1 else 0) :
    ∀ n, wsum w f n = wsum w' f n + if k < n then val f k else 0
  | 0 => by simp [wsum]
  | n + 1 => by
    unfold wsum
    rw [wsum_single h n, h n, Nat.add_mul]
    by_cases hk : n = k
    · subst hk; rw [if_neg (by omega), if_pos rfl, if_pos (by omega)]; omega
    · rw [if_neg hk]
      by_cases hk2 : k < n
      · rw [if_pos hk2, if_pos (by omega)]; omega
      · rw [if_neg hk2, if_neg (by omega)]; omega

theorem writeAt_length {f b : Bytes} {off : Nat} (hb : b ≠ []) :
    (writeAt f off b).length = max f.length (off + b.length) := by
  unfold writeAt
  rw [if_neg hb]
  simp only [List.length_append, List.length_take, List.length_drop, List.length_replicate]
  omega

theorem writeAt_get' {f b : Bytes} {off : Nat} (hb : b ≠ []) (k : Nat) :
    (writeAt f off b)[k]? = if off ≤ k ∧ k < off + b.length then b[k - off]?
      else if k < f.length then f[k]? else if k < off then some 0 else none := by
  unfold writeAt
  rw [if_neg hb]
  have hl : ((f ++ List.replicate (off - f.length) 0).take off).length = off := by simp; omega
  by_cases h1 : k < off
  · rw [if_neg (by omega), List.append_assoc, List.getElem?_append_left (by omega), List.getElem?_take_of_lt h1]
    by_cases h2 : k < f.length
    · rw [if_pos h2, List.getElem?_append_left h2]
    · rw [if_neg h2, if_pos h1, List.getElem?_append_right (by omega), List.getElem?_replicate, if_pos (by omega)]
  · rw [List.append_assoc, List.getElem?_append_right (by omega), hl]
    by_cases h2 : k < off + b.length
    · rw [if_pos (by omega), List.getElem?_append_left (by omega)]
    · rw [if_neg (by omega), List.getElem?_append_right (by omega), List.getElem?_drop]
      have : off + b.length + (k - off - b.length) = k := by omega
      rw [this, if_neg h1]
      by_cases h3 : k < f.length
      · rw [if_pos h3]
      · rw [if_neg h3, List.getElem?_eq_none (by omega)]

theorem writeAt_val {f b : Bytes} {off : Nat} (hb : b ≠ []) (k : Nat) :
    val (writeAt f off b) k = if off ≤ k ∧ k < off + b.length then val b (k - off) else val f k := by
  unfold val
  rw [writeAt_get' hb]
  by_cases h : off ≤ k ∧ k < off + b.length
  · rw [if_pos h, if_pos h]
  · rw [if_neg h, if_neg h]
    by_cases h1 : k < f.length
    · rw [if_pos h1]
    · rw [if_neg h1, List.getElem?_eq_none (l := f) (by omega)]
      by_cases h2 : k < off
      · rw [if_pos h2]; rfl
      · rw [if_neg h2]

/-- Bytes outside the range written are as before, if they were in the file. -/
theorem writeAt_other {f b : Bytes} {off k : Nat} (hb : b ≠ []) (hk : k < f.length)
    (h : k < off ∨ off + b.length ≤ k) : (writeAt f off b)[k]? = f[k]? := by
  rw [writeAt_get' hb, if_neg (by omega), if_pos hk]

theorem put16be_val {n : Nat} (h : n < 65536) : 256 * val (put16be n) 0 + val (put16be n) 1 = n := by
  simp only [put16be, val, List.getElem?_cons_zero, List.getElem?_cons_succ, byte_toNat]; omega

theorem put16le_val {n : Nat} (h : n < 65536) : val (put16le n) 0 + 256 * val (put16le n) 1 = n := by
  simp only [put16le, val, List.getElem?_cons_zero, List.getElem?_cons_succ, byte_toNat]; omega

theorem put32be_val (n : Nat) : 16777216 * val (put32be n) 0 + 65536 * val (put32be n) 1 + 256 * val (put32be n) 2 +
    val (put32be n) 3 = n % 4294967296 := by
  simp only [put32be, val, List.getElem?_cons_zero, List.getElem?_cons_succ, byte_toNat]; omega

end Verif.Image
