import Verif.Text.Props
/-!
# C48: values embedded in strings
-/
namespace Verif.Text
open Verif.Expr

theorem u32_lt' (v : Int) : u32 v < 4294967296 := by unfold u32; omega

/-! ### Numerals -/

theorem digitValue_digitChar {base d : Nat} (hb : base ≤ 16) (h : d < base) : digitValue base (digitChar d) = some d := by
  have key : ∀ b ≤ 16, ∀ d < b, digitValue b (digitChar d) = some d := by decide +kernel
  exact key base hb d h

theorem digitChar_zero {d : Nat} (h : d < 16) (hz : digitChar d = '0') : d = 0 := by
  have key : ∀ d < 16, digitChar d = '0' → d = 0 := by decide +kernel
  exact key d h hz

theorem numeral_snoc (base : Nat) (cs : List Char) (c : Char) :
    numeral base (cs ++ [c]) = (digitValue base c).bind fun d => (numeral base cs).bind fun n => some (d + base * n) := by
  unfold numeral
  rw [List.reverse_append]
  rfl

theorem digits_value {base : Nat} (hb : 2 ≤ base) (hb' : base ≤ 16) (k n : Nat) (h : n < base ^ (k + 1)) :
    numeral base (digits base k n) = some n := by
  induction k generalizing n with
  | zero =>
    simp only [Nat.zero_add, Nat.pow_one] at h
    unfold digits
    rw [Nat.mod_eq_of_lt h]
    show numeral base ([] ++ [digitChar n]) = some n
    rw [numeral_snoc, digitValue_digitChar hb' h]
    simp [numeral, numeralRev]
  | succ k ih =>
    unfold digits
    split
    · next hn =>
      show numeral base ([] ++ [digitChar n]) = some n
      rw [numeral_snoc, digitValue_digitChar hb' hn]
      simp [numeral, numeralRev]
    · rw [numeral_snoc, digitValue_digitChar hb' (Nat.mod_lt _ (by omega)), ih (n / base)]
      · simp only [Option.bind_some]
        rw [Nat.mod_add_div]
      · rw [Nat.div_lt_iff_lt_mul (by omega), ← Nat.pow_succ]; exact h

theorem digits_ne_nil (base k n : Nat) : digits base k n ≠ [] := by
  cases k <;> unfold digits <;> (try split) <;> simp

theorem digits_length (base k n : Nat) : (digits base k n).length ≤ k + 1 := by
  induction k generalizing n with
  | zero => simp [digits]
  | succ k ih => unfold digits; split <;> simp <;> exact ih _

/-- The number of digits is the smallest one that suffices. -/
theorem digits_length_le {base : Nat} (hb : 2 ≤ base) (k n m : Nat) (hm : 0 < m) (h : n < base ^ m) :
    (digits base k n).length ≤ m := by
  induction k generalizing n m with
  | zero => simp [digits]; omega
  | succ k ih =>
    unfold digits
    split
    · simp; omega
    · next hn =>
      obtain ⟨m', rfl⟩ : ∃ m', m = m' + 1 := ⟨m - 1, by omega⟩
      have hm' : 0 < m' := by
        rcases Nat.eq_zero_or_pos m' with h0 | h0
        · subst h0; simp at h; omega
        · exact h0
      simp only [List.length_append, List.length_cons, List.length_nil, Nat.zero_add]
      have := ih (n / base) m' hm' (by rw [Nat.div_lt_iff_lt_mul (by omega), ← Nat.pow_succ]; exact h)
      omega

theorem head_append {l : List Char} (l' : List Char) (h : l ≠ []) : (l ++ l').head? = l.head? := by
  cases l with
  | nil => exact absurd rfl h
  | cons a l => rfl

theorem digits_head {base : Nat} (hb : 2 ≤ base) (hb' : base ≤ 16) (k n : Nat) (h : n < base ^ (k + 1))
    (hl : 1 < (digits base k n).length) : (digits base k n).head? ≠ some '0' := by
  induction k generalizing n with
  | zero => simp [digits] at hl
  | succ k ih =>
    unfold digits at hl ⊢
    split
    · next hn => rw [if_pos hn] at hl; simp at hl
    · next hn =>
      rw [if_neg hn] at hl
      rw [head_append _ (digits_ne_nil _ _ _)]
      have hdiv : n / base < base ^ (k + 1) := by
        rw [Nat.div_lt_iff_lt_mul (by omega), ← Nat.pow_succ]; exact h
      by_cases h1 : 1 < (digits base k (n / base)).length
      · exact ih _ hdiv h1
      · have h2 : n / base ≠ 0 := by
          intro h0
          have := Nat.div_eq_zero_iff.mp h0
          omega
        have hv := digits_value hb hb' k (n / base) hdiv
        have hlen : (digits base k (n / base)).length = 1 := by
          have := List.length_pos_iff.mpr (digits_ne_nil base k (n / base))
          omega
        match hd : digits base k (n / base), hlen with
        | [c], _ =>
          rw [hd] at hv
          simp only [List.head?_cons, ne_eq, Option.some.injEq]
          rintro rfl
          have hz : numeral base ['0'] = some 0 := by
            have : ∀ b ≤ 16, 2 ≤ b → numeral b ['0'] = some 0 := by decide +kernel
            exact this base hb' hb
          rw [hz] at hv
          simp only [Option.some.injEq] at hv
          exact h2 hv.symm

theorem numeral_pad {base : Nat} (hb : 2 ≤ base) (hb' : base ≤ 16) (k : Nat) (cs : List Char) (n : Nat)
    (h : numeral base cs = some n) : numeral base (List.replicate k '0' ++ cs) = some n := by
  have key : ∀ cs : List Char, ∀ n, numeralRev base cs = some n → numeralRev base (cs ++ List.replicate k '0') = some n := by
    intro cs
    induction cs with
    | nil =>
      intro n hn
      simp only [numeralRev, Option.some.injEq] at hn
      subst hn
      induction k with
      | zero => rfl
      | succ k ih =>
        have hz : digitValue base '0' = some 0 := by
          have : ∀ b ≤ 16, 2 ≤ b → digitValue b '0' = some 0 := by decide +kernel
          exact this base hb' hb
        simp only [List.nil_append] at ih
        simp [List.replicate_succ, numeralRev, hz, ih]
    | cons c cs ih =>
      intro n hn
      simp only [numeralRev] at hn
      cases hd : digitValue base c with
      | none => rw [hd] at hn; simp at hn
      | some d =>
        cases hr : numeralRev base cs with
        | none => rw [hd, hr] at hn; simp at hn
        | some m =>
          rw [hd, hr] at hn
          simp only [List.cons_append, numeralRev, hd, ih m hr]
          exact hn
  unfold numeral at h ⊢
  rw [List.reverse_append, List.reverse_replicate]
  exact key _ _ h

/-- Padded digits are the numeral with at least the given number of digits. -/
theorem pad_numeral {base : Nat} (hb : 2 ≤ base) (hb' : base ≤ 16) (k width n : Nat) (h : n < base ^ (k + 1)) :
    IsNumeral base width n (pad width (digits base k n)) := by
  refine ⟨numeral_pad hb hb' _ _ _ (digits_value hb hb' k n h), ?_, ?_, ?_⟩
  · unfold pad; simp; omega
  · intro hl
    unfold pad at hl ⊢
    simp only [List.length_append, List.length_replicate] at hl
    have h0 : width - (digits base k n).length = 0 := by omega
    rw [h0, List.replicate_zero, List.nil_append]
    exact digits_head hb hb' k n h (by omega)
  · unfold pad; simp [digits_ne_nil]

/-- Numbers that fit into the width give exactly that many digits. -/
theorem pad_digits {base : Nat} (hb : 2 ≤ base) (hb' : base ≤ 16) (k width n : Nat) (hw : 0 < width)
    (h : n < base ^ (k + 1)) (h' : n < base ^ width) : Digits base width n (pad width (digits base k n)) := by
  refine ⟨numeral_pad hb hb' _ _ _ (digits_value hb hb' k n h), ?_⟩
  have := digits_length_le hb k n width hw h'
  unfold pad; simp; omega

/-- The first digits of a numeral denote the number divided by a power of the base. -/
theorem numeral_take {base : Nat} (hb : 0 < base) (cs : List Char) (n j : Nat) (h : numeral base cs = some n) :
    numeral base (cs.take j) = some (n / base ^ (cs.length - j)) := by
  have key : ∀ (cs : List Char) (n i : Nat), numeralRev base cs = some n → numeralRev base (cs.drop i) = some (n / base ^ i) := by
    intro cs
    induction cs with
    | nil => intro n i h; simp [numeralRev] at h; subst h; simp [numeralRev]
    | cons c cs ih =>
      intro n i h
      cases i with
      | zero => simpa using h
      | succ i =>
        simp only [numeralRev] at h
        cases hd : digitValue base c with
        | none => rw [hd] at h; simp at h
        | some d =>
          cases hr : numeralRev base cs with
          | none => rw [hd, hr] at h; simp at h
          | some m =>
            rw [hd, hr] at h
            simp only [Option.bind_eq_bind, Option.bind_some, Option.some.injEq] at h
            subst h
            have hdb : d < base := by
              unfold digitValue at hd
              simp only [Option.filter_eq_some_iff] at hd
              simpa using hd.2
            rw [List.drop_succ_cons, ih m i hr, Nat.pow_succ, Nat.mul_comm (base ^ i) base, ← Nat.div_div_eq_div_mul,
              Nat.add_mul_div_left _ _ hb, Nat.div_eq_of_lt hdb, Nat.zero_add]
  unfold numeral at h ⊢
  have := key cs.reverse n (cs.length - j) h
  rw [← this]
  congr 1
  rw [List.reverse_take]

/-- The last digits of a numeral denote the remainder. -/
theorem numeral_drop {base : Nat} (hb : 0 < base) (cs : List Char) (n j : Nat) (h : numeral base cs = some n) :
    numeral base (cs.drop j) = some (n % base ^ (cs.length - j)) := by
  have key : ∀ (cs : List Char) (n i : Nat), numeralRev base cs = some n → numeralRev base (cs.take i) = some (n % base ^ i) := by
    intro cs
    induction cs with
    | nil => intro n i h; simp [numeralRev] at h; subst h; simp [numeralRev]
    | cons c cs ih =>
      intro n i h
      cases i with
      | zero => simp [numeralRev, Nat.mod_one]
      | succ i =>
        simp only [numeralRev] at h
        cases hd : digitValue base c with
        | none => rw [hd] at h; simp at h
        | some d =>
          cases hr : numeralRev base cs with
          | none => rw [hd, hr] at h; simp at h
          | some m =>
            rw [hd, hr] at h
            simp only [Option.bind_eq_bind, Option.bind_some, Option.some.injEq] at h
            subst h
            have hdb : d < base := by
              unfold digitValue at hd
              simp only [Option.filter_eq_some_iff] at hd
              simpa using hd.2
            simp only [List.take_succ_cons, numeralRev, hd, ih m i hr, Option.bind_eq_bind, Option.bind_some, Option.some.injEq]
            rw [Nat.pow_succ, Nat.mul_comm (base ^ i) base, Nat.mod_mul, Nat.add_mul_mod_self_left, Nat.mod_eq_of_lt hdb,
              Nat.add_mul_div_left _ _ hb, Nat.div_eq_of_lt hdb, Nat.zero_add]
  unfold numeral at h ⊢
  have := key cs.reverse n (cs.length - j) h
  rw [← this]
  congr 1
  rw [List.reverse_drop]

/-! ### The formats -/

/-- **C48.** Format `D`: a minus sign for negative numbers and then the decimal numeral of the absolute value with at
least `precision` digits and no other leading zeros, for every value but `INT32_MIN`. -/
theorem C48_decimal_partial (lenient : Bool) (v p : Int) (hv : I32 v) (hmin : v ≠ -2147483648) :
    ∃ ds, formatValue lenient v 'D' p = .ok ((if v < 0 then ['-'] else []) ++ ds) ∧
      IsNumeral 10 p.toNat v.natAbs ds := by
  unfold I32 at hv
  have hw : (if p < 0 then 0 else p.toNat) = p.toNat := by split <;> omega
  refine ⟨decimal p.toNat v.natAbs, ?_, pad_numeral (by decide) (by decide) 10 _ _ ?_⟩
  · simp only [formatValue, hw]
    by_cases h : v < 0
    · rw [if_pos h, if_pos h]
      unfold chk
      rw [if_pos (by unfold I32; omega), ok_bind, show (-v).toNat = v.natAbs by omega]
      rfl
    · rw [if_neg h, if_neg h, show v.toNat = v.natAbs by omega]
      rfl
  · have : (10:Nat) ^ (10 + 1) = 100000000000 := by decide
    rw [this]
    omega

example : formatValue false (-16) 'D' 3 = .ok "-016".toList := by decide +kernel
example : formatValue false 2147483647 'D' 3 = .ok "2147483647".toList := by decide +kernel
example : ∃ ds, formatValue false (-16) 'D' 3 = .ok (['-'] ++ ds) ∧ IsNumeral 10 3 16 ds :=
  C48_decimal_partial false (-16) 3 (by decide) (by decide)

/-- **C48.** Format `X` without a precision: eight hexadecimal digits that denote the value as an unsigned number. -/
theorem C48_hex_default (lenient : Bool) (v p : Int) (hp : p ≤ 0) :
    ∃ ds, formatValue lenient v 'X' p = .ok ds ∧ Digits 16 8 (u32 v) ds := by
  refine ⟨pad 8 (digits 16 8 (u32 v)), ?_, ?_⟩
  · simp only [formatValue]; rw [if_neg (by omega)]
  · have h := u32_lt' v
    exact pad_digits (by decide) (by decide) 8 8 _ (by decide) (Nat.lt_trans h (by decide)) (Nat.lt_of_lt_of_le h (by decide))

/-- **C48.** Format `X` with a precision of 1 to 8: exactly that many digits, which denote the lower bits of the
value. A precision of 4 or more needs a `memcpy` that copies overlapping areas. -/
theorem C48_hex_partial (lenient : Bool) (v : Int) (p : Nat) (hp : 0 < p) (hp' : p ≤ 8) (hl : 4 ≤ p → lenient = true) :
    ∃ ds, formatValue lenient v 'X' p = .ok ds ∧ Digits 16 p (u32 v % 16 ^ p) ds := by
  have h := u32_lt' v
  obtain ⟨h1, h2⟩ := pad_digits (by decide : 2 ≤ 16) (by decide) 8 8 (u32 v) (by decide) (Nat.lt_trans h (by decide))
    (Nat.lt_of_lt_of_le h (by decide))
  refine ⟨(pad 8 (digits 16 8 (u32 v))).drop (8 - p), ?_, ?_, ?_⟩
  · simp only [formatValue]
    rw [if_pos (by omega), if_neg]
    · simp
    · rintro (h3 | ⟨h3, h4⟩)
      · omega
      · exact h4 (hl (by omega))
  · rw [numeral_drop (by decide) _ _ _ h1, h2, show 8 - (8 - p) = p by omega]
  · rw [List.length_drop, h2]; omega

example : formatValue false 4660 'X' 2 = .ok "34".toList := by decide +kernel
example : formatValue true 42 'X' 4 = .ok "002A".toList := by decide +kernel
example : ∃ ds, formatValue true (-2) 'X' (5 : Nat) = .ok ds ∧ Digits 16 5 0xFFFFE ds :=
  C48_hex_partial true (-2) 5 (by decide) (by decide) (by decide)

theorem frac_le (v : Int) : u32 v % 65536 * 100000 / 65536 < 100000 := by omega

theorem frac_digits (v : Int) : Digits 10 5 (u32 v % 65536 * 100000 / 65536) (fraction v) :=
  pad_digits (by decide) (by decide) 10 5 _ (by decide) (Nat.lt_trans (frac_le v) (by decide)) (frac_le v)

/-- **C48.** Format `F` for a number that is not negative: the integer part, a point, and exactly `precision` decimals (1 to 5,
or five when none is given), rounded down. The value is in units of `1/65536`. -/
theorem C48_fixed_partial (lenient : Bool) (v : Int) (p : Nat) (hv : 0 ≤ v) (hv' : v < 2147483648) (hp : p ≤ 5) :
    ∃ whole frac, formatValue lenient v 'F' p = .ok (whole ++ ['.'] ++ frac) ∧
      IsNumeral 10 0 (v.toNat / 65536) whole ∧
      Digits 10 (if p = 0 then 5 else p) (v.toNat % 65536 * 10 ^ (if p = 0 then 5 else p) / 65536) frac := by
  obtain ⟨h1, h2⟩ := frac_digits v
  have hu : u32 v = v.toNat := by unfold u32; omega
  have hp1 : (if (p : Int) = 0 then (5 : Int) else p) = ((if p = 0 then 5 else p : Nat) : Int) := by
    by_cases h : p = 0 <;> simp [h]
  have hp2 : (if p = 0 then 5 else p) ≤ 5 := by split <;> omega
  generalize hq : (if p = 0 then 5 else p) = q at hp1 hp2
  have hq0 : 0 < q := by subst hq; split <;> omega
  have hsh : v >>> 16 = v / 65536 := by rw [Int.shiftRight_eq_div_pow]; rfl
  refine ⟨decimal 0 (v.toNat / 65536), (fraction v).take q, ?_, ?_, ?_, ?_⟩
  · simp only [formatValue, hp1]
    rw [if_neg (by omega)]
    unfold signed
    rw [if_neg (by omega), show (v >>> 16).natAbs = v.toNat / 65536 by omega]
    simp
  · refine pad_numeral (by decide) (by decide) 10 _ _ ?_
    exact Nat.lt_of_lt_of_le (show v.toNat / 65536 < 65536 by omega) (by decide)
  · rw [numeral_take (by decide) _ _ _ h1, h2, hu]
    congr 1
    have h10 : (100000 : Nat) = 10 ^ (5 - q) * 10 ^ q := by rw [← Nat.pow_add, show 5 - q + q = 5 by omega]
    rw [Nat.div_div_eq_div_mul, Nat.mul_comm 65536, ← Nat.div_div_eq_div_mul]
    congr 1
    rw [h10, Nat.mul_comm (10 ^ (5 - q)), ← Nat.mul_assoc]
    exact Nat.mul_div_cancel _ (Nat.pow_pos (by decide))
  · rw [List.length_take, h2]; omega

example : formatValue false 1022361 'F' 2 = .ok "15.59".toList := by decide +kernel
example : ∃ whole frac, formatValue false 1022361 'F' (2 : Nat) = .ok (whole ++ ['.'] ++ frac) ∧ IsNumeral 10 0 15 whole ∧
    Digits 10 2 59 frac := C48_fixed_partial false 1022361 2 (by decide) (by decide) (by decide)

/-- **C48.** `PRINTF` prints the sign, the integer part and five decimals of the absolute value, rounded down, for
every number but `INT32_MIN`. -/
theorem C48_printf_partial (v : Int) (hv : I32 v) (hmin : v ≠ -2147483648) :
    ∃ whole frac, printFixed v = .ok ((if v < 0 then ['-'] else []) ++ whole ++ ['.'] ++ frac) ∧
      IsNumeral 10 0 (v.natAbs / 65536) whole ∧ Digits 10 5 (v.natAbs % 65536 * 100000 / 65536) frac := by
  unfold I32 at hv
  have key : ∀ w : Int, 0 ≤ w → w < 2147483648 → IsNumeral 10 0 (w.toNat / 65536) (decimal 0 (u32 w / 65536)) ∧
      Digits 10 5 (w.toNat % 65536 * 100000 / 65536) (fraction w) := by
    intro w h0 h1
    have hu : u32 w = w.toNat := by unfold u32; omega
    refine ⟨?_, ?_⟩
    · rw [hu]
      refine pad_numeral (by decide) (by decide) 10 _ _ ?_
      exact Nat.lt_of_lt_of_le (show w.toNat / 65536 < 65536 by omega) (by decide)
    · rw [← hu]; exact frac_digits w
  unfold printFixed
  by_cases h : v < 0
  · obtain ⟨k1, k2⟩ := key (-v) (by omega) (by omega)
    rw [← show v.natAbs = (-v).toNat by omega] at k1 k2
    refine ⟨_, _, ?_, k1, k2⟩
    · rw [if_pos h, if_pos h]
      unfold chk
      rw [if_pos (by unfold I32; omega), ok_bind]
      simp
  · obtain ⟨k1, k2⟩ := key v (by omega) (by omega)
    rw [← show v.natAbs = v.toNat by omega] at k1 k2
    refine ⟨_, _, ?_, k1, k2⟩
    · rw [if_neg h, if_neg h]
      simp

example : printFixed (-32768) = .ok "-0.50000".toList := by decide +kernel

/-- **C48.** `PRINTV` prints a dollar sign and the hexadecimal numeral of the value without leading zeros. -/
theorem C48_printv (v : Int) : ∃ ds, printValue v = '$' :: ds ∧ IsNumeral 16 0 (u32 v) ds := by
  refine ⟨_, rfl, ?_⟩
  have := pad_numeral (base := 16) (by decide) (by decide) 8 0 (u32 v) (Nat.lt_trans (u32_lt' v) (by decide))
  simpa [pad] using this

example : printValue (-2) = "$FFFFFFFE".toList := by decide +kernel
example : printValue 0 = "$0".toList := by decide +kernel

/-- **C48.** Format `C` is the character whose code is the low byte. -/
theorem C48_character (lenient : Bool) (v p : Int) (hv : 0 ≤ v) (hv' : v < 256) :
    formatValue lenient v 'C' p = .ok [Char.ofNat v.toNat] := by
  simp only [formatValue]
  rw [show u32 v % 256 = v.toNat by unfold u32; omega]

example : formatValue false 65 'C' 0 = .ok "A".toList := by decide +kernel

/-! ### What does not hold -/

/-- `Expressions.md` 178 says that `{42:X}` is `2A`; it is `0000002A`. -/
theorem C48_hex_documented (lenient : Bool) : formatValue lenient 42 'X' 0 = .ok "0000002A".toList := by
  cases lenient <;> decide +kernel

/-- The documented `{42:X4}` (`Expressions.md` 184) copies between overlapping areas, as every precision from 4 to 8 does: undefined behaviour. -/
theorem C48_hex_overlap (v : Int) (p : Nat) (h : 4 ≤ p) : formatValue false v 'X' p = .ub := by
  simp only [formatValue]
  rw [if_pos (by omega), if_pos]
  simp; omega

/-- A precision above 8 reads outside the array. -/
theorem C48_hex_wide (lenient : Bool) (v : Int) (p : Nat) (h : 8 < p) : formatValue lenient v 'X' p = .ub := by
  simp only [formatValue]
  rw [if_pos (by omega), if_pos]
  left; omega

/-- A precision of more than 7 decimals, or a negative one, writes outside the array. -/
theorem C48_fixed_wide (lenient : Bool) (v p : Int) (h : p < 0 ∨ 7 < p) : formatValue lenient v 'F' p = .ub := by
  simp only [formatValue]
  rw [if_pos]
  rw [if_neg (by omega)]
  exact h

/-- Six and seven decimals are accepted, but only five are printed. -/
theorem C48_fixed_six (lenient : Bool) : formatValue lenient 1022361 'F' 6 = .ok "15.59999".toList := by
  cases lenient <;> decide +kernel

/-- A negative fixed point number is printed as its floor followed by the distance from it: -0.5 is `-1.50000`. `PRINTF` prints it correctly. -/
theorem C48_fixed_negative (lenient : Bool) :
    formatValue lenient (-32768) 'F' 0 = .ok "-1.50000".toList ∧ printFixed (-32768) = .ok "-0.50000".toList := by
  cases lenient <;> decide +kernel

/-- `INT32_MIN` cannot be printed in decimal. -/
theorem C48_decimal_min (lenient : Bool) (p : Int) :
    formatValue lenient (-2147483648) 'D' p = .ub ∧ printFixed (-2147483648) = .ub := by
  constructor
  · simp only [formatValue]
    rw [if_pos (by decide)]
    rfl
  · rfl

/-- A letter that is no format is accepted and prints nothing. -/
theorem C48_unknown (lenient : Bool) (v p : Int) : formatValue lenient v 'B' p = .ok [] := rfl

end Verif.Text
