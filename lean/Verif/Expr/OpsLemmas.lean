import Verif.Expr.Ops
namespace Verif.Expr

theorem toI32_range (a : Int) : I32 (toI32 a) := by unfold I32 toI32; omega

theorem toI32_of {a : Int} (h : I32 a) : toI32 a = a := by unfold I32 at h; unfold toI32; omega

theorem toI32_eq_bmod (a : Int) : toI32 a = a.bmod 4294967296 := by
  unfold toI32 Int.bmod
  simp only
  split <;> omega

theorem bv_toInt (x : BitVec 32) : x.toInt = toI32 x.toNat := by
  rw [toI32_eq_bmod, BitVec.toInt_eq_toNat_bmod]

theorem bv_ofInt (a : Int) : (BitVec.ofInt 32 a).toNat = u32 a := by
  simp [u32, BitVec.toNat_ofInt]

theorem toI32_congr {a b : Int} (h : a % 4294967296 = b % 4294967296) : toI32 a = toI32 b := by
  unfold toI32; omega

theorem ofBool_range (b : Bool) : I32 (ofBool b) := by cases b <;> simp [ofBool, I32]

theorem tdiv_range {a b : Int} (ha : I32 a) (hb : b ≠ 0) (hn : ¬ (a = -2147483648 ∧ b = -1)) : I32 (a.tdiv b) := by
  have h1 : (a.tdiv b).natAbs = a.natAbs / b.natAbs := Int.natAbs_tdiv a b
  have h2 : a.natAbs / b.natAbs ≤ a.natAbs := Nat.div_le_self _ _
  unfold I32 at *
  by_cases hneg : a = -2147483648
  · have hb1 : b ≠ -1 := fun h => hn ⟨hneg, h⟩
    by_cases hb2 : b = 1
    · subst hb2; subst hneg; decide
    · have : b.natAbs ≥ 2 := by omega
      have h3 : a.natAbs / b.natAbs ≤ a.natAbs / 2 := Nat.div_le_div_left this (by decide)
      omega
  · omega

theorem tmod_range {a b : Int} (ha : I32 a) : I32 (a.tmod b) := by
  have h1 : (a.tmod b).natAbs = a.natAbs % b.natAbs := Int.natAbs_tmod a b
  have h2 : a.natAbs % b.natAbs ≤ a.natAbs := Nat.mod_le _ _
  unfold I32 at *
  by_cases hneg : a = -2147483648
  · have : a.tmod b ≤ 0 := by
      rw [hneg]
      have := Int.neg_tmod (a := 2147483648) (b := b)
      rw [show (-2147483648 : Int) = -(2147483648) by rfl, this]
      have := Int.tmod_nonneg (a := 2147483648) b (by decide)
      omega
    omega
  · omega

theorem fdiv_range {a : Int} (n : Nat) (ha : I32 a) : I32 (a.fdiv (2 ^ n)) := by
  have hp : (0 : Int) < 2 ^ n := Int.pow_pos (by decide)
  rw [Int.fdiv_eq_ediv_of_nonneg _ (Int.le_of_lt hp)]
  unfold I32 at *
  have h1 : (1 : Int) ≤ 2 ^ n := hp
  constructor
  · apply Int.le_ediv_of_mul_le hp
    have := Int.mul_le_mul_of_nonneg_left h1 (show (0 : Int) ≤ 2147483648 by decide)
    omega
  · apply Int.le_of_lt_add_one
    apply Int.ediv_lt_of_lt_mul hp
    have := Int.mul_le_mul_of_nonneg_left h1 (show (0 : Int) ≤ 2147483648 by decide)
    omega

theorem shiftRight_eq_fdiv (a : Int) (n : Nat) : a >>> n = a.fdiv (2 ^ n) := by
  rw [Int.shiftRight_eq_div_pow, Int.fdiv_eq_ediv_of_nonneg _ (Int.le_of_lt (Int.pow_pos (by decide)))]
  rfl

theorem chk_ok {a v : Int} : chk a = .ok v ↔ a = v ∧ I32 v := by
  unfold chk
  constructor
  · intro h
    by_cases ha : I32 a
    · rw [if_pos ha] at h
      simp only [Outcome.ok.injEq] at h
      exact ⟨h, h ▸ ha⟩
    · rw [if_neg ha] at h; simp at h
  · rintro ⟨rfl, h⟩; rw [if_pos h]

theorem u32_cast (a : Int) : (u32 a : Int) = a % 4294967296 := by
  unfold u32; omega

theorem asl_nat_eq (a : Int) (n : Nat) : toI32 ((u32 a * 2 ^ n : Nat) : Int) = toI32 (a * 2 ^ n) := by
  apply toI32_congr
  rw [Int.natCast_mul, u32_cast, Int.natCast_pow]
  show a % 4294967296 * 2 ^ n % 4294967296 = _
  rw [Int.mul_emod, Int.emod_emod_of_dvd _ (Int.dvd_refl _), ← Int.mul_emod]

theorem asl_eq (a : Int) (n : Nat) : (BitVec.ofInt 32 a <<< n).toInt = toI32 (a * 2 ^ n) := by
  rw [bv_toInt, BitVec.toNat_shiftLeft, bv_ofInt, ← asl_nat_eq]
  apply toI32_congr
  rw [Nat.shiftLeft_eq, Int.natCast_emod]
  exact Int.emod_emod_of_dvd _ (Int.dvd_refl _)

theorem xor_eq (a b : Int) : (BitVec.ofInt 32 a ^^^ BitVec.ofInt 32 b).toInt = toI32 (u32 a ^^^ u32 b : Nat) := by
  rw [bv_toInt, BitVec.toNat_xor, bv_ofInt, bv_ofInt]
theorem or_eq (a b : Int) : (BitVec.ofInt 32 a ||| BitVec.ofInt 32 b).toInt = toI32 (u32 a ||| u32 b : Nat) := by
  rw [bv_toInt, BitVec.toNat_or, bv_ofInt, bv_ofInt]
theorem and_eq (a b : Int) : (BitVec.ofInt 32 a &&& BitVec.ofInt 32 b).toInt = toI32 (u32 a &&& u32 b : Nat) := by
  rw [bv_toInt, BitVec.toNat_and, bv_ofInt, bv_ofInt]

/-- The operation is one for which C has no result although it has a value that fits: `INT32_MIN % -1`. -/
def Odd (op : BinOp) (a b : Int) : Prop := op = .mod ∧ a = -2147483648 ∧ b = -1

theorem linkBin_iff (fm : FMath) (op : BinOp) {a b : Int} (ha : I32 a) (_hb : I32 b) (v : Int) :
    linkBin fm op a b = .ok v ↔ meaning fm op a b = some v ∧ I32 v ∧ ¬ Odd op a b := by
  have hbool : ∀ (p : Prop) [Decidable p], ofBool (decide p) = if p then 1 else 0 := by
    intro p _; by_cases hp : p <;> simp [ofBool, hp]
  cases op
  case div =>
    simp only [linkBin, meaning, Odd]
    by_cases h0 : b = 0
    · simp [h0]
    · by_cases h1 : a = -2147483648 ∧ b = -1
      · obtain ⟨rfl, rfl⟩ := h1
        simp only [or_true, and_self, if_true, reduceCtorEq, false_iff]
        rw [if_neg (by decide)]
        intro h
        have e : (-2147483648 : Int).tdiv (-1) = 2147483648 := by decide
        rw [e] at h
        have := Option.some.inj h.1
        subst this
        have := h.2.1
        unfold I32 at this
        omega
      · rw [if_neg (by simp [h0]; exact fun e => fun e' => h1 ⟨e, e'⟩), if_neg h0]
        have := tdiv_range ha h0 h1
        constructor
        · intro h; cases h; simp [this]
        · intro h; cases h.1; rfl
  case mod =>
    simp only [linkBin, meaning, Odd]
    have e : a - b * a.tdiv b = a.tmod b := by rw [Int.tmod_def]
    rw [e]
    by_cases h0 : b = 0
    · simp [h0]
    · by_cases h1 : a = -2147483648 ∧ b = -1
      · simp [h1]
      · rw [if_neg (by simp [h0]; exact fun e => fun e' => h1 ⟨e, e'⟩), if_neg h0]
        have := tmod_range (b := b) ha
        constructor
        · intro h; cases h; simp [this, h1]
        · intro h; cases h.1; rfl
  case asl =>
    simp only [linkBin, meaning, Odd, asl_eq]
    by_cases h : 0 ≤ b ∧ b < 32
    · rw [if_pos h, if_pos h]
      have := toI32_range (a * 2 ^ b.toNat)
      constructor
      · intro h; cases h; simp [this]
      · intro h; cases h.1; rfl
    · rw [if_neg h, if_neg h]; simp
  case asr =>
    simp only [linkBin, meaning, Odd, shiftRight_eq_fdiv]
    by_cases h : 0 ≤ b ∧ b < 32
    · rw [if_pos h, if_pos h]
      have := fdiv_range b.toNat ha
      constructor
      · intro h; cases h; simp [this]
      · intro h; cases h.1; rfl
    · rw [if_neg h, if_neg h]; simp
  case lowLimit =>
    simp only [linkBin, meaning, Odd]
    by_cases h : b ≤ a
    · rw [if_pos h, if_pos h]
      constructor
      · intro h; cases h; simp [ha]
      · intro h; cases h.1; rfl
    · rw [if_neg h, if_neg h]; simp
  case highLimit =>
    simp only [linkBin, meaning, Odd]
    by_cases h : a ≤ b
    · rw [if_pos h, if_pos h]
      constructor
      · intro h; cases h; simp [ha]
      · intro h; cases h.1; rfl
    · rw [if_neg h, if_neg h]; simp
  case assert =>
    simp only [linkBin, meaning, Odd]
    by_cases h : b = 0
    · simp [h]
    · rw [if_pos h, if_neg h]
      constructor
      · intro h; cases h; simp [ha]
      · intro h; cases h.1; rfl
  case sub => simp only [linkBin, meaning, Odd, chk_ok]; simp
  case add => simp only [linkBin, meaning, Odd, chk_ok]; simp
  case mul => simp only [linkBin, meaning, Odd, chk_ok]; simp
  all_goals
    simp only [linkBin, meaning, Odd, xor_eq, or_eq, and_eq, Outcome.ok.injEq, Option.some.injEq, reduceCtorEq,
      false_and, not_false_eq_true, and_true]
  case xor => exact ⟨fun h => ⟨h, h ▸ toI32_range _⟩, fun h => h.1⟩
  case or => exact ⟨fun h => ⟨h, h ▸ toI32_range _⟩, fun h => h.1⟩
  case and => exact ⟨fun h => ⟨h, h ▸ toI32_range _⟩, fun h => h.1⟩
  case fdiv => exact ⟨fun h => ⟨h, h ▸ fm.fdiv_range _ _⟩, fun h => h.1⟩
  case fmul => exact ⟨fun h => ⟨h, h ▸ fm.fmul_range _ _⟩, fun h => h.1⟩
  case atan2 => exact ⟨fun h => ⟨h, h ▸ fm.atan2_range _ _⟩, fun h => h.1⟩
  case boolOr =>
    have e : ofBool (a != 0 || b != 0) = if a ≠ 0 ∨ b ≠ 0 then 1 else 0 := by
      by_cases h1 : a = 0 <;> by_cases h2 : b = 0 <;> simp [h1, h2, ofBool]
    rw [← e]
    exact ⟨fun h => ⟨h, h ▸ ofBool_range _⟩, fun h => h.1⟩
  case boolAnd =>
    have e : ofBool (a != 0 && b != 0) = if a ≠ 0 ∧ b ≠ 0 then 1 else 0 := by
      by_cases h1 : a = 0 <;> by_cases h2 : b = 0 <;> simp [h1, h2, ofBool]
    rw [← e]
    exact ⟨fun h => ⟨h, h ▸ ofBool_range _⟩, fun h => h.1⟩
  case ne =>
    have e : ofBool (a != b) = if a = b then 0 else 1 := by
      by_cases h1 : a = b <;> simp [h1, ofBool]
    rw [← e]
    exact ⟨fun h => ⟨h, h ▸ ofBool_range _⟩, fun h => h.1⟩
  case eq =>
    have e : ofBool (a == b) = if a = b then 1 else 0 := by
      by_cases h1 : a = b <;> simp [h1, ofBool]
    rw [← e]
    exact ⟨fun h => ⟨h, h ▸ ofBool_range _⟩, fun h => h.1⟩
  all_goals
    rw [← hbool]
    exact ⟨fun h => ⟨h, h ▸ ofBool_range _⟩, fun h => h.1⟩

theorem linkUn_eq (fm : FMath) (op : UnOp) (a : Int) : linkUn fm op a = meaningUn fm op a := by
  cases op <;> try rfl
  by_cases h : a = 0 <;> simp [linkUn, meaningUn, h, ofBool]

theorem meaningUn_range (fm : FMath) (op : UnOp) (a : Int) : I32 (meaningUn fm op a) := by
  cases op <;> try exact fm.un_range _ a
  simp only [meaningUn]; split <;> decide

/-- The assembler's back-patching agrees with the linker. -/
theorem reduceBin_eq (fm : FMath) (op : BinOp) (a b : Int) : reduceBin fm op a b = linkBin fm op a b := by
  cases op
  case asl => simp only [reduceBin, linkBin, asl_nat_eq]
  all_goals rfl

theorem reduceUn_eq (fm : FMath) (op : UnOp) (a : Int) : reduceUn fm op a = linkUn fm op a := by
  cases op <;> try rfl
  by_cases h : a = 0 <;> simp [reduceUn, linkUn, h, ofBool]

/-- What the assembler folds agrees with the linker. -/
theorem foldBin_ok (fm : FMath) (op : BinOp) {a b : Int} (hb : I32 b) {v : Int}
    (h : foldBin fm op a b = .ok v) : linkBin fm op a b = .ok v := by
  cases op <;> try exact h
  case asl =>
    simp only [foldBin, linkBin] at h ⊢
    by_cases hs : u32 b < 32
    · rw [if_pos hs, asl_nat_eq] at h
      have e : 0 ≤ b ∧ b < 32 ∧ u32 b = b.toNat := by unfold u32 I32 at *; omega
      rw [if_pos ⟨e.1, e.2.1⟩, ← e.2.2]
      exact h
    · rw [if_neg hs] at h; simp at h
  case div =>
    simp only [foldBin, linkBin] at h ⊢
    by_cases h0 : b = 0
    · simp [h0] at h
    · rw [if_neg h0] at h
      by_cases h1 : a = -2147483648 ∧ b = -1
      · simp [h1] at h
      · rw [if_neg h1] at h
        rw [if_neg (by simp [h0]; exact fun e => fun e' => h1 ⟨e, e'⟩)]
        exact h
  case mod =>
    simp only [foldBin, linkBin] at h ⊢
    by_cases h0 : b = 0
    · simp [h0] at h
    · rw [if_neg h0] at h
      by_cases h1 : a = -2147483648 ∧ b = -1
      · simp [h1] at h
      · rw [if_neg h1] at h
        rw [if_neg (by simp [h0]; exact fun e => fun e' => h1 ⟨e, e'⟩)]
        exact h
  case lowLimit =>
    simp only [foldBin, linkBin] at h ⊢
    by_cases hl : a < b
    · simp [hl] at h
    · rw [if_neg hl] at h; rw [if_pos (by omega)]; exact h
  case highLimit =>
    simp only [foldBin, linkBin] at h ⊢
    by_cases hl : a > b
    · simp [hl] at h
    · rw [if_neg hl] at h; rw [if_pos (by omega)]; exact h
  case fdiv =>
    simp only [foldBin, linkBin] at h ⊢
    by_cases h0 : b ≠ 0
    · rw [if_pos h0] at h; exact h
    · rw [if_neg h0] at h; simp at h

/-- Conversely, what the linker computes the assembler folds to the same value, except a fixed point division by
zero, which the assembler refuses. -/
theorem linkBin_fold (fm : FMath) (op : BinOp) {a b : Int} (_hb : I32 b) {v : Int}
    (h : linkBin fm op a b = .ok v) (hz : op = .fdiv → b ≠ 0) : foldBin fm op a b = .ok v := by
  cases op <;> try exact h
  case asl =>
    simp only [foldBin, linkBin] at h ⊢
    by_cases hs : 0 ≤ b ∧ b < 32
    · rw [if_pos hs] at h
      have e : u32 b = b.toNat := by unfold u32; omega
      have e2 : u32 b < 32 := by rw [e]; omega
      rw [if_pos e2, asl_nat_eq, e]
      exact h
    · rw [if_neg hs] at h; simp at h
  case div =>
    simp only [foldBin, linkBin] at h ⊢
    by_cases h1 : b = 0 ∨ (a = -2147483648 ∧ b = -1)
    · rw [if_pos h1] at h; simp at h
    · rw [if_neg h1] at h
      rw [if_neg (fun e => h1 (Or.inl e)), if_neg (fun e => h1 (Or.inr e))]
      exact h
  case mod =>
    simp only [foldBin, linkBin] at h ⊢
    by_cases h1 : b = 0 ∨ (a = -2147483648 ∧ b = -1)
    · rw [if_pos h1] at h; simp at h
    · rw [if_neg h1] at h
      rw [if_neg (fun e => h1 (Or.inl e)), if_neg (fun e => h1 (Or.inr e))]
      exact h
  case lowLimit =>
    simp only [foldBin, linkBin] at h ⊢
    by_cases hl : a ≥ b
    · rw [if_pos hl] at h; rw [if_neg (by omega)]; exact h
    · rw [if_neg hl] at h; simp at h
  case highLimit =>
    simp only [foldBin, linkBin] at h ⊢
    by_cases hl : a ≤ b
    · rw [if_pos hl] at h; rw [if_neg (by omega)]; exact h
    · rw [if_neg hl] at h; simp at h
  case fdiv =>
    simp only [foldBin, linkBin] at h ⊢
    rw [if_pos (hz rfl)]; exact h

theorem foldUn_eq (fm : FMath) (op : UnOp) (a : Int) : foldUn fm op a = linkUn fm op a := by cases op <;> rfl

theorem linkBin_range (fm : FMath) (op : BinOp) {a b : Int} (ha : I32 a) (hb : I32 b) {v : Int}
    (h : linkBin fm op a b = .ok v) : I32 v := ((linkBin_iff fm op ha hb v).1 h).2.1

end Verif.Expr
