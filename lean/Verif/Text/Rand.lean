import Verif.Text.Model
import Verif.Expr.OpsLemmas
/-!
# C35: random numbers
-/
namespace Verif.Text
open Verif.Expr

/-! ### The generator is a permutation of the seeds -/

/-- `x ^= x << a`. -/
def shl (a : Nat) (x : BitVec 32) : BitVec 32 := x ^^^ (x <<< a)

/-- `x ^= x >> a`. -/
def shr (a : Nat) (x : BitVec 32) : BitVec 32 := x ^^^ (x >>> a)

theorem step_eq (x : BitVec 32) : step x = shl 5 (shr 17 (shl 13 x)) := rfl

theorem shl_shl (a : Nat) (x : BitVec 32) : shl a (shl a x) = shl (a + a) x := by
  unfold shl
  ext i hi
  simp only [BitVec.getElem_xor, BitVec.getElem_shiftLeft]
  by_cases h1 : i < a
  · simp [h1, show i < a + a by omega]
  · by_cases h2 : i < a + a
    · have : i - a < a := by omega
      simp [h1, h2, this]
    · simp [h1, h2, show ¬ i - a < a by omega, show i - (a + a) = i - a - a by omega]

theorem shr_shr (a : Nat) (x : BitVec 32) : shr a (shr a x) = shr (a + a) x := by
  unfold shr
  ext i hi
  simp only [BitVec.getElem_xor, BitVec.getElem_ushiftRight, BitVec.getLsbD_xor, BitVec.getLsbD_ushiftRight]
  simp [show a + (a + i) = a + a + i by omega]

theorem shl_id (a : Nat) (h : 32 ≤ a) (x : BitVec 32) : shl a x = x := by
  unfold shl; rw [BitVec.shiftLeft_eq_zero h]; simp

theorem shr_id (a : Nat) (h : 32 ≤ a) (x : BitVec 32) : shr a x = x := by
  unfold shr; rw [BitVec.ushiftRight_eq_zero h]; simp

/-- The step backwards. -/
def unstep (y : BitVec 32) : BitVec 32 := shl 26 (shl 13 (shr 17 (shl 20 (shl 10 (shl 5 y)))))

theorem unstep_step (x : BitVec 32) : unstep (step x) = x := by
  rw [step_eq]; unfold unstep
  rw [shl_shl 5, shl_shl 10, shl_shl 20, shl_id 40 (by decide), shr_shr, shr_id 34 (by decide), shl_shl 13, shl_shl 26,
    shl_id 52 (by decide)]

theorem shl_comm (a b : Nat) (x : BitVec 32) : shl a (shl b x) = shl b (shl a x) := by
  unfold shl
  simp only [BitVec.shiftLeft_xor_distrib, ← BitVec.shiftLeft_add, Nat.add_comm a b]
  ext i hi
  simp only [BitVec.getElem_xor]
  generalize (x[i]) = p; generalize ((x <<< a)[i]) = q; generalize ((x <<< b)[i]) = r
  generalize ((x <<< (b + a))[i]) = s
  revert p q r s; decide

theorem step_unstep (y : BitVec 32) : step (unstep y) = y := by
  rw [step_eq]; unfold unstep
  rw [shl_comm 13 26, shl_shl 13, shl_shl 26, shl_id 52 (by decide), shr_shr, shr_id 34 (by decide), shl_comm 5 20, shl_comm 5 10, shl_shl 5,
    shl_shl 10, shl_shl 20, shl_id 40 (by decide)]

/-! ### The property -/

/-- **C35.** Every value of `RAND(lower,upper)` lies between `lower` and `upper`, inclusive, for every seed and all
bounds with `lower ≤ upper`, `upper < 2^31 - 1` and fewer than `2^31` values between them. It is `lower` plus the
remainder of the new seed. -/
theorem C35_range_partial (seed : BitVec 32) (lower upper : Int) (h : lower ≤ upper) (hl : I32 lower)
    (hu : upper < 2147483647) (hr : upper - lower < 2147483647) :
    ∃ v, rand seed lower upper = .ok (v, step seed) ∧ lower ≤ v ∧ v ≤ upper ∧
      v - lower = (step seed).toNat % (upper - lower + 1) := by
  unfold I32 at hl
  unfold rand
  have h1 : chk (1 + upper) = .ok (1 + upper) := by unfold chk; rw [if_pos]; unfold I32; omega
  have h2 : chk (1 + upper - lower) = .ok (1 + upper - lower) := by unfold chk; rw [if_pos]; unfold I32; omega
  have h3 : u32 (1 + upper - lower) = (upper - lower + 1).toNat := by unfold u32; omega
  simp only [h1, h2, h3, Outcome.bind]
  have hpos : 0 < (upper - lower + 1).toNat := by omega
  rw [if_neg (by omega)]
  have hm := Nat.mod_lt (step seed).toNat hpos
  have hc : (((step seed).toNat % (upper - lower + 1).toNat : Nat) : Int) = (step seed).toNat % (upper - lower + 1) := by
    rw [Int.natCast_emod]; congr 1; omega
  refine ⟨_, rfl, ?_⟩
  rw [toI32_of (by unfold I32; omega)]
  refine ⟨by omega, by omega, ?_⟩
  rw [hc]; omega

example : rand initialSeed 16 64 = .ok (20, 0x8EA2DC48) := by decide +kernel
example : ∃ v, rand initialSeed 16 64 = .ok (v, step initialSeed) ∧ 16 ≤ v ∧ v ≤ 64 ∧
    v - 16 = (step initialSeed).toNat % (64 - 16 + 1 : Int) :=
  C35_range_partial initialSeed 16 64 (by decide) (by decide) (by decide) (by decide)

/-- The values of a sequence of calls, each with its own bounds. -/
def rands (seed : BitVec 32) : List (Int × Int) → Outcome (List Int × BitVec 32)
  | [] => .ok ([], seed)
  | (l, u) :: rest =>
    (rand seed l u).bind fun (v, seed') => (rands seed' rest).bind fun (vs, last) => .ok (v :: vs, last)

/-- **C35.** The `n`-th call draws from the seed stepped `n + 1` times, whatever the bounds of the other calls are. -/
theorem C35_sequence_partial (bounds : List (Int × Int)) (hb : ∀ b ∈ bounds, b.1 ≤ b.2 ∧ I32 b.1 ∧ b.2 < 2147483647 ∧ b.2 - b.1 < 2147483647)
    (seed : BitVec 32) :
    ∃ vs, rands seed bounds = .ok (vs, Nat.repeat step bounds.length seed) ∧ vs.length = bounds.length ∧
      ∀ (i : Nat) (v : Int) (b : Int × Int), vs[i]? = some v → bounds[i]? = some b →
        b.1 ≤ v ∧ v ≤ b.2 ∧ v - b.1 = (Nat.repeat step (i + 1) seed).toNat % (b.2 - b.1 + 1) := by
  induction bounds generalizing seed with
  | nil => exact ⟨[], rfl, rfl, by simp⟩
  | cons b rest ih =>
    obtain ⟨l, u⟩ := b
    obtain ⟨h1, h2, h3, h4⟩ := hb (l, u) (by simp)
    obtain ⟨v, hv, hv1, hv2, hv3⟩ := C35_range_partial seed l u h1 h2 h3 h4
    obtain ⟨vs, hvs, hlen, hall⟩ := ih (fun b h => hb b (List.mem_cons_of_mem _ h)) (step seed)
    have hrep : ∀ n, Nat.repeat step n (step seed) = Nat.repeat step (n + 1) seed := by
      intro n; induction n with
      | zero => rfl
      | succ n ihn => show step (Nat.repeat step n (step seed)) = _; rw [ihn]; rfl
    refine ⟨v :: vs, ?_, by simp [hlen], ?_⟩
    · simp only [rands, hv, Outcome.bind, hvs, hrep]; rfl
    · intro i w b hw hb'
      cases i with
      | zero => simp at hw hb'; subst hw hb'; exact ⟨hv1, hv2, hv3⟩
      | succ i =>
        simp at hw hb'
        have := hall i w b hw hb'
        rw [hrep] at this
        exact this

example : rands initialSeed [(0, 1), (10, 12)] = .ok ([0, 11], 0x705D6D7D) := by decide +kernel

/-- **C35.** A generator that was not seeded with zero never reaches zero. -/
theorem C35_never_zero (seed : BitVec 32) (h : seed ≠ 0) (n : Nat) : Nat.repeat step n seed ≠ 0 := by
  induction n with
  | zero => exact h
  | succ n ih =>
    intro h0
    apply ih
    have : unstep (step (Nat.repeat step n seed)) = unstep 0 := by
      have h1 : step (Nat.repeat step n seed) = 0 := h0
      rw [h1]
    rw [unstep_step] at this
    rw [this]; decide

example : Nat.repeat step 1000 initialSeed ≠ 0 := C35_never_zero _ (by decide) _

/-- **C35.** The step is a permutation of the seeds: no two seeds lead to the same one and every seed is reached, so
that different seeds give different sequences for ever. -/
theorem C35_permutation : (∀ x y, step x = step y → x = y) ∧ (∀ y, ∃ x, step x = y) :=
  ⟨fun x y h => by rw [← unstep_step x, h, unstep_step], fun y => ⟨unstep y, step_unstep y⟩⟩

/-! ### What does not hold -/

/-- The seed zero stays zero: after `RANDSEED 0` all numbers are the lower bound. -/
theorem C35_zero_seed (n : Nat) : Nat.repeat step n (randSeed 0) = 0 := by
  induction n with
  | zero => rfl
  | succ n ih => show step (Nat.repeat step n (randSeed 0)) = 0; rw [ih]; decide

example : rand (randSeed 0) 16 64 = .ok (16, 0) := by decide +kernel

/-- **C35 does not hold for every range.** An upper bound of `2^31 - 1` overflows, although the range may be small. -/
theorem C35_largest_upper (seed : BitVec 32) (lower : Int) : rand seed lower 2147483647 = .ub := rfl

/-- A range of `2^31` values or more overflows. -/
theorem C35_wide_range (seed : BitVec 32) : rand seed (-1) 2147483646 = .ub := rfl

/-- An upper bound just below the lower one divides by zero. -/
theorem C35_empty_range (seed : BitVec 32) (lower : Int) (h : I32 lower) :
    rand seed lower (lower - 1) = .ub := by
  unfold I32 at h
  unfold rand
  have h1 : chk (1 + (lower - 1)) = .ok lower := by
    rw [show 1 + (lower - 1) = lower by omega]; unfold chk; rw [if_pos]; unfold I32; omega
  have h2 : chk (lower - lower) = .ok 0 := by rw [Int.sub_self]; rfl
  simp only [h1, h2, Outcome.bind]; rfl

/-- Bounds in the wrong order are not reported; the number is anywhere. -/
theorem C35_swapped : rand initialSeed 64 16 = .ok (-1901929336, 0x8EA2DC48) := by decide +kernel

end Verif.Text
