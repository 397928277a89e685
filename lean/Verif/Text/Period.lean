import Verif.Text.Rand
/-!
# C35: the period of the generator

The step is linear over the field with two elements, so its powers can be computed with 32 by 32 matrices. A matrix is
one number of 1024 bits, 32 bits for each column. The kernel computes the powers.
-/
namespace Verif.Text

/-! ### Matrices -/

/-- A matrix applied to a vector. -/
def app : Nat → Nat → Nat → Nat
  | 0, _, _ => 0
  | k + 1, m, x => (x % 2 * (m % 4294967296)) ^^^ app k (m / 4294967296) (x / 2)

/-- The product of two matrices, column by column. -/
def comp : Nat → Nat → Nat → Nat
  | 0, _, _ => 0
  | k + 1, a, b => app 32 a (b % 4294967296) + 4294967296 * comp k a (b / 4294967296)

/-- The matrix of a linear function. -/
def mat : Nat → (Nat → Nat) → Nat
  | 0, _ => 0
  | k + 1, f => f 1 + 4294967296 * mat k (fun y => f (2 * y))

theorem xor_mod2 (x y : Nat) : (x ^^^ y) % 2 = (x % 2) ^^^ (y % 2) := Nat.xor_mod_two_pow (n := 1)

theorem xor_div2 (x y : Nat) : (x ^^^ y) / 2 = (x / 2) ^^^ (y / 2) := Nat.xor_div_two_pow (n := 1)

theorem bit_mul_xor (x y c : Nat) : ((x % 2) ^^^ (y % 2)) * c = (x % 2 * c) ^^^ (y % 2 * c) := by
  rcases Nat.mod_two_eq_zero_or_one x with h | h <;> rcases Nat.mod_two_eq_zero_or_one y with h' | h' <;> rw [h, h'] <;> simp

theorem xor_swap (a b c d : Nat) : (a ^^^ b) ^^^ (c ^^^ d) = (a ^^^ c) ^^^ (b ^^^ d) := by
  rw [Nat.xor_assoc, ← Nat.xor_assoc b, Nat.xor_comm b c, Nat.xor_assoc, Nat.xor_assoc]

theorem app_xor (k m x y : Nat) : app k m (x ^^^ y) = app k m x ^^^ app k m y := by
  induction k generalizing m x y with
  | zero => simp [app]
  | succ k ih => simp only [app, xor_mod2, xor_div2, ih, bit_mul_xor]; exact xor_swap _ _ _ _

theorem app_zero (k m : Nat) : app k m 0 = 0 := by
  induction k generalizing m with
  | zero => rfl
  | succ k ih => simp [app, ih]

theorem app_lt (k m x : Nat) : app k m x < 2 ^ 32 := by
  induction k generalizing m x with
  | zero => simp [app]
  | succ k ih =>
    unfold app
    refine Nat.xor_lt_two_pow ?_ (ih _ _)
    rcases Nat.mod_two_eq_zero_or_one x with h | h <;> rw [h] <;> omega

theorem app_bit (a x c : Nat) : app 32 a (x % 2 * c) = x % 2 * app 32 a c := by
  rcases Nat.mod_two_eq_zero_or_one x with h | h <;> rw [h]
  · rw [Nat.zero_mul, Nat.zero_mul, app_zero]
  · rw [Nat.one_mul, Nat.one_mul]

theorem app_comp (k a b x : Nat) : app k (comp k a b) x = app 32 a (app k b x) := by
  induction k generalizing b x with
  | zero => simp [app, app]
  | succ k ih =>
    have hl := app_lt 32 a (b % 4294967296)
    show (x % 2 * (comp (k + 1) a b % 4294967296)) ^^^ app k (comp (k + 1) a b / 4294967296) (x / 2) =
      app 32 a ((x % 2 * (b % 4294967296)) ^^^ app k (b / 4294967296) (x / 2))
    have h1 : comp (k + 1) a b % 4294967296 = app 32 a (b % 4294967296) := by
      show (app 32 a (b % 4294967296) + 4294967296 * comp k a (b / 4294967296)) % 4294967296 = _; omega
    have h2 : comp (k + 1) a b / 4294967296 = comp k a (b / 4294967296) := by
      show (app 32 a (b % 4294967296) + 4294967296 * comp k a (b / 4294967296)) / 4294967296 = _; omega
    rw [h1, h2, ih, app_xor, app_bit]

theorem bit_xor (b y : Nat) : (b % 2) ^^^ (2 * y) = b % 2 + 2 * y := by
  apply Nat.eq_of_testBit_eq
  intro i
  cases i with
  | zero =>
    simp only [Nat.testBit_zero]
    have h : (b % 2 + 2 * y) % 2 = b % 2 := by omega
    rw [h]; simp
  | succ i =>
    simp only [Nat.testBit_succ, xor_div2]
    rw [show b % 2 / 2 = 0 by omega, show 2 * y / 2 = y by omega, show (b % 2 + 2 * y) / 2 = y by omega]
    simp

theorem two_mul_xor (x y : Nat) : 2 * (x ^^^ y) = (2 * x) ^^^ (2 * y) := by
  apply Nat.eq_of_testBit_eq
  intro i
  cases i with
  | zero => simp [Nat.testBit_zero]
  | succ i =>
    simp only [Nat.testBit_succ, xor_div2]
    rw [show 2 * (x ^^^ y) / 2 = x ^^^ y by omega, show 2 * x / 2 = x by omega, show 2 * y / 2 = y by omega]

theorem app_mat (k : Nat) (f : Nat → Nat) (hx : ∀ x y, f (x ^^^ y) = f x ^^^ f y) (h0 : f 0 = 0)
    (hl : ∀ x, f x < 4294967296) (x : Nat) : app k (mat k f) x = f (x % 2 ^ k) := by
  induction k generalizing f x with
  | zero => simp [app, Nat.mod_one, h0]
  | succ k ih =>
    have h1 := hl 1
    show (x % 2 * (mat (k + 1) f % 4294967296)) ^^^ app k (mat (k + 1) f / 4294967296) (x / 2) = _
    have e1 : mat (k + 1) f % 4294967296 = f 1 := by
      show (f 1 + 4294967296 * mat k (fun y => f (2 * y))) % 4294967296 = _; omega
    have e2 : mat (k + 1) f / 4294967296 = mat k (fun y => f (2 * y)) := by
      show (f 1 + 4294967296 * mat k (fun y => f (2 * y))) / 4294967296 = _; omega
    rw [e1, e2, ih (fun y => f (2 * y)) (fun a b => by rw [two_mul_xor, hx]) h0 (fun y => hl _)]
    have e3 : x % 2 * f 1 = f (x % 2) := by
      rcases Nat.mod_two_eq_zero_or_one x with h | h <;> rw [h] <;> simp [h0]
    show x % 2 * f 1 ^^^ f (2 * (x / 2 % 2 ^ k)) = f (x % 2 ^ (k + 1))
    rw [e3, ← hx, bit_xor]
    congr 1
    rw [Nat.pow_succ, Nat.mul_comm (2 ^ k) 2, Nat.mod_mul]

/-! ### The matrix of the step and its powers -/

/-- The step on numbers. -/
def stepN (x : Nat) : Nat := (step (BitVec.ofNat 32 x)).toNat

theorem step_xor (x y : BitVec 32) : step (x ^^^ y) = step x ^^^ step y := by
  have hl : ∀ a (x y : BitVec 32), shl a (x ^^^ y) = shl a x ^^^ shl a y := by
    intro a x y; unfold shl; rw [BitVec.shiftLeft_xor_distrib]
    ext i hi
    simp only [BitVec.getElem_xor]
    generalize x[i] = p; generalize y[i] = q; generalize ((x <<< a)[i]) = r; generalize ((y <<< a)[i]) = s
    revert p q r s; decide
  have hr : ∀ a (x y : BitVec 32), shr a (x ^^^ y) = shr a x ^^^ shr a y := by
    intro a x y; unfold shr; rw [BitVec.ushiftRight_xor_distrib]
    ext i hi
    simp only [BitVec.getElem_xor]
    generalize x[i] = p; generalize y[i] = q; generalize ((x >>> a)[i]) = r; generalize ((y >>> a)[i]) = s
    revert p q r s; decide
  simp only [step_eq, hl, hr]

theorem stepN_xor (x y : Nat) : stepN (x ^^^ y) = stepN x ^^^ stepN y := by
  unfold stepN
  rw [show BitVec.ofNat 32 (x ^^^ y) = BitVec.ofNat 32 x ^^^ BitVec.ofNat 32 y by simp, step_xor, BitVec.toNat_xor]

theorem stepN_zero : stepN 0 = 0 := by decide

theorem stepN_lt (x : Nat) : stepN x < 4294967296 := (step (BitVec.ofNat 32 x)).isLt

/-- `m` is the matrix of `n` steps. -/
def Steps (m n : Nat) : Prop := ∀ x < 4294967296, app 32 m x = Nat.repeat stepN n x

theorem repeat_lt (n x : Nat) (h : x < 4294967296) : Nat.repeat stepN n x < 4294967296 := by
  cases n with
  | zero => exact h
  | succ n => exact stepN_lt _

theorem repeat_add {α : Type} (f : α → α) (a b : Nat) (x : α) : Nat.repeat f (a + b) x = Nat.repeat f a (Nat.repeat f b x) := by
  induction a with
  | zero => rw [Nat.zero_add]; rfl
  | succ a ih => rw [Nat.add_right_comm]; show f _ = f _; rw [ih]

theorem Steps.comp {m n m' n' : Nat} (h : Steps m n) (h' : Steps m' n') : Steps (comp 32 m m') (n + n') := by
  intro x hx
  rw [app_comp, h' x hx, h _ (repeat_lt _ _ hx), repeat_add]

/-- The identity matrix. -/
def one : Nat := mat 32 id

theorem app_one (x : Nat) (h : x < 4294967296) : app 32 one x = x := by
  have := app_mat 32 (fun x => x % 4294967296) (fun x y => Nat.xor_mod_two_pow (n := 32)) rfl (fun x => Nat.mod_lt _ (by decide)) x
  have he : one = mat 32 (fun x => x % 4294967296) := by decide +kernel
  rw [he, this]
  show x % 4294967296 % 4294967296 = x
  omega

theorem steps_zero : Steps one 0 := fun x hx => app_one x hx

theorem steps_one : Steps (mat 32 stepN) 1 := by
  intro x hx
  rw [app_mat 32 stepN stepN_xor stepN_zero stepN_lt, Nat.mod_eq_of_lt hx]
  rfl

/-- `f n`, written so that `n` is computed first. -/
def force (n : Nat) (f : Nat → Nat) : Nat :=
  match n with
  | 0 => f 0
  | k + 1 => f (k + 1)

theorem force_eq (n : Nat) (f : Nat → Nat) : force n f = f n := by cases n <;> rfl

/-- The matrix of `2^k` steps. -/
def squares : Nat → Nat
  | 0 => mat 32 stepN
  | k + 1 => force (squares k) fun m => comp 32 m m

theorem steps_squares (k : Nat) : Steps (squares k) (2 ^ k) := by
  induction k with
  | zero => exact steps_one
  | succ k ih =>
    unfold squares
    rw [force_eq, Nat.pow_succ, Nat.mul_two]
    exact ih.comp ih

/-- The matrix of `n` steps, by the lower `k` bits of `n`. -/
def power (n : Nat) : Nat → Nat
  | 0 => one
  | k + 1 => if n.testBit k then force (squares k) fun s => force (power n k) fun p => comp 32 s p else power n k

theorem steps_power (n k : Nat) : Steps (power n k) (n % 2 ^ k) := by
  induction k with
  | zero => rw [Nat.pow_zero, Nat.mod_one]; exact steps_zero
  | succ k ih =>
    unfold power
    rw [Nat.pow_succ, Nat.mod_mul]
    split
    · next h =>
      rw [Nat.testBit_eq_decide_div_mod_eq, decide_eq_true_eq] at h
      rw [force_eq, force_eq, h, Nat.mul_one, Nat.add_comm]
      exact (steps_squares k).comp ih
    · next h =>
      rw [Nat.testBit_eq_decide_div_mod_eq, decide_eq_true_eq] at h
      rw [show n / 2 ^ k % 2 = 0 by omega, Nat.mul_zero, Nat.add_zero]
      exact ih

/-- The inverse of the matrix of `(2^32 - 1) / 3` steps minus the identity. -/
def inverse3 : Nat :=
  0x6464e5d9e44601a9924fef52f352d6b7e7007c71a4c79d15af73dc7b3d927810b3bc6938afb0ef220e445aca76ba20acbcf9b658f4e1de058e0af2f5c53c2dd092f6da9f3b56fc34ba873e31875bd52aaffe371d8cca28dd40b26659ba4c15e4088aa93802b7b0ea3c5fcd84cc0bb1cd043a6ec1459d7c3e8d7523fc6d40f11

/-- The inverse of the matrix of `(2^32 - 1) / 5` steps minus the identity. -/
def inverse5 : Nat :=
  0xf1215e6b885733e15e3076b07d328c19137ab42cc457bf5c68b5f66271fecbf6128a17fbadc9872bd09e23814232d3eb8cf43c616a47f3267fa9e4afa49c60c987ea11f1fab352b7495f7ab36db414bc63281eb16e8d696e8bfd4542b0ffc9aefaf1008c524e22b2e887c474161beea98bc0aa6b6380d566bda9a905b5109e95

/-- The inverse of the matrix of `(2^32 - 1) / 17` steps minus the identity. -/
def inverse17 : Nat :=
  0x69e53d04f9b0f3707f9f1295a519aae08369eb46c88f00cecf25fc4a2bb1d4b9dcb4bc9343b1d49809d2b32f1babc63363247b9e63d93facec5e677ae7dc15209992b98e0c3fd87c86675fa3b7b307fcda3c054264d4ae4e9719a193d5ce5705d664b8ba8c68ca31f97378b9ff1cf0060f9f0a59f85f6c88f444fd127c058b46

/-- The inverse of the matrix of `(2^32 - 1) / 257` steps minus the identity. -/
def inverse257 : Nat :=
  0xb2318611faeb0c9ab1c664549cc855f2c0baa06f4b608ae9c73261260ac38b3e0e35503a8a3b84ee177f6506090875c4151273363eb320ffdf31fcb8b010b5c300a0d7d57bacff4f30200983ba201c5e746567d8c24c3b0e9f708aa0e43315320e0f5858c4e2645326ac1192434ba086dba7344c2439ef5c27da467773a95da9

/-- The inverse of the matrix of `(2^32 - 1) / 65537` steps minus the identity. -/
def inverse65537 : Nat :=
  0x22f98808eba745dc46283efef245d55f7acbab8e78be61ac72718d92c55ab4480c94b8659d1e5b1a9c7cf4a2eaaa1c67b8981a4414d06359a7e5bdac5e1b94a5afde6203f6892d389ff368979ec19df7f97275d22de22fbe893202553d9bc2caf41f5ec0ef31f86153eceb8e320e984d28b3e54b4815c2e0944f33ad13c5c62e

/-! ### The order of the step -/

/-- The powers of the step that decide its order, computed by the kernel. -/
theorem powers : power 4294967295 32 = one ∧
    comp 32 inverse3 (power 1431655765 32 ^^^ one) = one ∧
    comp 32 inverse5 (power 858993459 32 ^^^ one) = one ∧
    comp 32 inverse17 (power 252645135 32 ^^^ one) = one ∧
    comp 32 inverse257 (power 16711935 32 ^^^ one) = one ∧
    comp 32 inverse65537 (power 65535 32 ^^^ one) = one := by
  decide +kernel

theorem app_matrix_xor (k m m' x : Nat) : app k (m ^^^ m') x = app k m x ^^^ app k m' x := by
  induction k generalizing m m' x with
  | zero => simp [app]
  | succ k ih =>
    have h1 : (m ^^^ m') % 4294967296 = (m % 4294967296) ^^^ (m' % 4294967296) := Nat.xor_mod_two_pow (n := 32)
    have h2 : (m ^^^ m') / 4294967296 = (m / 4294967296) ^^^ (m' / 4294967296) := Nat.xor_div_two_pow (n := 32)
    have h3 : x % 2 * ((m % 4294967296) ^^^ (m' % 4294967296)) = (x % 2 * (m % 4294967296)) ^^^ (x % 2 * (m' % 4294967296)) := by
      rcases Nat.mod_two_eq_zero_or_one x with h | h <;> rw [h] <;> simp
    simp only [app, h1, h2, h3, ih]
    exact xor_swap _ _ _ _

theorem repeat_toNat (n : Nat) (x : BitVec 32) : Nat.repeat stepN n x.toNat = (Nat.repeat step n x).toNat := by
  induction n with
  | zero => rfl
  | succ n ih =>
    show stepN (Nat.repeat stepN n x.toNat) = (step (Nat.repeat step n x)).toNat
    rw [ih]
    unfold stepN
    rw [BitVec.ofNat_toNat, BitVec.setWidth_eq]

/-- `2^32 - 1` steps lead back. -/
theorem full (x : BitVec 32) : Nat.repeat step 4294967295 x = x := by
  apply BitVec.eq_of_toNat_eq
  rw [← repeat_toNat]
  have h := steps_power 4294967295 32 x.toNat x.isLt
  rw [powers.1, app_one _ x.isLt] at h
  exact h.symm

/-- Only zero is fixed when the matrix minus the identity can be inverted. -/
theorem fixed_zero (n inv : Nat) (hn : n < 2 ^ 32) (hi : comp 32 inv (power n 32 ^^^ one) = one) (x : BitVec 32)
    (h : Nat.repeat step n x = x) : x = 0 := by
  apply BitVec.eq_of_toNat_eq
  have h1 := steps_power n 32 x.toNat x.isLt
  rw [Nat.mod_eq_of_lt hn, repeat_toNat, h] at h1
  have h2 := app_one x.toNat x.isLt
  have h3 : app 32 (power n 32 ^^^ one) x.toNat = 0 := by
    rw [app_matrix_xor, h1, h2, Nat.xor_self]
  rw [← h2, ← hi, app_comp, h3, app_zero]
  rfl

theorem repeat_mul (a k : Nat) (x : BitVec 32) (h : Nat.repeat step a x = x) : Nat.repeat step (a * k) x = x := by
  induction k with
  | zero => rfl
  | succ k ih => rw [Nat.mul_succ, Nat.add_comm, repeat_add, ih, h]

theorem repeat_gcd (a b : Nat) (x : BitVec 32) (ha : Nat.repeat step a x = x) (hb : Nat.repeat step b x = x) :
    Nat.repeat step (Nat.gcd a b) x = x := by
  induction a, b using Nat.gcd.induction with
  | H0 n => rw [Nat.gcd_zero_left]; exact hb
  | H1 m n hm ih =>
    rw [Nat.gcd_rec]
    apply ih _ ha
    have : Nat.repeat step (n % m + m * (n / m)) x = x := by rw [Nat.mod_add_div]; exact hb
    rw [repeat_add, repeat_mul m _ x ha] at this
    exact this

/-- A number of the form `p` with no divisors up to its square root. -/
theorem coprime_or (p e : Nat) (r : Nat) (hr : p < (r + 1) * (r + 1)) (hp : 1 < p)
    (h : ∀ d < r + 1, 2 ≤ d → d < p → p % d ≠ 0) : Nat.Coprime e p ∨ p ∣ e := by
  have hg := Nat.gcd_dvd_right e p
  have hg' := Nat.gcd_dvd_left e p
  by_cases h1 : Nat.gcd e p = 1
  · exact Or.inl h1
  · right
    by_cases h2 : Nat.gcd e p = p
    · rw [← h2]; exact hg'
    · exfalso
      obtain ⟨c, hc⟩ := hg
      generalize Nat.gcd e p = g at *
      have hg0 : g ≠ 0 := by rintro rfl; simp at hc; omega
      have hc0 : c ≠ 0 := by rintro rfl; simp at hc; omega
      have hc1 : c ≠ 1 := by rintro rfl; simp at hc; omega
      by_cases hle : g < r + 1
      · have hlt : g < p := by
          rw [hc]; calc g = g * 1 := (Nat.mul_one g).symm
            _ < g * c := Nat.mul_lt_mul_of_pos_left (by omega) (by omega)
        exact h g hle (by omega) hlt (by rw [hc]; exact Nat.mul_mod_right g c)
      · have hcr : c < r + 1 := by
          apply Classical.byContradiction
          intro hcon
          have := Nat.mul_le_mul (Nat.le_of_not_lt hle) (Nat.le_of_not_lt hcon)
          omega
        have hlt : c < p := by
          rw [hc]; calc c = 1 * c := (Nat.one_mul c).symm
            _ < g * c := Nat.mul_lt_mul_of_pos_right (by omega) (by omega)
        exact h c hcr (by omega) hlt (by rw [hc]; exact Nat.mul_mod_left g c)

/-- A proper divisor of `2^32 - 1` divides one of the quotients by a prime factor. -/
theorem proper_divisor (g : Nat) (hg : g ∣ 4294967295) (hne : g ≠ 4294967295) :
    g ∣ 1431655765 ∨ g ∣ 858993459 ∨ g ∣ 252645135 ∨ g ∣ 16711935 ∨ g ∣ 65535 := by
  obtain ⟨e, he⟩ := hg
  have quot : ∀ p q, p * q = 4294967295 → 0 < p → p ∣ e → g ∣ q := by
    intro p q hpq hp hpe
    obtain ⟨c, hc⟩ := hpe
    refine ⟨c, ?_⟩
    have h1 : p * q = p * (g * c) := by rw [hpq, he, hc, ← Nat.mul_assoc, ← Nat.mul_assoc, Nat.mul_comm g p]
    exact Nat.eq_of_mul_eq_mul_left hp h1
  have he' : e ∣ 3 * (5 * (17 * (257 * 65537))) := ⟨g, by rw [Nat.mul_comm e g, ← he]⟩
  rcases coprime_or 3 e 1 (by decide) (by decide) (by decide) with h3 | h3
  · rcases coprime_or 5 e 2 (by decide) (by decide) (by decide) with h5 | h5
    · rcases coprime_or 17 e 4 (by decide) (by decide) (by decide) with h17 | h17
      · rcases coprime_or 257 e 16 (by decide) (by decide) (by decide +kernel) with h257 | h257
        · rcases coprime_or 65537 e 256 (by decide) (by decide) (by decide +kernel) with h65537 | h65537
          · exfalso
            have k4 : e ∣ 65537 := h257.dvd_of_dvd_mul_left (h17.dvd_of_dvd_mul_left
              (h5.dvd_of_dvd_mul_left (h3.dvd_of_dvd_mul_left he')))
            have k6 : e = 1 := h65537.eq_one_of_dvd k4
            rw [k6] at he
            omega
          · exact Or.inr (Or.inr (Or.inr (Or.inr (quot 65537 65535 (by decide) (by decide) h65537))))
        · exact Or.inr (Or.inr (Or.inr (Or.inl (quot 257 16711935 (by decide) (by decide) h257))))
      · exact Or.inr (Or.inr (Or.inl (quot 17 252645135 (by decide) (by decide) h17)))
    · exact Or.inr (Or.inl (quot 5 858993459 (by decide) (by decide) h5))
  · exact Or.inl (quot 3 1431655765 (by decide) (by decide) h3)

/-- **C35.** The generator has the full period: from any seed but zero the same seed comes back after `2^32 - 1` steps
and their multiples, and never in between. All numbers but zero are therefore drawn equally often. -/
theorem C35_period (x : BitVec 32) (h : x ≠ 0) (n : Nat) : Nat.repeat step n x = x ↔ 4294967295 ∣ n := by
  constructor
  · intro hn
    have hg := repeat_gcd n 4294967295 x hn (full x)
    by_cases hne : Nat.gcd n 4294967295 = 4294967295
    · rw [← hne]; exact Nat.gcd_dvd_left _ _
    · exfalso
      obtain ⟨_, p3, p5, p17, p257, p65537⟩ := powers
      apply h
      have key : ∀ q, Nat.gcd n 4294967295 ∣ q → Nat.repeat step q x = x := by
        rintro q ⟨c, rfl⟩; exact repeat_mul _ _ _ hg
      rcases proper_divisor _ (Nat.gcd_dvd_right _ _) hne with hd | hd | hd | hd | hd
      · exact fixed_zero _ _ (by decide) p3 x (key _ hd)
      · exact fixed_zero _ _ (by decide) p5 x (key _ hd)
      · exact fixed_zero _ _ (by decide) p17 x (key _ hd)
      · exact fixed_zero _ _ (by decide) p257 x (key _ hd)
      · exact fixed_zero _ _ (by decide) p65537 x (key _ hd)
  · rintro ⟨c, rfl⟩; exact repeat_mul _ _ _ (full x)

/-- So the first `2^32 - 1` seeds of a sequence are all different. -/
theorem C35_distinct (x : BitVec 32) (h : x ≠ 0) (i j : Nat) (hij : i < j) (hj : j < i + 4294967295) :
    Nat.repeat step i x ≠ Nat.repeat step j x := by
  intro he
  obtain ⟨k, rfl⟩ : ∃ k, j = k + i := ⟨j - i, by omega⟩
  rw [repeat_add] at he
  have := (C35_period _ (C35_never_zero x h i) k).mp he.symm
  obtain ⟨c, hc⟩ := this
  cases c <;> omega

example : Nat.repeat step 5 initialSeed ≠ Nat.repeat step 4000000000 initialSeed :=
  C35_distinct _ (by decide) _ _ (by decide) (by decide)

end Verif.Text
