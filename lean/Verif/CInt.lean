/-!
# C integer helpers

`uint32_t` values are `Nat`s below `2^32`; every C addition, subtraction and multiplication on them
is reduced modulo `2^32` (C11 6.2.5p9).
-/
namespace Verif

/-- `2^32`. -/
notation "W32" => (4294967296 : Nat)

/-- `UINT32_MAX`, which is also the bit pattern of the `int32_t` value `-1`. -/
notation "U32MAX" => (4294967295 : Nat)

/-- `a + b` on `uint32_t`. -/
def add32 (a b : Nat) : Nat := (a + b) % W32

/-- `a - b` on `uint32_t`. -/
def sub32 (a b : Nat) : Nat := (a + W32 - b % W32) % W32

/-- Result of a C function that may report failure or run into undefined behaviour. -/
inductive Outcome (α : Type) where
  | ok (a : α)
  | fail
  | ub
  deriving Repr, DecidableEq

namespace Outcome
/-- Sequencing: stop at the first failure or undefined behaviour. -/
def bind {α β : Type} : Outcome α → (α → Outcome β) → Outcome β
  | ok a, f => f a
  | fail, _ => fail
  | ub, _ => ub

instance : Monad Outcome where
  pure := ok
  bind := bind
end Outcome

theorem add32_eq {a b : Nat} (h : a + b < W32) : add32 a b = a + b := Nat.mod_eq_of_lt h

theorem sub32_eq {a b : Nat} (h : b ≤ a) (ha : a < W32) : sub32 a b = a - b := by
  unfold sub32
  have hb : b % W32 = b := Nat.mod_eq_of_lt (by omega)
  rw [hb]
  omega

theorem add32_lt (a b : Nat) : add32 a b < W32 := Nat.mod_lt _ (by decide)
theorem sub32_lt (a b : Nat) : sub32 a b < W32 := Nat.mod_lt _ (by decide)

end Verif
