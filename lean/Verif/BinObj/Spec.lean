/-!
# Where sections should go in an image

Addresses are natural numbers, without a limit.
-/
namespace Verif.BinObj

/-- What is asked of the position of a section: a fixed position, or a multiple of `align` such that the section lies in one
page of `page` bytes. -/
structure Wanted where
  fixed : Option Nat
  align : Nat
  page : Option Nat
  size : Nat
  deriving Repr, DecidableEq

/-- The position `q` satisfies what is asked for. -/
def Fits (w : Wanted) (q : Nat) : Prop :=
  match w.fixed with
  | some a => q = a
  | none => w.align ∣ q ∧ ∀ p, w.page = some p → q % p + w.size ≤ p

/-- `q` is the first position from `pos` on that satisfies what is asked for. -/
def First (w : Wanted) (pos q : Nat) : Prop := Fits w q ∧ pos ≤ q ∧ ∀ q', pos ≤ q' → Fits w q' → q ≤ q'

/-- Sections are at the positions `qs`, each at the first position behind the one before it. The last one ends at `e`. -/
inductive Layout : Nat → List Wanted → List Nat → Nat → Prop where
  | nil (pos : Nat) : Layout pos [] [] pos
  | cons {pos q e : Nat} {w : Wanted} {ws : List Wanted} {qs : List Nat} : First w pos q → Layout (q + w.size) ws qs e →
      Layout pos (w :: ws) (q :: qs) e

/-- A byte in a Verilog file: two hexadecimal digits on a line. -/
def line (b : UInt8) : List Char :=
  let digits := "0123456789ABCDEF".toList
  digits.getD (b.toNat / 16) '?' :: digits.getD (b.toNat % 16) '?' :: ['\n']

end Verif.BinObj
