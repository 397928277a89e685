import Verif.Expr.Ops
/-!
# What slices, random numbers and formatted values should be

`ReferenceStringMembers.md` line 13 for slices, `Expressions.md` 74-88 for random numbers and 168-194 for formats.
-/
namespace Verif.Text

/-- The position in a string of length `len` that `pos` means: counted from the start, or from the end, -1 being the
last character; positions outside the string mean the nearest end. -/
def position (len : Nat) : Int → Nat
  | .ofNat n => min n len
  | .negSucc n => len - (n + 1)

/-- The characters at the positions from `pos` on, at most `count` of them. -/
def characters (t : List Char) (pos : Nat) (count : Option Int) : List Char :=
  match count with
  | none => t.drop pos
  | some n => (t.drop pos).take n.toNat

/-- The value of a digit. -/
def digitValue (base : Nat) (c : Char) : Option Nat :=
  let d := if '0' ≤ c ∧ c ≤ '9' then some (c.toNat - 48) else if 'A' ≤ c ∧ c ≤ 'F' then some (c.toNat - 55) else none
  d.filter (· < base)

/-- The number a numeral denotes: the last digit counts one, the one before it `base`, and so on. The numeral is given
from its last digit to its first. -/
def numeralRev (base : Nat) : List Char → Option Nat
  | [] => some 0
  | c :: cs => do
    let d ← digitValue base c
    let n ← numeralRev base cs
    some (d + base * n)

/-- The number a numeral denotes. -/
def numeral (base : Nat) (cs : List Char) : Option Nat := numeralRev base cs.reverse

/-- `cs` is the numeral of `n` with at least `width` digits and no superfluous leading zeros. -/
def IsNumeral (base width n : Nat) (cs : List Char) : Prop :=
  numeral base cs = some n ∧ width ≤ cs.length ∧ (max width 1 < cs.length → cs.head? ≠ some '0') ∧ cs ≠ []

/-- `cs` consists of exactly `k` digits that denote `n`. -/
def Digits (base k n : Nat) (cs : List Char) : Prop := numeral base cs = some n ∧ cs.length = k

end Verif.Text
