/-!
# What a number in the source means

`Expressions.md` 12-20: hexadecimal numbers begin with `$`, binary numbers with `%`; upper and lower case letters mean
the same. The two characters for binary digits can be changed (`Assembler.md` 7).
-/
namespace Verif.Lexer

/-- Hexadecimal digits; the first ten are the decimal digits. -/
def digitTable : List (Char × Nat) :=
  [('0', 0), ('1', 1), ('2', 2), ('3', 3), ('4', 4), ('5', 5), ('6', 6), ('7', 7), ('8', 8), ('9', 9),
   ('A', 10), ('B', 11), ('C', 12), ('D', 13), ('E', 14), ('F', 15),
   ('a', 10), ('b', 11), ('c', 12), ('d', 13), ('e', 14), ('f', 15)]

/-- The value of a digit; `zero` and `one` are the binary digits. -/
def digit (zero one : Char) (base : Nat) (c : Char) : Option Nat :=
  if base = 2 then
    if c = zero then some 0 else if c = one then some 1 else none
  else (digitTable.lookup c).filter (· < base)

/-- The number that digits denote, given from the last to the first: the last digit counts one, the one before it
`base` and so on. -/
def positionalRev (zero one : Char) (base : Nat) : List Char → Option Nat
  | [] => some 0
  | c :: cs => do
    let d ← digit zero one base c
    let n ← positionalRev zero one base cs
    some (d + base * n)

/-- The number that digits denote. -/
def positional (zero one : Char) (base : Nat) (cs : List Char) : Option Nat := positionalRev zero one base cs.reverse

/-- No digit in base `base` comes first in `rest`. The characters `0` and `1` always are binary digits. -/
def NoDigit (zero one : Char) (base : Nat) (rest : List Char) : Prop :=
  ∀ c, rest.head? = some c → digit zero one base c = none ∧ (base = 2 → c ≠ '0' ∧ c ≠ '1')

/-- A number ends where `rest` begins: no digit follows, no fraction, no suffix `f`, and no `$`, which would make a local
label of a decimal number. -/
def Ends (zero one : Char) (base : Nat) (rest : List Char) : Prop :=
  NoDigit zero one base rest ∧ rest.head? ≠ some 'f' ∧ (base = 10 → rest.head? ≠ some '$') ∧
    ∀ rest', rest = '.' :: rest' → NoDigit zero one base rest'

/-- How the three kinds of numbers begin. -/
inductive Prefix : List Char → Nat → Prop where
  | hex : Prefix ['$'] 16
  | bin : Prefix ['%'] 2
  | dec : Prefix [] 10

/-- The bit planes of a row of pixels, the leftmost pixel being the most significant bit. -/
def plane (bit : Nat) : List Nat → Nat
  | [] => 0
  | p :: ps => p / 2 ^ bit % 2 * 2 ^ ps.length + plane bit ps

end Verif.Lexer
