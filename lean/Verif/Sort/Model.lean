import Verif.Expr.LinkLemmas
/-!
# Sorting sections (`xlink/section.c`)

Sections are numbers; the linker's list of sections is the first one and the `nextSection` of every section.
-/
namespace Verif.Sort
open Verif.Expr (chk)

/-- The fields of `SSection` (xlink/section.h 42-77) that are compared. -/
structure Key where
  used : Bool
  bank : Int
  loc : Int
  deriving Repr, DecidableEq

/-- `bool` as `int`. -/
def boolInt (b : Bool) : Int := if b then 1 else 0

/-- `compareSections` (xlink/section.c 152-164). The differences are computed in `int`. -/
def compare (a b : Key) : Outcome Int :=
  if a.used ≠ b.used then .ok (boolInt a.used - boolInt b.used)
  else if a.bank ≠ b.bank then chk (a.bank - b.bank)
  else chk (a.loc - b.loc)

/-- `sect_Sections` and the `nextSection` fields. -/
structure Chain where
  first : Option Nat
  next : Nat → Option Nat

def setNext (next : Nat → Option Nat) (i : Nat) (v : Option Nat) : Nat → Option Nat :=
  fun j => if j = i then v else next j

/-- The loops that walk the list, for instance `fillSectionArray` (xlink/section.c 134-139): the sections in order.
`none` if more than `fuel` sections are met. -/
def walk (next : Nat → Option Nat) : Nat → Option Nat → Option (List Nat)
  | _, none => some []
  | 0, some _ => none
  | fuel + 1, some i => (walk next fuel (next i)).map (i :: ·)

/-- The loop in `fillSectionList` with the statement after it (xlink/section.c 145-149). -/
def link (next : Nat → Option Nat) : List Nat → (Nat → Option Nat)
  | [] => next
  | [i] => setNext next i none
  | i :: j :: l => link (setNext next i (some j)) (j :: l)

/-- `fillSectionList` (xlink/section.c 141-150). Without sections it reads and writes outside of the array. The array
has `sect_TotalSections()` elements, which is taken to be the length of the list: `sect_CreateNew` is the only
function that counts sections, and it appends each to the list (241-262). -/
def fillList (c : Chain) : List Nat → Outcome Chain
  | [] => .ub
  | i :: l => .ok ⟨some i, link c.next (i :: l)⟩

/-- What `qsort` may return: the same elements, none greater than a later one. C says nothing about the order of
elements that compare equal. It requires the comparison to be a total preorder, see `compare_*` in `Props`. -/
structure QSorted (key : Nat → Key) (l l' : List Nat) : Prop where
  perm : l'.Perm l
  order : l'.Pairwise fun i j => ∃ v, compare (key i) (key j) = .ok v ∧ v ≤ 0

/-- `sect_SortSections` (xlink/section.c 269-278): `c'` is a possible result. -/
def Sorts (key : Nat → Key) (fuel : Nat) (c : Chain) (r : Outcome Chain) : Prop :=
  ∃ l l', walk c.next fuel c.first = some l ∧ QSorted key l l' ∧ r = fillList c l'

end Verif.Sort
