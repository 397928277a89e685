import Verif.Expr.Ops
import Verif.Bytes
/-!
# Specification: expressions in object files

An expression is a tree. Its value is the one the operators have (`meaning`), provided every intermediate result
is a 32-bit number. The format of the object file stores the tree in postfix order.
-/
namespace Verif.Expr

inductive Tree where
  | const (v : Int)
  | sym (id : Nat)
  | bank (id : Nat)
  /-- The sum of the two operands minus the address of the patch. -/
  | pcRel (l r : Tree)
  /-- A property of a memory group. -/
  | group (l r : Tree)
  | bin (op : BinOp) (l r : Tree)
  | un (op : UnOp) (e : Tree)
  deriving Repr, DecidableEq

/-- The numbers of the operators in the file format. -/
def BinOp.code : BinOp → Nat
  | .sub => 0 | .add => 1 | .xor => 2 | .or => 3 | .and => 4 | .asl => 5 | .asr => 6 | .mul => 7 | .div => 8
  | .mod => 9 | .boolOr => 10 | .boolAnd => 11 | .ge => 13 | .gt => 14 | .le => 15 | .lt => 16 | .eq => 17
  | .ne => 18 | .lowLimit => 19 | .highLimit => 20 | .fdiv => 21 | .fmul => 22 | .atan2 => 23 | .assert => 34

def UnOp.code : UnOp → Nat
  | .not => 12 | .sin => 24 | .cos => 25 | .tan => 26 | .asin => 27 | .acos => 28 | .atan => 29

/-- The postfix form of an expression. -/
def Tree.serialize : Tree → Bytes
  | .const v => put8 30 ++ put32le (u32 v)
  | .sym id => put8 31 ++ put32le id
  | .bank id => put8 33 ++ put32le id
  | .pcRel l r => l.serialize ++ r.serialize ++ put8 32
  | .group l r => l.serialize ++ r.serialize ++ put8 35
  | .bin op l r => l.serialize ++ r.serialize ++ put8 op.code
  | .un op e => e.serialize ++ put8 op.code

/-- The numbers in the tree have 32 bits. -/
def Tree.Ok : Tree → Prop
  | .const v => I32 v
  | .sym id => id < 4294967296
  | .bank id => id < 4294967296
  | .pcRel l r => l.Ok ∧ r.Ok
  | .group l r => l.Ok ∧ r.Ok
  | .bin _ l r => l.Ok ∧ r.Ok
  | .un _ e => e.Ok

/-- What the leaves of an expression stand for: the addresses of symbols, their banks, the properties of groups
and the address of the patch. -/
structure Den where
  sym : Nat → Option Int
  bank : Nat → Option Int
  group : Int → Int → Option Int
  pc : Int

def inRange (v : Int) : Option Int := if I32 v then some v else none

/-- The value of an expression; `none` if an operator has no value or an intermediate result is not a 32-bit
number. The distance to the program counter is taken modulo `2^32`. -/
def Tree.value (fm : FMath) (ρ : Den) : Tree → Option Int
  | .const v => inRange v
  | .sym id => (ρ.sym id).bind inRange
  | .bank id => (ρ.bank id).bind inRange
  | .pcRel l r => do
    let a ← l.value fm ρ
    let b ← r.value fm ρ
    let t ← inRange (a + b)
    some (toI32 (t - ρ.pc))
  | .group l r => do
    let a ← l.value fm ρ
    let b ← r.value fm ρ
    (ρ.group a b).bind inRange
  | .bin op l r => do
    let a ← l.value fm ρ
    let b ← r.value fm ρ
    (meaning fm op a b).bind inRange
  | .un op e => do
    let a ← e.value fm ρ
    some (meaningUn fm op a)

/-- How many values are waiting at most while the expression is evaluated from left to right. -/
def Tree.depth : Tree → Nat
  | .const _ => 1
  | .sym _ => 1
  | .bank _ => 1
  | .pcRel l r => max l.depth (r.depth + 1)
  | .group l r => max l.depth (r.depth + 1)
  | .bin _ l r => max l.depth (r.depth + 1)
  | .un _ e => e.depth

end Verif.Expr
