import Verif.CInt
/-!
# Operators of expressions

Expression values are `int32_t`, modelled as `Int` in the range of `I32`. There are three implementations of the
operators in the code: the assembler folds constants while it parses (`xasm/motor/expression.c`), reduces
expressions when it back-patches (`xasm/motor/patch.c`) and the linker evaluates what is left
(`xlink/patch.c`). All three are modelled. Overflow of a signed addition, subtraction or multiplication, division
by zero, `INT32_MIN / -1` and shifts by less than 0 or more than 31 bits are undefined behaviour in C. A left
shift of a signed number discards the upper bits, as every supported compiler does, although C11 only defines it
when no bits are lost.
-/
namespace Verif.Expr

/-- The range of `int32_t`. -/
def I32 (a : Int) : Prop := -2147483648 ≤ a ∧ a ≤ 2147483647

instance (a : Int) : Decidable (I32 a) := by unfold I32; infer_instance

/-- Conversion to `uint32_t`. -/
def u32 (a : Int) : Nat := (a % 4294967296).toNat

/-- Conversion to `int32_t`. -/
def toI32 (a : Int) : Int := (a + 2147483648) % 4294967296 - 2147483648

/-- The result of a signed operation. -/
def chk (a : Int) : Outcome Int := if I32 a then .ok a else .ub

def ofBool (b : Bool) : Int := if b then 1 else 0

/-- Operators with two operands. -/
inductive BinOp where
  | sub | add | xor | or | and | asl | asr | mul | div | mod
  | boolOr | boolAnd | ge | gt | le | lt | eq | ne
  | lowLimit | highLimit | fdiv | fmul | atan2 | assert
  deriving Repr, DecidableEq

/-- Operators with one operand. -/
inductive UnOp where
  | not | sin | cos | tan | asin | acos | atan
  deriving Repr, DecidableEq

/-- The fixed point functions from `util/fmath.h`, which are not part of the code that is modelled: any
functions that yield an `int32_t`. -/
structure FMath where
  fdiv : Int → Int → Int
  fmul : Int → Int → Int
  atan2 : Int → Int → Int
  un : UnOp → Int → Int
  fdiv_range : ∀ a b, I32 (fdiv a b)
  fmul_range : ∀ a b, I32 (fmul a b)
  atan2_range : ∀ a b, I32 (atan2 a b)
  un_range : ∀ o a, I32 (un o a)

/-! ### The linker -/

/-- The operators in `calculateExpressionValue` for two absolute values (xlink/patch.c 336-361, 384-478, 507-542, 605-616). -/
def linkBin (fm : FMath) : BinOp → Int → Int → Outcome Int
  | .sub, a, b => chk (a - b)
  | .add, a, b => chk (a + b)
  | .xor, a, b => .ok (toI32 (u32 a ^^^ u32 b : Nat))
  | .or, a, b => .ok (toI32 (u32 a ||| u32 b : Nat))
  | .and, a, b => .ok (toI32 (u32 a &&& u32 b : Nat))
  | .asl, a, b => if 0 ≤ b ∧ b < 32 then .ok (toI32 (a * 2 ^ b.toNat)) else .ub
  | .asr, a, b => if 0 ≤ b ∧ b < 32 then .ok (a >>> b.toNat) else .ub
  | .mul, a, b => chk (a * b)
  | .div, a, b => if b = 0 ∨ (a = -2147483648 ∧ b = -1) then .ub else .ok (a.tdiv b)
  | .mod, a, b => if b = 0 ∨ (a = -2147483648 ∧ b = -1) then .ub else .ok (a.tmod b)
  | .boolOr, a, b => .ok (ofBool (a != 0 || b != 0))
  | .boolAnd, a, b => .ok (ofBool (a != 0 && b != 0))
  | .ge, a, b => .ok (ofBool (a ≥ b))
  | .gt, a, b => .ok (ofBool (a > b))
  | .le, a, b => .ok (ofBool (a ≤ b))
  | .lt, a, b => .ok (ofBool (a < b))
  | .eq, a, b => .ok (ofBool (a == b))
  | .ne, a, b => .ok (ofBool (a != b))
  | .lowLimit, a, b => if a ≥ b then .ok a else .fail
  | .highLimit, a, b => if a ≤ b then .ok a else .fail
  | .fdiv, a, b => .ok (fm.fdiv a b)
  | .fmul, a, b => .ok (fm.fmul a b)
  | .atan2, a, b => .ok (fm.atan2 a b)
  | .assert, a, b => if b ≠ 0 then .ok a else .fail

/-- `unary` (xlink/patch.c 363-371, 479-506). -/
def linkUn (fm : FMath) : UnOp → Int → Int
  | .not, a => ofBool (!(a != 0))
  | o, a => fm.un o a

/-! ### Folding in the assembler -/

/-- The value of a node with constant operands (xasm/motor/expression.c 57-116, 163-205, 317-384). `expr_Div`,
`expr_Mod` and `expr_FixedDivision` report a zero divisor; limits and assertions that do not hold are reported.
`asr` is a function from `util`, taken to be the arithmetic shift. -/
def foldBin (fm : FMath) : BinOp → Int → Int → Outcome Int
  | .sub, a, b => chk (a - b)
  | .add, a, b => chk (a + b)
  | .xor, a, b => .ok (toI32 (u32 a ^^^ u32 b : Nat))
  | .or, a, b => .ok (toI32 (u32 a ||| u32 b : Nat))
  | .and, a, b => .ok (toI32 (u32 a &&& u32 b : Nat))
  | .asl, a, b => if u32 b < 32 then .ok (toI32 (u32 a * 2 ^ u32 b : Nat)) else .ub
  | .asr, a, b => if 0 ≤ b ∧ b < 32 then .ok (a >>> b.toNat) else .ub
  | .mul, a, b => chk (a * b)
  | .div, a, b => if b = 0 then .fail else if a = -2147483648 ∧ b = -1 then .ub else .ok (a.tdiv b)
  | .mod, a, b => if b = 0 then .fail else if a = -2147483648 ∧ b = -1 then .ub else .ok (a.tmod b)
  | .boolOr, a, b => .ok (ofBool (a != 0 || b != 0))
  | .boolAnd, a, b => .ok (ofBool (a != 0 && b != 0))
  | .ge, a, b => .ok (ofBool (a ≥ b))
  | .gt, a, b => .ok (ofBool (a > b))
  | .le, a, b => .ok (ofBool (a ≤ b))
  | .lt, a, b => .ok (ofBool (a < b))
  | .eq, a, b => .ok (ofBool (a == b))
  | .ne, a, b => .ok (ofBool (a != b))
  | .lowLimit, a, b => if a < b then .fail else .ok a
  | .highLimit, a, b => if a > b then .fail else .ok a
  | .fdiv, a, b => if b ≠ 0 then .ok (fm.fdiv a b) else .fail
  | .fmul, a, b => .ok (fm.fmul a b)
  | .atan2, a, b => .ok (fm.atan2 a b)
  | .assert, a, b => if b ≠ 0 then .ok a else .fail

/-- `CREATE_UNARY_FUNC` (xasm/motor/expression.c 90-102). -/
def foldUn (fm : FMath) : UnOp → Int → Int
  | .not, a => ofBool (!(a != 0))
  | o, a => fm.un o a

/-! ### Back-patching in the assembler -/

/-- The operation functions and `reduceLowLimit`, `reduceHighLimit`, `reduceAssert`
(xasm/motor/patch.c 48-136, 227-272). -/
def reduceBin (fm : FMath) : BinOp → Int → Int → Outcome Int
  | .sub, a, b => chk (a - b)
  | .add, a, b => chk (a + b)
  | .xor, a, b => .ok (toI32 (u32 a ^^^ u32 b : Nat))
  | .or, a, b => .ok (toI32 (u32 a ||| u32 b : Nat))
  | .and, a, b => .ok (toI32 (u32 a &&& u32 b : Nat))
  | .asl, a, b => if 0 ≤ b ∧ b < 32 then .ok (toI32 (u32 a * 2 ^ b.toNat : Nat)) else .ub
  | .asr, a, b => if 0 ≤ b ∧ b < 32 then .ok (a >>> b.toNat) else .ub
  | .mul, a, b => chk (a * b)
  | .div, a, b => if b = 0 ∨ (a = -2147483648 ∧ b = -1) then .ub else .ok (a.tdiv b)
  | .mod, a, b => if b = 0 ∨ (a = -2147483648 ∧ b = -1) then .ub else .ok (a.tmod b)
  | .boolOr, a, b => .ok (ofBool (a != 0 || b != 0))
  | .boolAnd, a, b => .ok (ofBool (a != 0 && b != 0))
  | .ge, a, b => .ok (ofBool (a ≥ b))
  | .gt, a, b => .ok (ofBool (a > b))
  | .le, a, b => .ok (ofBool (a ≤ b))
  | .lt, a, b => .ok (ofBool (a < b))
  | .eq, a, b => .ok (ofBool (a == b))
  | .ne, a, b => .ok (ofBool (a != b))
  | .lowLimit, a, b => if a ≥ b then .ok a else .fail
  | .highLimit, a, b => if a ≤ b then .ok a else .fail
  | .fdiv, a, b => .ok (fm.fdiv a b)
  | .fmul, a, b => .ok (fm.fmul a b)
  | .atan2, a, b => .ok (fm.atan2 a b)
  | .assert, a, b => if b ≠ 0 then .ok a else .fail

/-- `booleanNot` and the functions from `fmath.h` (xasm/motor/patch.c 138-141, 301-302, 321-332). -/
def reduceUn (fm : FMath) : UnOp → Int → Int
  | .not, a => if a ≠ 0 then 0 else 1
  | o, a => fm.un o a

/-! ### What the operators mean -/

/-- The value of an operator, an integer of any size; `none` if it has none: a division by zero, a shift by a
negative or too large number of bits or a limit that does not hold. Bit operations are those of two's complement
32-bit numbers, comparisons yield 1 or 0, a division rounds towards zero, a right shift rounds down. -/
def meaning (fm : FMath) : BinOp → Int → Int → Option Int
  | .sub, a, b => some (a - b)
  | .add, a, b => some (a + b)
  | .xor, a, b => some ((BitVec.ofInt 32 a ^^^ BitVec.ofInt 32 b).toInt)
  | .or, a, b => some ((BitVec.ofInt 32 a ||| BitVec.ofInt 32 b).toInt)
  | .and, a, b => some ((BitVec.ofInt 32 a &&& BitVec.ofInt 32 b).toInt)
  | .asl, a, b => if 0 ≤ b ∧ b < 32 then some ((BitVec.ofInt 32 a <<< b.toNat).toInt) else none
  | .asr, a, b => if 0 ≤ b ∧ b < 32 then some (a.fdiv (2 ^ b.toNat)) else none
  | .mul, a, b => some (a * b)
  | .div, a, b => if b = 0 then none else some (a.tdiv b)
  | .mod, a, b => if b = 0 then none else some (a - b * a.tdiv b)
  | .boolOr, a, b => some (if a ≠ 0 ∨ b ≠ 0 then 1 else 0)
  | .boolAnd, a, b => some (if a ≠ 0 ∧ b ≠ 0 then 1 else 0)
  | .ge, a, b => some (if a ≥ b then 1 else 0)
  | .gt, a, b => some (if a > b then 1 else 0)
  | .le, a, b => some (if a ≤ b then 1 else 0)
  | .lt, a, b => some (if a < b then 1 else 0)
  | .eq, a, b => some (if a = b then 1 else 0)
  | .ne, a, b => some (if a = b then 0 else 1)
  | .lowLimit, a, b => if b ≤ a then some a else none
  | .highLimit, a, b => if a ≤ b then some a else none
  | .fdiv, a, b => some (fm.fdiv a b)
  | .fmul, a, b => some (fm.fmul a b)
  | .atan2, a, b => some (fm.atan2 a b)
  | .assert, a, b => if b = 0 then none else some a

/-- The value of an operator with one operand. -/
def meaningUn (fm : FMath) : UnOp → Int → Int
  | .not, a => if a = 0 then 1 else 0
  | o, a => fm.un o a

end Verif.Expr
