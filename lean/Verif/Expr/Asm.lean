import Verif.Expr.Tree
/-!
# Expressions in the assembler

The assembler builds a tree while it parses an expression, folds what is constant, simplifies the tree when the
source has been read (`expr_Optimize`), evaluates it if it can (`reduceExpression`) and writes what is left to the
object file (`writeExpression`).
-/
namespace Verif.Expr

/-- `ESymbolType` (xasm/motor/symbol.h 32-44). -/
inductive SymType where
  | label | equ | set | equs | equf | macro | imported | group | global | structure | undefined
  deriving Repr, DecidableEq

/-- `SYMF_CONSTANT` in `defaultSymbolFlags` (xasm/motor/symbol.c 38-50). The flags of a symbol other than
`SYMF_EXPORT` are always those of its type (`SET_TYPE_AND_FLAGS`, 35-36), except in `commonPatch`
(xasm/motor/binaryobject.c), which is modelled on its own. -/
def SymType.constant : SymType → Bool
  | .equ => true | .set => true | .equf => true | .structure => true | _ => false

/-- `SYMF_RELOC` in `defaultSymbolFlags` (xasm/motor/symbol.c 38-50). -/
def SymType.reloc : SymType → Bool
  | .label => true | .imported => true | .global => true | _ => false

/-- `SYMF_EXPRESSION` in `defaultSymbolFlags` (xasm/motor/symbol.c 38-50). -/
def SymType.expression : SymType → Bool
  | .label => true | .equ => true | .set => true | .imported => true | .global => true | .structure => true
  | .undefined => true | _ => false

/-- `SSymbol` (xasm/motor/symbol.h 64-90), the parts that expressions use. The section is its position in the
list of sections. -/
structure ASym where
  type : SymType
  sect : Option Nat
  value : Int
  deriving Repr, DecidableEq

/-- `SSection` (xasm/motor/section.h 32-59), the parts that expressions use. -/
structure ASect where
  loadFixed : Bool
  bankFixed : Bool
  orgFixed : Bool
  /-- One of the flags `SECTF_ALIGNED`, `SECTF_ROOT` and `SECTF_PAGED` is set. -/
  otherFlags : Bool
  origin : Nat
  bank : Nat
  deriving Repr, DecidableEq

/-- The symbols and sections that the assembler knows. -/
structure Asm where
  syms : Nat → ASym
  sects : List ASect

/-- `SExpression` (xasm/motor/expression.h 33-53). The first argument of the inner nodes is `isConstant` together
with `value.integer`: `some v` for a node that is constant. `value.integer` of other nodes is calculated from the
bits of pointers and never used, except by the division operators (see `mkBin`). -/
inductive AExpr where
  | const (v : Int)
  | sym (s : Nat)
  | bank (s : Nat)
  | pcRel (l r : AExpr)
  | parens (c : Option Int) (e : AExpr)
  | bin (c : Option Int) (op : BinOp) (l r : AExpr)
  | un (c : Option Int) (op : UnOp) (e : AExpr)
  | bit (c : Option Int) (e : AExpr)
  deriving Repr, DecidableEq

/-- `isConstant` and the value of a constant node. -/
def AExpr.cached : AExpr → Option Int
  | .const v => some v
  | .parens c _ => c
  | .bin c _ _ _ => c
  | .un c _ _ => c
  | .bit c _ => c
  | _ => none

/-- Assignment to `value.integer` of a constant node. -/
def AExpr.withValue (v : Int) : AExpr → AExpr
  | .const _ => .const v
  | .parens _ e => .parens (some v) e
  | .bin _ op l r => .bin (some v) op l r
  | .un _ op e => .un (some v) op e
  | .bit _ e => .bit (some v) e
  | e => e

/-! ### Building expressions -/

/-- The labels' difference that `expr_Sub` calculates at once (xasm/motor/expression.c 327-336). -/
def labelDiff (syms : Nat → ASym) : AExpr → AExpr → Option Int
  | .sym a, .sym b =>
    if (syms a).sect = (syms b).sect ∧ (syms a).type = .label ∧ (syms b).type = .label then
      some ((syms a).value - (syms b).value)
    else none
  | _, _ => none

/-- Operands that are both constant are folded, otherwise a node is made (`COMBINE`, `CREATE_LIMIT`,
`mergeExpressions`; xasm/motor/expression.c 57-88, 139-154). -/
def merge (fm : FMath) (op : BinOp) (l r : AExpr) : Outcome AExpr :=
  match l.cached, r.cached with
  | some a, some b => do
    let v ← foldBin fm op a b
    .ok (.bin (some v) op l r)
  | _, _ => .ok (.bin none op l r)

/-- `expr_Add`, `expr_Sub`, `expr_Div`, … (xasm/motor/expression.c 57-116, 163-205, 317-384); a null pointer is a
failure. The division operators compare `value.integer` of the divisor with 0 even if it is not constant; `junk`
tells for such an operand whether this accidental number is 0. The arithmetic on accidental numbers is taken to be
harmless. -/
def mkBin (fm : FMath) (syms : Nat → ASym) (junk : AExpr → Bool) (op : BinOp) (l r : AExpr) : Outcome AExpr :=
  match op with
  | .assert =>
    match r.cached with
    | some b => if b ≠ 0 then .ok l else .fail
    | none => .ok (.bin none .assert l r)
  | .sub =>
    match l.cached, r.cached with
    | some _, some _ => merge fm .sub l r
    | _, _ =>
      match labelDiff syms l r with
      | some d => do
        let v ← chk d
        .ok (.const v)
      | none => .ok (.bin none .sub l r)
  | .div | .mod | .fdiv =>
    match r.cached with
    | some b => if b = 0 then .fail else merge fm op l r
    | none => if junk r then .fail else .ok (.bin none op l r)
  | _ => merge fm op l r

/-- `CREATE_UNARY_FUNC` (xasm/motor/expression.c 90-102). -/
def mkUn (fm : FMath) (op : UnOp) (e : AExpr) : AExpr :=
  match e.cached with
  | some a => .un (some (foldUn fm op a)) op e
  | none => .un none op e

/-- `isPowerOfTwo` from `util`, by contract. -/
def isPow2 (n : Nat) : Bool := n == 2 ^ n.log2

/-- `expr_Bit` (xasm/motor/expression.c 234-254). -/
def mkBit (e : AExpr) : Outcome AExpr :=
  match e.cached with
  | some a => if isPow2 (u32 a) then .ok (.bit (some (u32 a).log2) e) else .fail
  | none => .ok (.bit none e)

/-- `expr_Parens` (xasm/motor/expression.c 219-232). -/
def mkParens (e : AExpr) : AExpr := .parens e.cached e

/-- The current section, while an expression is parsed: whether it is `LOADFIXED` or `ORGFIXED` and
`cpuProgramCounter + cpuOrigin + cpuAdjust`. -/
structure Here where
  fixed : Bool
  pc : Nat
  deriving Repr, DecidableEq

/-- `expr_PcRelative` (xasm/motor/expression.c 256-279). -/
def mkPcRel (fm : FMath) (syms : Nat → ASym) (junk : AExpr → Bool) (here : Here) (adj : Int) (e : AExpr) :
    Outcome AExpr :=
  if here.fixed then
    match e.cached with
    | some v => .ok (e.withValue (toI32 (v - (here.pc - adj))))
    | none => mkBin fm syms junk .add e (.const (toI32 (adj - here.pc)))
  else .ok (.pcRel (.const adj) e)

/-- `expr_Symbol` (xasm/motor/expression.c 401-420). -/
def mkSym (syms : Nat → ASym) (s : Nat) : Outcome AExpr :=
  if (syms s).type.expression then
    if (syms s).type.constant then .ok (.const (syms s).value) else .ok (.sym s)
  else .fail

/-! ### Simplification -/

/-- `expr_Optimize` (xasm/motor/expression.c 552-581). -/
def optimize (syms : Nat → ASym) : AExpr → AExpr
  | .const v => .const v
  | .sym s => if (syms s).type.constant then .const (syms s).value else .sym s
  | .bank s => .bank s
  | .pcRel l r => .pcRel (optimize syms l) (optimize syms r)
  | .parens _ e => optimize syms e
  | .bin (some v) _ _ _ => .const v
  | .bin none op l r => .bin none op (optimize syms l) (optimize syms r)
  | .un (some v) _ _ => .const v
  | .un none op e => .un none op (optimize syms e)
  | .bit (some v) _ => .const v
  | .bit none e => .bit none (optimize syms e)

/-! ### Evaluation -/

/-- `getSymbolSectionOffset` (xasm/motor/expression.c 39-55). -/
def symSectionOffset (y : ASym) (k : Nat) (sec : ASect) : Option Nat :=
  if y.type = .equ ∧ sec.loadFixed then some (u32 (y.value - sec.origin))
  else if y.sect = some k then
    if y.type.constant ∧ sec.loadFixed then some (u32 (y.value - sec.origin))
    else if y.type.reloc ∧ ¬ sec.loadFixed ∧ ¬ sec.bankFixed ∧ ¬ sec.orgFixed ∧ ¬ sec.otherFlags then
      some (u32 y.value)
    else none
  else none

/-- The offset of a sum or difference from the offset of one operand and the value of the other
(xasm/motor/expression.c 495-503, 508-513). -/
def shifted (o : Option Nat) (c : Option Int) (f : Int → Int → Int) : Option Nat :=
  match o, c with
  | some o, some c => some (u32 (f o c))
  | _, _ => none

/-- `expr_GetSectionOffset` (xasm/motor/expression.c 475-517). -/
def sectionOffset (syms : Nat → ASym) (k : Nat) (sec : ASect) : AExpr → Option Nat
  | .parens _ e => sectionOffset syms k sec e
  | .const v => if sec.loadFixed then some (u32 (v - sec.origin)) else none
  | .sym s => symSectionOffset (syms s) k sec
  | .bin _ .add l r =>
    (shifted (sectionOffset syms k sec l) r.cached (· + ·)).orElse fun _ =>
      shifted (sectionOffset syms k sec r) l.cached (fun o c => c + o)
  | .bin _ .sub l r => shifted (sectionOffset syms k sec l) r.cached (· - ·)
  | _ => none

/-- The loop of `expr_GetSectionAndOffset` (xasm/motor/expression.c 525-534), starting at section `k`. -/
def findSection (syms : Nat → ASym) (e : AExpr) : Nat → List ASect → Option (Nat × Nat)
  | _, [] => none
  | k, sec :: rest =>
    match sectionOffset syms k sec e with
    | some o => some (k, o)
    | none => findSection syms e (k + 1) rest

/-- `expr_GetSectionAndOffset` (xasm/motor/expression.c 525-534). -/
def sectionAndOffset (A : Asm) (e : AExpr) : Option (Nat × Nat) := findSection A.syms e 0 A.sects

/-- The place of a patch: `section` and `offset` of `SPatch` (xasm/motor/patch.h 38-46). -/
structure Site where
  sect : Nat
  offset : Nat
  deriving Repr, DecidableEq

/-- The case `T_FUNC_BANK` (xasm/motor/patch.c 342-353). Whether the processor has banks is not modelled. -/
def symBank (A : Asm) (s : Nat) : Option Int :=
  match (A.syms s).sect with
  | some k =>
    match A.sects[k]? with
    | some sec => if sec.bankFixed then some (toI32 sec.bank) else none
    | none => none
  | none => none

/-- The comparison in `reduceSubtract` (xasm/motor/patch.c 213-222). -/
def sameSectionDiff (A : Asm) (l r : AExpr) : Option Int :=
  match sectionAndOffset A l, sectionAndOffset A r with
  | some (i, a), some (j, b) => if i = j then some (toI32 (a - b)) else none
  | _, _ => none

/-- Operators whose right operand is reduced first (xasm/motor/patch.c 227-272). -/
def rightFirst : BinOp → Bool
  | .lowLimit => true | .highLimit => true | .assert => true | _ => false

/-- `reduceBit` for a value (xasm/motor/patch.c 190-209). `isPowerOfTwo` and `log2n` are functions from `util`
whose parameter types are not known, so `INT32_MIN` has no defined result. -/
def reduceBitValue (a : Int) : Outcome Int :=
  if a = -2147483648 then .ub else if isPow2 (u32 a) then .ok (u32 a).log2 else .fail

/-- `reduceExpression` (xasm/motor/patch.c 143-399): the tree, in which the parts that could be evaluated are
replaced by their value, and the value of the whole if it is known. Errors that are reported for the patch
(a symbol that is not defined, a limit that does not hold) are a failure; the assembler then writes no output. -/
def reduce (fm : FMath) (A : Asm) (p : Site) : AExpr → Outcome (AExpr × Option Int)
  | .const v => .ok (.const v, some v)
  | .sym s =>
    if (A.syms s).type.constant then .ok (.sym s, some (A.syms s).value)
    else if (A.syms s).type = .undefined then .fail
    else .ok (.sym s, none)
  | .bank s => .ok (.bank s, symBank A s)
  | .pcRel l r =>
    match A.sects[p.sect]?.bind (fun sec => sectionOffset A.syms p.sect sec r) with
    | some o => do
      let (l', a) ← reduce fm A p l
      match a with
      | some a =>
        let v := toI32 (o + a - p.offset)
        .ok (.const v, some v)
      | none => .ok (.pcRel l' r, none)
    | none => .ok (.pcRel l r, none)
  | .parens (some v) _ => .ok (.const v, some v)
  | .parens none e => do
    let (e', v) ← reduce fm A p e
    .ok (.parens none e', v)
  | .bin (some v) _ _ _ => .ok (.const v, some v)
  | .bin none op l r =>
    match if op = .sub then sameSectionDiff A l r else none with
    | some d => .ok (.const d, some d)
    | none =>
      if rightFirst op then do
        let (r', b) ← reduce fm A p r
        match b with
        | none => .ok (.bin none op l r', none)
        | some b => do
          let (l', a) ← reduce fm A p l
          match a with
          | none => .ok (.bin none op l' r', none)
          | some a => do
            let v ← reduceBin fm op a b
            .ok (.const v, some v)
      else do
        let (l', a) ← reduce fm A p l
        match a with
        | none => .ok (.bin none op l' r, none)
        | some a => do
          let (r', b) ← reduce fm A p r
          match b with
          | none => .ok (.bin none op l' r', none)
          | some b => do
            let v ← reduceBin fm op a b
            .ok (.const v, some v)
  | .un (some v) _ _ => .ok (.const v, some v)
  | .un none op e => do
    let (e', a) ← reduce fm A p e
    match a with
    | none => .ok (.un none op e', none)
    | some a => .ok (.const (reduceUn fm op a), some (reduceUn fm op a))
  | .bit (some v) _ => .ok (.const v, some v)
  | .bit none e => do
    let (e', a) ← reduce fm A p e
    match a with
    | none => .ok (.bit none e', none)
    | some a => do
      let v ← reduceBitValue a
      .ok (.const v, some v)

/-! ### Output -/

/-- The codes of the operators (xasm/motor/object.h 27-64, xasm/motor/object.c 230-333). -/
def asmCode : BinOp → Nat
  | .sub => 0 | .add => 1 | .xor => 2 | .or => 3 | .and => 4 | .asl => 5 | .asr => 6 | .mul => 7 | .div => 8
  | .mod => 9 | .boolOr => 10 | .boolAnd => 11 | .ge => 13 | .gt => 14 | .le => 15 | .lt => 16 | .eq => 17
  | .ne => 18 | .lowLimit => 19 | .highLimit => 20 | .fdiv => 21 | .fmul => 22 | .atan2 => 23 | .assert => 34

def asmUnCode : UnOp → Nat
  | .not => 12 | .sin => 24 | .cos => 25 | .tan => 26 | .asin => 27 | .acos => 28 | .atan => 29

/-- `writeExpression` (xasm/motor/object.c 218-357); `ids` are the numbers of the symbols in the file. There is no
code for `T_OP_BIT`, which is an internal error (231-233). -/
def writeExpr (ids : Nat → Nat) : AExpr → Option Bytes
  | .const v => some (put8 30 ++ put32le (u32 v))
  | .sym s => some (put8 31 ++ put32le (ids s))
  | .bank s => some (put8 33 ++ put32le (ids s))
  | .pcRel l r => do
    let a ← writeExpr ids l
    let b ← writeExpr ids r
    some (a ++ b ++ put8 32)
  | .parens _ e => do
    let a ← writeExpr ids e
    let b ← writeExpr ids e
    some (a ++ b)
  | .bin _ op l r => do
    let a ← writeExpr ids l
    let b ← writeExpr ids r
    some (a ++ b ++ put8 (asmCode op))
  | .un _ op e => do
    let a ← writeExpr ids e
    some (a ++ put8 (asmUnCode op))
  | .bit _ _ => none

end Verif.Expr
