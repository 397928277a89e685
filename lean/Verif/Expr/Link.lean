import Verif.Expr.Ops
import Verif.Bytes
/-!
# Expressions at link time

Model of `calculateExpressionValue` (xlink/patch.c 33-112, 336-645): a stack machine that reads a byte string.
Symbols, banks and group properties are looked up through an `Env`; what the linker's tables make of them is
modelled in `Verif/Resolve`.
-/
namespace Verif.Expr

/-- The symbol of a relocatable value (`SSymbol*` on the stack): which symbol, the section it is in (`none`: not
resolved, `symbol->section == NULL`), its value relative to that section and whether it is visible in its file
only (`symbol_IsLocal`, xlink/symbol.h 53-66). -/
structure RelSym where
  id : Nat
  sect : Option Nat
  value : Int
  isLocal : Bool
  deriving Repr, DecidableEq

/-- `StackEntry` (xlink/patch.c 35-39) without `section`, which only linker symbols use. `sym = none` is an
absolute number. -/
structure Entry where
  sym : Option RelSym
  value : Int
  deriving Repr, DecidableEq

/-- What an expression refers to.
* `symbol id`: what `OBJ_SYMBOL` pushes (xlink/patch.c 565-569): `⟨none, address⟩` if the symbol's section has an
  address, `⟨some s, 0⟩` if not; `fail` if the linker reports an error.
* `bank id`: `sect_GetConstantSymbolBank` (xlink/section.c 210-224), `ok none` if it returns false.
* `groupProperty`: `group_GetProperty`.
* `cpuLocation`, `offset`: `section->cpuLocation + patch->offset` is the address of the patch. -/
structure Env where
  symbol : Nat → Outcome Entry
  bank : Nat → Outcome (Option Int)
  groupProperty : Int → Int → Outcome Int
  cpuLocation : Int
  offset : Nat

/-- `pushStackValue` (xlink/patch.c 85-92). -/
def push (e : Entry) (st : List Entry) : Outcome (List Entry) :=
  if st.length ≥ 256 then .fail else .ok (e :: st)

/-- A binary operator applied to two stack entries (xlink/patch.c 384-541, 605-616). -/
def combine (fm : FMath) (op : BinOp) (l r : Entry) : Outcome Entry :=
  match op, l.sym, r.sym with
  | op, none, none => do
    let v ← linkBin fm op l.value r.value
    .ok ⟨none, v⟩
  | .sub, some s, none => do
    let v ← chk (l.value - r.value)
    .ok ⟨some s, v⟩
  | .sub, some s, some t =>
    if s.sect = t.sect then do
      let v ← chk (s.value - t.value)
      .ok ⟨none, v⟩
    else .fail
  | .add, some s, none => do
    let v ← chk (l.value + r.value)
    .ok ⟨some s, v⟩
  | .add, none, some t => do
    let v ← chk (l.value + r.value)
    .ok ⟨some t, v⟩
  | _, _, _ => .fail

/-- `unary` (xlink/patch.c 363-371). -/
def combineUn (fm : FMath) (op : UnOp) (e : Entry) : Outcome Entry :=
  match e.sym with
  | none => .ok ⟨none, linkUn fm op e.value⟩
  | some _ => .fail

/-- `OBJ_PC_REL` (xlink/patch.c 589-604). The two operands are added and must be absolute, so that the branches
for relocatable values are never reached. `section->cpuLocation + patch->offset` is computed in `uint32_t`. -/
def combinePcRel (env : Env) (l r : Entry) : Outcome Entry :=
  match l.sym, r.sym with
  | none, none => do
    let v ← chk (l.value + r.value)
    .ok ⟨none, toI32 (v - (env.cpuLocation + env.offset))⟩
  | _, _ => .fail

/-- `OBJ_GROUP_PROPERTY` (xlink/patch.c 617-625). -/
def combineGroup (env : Env) (l r : Entry) : Outcome Entry := do
  let v ← env.groupProperty l.value r.value
  .ok ⟨none, v⟩

/-- Operators of the byte string that take no operand bytes. -/
inductive StackOp where
  | bin (op : BinOp)
  | un (op : UnOp)
  | pcRel
  | group
  deriving Repr, DecidableEq

/-- `EExpressionOperator` (xlink/patch.h 35-72, the same numbers as in xasm/motor/object.h 28-63). -/
def stackOp : Nat → Option StackOp
  | 0 => some (.bin .sub)
  | 1 => some (.bin .add)
  | 2 => some (.bin .xor)
  | 3 => some (.bin .or)
  | 4 => some (.bin .and)
  | 5 => some (.bin .asl)
  | 6 => some (.bin .asr)
  | 7 => some (.bin .mul)
  | 8 => some (.bin .div)
  | 9 => some (.bin .mod)
  | 10 => some (.bin .boolOr)
  | 11 => some (.bin .boolAnd)
  | 12 => some (.un .not)
  | 13 => some (.bin .ge)
  | 14 => some (.bin .gt)
  | 15 => some (.bin .le)
  | 16 => some (.bin .lt)
  | 17 => some (.bin .eq)
  | 18 => some (.bin .ne)
  | 19 => some (.bin .lowLimit)
  | 20 => some (.bin .highLimit)
  | 21 => some (.bin .fdiv)
  | 22 => some (.bin .fmul)
  | 23 => some (.bin .atan2)
  | 24 => some (.un .sin)
  | 25 => some (.un .cos)
  | 26 => some (.un .tan)
  | 27 => some (.un .asin)
  | 28 => some (.un .acos)
  | 29 => some (.un .atan)
  | 32 => some .pcRel
  | 34 => some (.bin .assert)
  | 35 => some .group
  | _ => none

/-- One operator without operand bytes: pop the operands ("mangled patch" if there are not enough), push the
result. -/
def step (fm : FMath) (env : Env) (op : StackOp) (st : List Entry) : Outcome (List Entry) :=
  match op, st with
  | .bin op, r :: l :: st => do
    let e ← combine fm op l r
    push e st
  | .pcRel, r :: l :: st => do
    let e ← combinePcRel env l r
    push e st
  | .group, r :: l :: st => do
    let e ← combineGroup env l r
    push e st
  | .un op, e :: st => do
    let e ← combineUn fm op e
    push e st
  | _, _ => .fail

/-- The 32-bit little endian operand of an operator. -/
def word (a b c d : UInt8) : Nat := a.toNat + 256 * b.toNat + 65536 * c.toNat + 16777216 * d.toNat

/-- The loop of `calculateExpressionValue` (xlink/patch.c 378-631). The result is the stack, or `none` if the
function returned false. An operator whose operand bytes are missing reads past the end of the buffer: undefined
behaviour (`size -= 4` then wraps). -/
def run (fm : FMath) (env : Env) : Bytes → List Entry → Outcome (Option (List Entry))
  | [], st => .ok (some st)
  | op :: bs, st =>
    if op.toNat = 30 then
      match bs with
      | a :: b :: c :: d :: bs => do
        let st ← push ⟨none, toI32 (word a b c d)⟩ st
        run fm env bs st
      | _ => .ub
    else if op.toNat = 31 then
      match bs with
      | a :: b :: c :: d :: bs => do
        let e ← env.symbol (word a b c d)
        let st ← push e st
        run fm env bs st
      | _ => .ub
    else if op.toNat = 33 then
      match bs with
      | a :: b :: c :: d :: bs => do
        match ← env.bank (word a b c d) with
        | none => .ok none
        | some v =>
          let st ← push ⟨none, v⟩ st
          run fm env bs st
      | _ => .ub
    else
      match stackOp op.toNat with
      | none => .fail
      | some o => do
        let st ← step fm env o st
        run fm env bs st

/-- `calculateExpressionValue` (xlink/patch.c 373-645): `none` if it returns false, else the value. -/
def calculate (fm : FMath) (env : Env) (bs : Bytes) : Outcome (Option Entry) := do
  match ← run fm env bs [] with
  | none => .ok none
  | some [] => .fail
  | some [e] => .ok (some e)
  | some _ => .ok none

end Verif.Expr
