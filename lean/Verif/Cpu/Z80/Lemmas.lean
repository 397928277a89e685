import Verif.Cpu.Z80.Table
import Verif.Cpu.Z80.Decode
import Verif.Cpu.X65.Values

/-!
# How the operands of the Z80 and the Game Boy are read
-/

namespace Verif.Cpu.Z80

open Verif.Parse (Tok Toks Tree)
open Verif.Expr (Src FMath ASym Den Rng BinOp I32 u32 toI32 meaning wrap value_bin)
open Verif.Cpu.X65 (ok_bind EndOfLine bytesAt le)

/-! ### Specification -/

def Ix.rg : Ix → Rg
  | .ix => .ix
  | .iy => .iy

/-- An expression in parentheses. -/
def paren : Tree → Bool
  | .paren _ => true
  | _ => false

/-- Parentheses, with nothing but `+` before them. -/
def enclosed : Tree → Bool
  | .paren _ => true
  | .plus t => enclosed t
  | _ => false

/-- The operands of a line: a register, an index register in parentheses or in brackets, an expression, an expression in
brackets, and the stack pointer with a displacement. A displacement has its sign. -/
inductive Opnd where
  | reg (x : Rg)
  | idx (x : Ix) (square : Bool) (d : Option Tree)
  | expr (t : Tree)
  | ind (t : Tree)
  | spDisp (t : Tree)

def Opnd.toks : Opnd → Toks
  | .reg x => [.other x.num]
  | .idx x true none => [.other 91, .other x.rg.num, .other 93]
  | .idx x false none => [.lp, .other x.rg.num, .rp]
  | .idx x true (some t) => .other 91 :: .other x.rg.num :: (t.toks ++ [.other 93])
  | .idx x false (some t) => .lp :: .other x.rg.num :: (t.toks ++ [.rp])
  | .expr t => t.toks
  | .ind t => .other 91 :: (t.toks ++ [.other 93])
  | .spDisp t => .other Rg.sp.num :: t.toks

/-- Operands with commas between them. -/
def line : List Opnd → Toks
  | [] => []
  | [x] => x.toks
  | x :: y :: xs => x.toks ++ .comma :: line (y :: xs)

/-- The expression has a sign in front. -/
def Sign (t : Tree) : Prop := t.toks.head? = some (.op .add) ∨ t.toks.head? = some (.op .sub)

/-- The expressions have the necessary parentheses. Displacements have signs. A `+` does not stand alone before
parentheses. -/
def Opnd.Good : Opnd → Prop
  | .reg _ | .idx _ _ none => True
  | .idx _ _ (some t) | .spDisp t => Readable 1 t ∧ Sign t
  | .expr t => Readable 2 t ∧ (enclosed t = true → paren t = true)
  | .ind t => Readable 2 t

/-- What the operand means; `e` is the name of its expression. -/
def Opnd.opv (e : E) : Opnd → Opv
  | .reg x => .reg x
  | .idx x _ d => .idx x (d.map fun _ => e)
  | .expr t => if paren t then .ind e else .imm e
  | .ind _ => .ind e
  | .spDisp _ => .spDisp e

def opvs : List Opnd → List Opv
  | [] => []
  | [x] => [x.opv .a]
  | x :: xs => x.opv .a :: xs.map (Opnd.opv .b)

/-- The expression of the operand. -/
def Opnd.tree : Opnd → Option Tree
  | .reg _ => none
  | .idx _ _ d => d
  | .expr t | .ind t | .spDisp t => some t

/-- Is the operand a displacement? -/
def Opnd.disp : Opnd → Bool
  | .idx _ _ _ | .spDisp _ => true
  | _ => false

/-- The expression within the limits that it has in any instruction. -/
def Opnd.src (C : Ctx) (x : Opnd) : Option Src := x.tree.map fun t => if x.disp then signed (C.src t) else C.src t

/-- The value of the expression of the operand. A displacement is a signed byte. -/
def Opnd.value (C : Ctx) (fm : FMath) (now : Nat → ASym) (ρ : Den) (x : Opnd) : Option Int :=
  x.tree.bind fun t => ((C.src t).value fm wrap now ρ).bind fun v =>
    if x.disp && !(decide (-128 ≤ v) && decide (v ≤ 127)) then none else some v

/-- The values of the expressions of a line. -/
def E.val (va vb : Option Int) : E → Option Int
  | .a => va
  | .b => vb
  | .zero => some 0
  | .one => some 1
  | .next e => (e.val va vb).bind fun v => if -128 ≤ v + 1 ∧ v + 1 ≤ 127 then some (v + 1) else none

def first (C : Ctx) (xs : List Opnd) : Option Src := xs.head?.bind (·.src C)
def second (C : Ctx) (xs : List Opnd) : Option Src := (xs.drop 1).head?.bind (·.src C)

/-- What is known when the line is read. -/
def known (C : Ctx) (xs : List Opnd) : Facts := facts C.known (first C xs) (second C xs)

/-- The token of a mnemonic. `SET` is also a directive. -/
def Mn.tok (m : Mn) : Tok := .other (if m = .set then symSet else m.num)

end Verif.Cpu.Z80
