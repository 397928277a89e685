import Verif.Parse.Model
/-!
# Specification: how expressions are written
-/
namespace Verif.Parse

open Verif.Expr (BinOp UnOp)

/-- An expression as it is written, with its parentheses. -/
inductive Tree where
  | num (v : Int)
  /-- A character constant. -/
  | chars (s : List Char)
  | sym (name : List Char)
  /-- The program counter, `*` or `@`. -/
  | pc (star : Bool)
  | paren (t : Tree)
  | bin (o : BinOp) (l r : Tree)
  | neg (t : Tree)
  | plus (t : Tree)
  | cpl (t : Tree)
  /-- `~!` where an operand of `&&` and `||` begins. -/
  | not (t : Tree)
  /-- `~!` elsewhere. -/
  | notIn (t : Tree)
  | fn (f : UnOp) (t : Tree)
  | atan2 (a b : Tree)
  deriving DecidableEq

/-- The tokens of an expression. -/
def Tree.toks : Tree → Toks
  | num v => [.num v]
  | chars s => [.str s]
  | sym name => [.sym name]
  | pc true => [.op .mul]
  | pc false => [.at]
  | paren t => .lp :: (t.toks ++ [.rp])
  | bin o l r => l.toks ++ .op o :: r.toks
  | neg t => .op .sub :: t.toks
  | plus t => .op .add :: t.toks
  | cpl t => .cpl :: t.toks
  | not t => .not :: t.toks
  | notIn t => .not :: t.toks
  | fn f t => .fn f :: .lp :: (t.toks ++ [.rp])
  | atan2 a b => .atan2 :: .lp :: (a.toks ++ .comma :: (b.toks ++ [.rp]))

/-- How tightly an operator binds: the loops of the parser, from the outermost one. -/
def opLevel : BinOp → Option Nat
  | .boolOr | .boolAnd => some 0
  | .eq | .ne | .ge | .gt | .le | .lt => some 2
  | .add | .sub => some 3
  | .xor | .or | .and => some 4
  | .asl | .asr | .fmul | .mul | .fdiv | .div | .mod => some 5
  | _ => none

/-- How tightly an operator binds according to the documentation (doc/Expressions.md 27-39, doc/ReferenceOperators.md
7-19); `~!` is below all others. -/
def docLevel : BinOp → Option Nat
  | .boolOr | .boolAnd => some 1
  | .eq | .ne | .ge | .gt | .le | .lt => some 2
  | .add | .sub => some 3
  | .xor | .or | .and => some 4
  | .asl | .asr => some 5
  | .fmul | .mul | .fdiv | .div | .mod => some 6
  | _ => none

/-- How tightly an expression binds; primaries bind most tightly. -/
def Tree.level (lev : BinOp → Option Nat) (notLevel unary : Nat) : Tree → Nat
  | bin o _ _ => (lev o).getD 0
  | not _ => notLevel
  | neg _ | plus _ | cpl _ | notIn _ => unary
  | _ => unary + 1

/-- The parentheses are where the precedence needs them: operators associate to the left. -/
def Tree.Fits (lev : BinOp → Option Nat) (notLevel unary : Nat) : Tree → Prop
  | num _ | chars _ | sym _ | pc _ => True
  | paren t | fn _ t => t.Fits lev notLevel unary
  | bin o l r => (∃ k, lev o = some k ∧ k ≤ l.level lev notLevel unary ∧ k < r.level lev notLevel unary) ∧
      l.Fits lev notLevel unary ∧ r.Fits lev notLevel unary
  | neg t | plus t | cpl t | notIn t => unary ≤ t.level lev notLevel unary ∧ t.Fits lev notLevel unary
  | not t => notLevel ≤ t.level lev notLevel unary ∧ t.Fits lev notLevel unary
  | atan2 a b => a.Fits lev notLevel unary ∧ b.Fits lev notLevel unary

/-- The precedence of the code. -/
abbrev Tree.CodeLevel (t : Tree) : Nat := t.level opLevel 1 6

/-- The precedence of the documentation. -/
abbrev Tree.DocLevel (t : Tree) : Nat := t.level docLevel 0 7

/-- The first token is a `~!` that does not belong to an operand of `&&` or `||`. -/
def Tree.leads : Tree → Bool
  | notIn _ => true
  | bin _ l _ => l.leads
  | _ => false

/-- Where an operand of `&&`, `||` or `~!` or a whole expression begins, `~!` is of the first kind. -/
def Tree.Nots : Tree → Prop
  | num _ | chars _ | sym _ | pc _ => True
  | paren t => t.leads = false ∧ t.Nots
  | bin o l r => (opLevel o = some 0 → l.leads = false ∧ r.leads = false) ∧ l.Nots ∧ r.Nots
  | neg t | plus t | cpl t | notIn t => t.Nots
  | not t => t.leads = false ∧ t.Nots
  | fn _ t => t.leads = false ∧ t.Nots
  | atan2 a b => a.leads = false ∧ b.leads = false ∧ a.Nots ∧ b.Nots

/-- Character constants are short enough. -/
def Tree.Short (max : Nat) : Tree → Prop
  | num _ | sym _ | pc _ => True
  | chars s => s.length ≤ max
  | paren t | neg t | plus t | cpl t | not t | notIn t | fn _ t => t.Short max
  | bin _ l r | atan2 l r => l.Short max ∧ r.Short max

/-- The number that is written with characters: the first one is in the highest byte. -/
def charsNum : List Char → Nat
  | [] => 0
  | c :: cs => c.toNat % 256 * 256 ^ cs.length + charsNum cs

section

variable {β : Type} (alg : Alg β)

/-- A call that yields an expression. -/
def done : Outcome (Option β) → Option β
  | .ok v => v
  | _ => none

/-- What the calls for an expression yield, from the inside to the outside. -/
def Tree.value : Tree → Option β
  | num v => some (alg.num v)
  | chars s => some (alg.num (Verif.Expr.toI32 (charsNum s : Nat)))
  | sym name => done (alg.sym name)
  | pc _ => done alg.pc
  | paren t => t.value.bind fun v => done (alg.paren v)
  | bin o l r => l.value.bind fun a => r.value.bind fun b => done (alg.bin o a b)
  | neg t => t.value.bind fun v => done (alg.bin .sub (alg.num 0) v)
  | plus t => t.value
  | cpl t => t.value.bind fun v => done (alg.bin .xor (alg.num (-1)) v)
  | not t | notIn t => t.value.bind fun v => done (alg.un .not v)
  | fn f t => t.value.bind fun v => done (alg.un f v)
  | atan2 a b => a.value.bind fun a => b.value.bind fun b => done (alg.bin .atan2 a b)

end

/-- No string is compared where the tokens begin: there is no string expression, or no comparison follows it. -/
def QuietAt (toks : Toks) : Prop :=
  ∃ s rest, strExpr (toks.length + 1) toks = .ok (s, rest) ∧ (s = none ∨ ∀ o, rest.head? = some (.op o) → isCmp o = false)

/-- No string is compared where the operands of the expression begin; `rest` is behind the expression. -/
def Tree.Quiet : Tree → Toks → Prop
  | num v, rest => QuietAt (.num v :: rest)
  | chars s, rest => QuietAt (.str s :: rest)
  | sym name, rest => QuietAt (.sym name :: rest)
  | pc true, rest => QuietAt (.op .mul :: rest)
  | pc false, rest => QuietAt (.at :: rest)
  | paren t, rest => QuietAt (.lp :: (t.toks ++ .rp :: rest)) ∧ t.Quiet (.rp :: rest)
  | bin o l r, rest => l.Quiet (.op o :: (r.toks ++ rest)) ∧ r.Quiet rest
  | neg t, rest | plus t, rest | cpl t, rest | not t, rest | notIn t, rest => t.Quiet rest
  | fn _ t, rest => t.Quiet (.rp :: rest)
  | atan2 a b, rest => a.Quiet (.comma :: (b.toks ++ .rp :: rest)) ∧ b.Quiet (.rp :: rest)

/-- The expression ends before these tokens. -/
def Stops (k : Nat) (toks : Toks) : Prop := ∀ o, toks.head? = some (.op o) → ∀ j, opLevel o = some j → j < k

/-- The expression ends before these tokens, or before a `+` that has no operand: with `+` the parts of an address may be
joined that are not expressions. -/
def Halts (k : Nat) (toks : Toks) : Prop := Stops k toks ∨ ∃ n rest, toks = .op .add :: .other n :: rest

/-- There are no character constants, and no labels that are called like the member functions of strings. -/
def Tree.Plain : Tree → Prop
  | num _ | pc _ => True
  | chars _ => False
  | sym name => member name = none
  | paren t | neg t | plus t | cpl t | not t | notIn t | fn _ t => t.Plain
  | bin _ l r | atan2 l r => l.Plain ∧ r.Plain

/-- There are no comparisons and no `+` in front of operands, and no labels that are called like the member functions of
strings. -/
def Tree.Calm : Tree → Prop
  | num _ | pc _ | chars _ => True
  | sym name => member name = none
  | plus _ => False
  | paren t | neg t | cpl t | not t | notIn t | fn _ t => t.Calm
  | bin o l r => isCmp o = false ∧ l.Calm ∧ r.Calm
  | atan2 l r => l.Calm ∧ r.Calm

/-- When a comparison of strings is true. -/
def StrHolds (o : BinOp) (s t : List Char) : Prop :=
  match o with
  | .eq => s = t
  | .ne => s ≠ t
  | .lt => s < t
  | .gt => t < s
  | .le => s < t ∨ s = t
  | .ge => t < s ∨ s = t
  | _ => False

/-- There are no strings. -/
def StringFree (toks : Toks) : Prop := ∀ s, Tok.str s ∉ toks

/-- The next token is not a local label. -/
def NoDot (toks : Toks) : Prop := ∀ w, toks.head? ≠ some (.sym ('.' :: w))

end Verif.Parse
