import Verif.Expr.AsmSpec
/-!
# Parsing integer expressions

The parser of integer expressions works on the tokens that the lexer yields. What it does with the operands – the calls
of `expr_Add` and so on – is a parameter, so that the same parser can be looked at with trees, with the expressions of
the assembler or with numbers. Not modelled: code in braces, `DEF`, `BANK` and `RAND`, functions of the processors, names
with several parts, member functions of strings, expressions in string literals, and the option that allows reserved
words as names.
-/
namespace Verif.Parse

open Verif.Expr (BinOp UnOp)

/-- Tokens (xasm/motor/tokens.h 24-98). `+`, `-` and `*` are the same token wherever they stand. -/
inductive Tok where
  | num (v : Int)
  | str (s : List Char)
  | sym (name : List Char)
  | op (o : BinOp)
  /-- `~` -/
  | cpl
  /-- `~!` -/
  | not
  | lp
  | rp
  | comma
  | at
  | fn (f : UnOp)
  | atan2
  | other (n : Nat)
  deriving DecidableEq

abbrev Toks := List Tok

/-- What the parser does with operands, the functions in xasm/motor/expression.c 57-420; nothing is a null pointer. -/
structure Alg (β : Type) where
  num : Int → β
  sym : List Char → Outcome (Option β)
  pc : Outcome (Option β)
  paren : β → Outcome (Option β)
  bin : BinOp → β → β → Outcome (Option β)
  un : UnOp → β → Outcome (Option β)

/-! ### String expressions -/

/-- The names of the member functions that yield a string: `upper`, `lower` (`some true`) and `slice` (`some false`), as
the lexer finds them behind a dot (xasm/motor/tokens.c 80-85). -/
def member : List Char → Option Bool
  | '.' :: w =>
    let w := w.map Char.toUpper
    if w = "UPPER".toList ∨ w = "LOWER".toList then some true else if w = "SLICE".toList then some false else none
  | _ => none

/-- `stringExpressionPri2`, `stringExpressionPri1` (xasm/motor/parse_string.c 251-374) and `parse_IsDot`
(xasm/motor/parse.c 107-120). Literals have no braces and no backslashes. A name that begins with a dot is looked at as a
member function even if there is no string before it. Behind a string, member functions are not modelled and neither is
`|name|`: these are failures here. `e` is the parser of string expressions. -/
def strPri (e : Toks → Outcome (Option (List Char) × Toks)) : Toks → Outcome (Option (List Char) × Toks)
  | .str s :: .sym ('.' :: w) :: rest => .fail
  | .str s :: rest => .ok (some s, rest)
  | .lp :: rest => (e rest).bind fun
    | (some s, .rp :: .sym ('.' :: w) :: rest) => .fail
    | (some s, .rp :: rest) => .ok (some s, rest)
    | _ => .ok (none, .lp :: rest)
  | .op .or :: _ => .fail
  | .sym w :: rest => match member w with
    | some true => .ub
    | some false => .fail
    | none => .ok (none, .sym w :: rest)
  | toks => .ok (none, toks)

/-- The loop of `parse_StringExpression` (xasm/motor/parse_string.c 382-396). `str_Concat` needs two strings. -/
def strLoop (e : Toks → Outcome (Option (List Char) × Toks)) : Nat → Option (List Char) → Toks → Outcome (Option (List Char) × Toks)
  | 0, _, _ => .fail
  | n + 1, s1, .op .add :: rest => (strPri e rest).bind fun
    | (none, rest) => .ok (none, rest)
    | (some s2, rest) => match s1 with
      | none => .ub
      | some s1 => strLoop e n (some (s1 ++ s2)) rest
  | _ + 1, s1, toks => .ok (s1, toks)

/-- `parse_StringExpression` (xasm/motor/parse_string.c 378-399). -/
def strExpr : Nat → Toks → Outcome (Option (List Char) × Toks)
  | 0, _ => .fail
  | n + 1, toks => (strPri (strExpr n) toks).bind fun (s, rest) => strLoop (strExpr n) (n + 1) s rest

/-! ### Integer expressions -/

/-- The value of a character constant (xasm/motor/parse_expression.c 127-131). -/
def charsValue (s : List Char) : Int := Verif.Expr.toI32 ((s.foldl (fun v c => (v * 256 + c.toNat % 256) % W32) 0 : Nat) : Int)

/-- The comparison operators (xasm/motor/parse_expression.c 270-293, 581-610). -/
def isCmp : BinOp → Bool
  | .eq | .ne | .ge | .gt | .le | .lt => true
  | _ => false

/-- `str_Compare` compared with 0 (xasm/motor/parse_expression.c 270-293); `str_Compare` is in `util`, its sign is that of
the lexicographic order. -/
def strCompare (o : BinOp) (s t : List Char) : Bool :=
  match o with
  | .eq => s == t
  | .ne => s != t
  | .ge => !(s < t)
  | .gt => t < s
  | .le => !(t < s)
  | .lt => s < t
  | _ => false

section

variable {β : Type} (alg : Alg β) (max : Nat)

/-- The result of a parser: nothing is a null pointer. Errors that are reported are failures. -/
abbrev Res (β : Type) := Outcome (Option β × Toks)

/-- Calls that return an expression. -/
def ret (r : Outcome (Option β)) (toks : Toks) : Res β := r.bind fun v => .ok (v, toks)

/-- `expressionPriority9` (xasm/motor/parse_expression.c 122-204). `e0` is `expressionPriority0`. -/
def prio9 (e0 : Toks → Res β) : Toks → Res β
  | .str s :: rest => if s.length ≤ max then .ok (some (alg.num (charsValue s)), rest) else .ok (none, .str s :: rest)
  | .num v :: rest => .ok (some (alg.num v), rest)
  | .lp :: rest => (e0 rest).bind fun
    | (some v, .rp :: rest') => ret (alg.paren v) rest'
    | _ => .ok (none, .lp :: rest)
  | .sym name :: rest => ret (alg.sym name) rest
  | .op .mul :: rest => ret alg.pc rest
  | .at :: rest => ret alg.pc rest
  | toks => .ok (none, toks)

/-- `stringCompare`, `expressionPriority8` (xasm/motor/parse_expression.c 41-58, 257-304). A string expression is tried first. -/
def prio8 (e0 : Toks → Res β) (toks : Toks) : Res β :=
  (strExpr (toks.length + 1) toks).bind fun
    | (some s, .op o :: rest) =>
      if isCmp o then (strExpr (rest.length + 1) rest).bind fun
        | (some t, rest) => .ok (some (alg.num (if strCompare o s t then 1 else 0)), rest)
        | _ => .fail
      else prio9 alg max e0 toks
    | _ => prio9 alg max e0 toks

/-- `handleArityOneFunction`, `handleArityTwoFunction`, `expressionPriority7` (xasm/motor/parse_expression.c 306-340,
411-442). -/
def prio7 (e0 : Toks → Res β) : Toks → Res β
  | .fn f :: .lp :: rest => (e0 rest).bind fun
    | (some v, .rp :: rest) => ret (alg.un f v) rest
    | (some _, _) => .fail
    | (none, rest) => .ok (none, rest)
  | .fn _ :: _ => .fail
  | .atan2 :: .lp :: rest => (e0 rest).bind fun
    | (some a, .comma :: rest) => (e0 rest).bind fun
      | (some b, .rp :: rest) => ret (alg.bin .atan2 a b) rest
      | (some _, _) => .fail
      | (none, rest) => .ok (none, rest)
    | (some _, _) => .fail
    | (none, rest) => .ok (none, rest)
  | .atan2 :: _ => .fail
  | toks => prio8 alg max e0 toks

/-- The calls of `expr_Add` and so on; a null pointer is a fatal error (xasm/motor/expression.c 118-127). -/
def combine (o : BinOp) : Option β → Option β → Outcome (Option β)
  | some a, some b => alg.bin o a b
  | _, _ => .fail

/-- `expr_BooleanNot`; a null pointer is a fatal error (xasm/motor/expression.c 90-102, 129-137). -/
def boolNot : Option β → Outcome (Option β)
  | some a => alg.un .not a
  | none => .fail

/-- `expressionPriority6` (xasm/motor/parse_expression.c 444-467). -/
def prio6 (e0 : Toks → Res β) : Nat → Toks → Res β
  | 0, _ => .fail
  | n + 1, .op .sub :: rest => (prio6 e0 n rest).bind fun (v, rest) => ret (combine alg .sub (some (alg.num 0)) v) rest
  | n + 1, .not :: rest => (prio6 e0 n rest).bind fun (v, rest) => ret (boolNot alg v) rest
  | n + 1, .cpl :: rest => (prio6 e0 n rest).bind fun (v, rest) => ret (combine alg .xor (some (alg.num (-1))) v) rest
  | n + 1, .op .add :: rest => prio6 e0 n rest
  | _ + 1, toks => prio7 alg max e0 toks

/-- The loops of `expressionPriority5`, `4`, `2` and `0` (xasm/motor/parse_expression.c 473-513, 520-540, 579-614,
634-649); `isOp` tells which operators the loop knows. -/
def chain (isOp : BinOp → Bool) (next : Toks → Res β) : Nat → Option β → Toks → Res β
  | 0, _, _ => .fail
  | n + 1, t1, .op o :: rest =>
    if isOp o then (next rest).bind fun (t2, rest) => (combine alg o t1 t2).bind fun t => chain isOp next n t rest
    else .ok (t1, .op o :: rest)
  | _ + 1, t1, toks => .ok (t1, toks)

/-- The loop of `expressionPriority3` (xasm/motor/parse_expression.c 547-572). Behind `+` there may be something else. -/
def chain3 (next : Toks → Res β) : Nat → Option β → Toks → Res β
  | 0, _, _ => .fail
  | n + 1, t1, .op .add :: rest => (next rest).bind fun
    | (some v, rest) => (combine alg .add t1 (some v)).bind fun t => chain3 next n t rest
    | (none, _) => .ok (t1, .op .add :: rest)
  | n + 1, t1, .op .sub :: rest => (next rest).bind fun (t2, rest) => (combine alg .sub t1 t2).bind fun t => chain3 next n t rest
  | _ + 1, t1, toks => .ok (t1, toks)

/-- The operators in `expressionPriority5` (xasm/motor/parse_expression.c 475-509). -/
def isMul : BinOp → Bool
  | .asl | .asr | .fmul | .mul | .fdiv | .div | .mod => true
  | _ => false

/-- The operators in `expressionPriority4` (xasm/motor/parse_expression.c 522-536). -/
def isBits : BinOp → Bool
  | .xor | .or | .and => true
  | _ => false

/-- The operators in `expressionPriority0` (xasm/motor/parse_expression.c 636-645). -/
def isBool : BinOp → Bool
  | .boolOr | .boolAnd => true
  | _ => false

/-- `expressionPriority5` (xasm/motor/parse_expression.c 469-514). -/
def prio5 (e0 : Toks → Res β) (n : Nat) (toks : Toks) : Res β :=
  (prio6 alg max e0 n toks).bind fun (t, rest) => chain alg isMul (prio6 alg max e0 n) n t rest

/-- `expressionPriority4` (xasm/motor/parse_expression.c 516-541). -/
def prio4 (e0 : Toks → Res β) (n : Nat) (toks : Toks) : Res β :=
  (prio5 alg max e0 n toks).bind fun (t, rest) => chain alg isBits (prio5 alg max e0 n) n t rest

/-- `expressionPriority3` (xasm/motor/parse_expression.c 543-573). -/
def prio3 (e0 : Toks → Res β) (n : Nat) (toks : Toks) : Res β :=
  (prio4 alg max e0 n toks).bind fun (t, rest) => chain3 alg (prio4 alg max e0 n) n t rest

/-- `expressionPriority2` (xasm/motor/parse_expression.c 575-615). -/
def prio2 (e0 : Toks → Res β) (n : Nat) (toks : Toks) : Res β :=
  (prio3 alg max e0 n toks).bind fun (t, rest) => chain alg isCmp (prio3 alg max e0 n) n t rest

/-- `expressionPriority1` (xasm/motor/parse_expression.c 617-628). -/
def prio1 (e0 : Toks → Res β) (n : Nat) : Nat → Toks → Res β
  | 0, _ => .fail
  | m + 1, .not :: rest => (prio1 e0 n m rest).bind fun (v, rest) => ret (boolNot alg v) rest
  | _ + 1, toks => prio2 alg max e0 n toks

/-- `expressionPriority0` (xasm/motor/parse_expression.c 630-650). -/
def prio0 (e0 : Toks → Res β) (n : Nat) (toks : Toks) : Res β :=
  (prio1 alg max e0 n n toks).bind fun (t, rest) => chain alg isBool (prio1 alg max e0 n n) n t rest

/-- `parse_Expression` (xasm/motor/parse_expression.c 654-657), with a bound for the depth and the length. -/
def expr : Nat → Toks → Res β
  | 0, _ => .fail
  | n + 1, toks => prio0 alg max (expr n) (n + 1) toks

/-- `parse_Expression`. -/
def parseExpr (toks : Toks) : Res β := expr alg max (toks.length + 1) toks

end

end Verif.Parse
