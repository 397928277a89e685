import Verif.CInt
/-!
# The character buffer of the lexer

A buffer holds a text, the position in it, and a stack of characters that come before the rest of the text. The stack
receives characters that were read too far and the values of macro arguments. A C string is a `List Char` in which
every character stands for one byte; the byte zero is `nul`. The list of stacked characters begins with the top.
-/
namespace Verif.Lexer

/-- The character 0, which stands for the end of the input. -/
abbrev nul : Char := Char.ofNat 0

/-- `MAX_STRING_SYMBOL_SIZE`, the size of the stack (xasm/motor/xasm.h 32, xasm/motor/charstack.h 27-30). -/
abbrev stackSize : Nat := 256

/-- xasm/motor/lexer_buffer.h 27-34, without the name. A missing argument is `none` (a `NULL` in the vector). -/
structure Buffer where
  stack : List Char
  text : List Char
  index : Nat
  args : List (Option (List Char))
  unique : Option (List Char)
  deriving Repr, DecidableEq

/-- `lexbuf_Init` (xasm/motor/lexer_buffer.c 97-110). The unique value is made by the caller here. -/
def init (text : List Char) (args : List (Option (List Char))) (unique : Option (List Char)) : Buffer :=
  ⟨[], text, 0, args, unique⟩

/-- The unique value of the `n`-th buffer, `_n` (xasm/motor/lexer_buffer.c 28-33). -/
def uniqueValue (n : Nat) : List Char := '_' :: (toString (n % 4294967296)).toList

/-- `chstk_Push` and `lexbuf_UnputChar` (xasm/motor/charstack.h 43-46, xasm/motor/lexer_buffer.c 195-198): the size is
not checked, so that the 257th character is stored outside the array. -/
def unput (b : Buffer) (c : Char) : Outcome Buffer :=
  if b.stack.length < stackSize then .ok { b with stack := c :: b.stack } else .ub

/-- `chstk_PushString` and `lex_UnputStringLength`: from the last character to the first (xasm/motor/charstack.c
49-54, xasm/motor/lexer.c 671-678). -/
def unputString (b : Buffer) : List Char → Outcome Buffer
  | [] => .ok b
  | c :: cs => (unputString b cs).bind fun b => unput b c

/-- `nextChar`: the top of the stack, or the next character of the text. A zero on the stack is skipped, and the text
comes next even if there are more characters on the stack (xasm/motor/lexer_buffer.c 35-47, xasm/motor/charstack.h
56-62). -/
def nextChar (b : Buffer) : Char × Buffer :=
  let fromText (b : Buffer) : Char × Buffer :=
    match b.text[b.index]? with
    | some c => (c, { b with index := b.index + 1 })
    | none => (nul, b)
  match b.stack with
  | c :: stack => if c ≠ nul then (c, { b with stack }) else fromText { b with stack }
  | [] => fromText b

/-- `peekChar` (xasm/motor/lexer_buffer.c 49-61, xasm/motor/charstack.h 64-75). -/
def peekChar (b : Buffer) : Char :=
  match b.stack with
  | c :: _ => if c ≠ nul then c else (b.text[b.index]?).getD nul
  | [] => (b.text[b.index]?).getD nul

/-- The argument for the digit `d`: nothing if there is no such argument (xasm/motor/lexer_buffer.c 74-81). -/
def argument (b : Buffer) (d : Char) : List Char := ((b.args[d.toNat - 48]?).bind id).getD []

/-- `lexbuf_GetChar` (xasm/motor/lexer_buffer.c 65-95): `\0` to `\9` put an argument on the stack, `\@` the unique
value, and then the next character is returned as it is. -/
def getChar (b : Buffer) : Outcome (Char × Buffer) :=
  let (c, b) := nextChar b
  if c = nul then .ok (nul, b)
  else if c = '\\' then
    let next := peekChar b
    if '0' ≤ next ∧ next ≤ '9' then
      let (d, b) := nextChar b
      (unputString b (argument b d)).bind fun b => .ok (nextChar b)
    else if next = '@' then
      let (_, b) := nextChar b
      (unputString b (b.unique.getD [])).bind fun b => .ok (nextChar b)
    else .ok (c, b)
  else .ok (c, b)

/-- `lexbuf_ShiftArguments`: `SHIFT` removes arguments behind argument 0 (xasm/motor/lexer_buffer.c 119-124). -/
def shiftArguments (b : Buffer) : Nat → Buffer
  | 0 => b
  | n + 1 => if 2 ≤ b.args.length then shiftArguments { b with args := b.args.eraseIdx 1 } n else b

/-- `lexbuf_GetUnexpandedChar` (xasm/motor/lexer_buffer.c 200-213). -/
def getUnexpandedChar (b : Buffer) (i : Nat) : Char :=
  if i < b.stack.length then (b.stack[i]?).getD nul
  else (b.text[i - b.stack.length + b.index]?).getD nul

/-- `lexbuf_CopyUnexpandedContent` (xasm/motor/lexer_buffer.c 185-193). Copying more than there is, or fewer characters
than the stack holds (`count` wraps around), runs outside the text. -/
def copyUnexpanded (b : Buffer) (count : Nat) : Outcome (List Char) :=
  if count < b.stack.length then .ub
  else if b.text.length < b.index + (count - b.stack.length) then .ub
  else .ok (b.stack ++ (b.text.drop b.index).take (count - b.stack.length))

/-- The characters popped from the stack up to and including the first zero, and what is left of it. -/
def popAll : List Char → List Char × List Char
  | [] => ([], [])
  | c :: cs => if c = nul then ([], cs) else let (p, r) := popAll cs; (c :: p, r)

/-- `lexbuf_SkipUnexpandedChars`: the new buffer and the number of lines skipped (xasm/motor/lexer_buffer.c 158-178).
If the stack holds more than `count` characters, `count` wraps around and the loop runs outside the text. -/
def skipUnexpanded (b : Buffer) (count : Nat) : Outcome (Buffer × Nat) :=
  let (popped, stack) := popAll b.stack
  if count < popped.length then .ub
  else
    let rest := count - popped.length
    if b.text.length < b.index + rest then .ub
    else
      let skipped := popped ++ (b.text.drop b.index).take rest
      .ok ({ b with stack, index := b.index + rest }, skipped.count '\n')

/-- A number of characters read one after the other. -/
def getChars (b : Buffer) : Nat → Outcome (List Char × Buffer)
  | 0 => .ok ([], b)
  | n + 1 => (getChar b).bind fun (c, b) => (getChars b n).bind fun (cs, b) => .ok (c :: cs, b)

end Verif.Lexer
