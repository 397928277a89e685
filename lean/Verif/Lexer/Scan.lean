import Verif.Lexer.Words
/-!
# The tokens of the source text

`lex_GetNextToken` in its normal mode, for one buffer. What it does at the end of a buffer is in `Verif/Flow`.

Where a loop reads characters until one of a kind, an upper bound for the number of characters comes first; it is not part of
the code. The texts of tokens are in an array without a check. An error that was reported is `fail`.
-/
namespace Verif.Lexer

/-- What the lexer asks others for: the words, the values of string symbols by name, and the options. -/
structure Env where
  words : Table
  strings : List Char → Option (List Char)
  opts : Options

/-- `isStartSymbolCharacter`, `isSymbolCharacter` (xasm/motor/lexer.c 164-172). -/
def isStart (c : Char) : Bool := c.isAlpha || c = '_'
def isSymbol (c : Char) : Bool := isStart c || c.isDigit

/-- `isLineEnd` (xasm/motor/lexer.c 146-149). -/
def atLineEnd (c : Char) : Bool := c = '\n' || c = nul

/-- `skipUnimportantWhitespace` (xasm/motor/lexer.c 121-131): whether there was any. -/
def skipBlanks : Nat → Bool → Buffer → Outcome (Bool × Buffer)
  | 0, _, _ => .ub
  | n + 1, skipped, b =>
    (getChar b).bind fun (c, b) =>
      if c ≠ '\n' ∧ c ≠ nul ∧ isSpace c = true then skipBlanks n true b
      else if c ≠ nul then (unput b c).bind fun b => .ok (skipped, b)
      else .ok (skipped, b)

/-- The loop of `consumeComment` (xasm/motor/lexer.c 156-157): the character at the end of the line. -/
def skipComment : Nat → Buffer → Outcome (Char × Buffer)
  | 0, _ => .ub
  | n + 1, b => (getChar b).bind fun (c, b) => if atLineEnd c then .ok (c, b) else skipComment n b

/-- `consumeComment` (xasm/motor/lexer.c 151-162). -/
def consumeComment (n : Nat) (wasSpace lineStart : Bool) (b : Buffer) : Outcome (Bool × Buffer) :=
  (getChar b).bind fun (c, b) =>
    if c = ';' ∨ (c = '*' ∧ (wasSpace = true ∨ lineStart = true)) then
      (skipComment n b).bind fun (c, b) => (unput b c).bind fun b => .ok (false, b)
    else (unput b c).bind fun b => .ok (wasSpace, b)

/-- The loop of `acceptSymbolTail` (xasm/motor/lexer.c 187-189); `room` is what is left of the array. -/
def symbolChars : Nat → List Char → Buffer → Outcome (List Char × Char × Buffer)
  | room, text, b =>
    (getChar b).bind fun (c, b) =>
      if isSymbol c then
        match room with
        | 0 => .ub
        | room + 1 => symbolChars room (text ++ [c]) b
      else .ok (text, c, b)

/-- `acceptSymbolTail` (xasm/motor/lexer.c 184-207) and `verifyLocalLabel` (174-182). The text begins with a letter, or with a
point and a letter, so that it cannot be a local label of digits, and is never only a point. -/
def symbolTail (text : List Char) (b : Buffer) : Outcome (List Char × Buffer) :=
  (symbolChars (tokenSize - text.length) text b).bind fun (text, c, b) =>
    if c = '$' then .fail
    else (unput b c).bind fun b => if text.length < tokenSize then .ok (text, b) else .ub

/-- `acceptLabel` (xasm/motor/lexer.c 209-245): the name. String symbols may contain string symbols; the number of
replacements comes first. -/
def acceptLabel (E : Env) : Nat → Buffer → Outcome (Option (List Char) × Buffer)
  | 0, _ => .ub
  | n + 1, b =>
    (getChar b).bind fun (c, b) =>
      (if c = '.' then (getChar b).bind fun (c, b) => .ok (['.'], c, b) else .ok ([], c, b)).bind fun (text, c, b) =>
        if isStart c then
          (symbolTail (text ++ [c]) b).bind fun (text, b) =>
            (getChar b).bind fun (c, b) =>
              match if c = '#' then E.strings text else none with
              | some value => (unputString b value).bind fun b => acceptLabel E n b
              | none => (unput b c).bind fun b => .ok (some text, b)
        else (unputString b (text ++ [c])).bind fun b => .ok (none, b)

/-- `acceptQuotedStringUntil` (xasm/motor/lexer.c 68-99) with a terminator, and `acceptStringInterpolation` (44-66) without one:
whether it succeeds, and the text. Every step stores a character, so that there are not more of them than characters. At the
end of the text the loop goes on, storing zeros. -/
def quoted : Nat → Option Char → List Char → Buffer → Outcome (Bool × List Char × Buffer)
  | 0, _, _, _ => .ub
  | n + 1, mode, text, b =>
    (getChar b).bind fun (c, b) =>
      if tokenSize ≤ text.length then .ub
      else
        let text := text ++ [c]
        if c = mode.getD '}' then .ok (true, text, b)
        else match mode with
          | some _ =>
            if c = '\\' then
              (getChar b).bind fun (c, b) =>
                if c = nul then .ok (false, text, b)
                else if tokenSize ≤ text.length then .ub
                else quoted n mode (text ++ [c]) b
            else if c = '{' then
              (quoted n none text b).bind fun (done, text, b) => if done then quoted n mode text b else .ok (false, text, b)
            else if c = '\n' then .fail
            else quoted n mode text b
          | none =>
            if c = '\'' ∨ c = '"' then
              (quoted n (some c) text b).bind fun (done, text, b) => if done then quoted n mode text b else .ok (false, text, b)
            else quoted n mode text b

/-- `acceptString` (xasm/motor/lexer.c 101-119). -/
def acceptString (b : Buffer) : Outcome (Option (List Char) × Buffer) :=
  (getChar b).bind fun (c, b) =>
    if c = '"' ∨ c = '\'' then
      (quoted (tokenSize + 1) (some c) [] b).bind fun (done, text, b) =>
        .ok (if done then some text.dropLast else none, b)
    else (unput b c).bind fun b => .ok (none, b)

/-- The end of `acceptNext` (xasm/motor/lexer.c 389-412), `acceptChar` (133-144). Nothing at the end of the buffer. A bookmark
is the state of the buffer. -/
def acceptToken (E : Env) (n : Nat) (lineStart : Bool) (b : Buffer) : Outcome (Option Token × Buffer) :=
  (acceptVariadic E.opts lineStart n b).bind fun
    | (some t, b) => .ok (some t, b)
    | (none, b) =>
      (matchWord E.words b).bind fun (word, afterWord) =>
        (acceptLabel E n b).bind fun (name, b) =>
          let wordLength := (word.map (·.name.length)).getD 0
          let nameLength := (name.map (·.length)).getD 0
          if nameLength ≠ 0 ∧ wordLength < nameLength then .ok (name.map .ident, b)
          else if wordLength ≠ 0 then .ok (word.map fun w => .word w.token, afterWord)
          else
            (acceptString b).bind fun
              | (some s, b) => .ok (some (.string s), b)
              | (none, b) => (getChar b).bind fun (c, b) => .ok (if c = nul then none else some (.char c), b)

/-- `acceptNext` (xasm/motor/lexer.c 374-413). -/
def acceptNext (E : Env) (n : Nat) (lineStart : Bool) (b : Buffer) : Outcome (Option Token × Buffer) :=
  (if lineStart then (consumeComment n false true b).bind fun (_, b) => acceptLabel E n b else .ok (none, b)).bind fun
    | (some name, b) => .ok (some (.label name), b)
    | (none, b) =>
      (skipBlanks n false b).bind fun (wasSpace, b) =>
        let lineStart := lineStart && !wasSpace
        (consumeComment n wasSpace lineStart b).bind fun (wasSpace, b) =>
          acceptToken E n (lineStart && !wasSpace) b

/-- The tokens until the end of the line, and whether there is an end: `lex_GetNextToken` again and again
(xasm/motor/lexer.c 426-444). A character `\n` says that a line begins (137-139). -/
def scanLine (E : Env) (n : Nat) : Nat → Bool → Buffer → Outcome (List Token × Buffer)
  | 0, _, _ => .ub
  | k + 1, lineStart, b =>
    (acceptNext E n lineStart b).bind fun
      | (none, b) => .ok ([], b)
      | (some t, b) =>
        if t = .char '\n' then .ok ([t], b)
        else (scanLine E n k false b).bind fun (ts, b) => .ok (t :: ts, b)

end Verif.Lexer
