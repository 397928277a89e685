import Verif.Lexer.Buffer
/-!
# Numbers in the source text

The part of the lexer that reads numeric literals. The characters of a literal are stored in
`char string[MAX_TOKEN_LENGTH + 1]`, 257 bytes (xasm/motor/lexer_context.h 53-57, xasm/motor/xasm.h 36), without a check; the
257th is still inside. A `uint32_t` is a `Nat` below `2^32`. Characters above 127 are no digits, letters or spaces.
-/
namespace Verif.Lexer

/-- The size of the array that holds the text of a token. -/
abbrev tokenSize : Nat := 257

/-- Tokens. A floating point number is `high + low / denominator`; a character stands for itself. -/
inductive Token where
  | number (value : Nat)
  | float (high low denominator : Nat)
  | label (name : List Char)
  | ident (name : List Char)
  | string (text : List Char)
  | word (token : Nat)
  | char (c : Char)
  deriving Repr, DecidableEq

/-- The characters for binary and Game Boy literals (xasm/motor/options.c 67-76, 191-196). -/
structure Options where
  bin0 : Char
  bin1 : Char
  gb : List Char

/-- The default options. -/
def options0 : Options := ⟨'0', '1', ['0', '1', '2', '3']⟩

/-- `asciiToBinary` (xasm/motor/lexer.c 247-258). -/
def asciiToBinary (c : Char) : Option Nat :=
  if '0' ≤ c ∧ c ≤ '9' then some (c.toNat - '0'.toNat)
  else if 'a' ≤ c ∧ c ≤ 'f' then some (c.toNat - 'a'.toNat + 10)
  else if 'A' ≤ c ∧ c ≤ 'F' then some (c.toNat - 'A'.toNat + 10)
  else none

/-- `asciiToRadixBinary` (xasm/motor/lexer.c 260-270). -/
def asciiToRadixBinary (o : Options) (c : Char) (radix : Nat) : Option Nat :=
  let rest := match asciiToBinary c with
    | some n => if n < radix then some n else none
    | none => none
  if radix = 2 then
    if c = o.bin0 then some 0 else if c = o.bin1 then some 1 else rest
  else rest

/-- What a loop over digits leaves behind: the number, the power of the radix, the characters stored, the first character that is no digit and the
buffer. -/
structure Digits where
  value : Nat
  power : Nat
  text : List Char
  next : Char
  buffer : Buffer

/-- The loops over digits; `room` is what is left of the array (xasm/motor/lexer.c 279-282, 297-302). The first loop
does not compute the power. -/
def readDigits (o : Options) (radix : Nat) (value power : Nat) (text : List Char) (room : Nat) (b : Buffer) : Outcome Digits :=
  (getChar b).bind fun (c, b) =>
    match asciiToRadixBinary o c radix with
    | none => .ok ⟨value, power, text, c, b⟩
    | some d =>
      match room with
      | 0 => .ub
      | room + 1 => readDigits o radix ((value * radix + d) % W32) (power * radix % W32) (text ++ [c]) room b

/-- `acceptNumericAndLocalLabel` (xasm/motor/lexer.c 272-326). `imuldiv` comes from the empty submodule `util`. It is
taken to multiply without overflow and divide, rounding down; a division by zero is undefined. `verifyLocalLabel`
(174-182) looks for characters that are no decimal digits and finds none here. -/
def acceptNumeric (o : Options) (radix : Nat) (lineStart : Bool) (b : Buffer) : Outcome (Token × Buffer) :=
  (readDigits o radix 0 1 [] tokenSize b).bind fun hi =>
    if radix = 10 ∧ hi.next = '$' then
      if hi.text.length + 2 ≤ tokenSize then
        let name := hi.text ++ ['$']
        .ok (if lineStart then .label name else .ident name, hi.buffer)
      else .ub
    else
      (if hi.next = '.' then
        (readDigits o radix 0 1 [] (tokenSize - hi.text.length) hi.buffer).bind fun lo =>
          if lo.text = [] then (unput lo.buffer lo.next).bind fun b => .ok (⟨0, 1, [], '.', b⟩ : Digits)
          else .ok lo
      else .ok ⟨0, 1, [], hi.next, hi.buffer⟩).bind fun lo =>
        if lo.next = 'f' then .ok (.float hi.value lo.value lo.power, lo.buffer)
        else
          (unput lo.buffer lo.next).bind fun b =>
            if lo.text = [] then .ok (.number hi.value, b)
            else if lo.power = 0 then .ub
            else .ok (.number ((hi.value * 65536 + lo.value * 65536 / lo.power) % W32), b)

/-- `gameboyCharToInt` (xasm/motor/lexer.c 328-336). -/
def gameboyChar (o : Options) (c : Char) : Option Nat := o.gb.idxOf? c

/-- `acceptGameboyLiteral` (xasm/motor/lexer.c 338-352): the character that ends the literal is not put back. The first
argument is an upper bound for the number of characters that can be read, which a finite text has; it is not part of the
code. -/
def acceptGameboy (o : Options) : Nat → Nat → Buffer → Outcome (Token × Buffer)
  | 0, _, _ => .fail
  | fuel + 1, result, b =>
    (getChar b).bind fun (c, b) =>
      match gameboyChar o c with
      | none => .ok (.number result, b)
      | some v => acceptGameboy o fuel ((result * 2 + v % 2 * 256 + v / 2 % 2) % W32) b

/-- `acceptVariadic` (xasm/motor/lexer.c 354-372). -/
def acceptVariadic (o : Options) (lineStart : Bool) (fuel : Nat) (b : Buffer) : Outcome (Option Token × Buffer) :=
  let wrap (r : Outcome (Token × Buffer)) : Outcome (Option Token × Buffer) := r.bind fun (t, b) => .ok (some t, b)
  (getChar b).bind fun (c, b) =>
    if c = '$' then wrap (acceptNumeric o 16 lineStart b)
    else if c = '%' then wrap (acceptNumeric o 2 lineStart b)
    else if c = '`' then wrap (acceptGameboy o fuel 0 b)
    else
      (unput b c).bind fun b =>
        if '0' ≤ c ∧ c ≤ '9' then wrap (acceptNumeric o 10 lineStart b)
        else .ok (none, b)

end Verif.Lexer
