import Verif.Lexer.Number
/-!
# Skipping text up to a directive

Text that is not assembled is skipped line by line: only the first word behind the label of a line is looked at. Loops
take an argument that bounds the number of rounds. It is not part of the code: `.fail` says that it was too small.
Letters are those of ASCII.
-/
namespace Verif.Lexer

/-- The tokens that the skipping code tells apart; `other` is any other token (xasm/motor/tokens.h). -/
inductive Dir where
  | «if» | ifc | ifd | ifeq | ifge | ifgt | ifle | iflt | ifnc | ifnd
  | «else» | endc
  | «macro» | endm
  | rept | endr
  | newline
  | other (n : Nat)
  deriving Repr, DecidableEq

/-- The table of reserved words, indexed by the word as it is written (`lex_ConstantsMatchTokenString`,
xasm/motor/lexer_constants.c 135-151). -/
abbrev Words := List Char → Option Dir

/-- What the skipping code changes in the lexer's context: the buffer, the token and the line number
(xasm/motor/lexer_context.h 62-86). -/
structure Ctx where
  buffer : Buffer
  id : Dir
  line : Nat

/-- `isalpha` in the C locale. -/
def isAlpha (c : Char) : Bool := ('a' ≤ c && c ≤ 'z') || ('A' ≤ c && c ≤ 'Z')

/-- `isLineEnd` (xasm/motor/lexer.c 146-149). -/
def isLineEnd (c : Char) : Bool := c == '\n' || c == nul

/-- Reads characters as long as they satisfy `p`, gives the first one that does not. -/
def dropChars (p : Char → Bool) : Nat → Buffer → Outcome (Char × Buffer)
  | 0, _ => .fail
  | fuel + 1, b => (getChar b).bind fun (c, b) => if p c then dropChars p fuel b else .ok (c, b)

/-- `skipToNextLine` (xasm/motor/lexer.c 555-567). -/
def skipToNextLine (fuel : Nat) (b : Buffer) : Outcome (Bool × Buffer) :=
  (getChar b).bind fun (c, b) =>
    if c = nul then .ok (false, b)
    else if isLineEnd c then .ok (true, b)
    else (dropChars (fun c => !isLineEnd c) fuel b).bind fun (_, b) => .ok (true, b)

/-- `charIs` (xasm/motor/lexer.c 579-584). -/
def charIs (candidates : List Char) (b : Buffer) : Outcome (Bool × Buffer) :=
  (getChar b).bind fun (c, b) => (unput b c).bind fun b => .ok (c != nul && candidates.contains c, b)

/-- `skipLabel` (xasm/motor/lexer.c 592-599). `strchr` also finds the zero at the end of the candidates. -/
def skipLabel (fuel : Nat) (b : Buffer) : Outcome Buffer :=
  (dropChars (fun c => !([' ', '\t', '\n'].contains c) && c != nul) fuel b).bind fun (c, b) => unput b c

/-- The loop of `skipWhiteSpace`, entered with the character `c` (xasm/motor/lexer.c 614-623). -/
def skipWhiteSpaceFrom : Nat → Char → Buffer → Outcome (Bool × Buffer)
  | 0, _, _ => .fail
  | fuel + 1, c, b =>
    if c ≠ nul ∧ ['\t', ' '].contains c then
      (getChar b).bind fun (c, b) => if c = '*' then .ok (true, b) else skipWhiteSpaceFrom fuel c b
    else if c = ';' then .ok (true, b)
    else (unput b c).bind fun b => .ok (false, b)

/-- `skipWhiteSpace`: true if a comment follows (xasm/motor/lexer.c 611-624). -/
def skipWhiteSpace (fuel : Nat) (b : Buffer) : Outcome (Bool × Buffer) :=
  (getChar b).bind fun (c, b) => skipWhiteSpaceFrom fuel c b

/-- The word at the current position; `room` characters are left in the array that holds it (xasm/motor/lexer.c
710-716). -/
def readWord : Nat → List Char → Buffer → Outcome (List Char × Buffer)
  | room, text, b =>
    (getChar b).bind fun (c, b) =>
      match room with
      | 0 => .ub
      | room + 1 => if isAlpha c then readWord room (text ++ [c]) b else (unput b c).bind fun b => .ok (text, b)

/-- `lex_GetNextDirective` (xasm/motor/lexer.c 697-720): the first word of a line that is in the table, from the next
line on. The token keeps its value at the end of the text. -/
def nextDirective (words : Words) : Nat → Ctx → Outcome (Bool × Ctx)
  | 0, _ => .fail
  | fuel + 1, c =>
    (skipToNextLine fuel c.buffer).bind fun (more, b) =>
      if !more then .ok (false, { c with buffer := b })
      else
        let line := (c.line + 1) % W32
        (charIs [';', '*'] b).bind fun (comment, b) =>
          if comment then nextDirective words fuel { c with buffer := b, line := line }
          else
            (skipLabel fuel b).bind fun b =>
              (skipWhiteSpace fuel b).bind fun (comment, b) =>
                if comment then nextDirective words fuel { c with buffer := b, line := line }
                else
                  (readWord tokenSize [] b).bind fun (word, b) =>
                    match words word with
                    | some id => .ok (true, { buffer := b, id := id, line := line })
                    | none => nextDirective words fuel { c with buffer := b, line := line }

/-- The directive that ends what a directive begins (the cases of `skipToDirective`, xasm/motor/parse_block.c 55-82). -/
def closer : Dir → Option Dir
  | .if | .ifc | .ifd | .ifeq | .ifge | .ifgt | .ifle | .iflt | .ifnc | .ifnd => some .endc
  | .macro => some .endm
  | .rept => some .endr
  | _ => none

section

variable {σ : Type} (id : σ → Dir) (next : σ → Outcome (Bool × σ))

/-- `skipToDirective` and `skipPastDirective` (xasm/motor/parse_block.c 48-98). Inside a block the result of
`getNextDirective` is not looked at. `σ` is the state of the code that finds the next directive. -/
def skipTo : Nat → (Dir → Bool) → σ → Outcome (Bool × σ)
  | 0, _, _ => .fail
  | fuel + 1, stop, s =>
    if stop (id s) then .ok (true, s)
    else
      match closer (id s) with
      | some close =>
        (next s).bind fun (_, s) =>
          (skipTo fuel (· == close) s).bind fun (found, s) =>
            if found then (next s).bind fun (_, s) => skipTo fuel stop s
            else .ok (false, s)
      | none => (next s).bind fun (found, s) => if found then skipTo fuel stop s else .ok (false, s)

end

/-- `isFalseBranch` (xasm/motor/parse_block.c 100-103). -/
def isFalseBranch (d : Dir) : Bool := d == .else || d == .endc

/-- The common part of `parse_SkipPastTrueBranch`, `parse_SkipPastEndc` and `parse_SkipPastEndr`, without reading the
token that follows (xasm/motor/parse_block.c 107-138). -/
def skipPast (words : Words) (fuel : Nat) (stop : Dir → Bool) (c : Ctx) : Outcome (Bool × Ctx) :=
  (if c.id = .newline then (unput c.buffer '\n').bind fun b => .ok { c with buffer := b } else .ok c).bind fun c =>
    skipTo Ctx.id (nextDirective words fuel) fuel stop c

/-- `parse_SkipPastTrueBranch` (xasm/motor/parse_block.c 107-116). -/
def skipPastTrueBranch (words : Words) (fuel : Nat) (c : Ctx) : Outcome (Bool × Ctx) := skipPast words fuel isFalseBranch c

/-- `parse_SkipPastEndc` (xasm/motor/parse_block.c 118-127). -/
def skipPastEndc (words : Words) (fuel : Nat) (c : Ctx) : Outcome (Bool × Ctx) := skipPast words fuel (· == .endc) c

/-- `parse_SkipPastEndr` (xasm/motor/parse_block.c 129-138). -/
def skipPastEndr (words : Words) (fuel : Nat) (c : Ctx) : Outcome (Bool × Ctx) := skipPast words fuel (· == .endr) c

/-! ### Macro bodies, which are read without expanding arguments -/

/-- Moves the index as long as the characters satisfy `p`. -/
def dropAt (p : Char → Bool) (b : Buffer) : Nat → Nat → Outcome Nat
  | 0, _ => .fail
  | fuel + 1, i => if p (getUnexpandedChar b i) then dropAt p b fuel (i + 1) else .ok i

/-- `skipToNextLineIndexed` (xasm/motor/lexer.c 569-577). -/
def skipToNextLineAt (b : Buffer) (fuel i : Nat) : Outcome (Bool × Nat) :=
  (dropAt (fun c => !(isLineEnd c)) b fuel i).bind fun i => .ok (getUnexpandedChar b i != nul, i + 1)

/-- `charIsIndexed` (xasm/motor/lexer.c 586-590). -/
def charIsAt (candidates : List Char) (b : Buffer) (i : Nat) : Bool :=
  let c := getUnexpandedChar b i
  c != nul && candidates.contains c

/-- `skipLabelIndexed` (xasm/motor/lexer.c 601-609): the end of the line is not looked for. -/
def skipLabelAt (b : Buffer) (fuel i : Nat) : Outcome Nat :=
  dropAt (fun c => !([' ', '\t'].contains c) && c != nul) b fuel i

/-- The loop of `skipWhiteSpaceIndexed`, entered with the character `c` (xasm/motor/lexer.c 629-636). -/
def skipWhiteSpaceAtFrom (b : Buffer) : Nat → Char → Nat → Outcome (Bool × Nat)
  | 0, _, _ => .fail
  | fuel + 1, c, i =>
    if c ≠ nul ∧ ['\t', ' '].contains c then
      let c := getUnexpandedChar b (i + 1)
      if c = '*' then .ok (true, i + 1) else skipWhiteSpaceAtFrom b fuel c (i + 1)
    else .ok (c == ';' || c == nul, i)

/-- `skipWhiteSpaceIndexed` (xasm/motor/lexer.c 626-637). -/
def skipWhiteSpaceAt (b : Buffer) (fuel i : Nat) : Outcome (Bool × Nat) :=
  skipWhiteSpaceAtFrom b fuel (getUnexpandedChar b i) i

/-- The word at an index (xasm/motor/lexer.c 734-740). -/
def readWordAt (b : Buffer) : Nat → List Char → Nat → Outcome (List Char × Nat)
  | 0, _, _ => .ub
  | room + 1, text, i =>
    let c := getUnexpandedChar b i
    if isAlpha c then readWordAt b room (text ++ [c]) (i + 1) else .ok (text, i)

/-- `lex_GetNextDirectiveUnexpanded` (xasm/motor/lexer.c 722-744): the state is the token and the index. -/
def nextDirectiveAt (words : Words) (b : Buffer) : Nat → Dir × Nat → Outcome (Bool × (Dir × Nat))
  | 0, _ => .fail
  | fuel + 1, (id, i) =>
    (skipToNextLineAt b fuel i).bind fun (more, i) =>
      if !more then .ok (false, (id, i))
      else if charIsAt [';', '*'] b i then nextDirectiveAt words b fuel (id, i)
      else
        (skipLabelAt b fuel i).bind fun i =>
          (skipWhiteSpaceAt b fuel i).bind fun (comment, i) =>
            if comment then nextDirectiveAt words b fuel (id, i)
            else
              (readWordAt b tokenSize [] i).bind fun (word, i) =>
                match words word with
                | some id => .ok (true, (id, i))
                | none => nextDirectiveAt words b fuel (id, i)

/-- `parse_CopyMacroBlock` (xasm/motor/parse_block.c 152-165): the text up to the end of the word `ENDM`. Nothing if
there is no `ENDM`. The token `T_NONE` is `other 0`. -/
def copyMacroBlock (words : Words) (fuel : Nat) (c : Ctx) : Outcome (Option (List Char) × Ctx) :=
  (skipTo Prod.fst (nextDirectiveAt words c.buffer fuel) fuel (· == .endm) (.other 0, 0)).bind fun (found, (id, i)) =>
    if found then
      (copyUnexpanded c.buffer i).bind fun text =>
        (skipUnexpanded c.buffer i).bind fun (b, lines) =>
          .ok (some text, { buffer := b, id := id, line := (c.line + lines) % W32 })
    else .ok (none, { c with id := id })

end Verif.Lexer
