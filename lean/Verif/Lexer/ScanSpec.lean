import Verif.Lexer.Scan
import Verif.Lexer.NumberSpec
/-!
# What the tokens of a source text are

`Assembler.md` 45-65: labels begin in the first column, comments begin with `;` or with `*` in the first column or behind a
blank. The rest of a line is divided into tokens from left to right, and each token is as long as possible: the longest word
that the text begins with, or a name if it is longer. Upper and lower case letters mean the same in words.
-/
namespace Verif.Lexer

/-- The words in use, the last one defined first, the values of the string symbols, and the options. -/
structure Language where
  words : List Word
  strings : List Char → Option (List Char)
  opts : Options

/-- The word that is written as `s`. -/
def named (ws : List Word) (s : List Char) : Option Word := ws.find? fun w => w.name = s.map upper

/-- Words are written in upper case, in ASCII and without blanks. -/
def GoodWords (ws : List Word) : Prop :=
  ∀ w ∈ ws, w.name ≠ [] ∧ ∀ c ∈ w.name, c.toNat < 128 ∧ upper c = c ∧ isSpace c = false

/-- The longest word at the start of `V` is `w`. -/
def Longest (ws : List Word) (V : List Char) (w : Word) : Prop :=
  w.name.length ≤ V.length ∧ named ws (V.take w.name.length) = some w ∧
    ∀ j, w.name.length < j → j ≤ V.length → named ws (V.take j) = none

/-- `V` does not begin with a word. -/
def NoWord (ws : List Word) (V : List Char) : Prop := ∀ j, 0 < j → j ≤ V.length → named ws (V.take j) = none

/-- A name: a letter or `_`, then letters, digits and `_`; local names begin with a point. -/
def IsName : List Char → Prop
  | '.' :: c :: s => isStart c = true ∧ ∀ x ∈ s, isSymbol x = true
  | c :: s => isStart c = true ∧ ∀ x ∈ s, isSymbol x = true
  | [] => False

/-- `V` begins with the name `name`, and `rest` follows. The name of a string symbol with a `#` behind it stands for the value
of the symbol. There are `k` of those, and their values have `e` characters. -/
inductive NameAt (S : List Char → Option (List Char)) : Nat → Nat → List Char → List Char → List Char → Prop where
  | plain {name rest : List Char} : IsName name → name.length ≤ 256 →
      (∀ c, rest.head? = some c → isSymbol c = false ∧ c ≠ '$' ∧ (c = '#' → S name = none)) →
      NameAt S 0 0 (name ++ rest) name rest
  | expand {k e : Nat} {name value rest name' rest' : List Char} : IsName name → name.length ≤ 256 →
      S name = some value → nul ∉ value → '\\' ∉ value → NameAt S k e (value ++ rest) name' rest' →
      NameAt S (k + 1) (value.length + e) (name ++ '#' :: rest) name' rest'

/-- `V` does not begin with a name. -/
def NoName (V : List Char) : Prop :=
  (∀ c, V.head? = some c → isStart c = false) ∧ ∀ c V', V = '.' :: c :: V' → isStart c = false

/-- `V` does not begin with a number. -/
def NoNumber (V : List Char) : Prop :=
  ∀ c, V.head? = some c → c ≠ '$' ∧ c ≠ '%' ∧ c ≠ '`' ∧ ¬ ('0' ≤ c ∧ c ≤ '9')

/-- What may be inside a string that ends with the given character, or inside braces in a string. A backslash stands before
any character; inside braces there may be strings. -/
inductive Quoted : Option Char → List Char → Prop where
  | nil (m : Option Char) : Quoted m []
  | plain {q c : Char} {cs : List Char} : c ≠ q → c ≠ '\\' → c ≠ '{' → c ≠ '\n' → c ≠ nul → Quoted (some q) cs → Quoted (some q) (c :: cs)
  | escape {q c : Char} {cs : List Char} : c ≠ nul → Quoted (some q) cs → Quoted (some q) ('\\' :: c :: cs)
  | braces {q : Char} {inner cs : List Char} : Quoted none inner → Quoted (some q) cs → Quoted (some q) ('{' :: inner ++ '}' :: cs)
  | inside {c : Char} {cs : List Char} : c ≠ '}' → c ≠ '"' → c ≠ '\'' → c ≠ nul → Quoted none cs → Quoted none (c :: cs)
  | nested {q : Char} {inner cs : List Char} : q = '"' ∨ q = '\'' → Quoted (some q) inner → Quoted none cs →
      Quoted none (q :: inner ++ q :: cs)

/-- `V` begins with the token `t`, and `rest` follows. At the start of a line `column0` is true. Less than `n` string symbols are
replaced, and what is put in their place has `e` characters. -/
inductive TokenAt (L : Language) (n e : Nat) (column0 : Bool) : List Char → Token → List Char → Prop where
  | label {V name rest : List Char} {k : Nat} : column0 = true → NameAt L.strings k e V name rest → k < n →
      TokenAt L n e column0 V (.label name) rest
  | number {pre ds rest : List Char} {base value : Nat} : Prefix pre base →
      positional L.opts.bin0 L.opts.bin1 base ds = some value → (pre = [] → ds ≠ []) → ds.length ≤ 257 →
      Ends L.opts.bin0 L.opts.bin1 base rest → TokenAt L n e column0 (pre ++ ds ++ rest) (.number (value % 2 ^ 32)) rest
  | local {ds rest : List Char} {value : Nat} : positional L.opts.bin0 L.opts.bin1 10 ds = some value → ds ≠ [] → ds.length ≤ 255 →
      TokenAt L n e column0 (ds ++ '$' :: rest) (if column0 then .label (ds ++ ['$']) else .ident (ds ++ ['$'])) rest
  | word {V : List Char} {w : Word} : NoNumber V → Longest L.words V w → (column0 = true → NoName V) →
      (NoName V ∨ ∃ k name rest, NameAt L.strings k e V name rest ∧ k < n ∧ name.length ≤ w.name.length) →
      TokenAt L n e column0 V (.word w.token) (V.drop w.name.length)
  | name {V name rest : List Char} {k : Nat} : column0 = false → NoNumber V → NameAt L.strings k e V name rest → k < n →
      (∀ w, Longest L.words V w → w.name.length < name.length) → TokenAt L n e column0 V (.ident name) rest
  | string {q : Char} {cs rest : List Char} : q = '"' ∨ q = '\'' → Quoted (some q) cs → cs.length ≤ 256 →
      NoWord L.words (q :: cs ++ q :: rest) → TokenAt L n e column0 (q :: cs ++ q :: rest) (.string cs) rest
  | char {c : Char} {rest : List Char} : NoNumber (c :: rest) → NoWord L.words (c :: rest) → NoName (c :: rest) → c ≠ '"' → c ≠ '\'' →
      TokenAt L n e column0 (c :: rest) (.char c) rest

/-- Blanks inside a line. -/
def Blanks (g : List Char) : Prop := ∀ c ∈ g, isSpace c = true ∧ c ≠ '\n'

/-- `V` begins with a comment. -/
def CommentAt (free : Bool) (V : List Char) : Prop := V.head? = some ';' ∨ (V.head? = some '*' ∧ free = true)

/-- `V` begins with a line that has the tokens `ts`; `rest` are the next lines. -/
inductive LineAt (L : Language) (n : Nat) : Nat → Bool → List Char → List Token → List Char → Prop where
  /-- The end of the line, perhaps behind blanks and a comment. -/
  | newline {column0 : Bool} {g c rest : List Char} : Blanks g → g.length + c.length < n → '\n' ∉ c →
      c = [] ∨ CommentAt (column0 || !g.isEmpty) c → LineAt L n 0 column0 (g ++ c ++ '\n' :: rest) [.char '\n'] rest
  /-- A token, perhaps behind blanks. -/
  | token {column0 : Bool} {e e' : Nat} {g V rest rest' : List Char} {t : Token} {ts : List Token} : Blanks g → g.length < n →
      ¬ CommentAt (column0 || !g.isEmpty) V → (∀ c, V.head? = some c → isSpace c = false) →
      TokenAt L n e (column0 && g.isEmpty) V t rest → LineAt L n e' false rest ts rest' →
      LineAt L n (e + e') column0 (g ++ V) (t :: ts) rest'

end Verif.Lexer
