import Verif.Lexer.Number
/-!
# The table of words

Mnemonics, registers, directives, functions and operators are words. They are in a hash table with 1024 lists.
-/
namespace Verif.Lexer

/-- `toupper` in the C locale. -/
def upper (c : Char) : Char := if 'a' ≤ c ∧ c ≤ 'z' then Char.ofNat (c.toNat - 32) else c

/-- `isspace` in the C locale. -/
def isSpace (c : Char) : Bool := c = ' ' || (9 ≤ c.toNat && c.toNat ≤ 13)

/-- `SLexConstantsWord`, `SConstantWord` (xasm/motor/lexer_constants.h 24-27, xasm/motor/lexer_constants.c 44-48). The length is
that of the name. -/
structure Word where
  name : List Char
  token : Nat
  deriving Repr, DecidableEq

/-- `HASH` (xasm/motor/lexer_constants.c 33-40), on `uint32_t`. -/
def hashStep (hash key : Nat) : Nat :=
  let h := (hash * 2 + key) % W32
  (h ^^^ (h >>> 3)) &&& 1023

/-- `hashString` (xasm/motor/lexer_constants.c 69-79). -/
def hashString (s : List Char) : Nat := s.foldl (fun h c => hashStep h (upper c).toNat) 0

/-- The key of a character that is read: `char` is signed (xasm/motor/lexer_constants.c 101, 110, 139). -/
def charKey (c : Char) : Nat := if c.toNat < 128 then (upper c).toNat else W32 - 256 + c.toNat

/-- `g_wordsHashTable`, `g_maxWordLength` (xasm/motor/lexer_constants.c 52-53). -/
structure Table where
  slot : Nat → List Word
  maxLength : Nat

/-- `lex_ConstantsInit` (xasm/motor/lexer_constants.c 230-236). -/
def Table.empty : Table := ⟨fun _ => [], 0⟩

/-- `lex_ConstantsDefineWord` (xasm/motor/lexer_constants.c 199-218), without the assertions. -/
def Table.define (T : Table) (w : Word) : Table where
  slot i := if i = hashString w.name then w :: T.slot i else T.slot i
  maxLength := if w.name.length > T.maxLength then w.name.length else T.maxLength

/-- `lex_ConstantsDefineWords` (xasm/motor/lexer_constants.c 220-228). -/
def Table.defineAll (T : Table) (ws : List Word) : Table := ws.foldl Table.define T

/-- `lex_ConstantsUndefineWord` (xasm/motor/lexer_constants.c 177-189). It stops if there is no such word. -/
def Table.undefine (T : Table) (w : Word) : Outcome Table :=
  if w ∈ T.slot (hashString w.name) then
    .ok ⟨fun i => if i = hashString w.name then (T.slot i).erase w else T.slot i, T.maxLength⟩
  else .fail

/-- A word of the list at `hash` that is `text` (xasm/motor/lexer_constants.c 111-117, 142-148). -/
def Table.find (T : Table) (hash : Nat) (text : List Char) : Option Word :=
  (T.slot hash).find? fun w => w.name.length == text.length && text.map upper == w.name.map upper

/-- The loop of `lex_ConstantsMatchWord` (xasm/motor/lexer_constants.c 100-118); `n` is what may still be read. -/
def matchLoop (T : Table) : Nat → List Char → Nat → Option Word → Buffer → Outcome (List Char × Option Word × Buffer)
  | 0, text, _, found, b => .ok (text, found, b)
  | n + 1, text, hash, found, b =>
    (getChar b).bind fun (c, b) =>
      if c = nul then .ok (text, found, b)
      else if tokenSize ≤ text.length then .ub
      else
        let text := text ++ [c]
        if isSpace c then .ok (text, found, b)
        else
          let hash := hashStep hash (charKey c)
          matchLoop T n text hash ((T.find hash text).or found) b

/-- `lex_ConstantsMatchWord` (xasm/motor/lexer_constants.c 94-133). -/
def matchWord (T : Table) (b : Buffer) : Outcome (Option Word × Buffer) :=
  (matchLoop T T.maxLength [] 0 none b).bind fun (text, found, b) =>
    (unputString b (text.drop ((found.map (·.name.length)).getD 0))).bind fun b => .ok (found, b)

/-- `lex_ConstantsMatchTokenString` (xasm/motor/lexer_constants.c 135-151). -/
def matchTokenString (T : Table) (text : List Char) : Option Word :=
  T.find (text.foldl (fun h c => hashStep h (charKey c)) 0) text

end Verif.Lexer
