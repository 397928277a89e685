import Verif.Lexer.ScanProps
/-!
# The tokens that the parser sees

The parser asks for tokens, and the name of a string symbol is replaced by the contents of the symbol, which are then scanned
(`Symbols.md`, string symbols).
-/
namespace Verif.Lexer

/-- The contents that are put in place of a token (xasm/motor/parse.c 139-149). -/
def contents (S : List Char → Option (List Char)) : Token → Option (List Char)
  | .ident name => S name
  | _ => none

/-- The tokens of a line as `parse_GetToken` (xasm/motor/parse.c 133-153) yields them, while string symbols are replaced. The number of
tokens and replacements comes first. -/
def parseLine (E : Env) (n : Nat) : Nat → Bool → Buffer → Outcome (List Token × Buffer)
  | 0, _, _ => .ub
  | k + 1, lineStart, b =>
    (acceptNext E n lineStart b).bind fun
      | (none, b) => .ok ([], b)
      | (some t, b) =>
        match contents E.strings t with
        | some value => (unputString b value).bind fun b => parseLine E n k false b
        | none =>
          if t = .char '\n' then .ok ([t], b)
          else (parseLine E n k false b).bind fun (ts, b) => .ok (t :: ts, b)

/-- `V` begins with a line from which the parser gets the tokens `ts`; `rest` are the next lines. With `m` replacements,
what is put into the text has `e` characters. -/
inductive ParsedAt (L : Language) (n : Nat) : Nat → Nat → Bool → List Char → List Token → List Char → Prop where
  | newline {column0 : Bool} {g c rest : List Char} : Blanks g → g.length + c.length < n → '\n' ∉ c →
      c = [] ∨ CommentAt (column0 || !g.isEmpty) c → ParsedAt L n 0 0 column0 (g ++ c ++ '\n' :: rest) [.char '\n'] rest
  | token {column0 : Bool} {m e e' : Nat} {g V rest rest' : List Char} {t : Token} {ts : List Token} : Blanks g → g.length < n →
      ¬ CommentAt (column0 || !g.isEmpty) V → (∀ c, V.head? = some c → isSpace c = false) →
      TokenAt L n e (column0 && g.isEmpty) V t rest → (∀ name, t = .ident name → L.strings name = none) → ParsedAt L n m e' false rest ts rest' →
      ParsedAt L n m (e + e') column0 (g ++ V) (t :: ts) rest'
  /-- The contents of a string symbol take the place of its name. -/
  | expand {column0 : Bool} {m e e' : Nat} {g V rest rest' name value : List Char} {ts : List Token} : Blanks g → g.length < n →
      ¬ CommentAt (column0 || !g.isEmpty) V → (∀ c, V.head? = some c → isSpace c = false) →
      TokenAt L n e (column0 && g.isEmpty) V (.ident name) rest → L.strings name = some value → nul ∉ value → '\\' ∉ value →
      ParsedAt L n m e' false (value ++ rest) ts rest' →
      ParsedAt L n (m + 1) (e + value.length + e') column0 (g ++ V) ts rest'

variable {v : Values} {A : Nat}

/-- Nothing but names is replaced. -/
theorem contents_none {S : List Char → Option (List Char)} {t : Token} : contents S t = none ↔ ∀ name, t = .ident name → S name = none := by
  cases t <;> simp [contents]

theorem token_ne_newline {L : Language} {n e : Nat} {column0 : Bool} {V rest : List Char} {t : Token} (hV : ∀ c, V.head? = some c → isSpace c = false)
    (ht : TokenAt L n e column0 V t rest) : t ≠ .char '\n' := by
  intro he
  cases ht with
  | char _ _ _ _ _ => cases he; exact absurd (hV '\n' rfl) (by decide)
  | «local» => split at he <;> cases he
  | _ => cases he

/-- **C58, for the parser.** The parser gets the tokens of the line, in which contents stand for the names of string symbols. -/
theorem C58_parse {E : Env} {L : Language} (hE : E.Is L) {n m e : Nat} {column0 : Bool} {V rest : List Char} {ts : List Token}
    (h : ParsedAt L n m e column0 V ts rest) : ∀ {k d : Nat} {b : Buffer}, 2 ≤ d → E.words.maxLength ≤ d → A + d + e ≤ stackSize → ts.length + m ≤ k →
      Pos v A b V d → ∃ b', parseLine E n k column0 b = .ok (ts, b') ∧ Pos v A b' rest (d + e) := by
  induction h with
  | newline hg hn hc hcom =>
    intro k d b hd hT hA hk hb
    obtain ⟨k, rfl⟩ : ∃ m, k = m + 1 := ⟨k - 1, by simp at hk; omega⟩
    obtain ⟨b1, h1, hb1⟩ := C58_newline hE hd hT (by omega) hg hn hc hcom hb
    refine ⟨b1, ?_, hb1⟩
    unfold parseLine
    rw [h1, ok_bind]
    simp [contents]
  | @token column0 m e e' g V rest rest' t ts hg hn hcom hV ht hs _ ih =>
    intro k d b hd hT hA hk hb
    obtain ⟨k, rfl⟩ : ∃ m, k = m + 1 := ⟨k - 1, by simp at hk; omega⟩
    obtain ⟨b1, h1, hb1⟩ := C58_token hE hd hT (by omega) hg hn hcom hV ht hb
    obtain ⟨b2, h2, hb2⟩ := ih (k := k) (by omega) (by omega) (by omega) (by simp at hk; omega) hb1
    refine ⟨b2, ?_, hb2.mono (by omega)⟩
    unfold parseLine
    rw [h1, ok_bind]
    simp only []
    rw [hE.strings, contents_none.2 hs]
    simp only []
    rw [if_neg (token_ne_newline hV ht), h2, ok_bind]
  | @expand column0 m e e' g V rest rest' name value ts hg hn hcom hV ht hs hnul hbs _ ih =>
    intro k d b hd hT hA hk hb
    obtain ⟨k, rfl⟩ : ∃ m, k = m + 1 := ⟨k - 1, by omega⟩
    obtain ⟨b1, h1, hb1⟩ := C58_token hE hd hT (by omega) hg hn hcom hV ht hb
    obtain ⟨b2, h2, hb2⟩ := hb1.unputString hnul (by omega) (Literal.append hbs hb1.lit)
    obtain ⟨b3, h3, hb3⟩ := ih (k := k) (by omega) (by omega) (by omega) (by omega) hb2
    refine ⟨b3, ?_, hb3.mono (by omega)⟩
    unfold parseLine
    rw [h1, ok_bind]
    simp only [contents]
    rw [hE.strings, hs]
    simp only []
    rw [h2, ok_bind]
    exact h3

/-- Without names of string symbols the tokens are those of the text. -/
theorem LineAt.parsed {L : Language} {n e : Nat} {column0 : Bool} {V rest : List Char} {ts : List Token} (h : LineAt L n e column0 V ts rest) :
    (∀ t ∈ ts, contents L.strings t = none) → ParsedAt L n 0 e column0 V ts rest := by
  induction h with
  | newline hg hn hc hcom => exact fun _ => .newline hg hn hc hcom
  | token hg hn hcom hV ht _ ih =>
    exact fun h => .token hg hn hcom hV ht (contents_none.1 (h _ List.mem_cons_self)) (ih fun t ht => h t (List.mem_cons_of_mem _ ht))

end Verif.Lexer
