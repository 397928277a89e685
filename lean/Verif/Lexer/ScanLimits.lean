import Verif.Lexer.ScanProps
import Verif.Lexer.Tokens
import Verif.Cpu.Z80.Model
/-!
# The scanner of the Z80 assembler: examples and limits
-/
namespace Verif.Lexer

/-- `z80_XasmConfiguration` (xasm/z80/z80_main.c 31-64). -/
def z80Config : Config := ⟨1, true, [some "RB", some "RW", none, none], [some "DB", some "DW", none, none], [some "DS", none, none, none]⟩

def z80Env (strings : List Char → Option (List Char)) : Env := ⟨table z80Config Cpu.Z80.words, strings, options0⟩
def z80Language (strings : List Char → Option (List Char)) : Language := ⟨allWords z80Config Cpu.Z80.words, strings, options0⟩

instance (ws : List Word) : Decidable (GoodWords ws) := by unfold GoodWords; infer_instance

theorem z80_good : GoodWords (allWords z80Config Cpu.Z80.words) := by decide +kernel

/-- Each assembler has the language of its words. -/
theorem table_holds (c : Config) (cpu : List (String × Nat)) : (table c cpu).Holds (allWords c cpu) := by
  have h := C58_words_all C58_words_empty ((tokensInit c ++ cpu).map word)
  rwa [List.append_nil] at h

theorem z80_is (strings : List Char → Option (List Char)) : (z80Env strings).Is (z80Language strings) :=
  { words := table_holds z80Config Cpu.Z80.words, strings := rfl, opts := rfl, good := z80_good,
    bin0 := (by decide : options0.bin0 ≠ nul), bin1 := (by decide : options0.bin1 ≠ nul) }

theorem z80_maxLength (strings : List Char → Option (List Char)) : (z80Env strings).words.maxLength = 9 := by
  show (table z80Config Cpu.Z80.words).maxLength = 9
  decide +kernel

/-- The words have different names, except for `SET`, which means the same twice. -/
theorem z80_words_unique : ∀ w ∈ allWords z80Config Cpu.Z80.words, named (allWords z80Config Cpu.Z80.words) w.name = some w := by
  decide +kernel

/-! ### An example -/

theorem longest_of {ws : List Word} {V : List Char} {w : Word}
    (h : w.name.length ≤ V.length ∧ named ws (V.take w.name.length) = some w ∧
      ∀ j < V.length + 1, w.name.length < j → named ws (V.take j) = none) : Longest ws V w :=
  ⟨h.1, h.2.1, fun j hj hV => h.2.2 j (by omega) hj⟩

theorem noWord_of {ws : List Word} {V : List Char} (h : ∀ j < V.length + 1, 0 < j → named ws (V.take j) = none) : NoWord ws V :=
  fun j h0 hV => h j (by omega) h0

/-- String symbols of the examples. -/
def strings0 (s : List Char) : Option (List Char) :=
  if s = "reg".toList then some "HL".toList else if s = "five".toList then some "5".toList
  else if s = "pre".toList then some "content".toList else none

/-- The tokens of a line. -/
def tokens (text : List Char) : Outcome (List Token) :=
  (scanLine (z80Env strings0) 300 300 true (init text args0 (some "_7".toList))).bind fun (ts, _) => .ok ts

/-- A label, a word that is the start of a longer name, a word in lower case, the longest word, a number and a comment. -/
theorem line0 : LineAt (z80Language strings0) 300 0 true "x ldx,(hl)*2 *c\n y".toList
    [.label "x".toList, .ident "ldx".toList, .char ',', .word Cpu.Z80.Rg.hlInd.num, .word 322, .number 2, .char '\n'] " y".toList := by
  refine LineAt.token (e := 0) (e' := 0) (g := []) (by intro c h; cases h) (by decide) (by rintro (h | ⟨h, _⟩) <;> cases h) (by intro c h; cases h; rfl)
    (.label (k := 0) (name := ['x']) (rest := " ldx,(hl)*2 *c\n y".toList) rfl (.plain (name := ['x']) ⟨rfl, by intro x h; cases h⟩ (by decide) ?_) (by decide)) ?_
  · intro c h; cases h; exact ⟨rfl, by decide, fun h => by cases h⟩
  refine LineAt.token (e := 0) (e' := 0) (g := [' ']) (by intro c h; cases h with | head => decide | tail _ h => cases h) (by decide)
    (by rintro (h | ⟨h, _⟩) <;> cases h) (by intro c h; cases h; rfl)
    (.name (k := 0) (name := "ldx".toList) (rest := ",(hl)*2 *c\n y".toList) rfl (by intro c h; cases h; decide)
      (.plain (name := "ldx".toList) ⟨rfl, by intro x h; revert x h; decide⟩ (by decide) ?_) (by decide) ?_) ?_
  · intro c h; cases h; exact ⟨rfl, by decide, fun h => by cases h⟩
  · intro w hw
    have := Longest.unique hw (w' := ⟨"LD".toList, Cpu.Z80.Mn.ld.num⟩) (longest_of (by decide +kernel))
    subst this
    decide
  refine LineAt.token (e := 0) (e' := 0) (g := []) (by intro c h; cases h) (by decide) (by rintro (h | ⟨h, _⟩) <;> cases h) (by intro c h; cases h; rfl)
    (.char (c := ',') (rest := "(hl)*2 *c\n y".toList) (by intro c h; cases h; decide) (noWord_of (by decide +kernel))
      ⟨by intro c h; cases h; rfl, by intro c V h; cases h⟩ (by decide) (by decide)) ?_
  refine LineAt.token (e := 0) (e' := 0) (g := []) (by intro c h; cases h) (by decide) (by rintro (h | ⟨h, _⟩) <;> cases h) (by intro c h; cases h; rfl)
    (.word (w := ⟨"(HL)".toList, Cpu.Z80.Rg.hlInd.num⟩) (by intro c h; cases h; decide) (longest_of (by decide +kernel)) (fun h => by cases h)
      (.inl ⟨by intro c h; cases h; rfl, by intro c V h; cases h⟩)) ?_
  refine LineAt.token (e := 0) (e' := 0) (g := []) (by intro c h; cases h) (by decide) (by rintro (h | ⟨_, h⟩) <;> cases h) (by intro c h; cases h; rfl)
    (.word (w := ⟨"*".toList, 322⟩) (by intro c h; cases h; decide) (longest_of (by decide +kernel)) (fun h => by cases h)
      (.inl ⟨by intro c h; cases h; rfl, by intro c V h; cases h⟩)) ?_
  refine LineAt.token (e := 0) (e' := 0) (g := []) (by intro c h; cases h) (by decide) (by rintro (h | ⟨h, _⟩) <;> cases h) (by intro c h; cases h; rfl)
    (.number (pre := []) (ds := ['2']) (rest := " *c\n y".toList) (value := 2) .dec (by decide) (by decide) (by decide)
      ⟨by intro c h; cases h; exact ⟨rfl, fun h => by cases h⟩, by decide, by decide, by intro r h; cases h⟩) ?_
  exact LineAt.newline (g := [' ']) (c := "*c".toList) (rest := " y".toList) (by intro c h; cases h with | head => decide | tail _ h => cases h) (by decide)
    (by decide) (.inr (.inr ⟨rfl, rfl⟩))

/-- The scanner on the example; the hypotheses of `C58_line` hold. -/
example : ∃ b', scanLine (z80Env strings0) 300 7 true (init "x ldx,(hl)*2 *c\n y".toList args0 (some "_7".toList)) =
      .ok ([.label "x".toList, .ident "ldx".toList, .char ',', .word Cpu.Z80.Rg.hlInd.num, .word 322, .number 2, .char '\n'], b') ∧
    Pos (values args0 (some "_7".toList)) 3 b' " y".toList (9 + 0) :=
  C58_line (z80_is _) line0 (by decide) (by rw [z80_maxLength]; exact Nat.le_refl _) (by decide) (by decide)
    ⟨by
      have := (shows_init "x ldx,(hl)*2 *c\n y".toList args0 (some "_7".toList) 3 (by decide) plain0 (by decide +kernel)).mono (d' := 9) (by omega)
      rwa [show substitute (values args0 (some "_7".toList)) "x ldx,(hl)*2 *c\n y".toList = "x ldx,(hl)*2 *c\n y".toList by decide +kernel] at this, rfl, by decide +kernel⟩

/-- `symbol#0` is `content0` (`Symbols.md` 152-164). -/
example : tokens "pre#0 EQUS \"...\"\n".toList = .ok [.label "content0".toList, .word 350, .string "...".toList, .char '\n'] := by decide +kernel

example : tokens " ld a , 'x'*$1F ; LD B\n".toList =
    .ok [.word Cpu.Z80.Mn.ld.num, .word Cpu.Z80.Rg.a.num, .char ',', .string "x".toList, .word 322, .number 31, .char '\n'] := by decide +kernel

/-! ### What is not as documented, or not defined -/

/-- **The contents of a string symbol are not scanned again.** `Symbols.md` 157 says that `#` makes the assembler parse a symbol as
its contents; but contents that are a word become a name, so that `LD reg#,1` does not load a register. -/
theorem C58_contents_word : tokens " LD reg#,1\n".toList = .ok [.word Cpu.Z80.Mn.ld.num, .ident "HL".toList, .char ',', .number 1, .char '\n'] ∧
    tokens " LD HL,1\n".toList = .ok [.word Cpu.Z80.Mn.ld.num, .word Cpu.Z80.Rg.hl.num, .char ',', .number 1, .char '\n'] := by decide +kernel

/-- **And contents that are a number become a character.** -/
theorem C58_contents_number : tokens " DB five#\n".toList = .ok [.word 381, .char '5', .char '\n'] ∧
    tokens " DB 5\n".toList = .ok [.word 381, .number 5, .char '\n'] := by decide +kernel

/-- **`@` and `#` are not part of names**, although `Symbols.md` 12 and 23 say so. -/
theorem C58_name_characters : tokens "a@b\n".toList = .ok [.label "a".toList, .char '@', .word Cpu.Z80.Rg.b.num, .char '\n'] ∧
    tokens "a#b\n".toList = .ok [.label "a".toList, .char '#', .word Cpu.Z80.Rg.b.num, .char '\n'] := by decide +kernel

/-- **The same text is a name at the start of a line and a word elsewhere.** That such a label can be used at all is due to
the parser of expressions, which takes words that it does not know as names (xasm/motor/parse_expression.c 191-200). -/
theorem C58_reserved : tokens "page\n".toList = .ok [.label "page".toList, .char '\n'] ∧
    tokens " JP page\n".toList = .ok [.word Cpu.Z80.Mn.jp.num, .word 329, .char '\n'] := by decide +kernel

/-- A blank before `*` makes a comment of it; this is documented (`Assembler.md` 58-61). -/
theorem C58_star : tokens " DB 2 * 3\n".toList = .ok [.word 381, .number 2, .char '\n'] ∧
    tokens " DB 2* 3\n".toList = .ok [.word 381, .number 2, .word 322, .number 3, .char '\n'] := by decide +kernel

/-- **A string without an end is read beyond the end of the file**, until the array of the token is full and what is behind it
is overwritten. -/
theorem C58_string_undefined : tokens " DB \"abc".toList = .ub := by decide +kernel

/-- **Names of more than 256 characters overwrite what is behind the array.** -/
theorem C58_name_undefined : tokens (List.replicate 256 'a' ++ ['\n']) = .ok [.label (List.replicate 256 'a'), .char '\n'] ∧
    tokens (List.replicate 257 'a' ++ ['\n']) = .ub := by decide +kernel

/-- **The end of the file is not the end of a line.** -/
theorem C58_last_line : tokens " NOP".toList = .ok [.word Cpu.Z80.Mn.nop.num] ∧
    tokens " NOP\n".toList = .ok [.word Cpu.Z80.Mn.nop.num, .char '\n'] := by decide +kernel

end Verif.Lexer
