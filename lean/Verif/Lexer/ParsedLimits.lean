import Verif.Lexer.Parsed
import Verif.Lexer.ScanLimits
/-!
# The tokens that the parser sees: examples and limits
-/
namespace Verif.Lexer

def strings1 (s : List Char) : Option (List Char) :=
  if s = "self".toList then some "self".toList else if s = "both".toList then some "five+five".toList else strings0 s

/-- The tokens that the parser gets. -/
def parsed (text : List Char) : Outcome (List Token) :=
  (parseLine (z80Env strings1) 300 300 true (init text args0 (some "_7".toList))).bind fun (ts, _) => .ok ts

/-- Contents are scanned, and may contain names of string symbols. -/
example : parsed " LD reg,both\n".toList =
    .ok [.word Cpu.Z80.Mn.ld.num, .word Cpu.Z80.Rg.hl.num, .char ',', .number 5, .word 320, .number 5, .char '\n'] := by decide +kernel

/-- `LD reg`, the contents of `reg` being `HL`. -/
theorem parsed0 : ParsedAt (z80Language strings0) 300 1 2 false " reg\n".toList [.word Cpu.Z80.Rg.hl.num, .char '\n'] [] := by
  refine ParsedAt.expand (e := 0) (e' := 0) (g := [' ']) (value := "HL".toList) (name := "reg".toList) (rest := ['\n'])
    (by intro c h; cases h with | head => decide | tail _ h => cases h) (by decide) (by rintro (h | ⟨h, _⟩) <;> cases h) (by intro c h; cases h; rfl)
    (.name (k := 0) rfl (by intro c h; cases h; decide) (.plain (name := "reg".toList) ⟨rfl, by intro x h; revert x h; decide⟩ (by decide) ?_) (by decide) ?_)
    rfl (by decide) (by decide) ?_
  · intro c h; cases h; exact ⟨rfl, by decide, fun h => by cases h⟩
  · intro w hw
    have := Longest.unique hw (w' := ⟨"R".toList, Cpu.Z80.Rg.r.num⟩) (longest_of (by decide +kernel))
    subst this
    decide
  · refine ParsedAt.token (e := 0) (e' := 0) (g := []) (by intro c h; cases h) (by decide) (by rintro (h | ⟨h, _⟩) <;> cases h) (by intro c h; cases h; rfl)
      (.word (w := ⟨"HL".toList, Cpu.Z80.Rg.hl.num⟩) (by intro c h; cases h; decide) (longest_of (by decide +kernel)) (fun h => by cases h)
        (.inr ⟨0, "HL".toList, ['\n'], .plain (name := "HL".toList) ⟨rfl, by intro x h; revert x h; decide⟩ (by decide) ?_, by decide, by decide⟩)) (fun _ h => by cases h) ?_
    · intro c h; cases h; exact ⟨rfl, by decide, fun h => by cases h⟩
    · exact .newline (g := []) (c := []) (by intro c h; cases h) (by decide) (by decide) (.inl rfl)

/-- The hypotheses of `C58_parse` hold. -/
example : ∃ b', parseLine (z80Env strings0) 300 3 false (init " reg\n".toList args0 (some "_7".toList)) =
      .ok ([.word Cpu.Z80.Rg.hl.num, .char '\n'], b') ∧ Pos (values args0 (some "_7".toList)) 3 b' [] (9 + 2) :=
  C58_parse (z80_is _) parsed0 (by decide) (by rw [z80_maxLength]; exact Nat.le_refl _) (by decide) (by decide)
    ⟨by
      have := (shows_init " reg\n".toList args0 (some "_7".toList) 3 (by decide) plain0 (by decide +kernel)).mono (d' := 9) (by omega)
      rwa [show substitute (values args0 (some "_7".toList)) " reg\n".toList = " reg\n".toList by decide +kernel] at this, rfl, by decide +kernel⟩

/-- The name and the end of the line are on the stack. -/
def selfBuffer : Buffer := { stack := "self\n".toList, text := " self\n".toList, index := 6, args := args0, unique := some "_7".toList }

/-- **A string symbol whose contents are its own name makes the assembler loop**: after the replacement the state is the same as before
it, so that no number of replacements is enough. -/
theorem C58_self_replacement (k : Nat) : parseLine (z80Env strings1) 300 k true (init " self\n".toList args0 (some "_7".toList)) = .ub := by
  have h1 : acceptNext (z80Env strings1) 300 false selfBuffer = .ok (some (.ident "self".toList), { selfBuffer with stack := ['\n'] }) := by decide +kernel
  have h2 : unputString { selfBuffer with stack := ['\n'] } "self".toList = .ok selfBuffer := by decide +kernel
  have h3 : acceptNext (z80Env strings1) 300 true (init " self\n".toList args0 (some "_7".toList)) =
      .ok (some (.ident "self".toList), { selfBuffer with stack := ['\n'] }) := by decide +kernel
  have hk : ∀ k, parseLine (z80Env strings1) 300 k false selfBuffer = .ub := by
    intro k
    induction k with
    | zero => rfl
    | succ k ih =>
      unfold parseLine
      rw [h1, ok_bind]
      show (unputString { selfBuffer with stack := ['\n'] } "self".toList).bind _ = _
      rw [h2, ok_bind]
      exact ih
  cases k with
  | zero => rfl
  | succ k =>
    unfold parseLine
    rw [h3, ok_bind]
    show (unputString { selfBuffer with stack := ['\n'] } "self".toList).bind _ = _
    rw [h2, ok_bind]
    exact hk k

end Verif.Lexer
