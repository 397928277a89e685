import Verif.Lexer.SkipMacroMain
/-!
# C34: examples, and what does not hold
-/
namespace Verif.Lexer

/-- Some reserved words, in capitals. -/
def reserved0 : List (List Char × Dir) := [("IF".toList, .if), ("ELSE".toList, .else), ("ENDC".toList, .endc), ("REPT".toList, .rept),
  ("ENDR".toList, .endr), ("MACRO".toList, .macro), ("ENDM".toList, .endm), ("NOP".toList, .other 1)]

/-- A table of reserved words that does not distinguish capitals. -/
def words0 : Words := fun w => (reserved0.find? fun e => e.1 == w.map Char.toUpper).map Prod.snd

/-- A true branch with a nested block. -/
def skipped0 : List Line := [.stmt [] " ".toList "ld".toList " a,b".toList, .stmt "loop:".toList "\t".toList "IF".toList " x".toList,
  .comment ';' " ENDC".toList, .stmt [] " ".toList "else".toList [], .bare [], .stmt [] " ".toList "REPT".toList " 4".toList,
  .stmt [] " ".toList [] "=1".toList, .stmt [] "  ".toList "ENDR".toList [], .stmt [] " ".toList "ENDC".toList [],
  .remark "x:".toList " ".toList ';' "ELSE".toList]

def found0 : Line := .stmt [] " ".toList "Else".toList " ; here".toList

def after0 : List Line := [.stmt [] " ".toList "nop".toList [], .stmt [] " ".toList "ENDC".toList []]

/-- The text behind the end of the line of the condition. -/
def text0 : List Char := (linesText (skipped0 ++ found0 :: after0)).tail

theorem directives0 : directives words0 skipped0 = [.if, .else, .rept, .endr, .endc] := by decide +kernel

theorem complete0 : Complete (fun d => d = .else ∨ d = .endc) (directives words0 skipped0) := by
  rw [directives0]
  exact .block (k := .cond) (body := [.else, .rept, .endr]) (ds := []) rfl (by decide)
    (.plain rfl (by decide) (.block (k := .rept) (body := []) (ds := []) rfl (by decide) (.nil _) (.nil _))) (.nil _)

theorem literal_noBackslash {v : Values} {V : List Char} (h : '\\' ∉ V) : Literal v V := by
  induction V with
  | nil => trivial
  | cons c V ih =>
    simp only [List.mem_cons, not_or] at h
    exact ⟨fun hc => absurd hc.symm h.1, ih h.2⟩

theorem noEmpty_noBackslash {v : Values} {V : List Char} (h : '\\' ∉ V) : NoEmpty v V := by
  fun_induction NoEmpty v V <;> simp_all

theorem substitute_noBackslash {v : Values} {V : List Char} (h : '\\' ∉ V) : substitute v V = V := by
  fun_induction substitute v V <;> simp_all

/-- Text that is not in a macro. -/
theorem upcoming_file {words : Words} {line : Nat} {ls : List Line} {V : List Char} (hV : '\n' :: V = linesText ls) (h1 : nul ∉ V) (h2 : '\\' ∉ V)
    (hok : ∀ l ∈ ls, l.Ok ∧ l.Plain words) (hline : line < W32) : Upcoming 0 0 words ⟨init V [] none, .newline, line⟩ ls := by
  have hp : Plain (values [] none) 0 := plain_values [] none 0 (by simp) (by simp)
  have hs := shows_init V [] none 0 h1 hp (noEmpty_noBackslash h2)
  rw [substitute_noBackslash h2] at hs
  exact ⟨⟨V, hs, literal_noBackslash h2, .inl ⟨rfl, hV⟩⟩, hok, hline⟩

/-- The lines that follow a false condition in line 7. -/
theorem upcoming0 : Upcoming 0 0 words0 ⟨init text0 [] none, .newline, 7⟩ (skipped0 ++ found0 :: after0) :=
  upcoming_file (by decide +kernel) (by decide +kernel) (by decide +kernel) (by decide +kernel) (by decide)

example : ∃ F, ∀ fuel, F ≤ fuel → ∃ b', skipPastTrueBranch words0 fuel ⟨init text0 [] none, .newline, 7⟩ = .ok (true, ⟨b', .else, 18⟩) ∧
    Shows b' 0 " ; here\n nop\n ENDC".toList 1 := by
  obtain ⟨F, h⟩ := C34_true_branch_partial (by decide) (by decide +kernel) upcoming0 complete0 (by decide +kernel) (t := .else) (.inl rfl) (by decide)
  refine ⟨F, fun fuel hf => ?_⟩
  obtain ⟨b', h1, h2, _⟩ := h fuel hf
  exact ⟨b', h1, h2⟩

/-- `ELSE` behind a true condition: the other branch is skipped. -/
example : ∃ F, ∀ fuel, F ≤ fuel → ∃ b', skipPastEndc words0 fuel ⟨init "\n nop\n IF x\n ENDC ; a\n ENDC ; b\n nop".toList [] none, .else, 3⟩ =
    .ok (true, ⟨b', .endc, 7⟩) ∧ Shows b' 0 " ; b\n nop".toList 1 := by
  have h0 : Upcoming 0 0 words0 ⟨init "\n nop\n IF x\n ENDC ; a\n ENDC ; b\n nop".toList [] none, .else, 3⟩
      ([.stmt [] " ".toList "nop".toList [], .stmt [] " ".toList "IF".toList " x".toList, .stmt [] " ".toList "ENDC".toList " ; a".toList] ++
        .stmt [] " ".toList "ENDC".toList " ; b".toList :: [.stmt [] " ".toList "nop".toList []]) := by
    have hp : Plain (values [] none) 0 := plain_values [] none 0 (by simp) (by simp)
    have hs := shows_init "\n nop\n IF x\n ENDC ; a\n ENDC ; b\n nop".toList [] none 0 (by decide +kernel) hp (noEmpty_noBackslash (by decide +kernel))
    rw [substitute_noBackslash (by decide +kernel)] at hs
    exact ⟨⟨_, hs, literal_noBackslash (by decide +kernel), .inr ⟨by decide, [], by simp, by decide +kernel⟩⟩, by decide +kernel, by decide⟩
  obtain ⟨F, h⟩ := C34_endc_partial (by decide) (by decide +kernel) h0
    (by
      rw [show directives words0 _ = [.other 1, .if, .endc] by decide +kernel]
      exact .plain rfl (by decide) (.block (k := .cond) (body := []) (ds := []) rfl (by decide) (.nil _) (.nil _)))
    (by decide +kernel) (by decide)
  refine ⟨F, fun fuel hf => ?_⟩
  obtain ⟨b', h1, h2, _⟩ := h fuel hf
  exact ⟨b', h1, h2⟩

/-- `REPT 0`. -/
example : ∃ F, ∀ fuel, F ≤ fuel → ∃ b', skipPastEndr words0 fuel ⟨init " rept 2\n endr\n endr\n nop".toList [] none, .newline, 3⟩ =
    .ok (true, ⟨b', .endr, 6⟩) ∧ Shows b' 0 "\n nop".toList 1 := by
  have h0 : Upcoming 0 0 words0 ⟨init " rept 2\n endr\n endr\n nop".toList [] none, .newline, 3⟩
      ([.stmt [] " ".toList "rept".toList " 2".toList, .stmt [] " ".toList "endr".toList []] ++
        .stmt [] " ".toList "endr".toList [] :: [.stmt [] " ".toList "nop".toList []]) :=
    upcoming_file (by decide +kernel) (by decide +kernel) (by decide +kernel) (by decide +kernel) (by decide)
  obtain ⟨F, h⟩ := C34_endr_partial (by decide) (by decide +kernel) h0
    (by
      rw [show directives words0 _ = [.rept, .endr] by decide +kernel]
      exact .block (k := .rept) (body := []) (ds := []) rfl (by decide) (.nil _) (.nil _))
    (by decide +kernel) (by decide)
  refine ⟨F, fun fuel hf => ?_⟩
  obtain ⟨b', h1, h2, _⟩ := h fuel hf
  exact ⟨b', h1, h2⟩

/-- No `ENDC`. -/
example : ∃ F, ∀ fuel, F ≤ fuel → ∃ c', skipPastTrueBranch words0 fuel ⟨init " IF 1\n ENDC\n nop".toList [] none, .newline, 3⟩ = .ok (false, c') := by
  have h0 : Upcoming 0 0 words0 ⟨init " IF 1\n ENDC\n nop".toList [] none, .newline, 3⟩
      [.stmt [] " ".toList "IF".toList " 1".toList, .stmt [] " ".toList "ENDC".toList [], .stmt [] " ".toList "nop".toList []] :=
    upcoming_file (by decide +kernel) (by decide +kernel) (by decide +kernel) (by decide +kernel) (by decide)
  exact C34_missing_partial (by decide) (by decide +kernel) h0 (ds := [.newline, .if, .endc]) (t := .other 1) (by decide +kernel)
    (.plain rfl (by decide) (.block (k := .cond) (body := []) (ds := []) rfl (by decide) (.nil _) (.nil _))) (by decide)

/-- A macro whose body defines another macro and contains placeholders; its first line ends with a comment. -/
example : ∃ F, ∀ fuel, F ≤ fuel → ∃ body b', copyMacroBlock words0 fuel ⟨init " ; x\n IF \\1\n ENDC\n\ny: MACRO\n ENDM\n ENDM\n nop".toList [] none, .macro, 3⟩ =
    .ok (some body, ⟨b', .endm, 9⟩) ∧ body = " ; x\n IF \\1\n ENDC\n\ny: MACRO\n ENDM\n ENDM".toList ∧ raw b' = "\n nop".toList := by
  obtain ⟨F, h⟩ := C34_macro_partial (words := words0) (by decide +kernel)
    (c := ⟨init " ; x\n IF \\1\n ENDC\n\ny: MACRO\n ENDM\n ENDM\n nop".toList [] none, .macro, 3⟩) (r := " ; x".toList)
    (pre := [.stmt [] " ".toList "IF".toList " \\1".toList, .stmt [] " ".toList "ENDC".toList [], .bare [], .stmt "y:".toList " ".toList "MACRO".toList [],
      .stmt [] " ".toList "ENDM".toList []]) (l := .stmt [] " ".toList "ENDM".toList []) (post := [.stmt [] " ".toList "nop".toList []])
    (by decide +kernel) (by decide +kernel) (by decide +kernel) (by decide +kernel) (by decide +kernel) (by decide +kernel) (by simp [NoTrap])
    (by
      rw [show directives words0 _ = [.if, .endc, .macro, .endm] by decide +kernel]
      exact .block (k := .cond) (body := []) (ds := [.macro, .endm]) rfl (by decide) (.nil _)
        (.block (k := .macro) (body := []) (ds := []) rfl (by decide) (.nil _) (.nil _)))
    (by decide +kernel)
  refine ⟨F, fun fuel hf => ?_⟩
  obtain ⟨body, b', h1, h2, h3⟩ := h fuel hf
  refine ⟨body, b', h1, ?_, h3⟩
  have : body ++ [] = _ := h2
  rw [List.append_nil] at this
  rw [this]
  decide +kernel

/-- A macro without `ENDM`. -/
example : ∃ F, ∀ fuel, F ≤ fuel → ∃ c', copyMacroBlock words0 fuel ⟨init "\n nop\n".toList [] none, .macro, 3⟩ = .ok (none, c') :=
  C34_macro_missing_partial (words := words0) (by decide +kernel) (r := []) (ls := [.stmt [] " ".toList "nop".toList [], .bare []]) (by decide +kernel)
    (by simp) (by decide +kernel) (by decide +kernel) (by simp [NoTrap]) (ds := [.other 0]) (t := .other 1) (by decide +kernel)
    (.plain rfl (by decide) (.nil _)) (by decide)

/-! ### What does not hold -/

/-- Whether skipping succeeded, and what follows. -/
def outcomeOf (o : Outcome (Bool × Ctx)) : Option (Bool × Dir × List Char) :=
  match o with
  | .ok (found, c) => some (found, c.id, raw c.buffer)
  | _ => none

/-- **C34 does not hold for a condition without `ENDC` in which a nested one is the last thing of the text.** The `ENDC` of
the nested condition is taken for both: when `lex_GetNextDirective` finds nothing, the token is still `ENDC`. -/
theorem C34_stale_endc :
    outcomeOf (skipPastTrueBranch words0 100 ⟨init " IF 1\n ENDC\n".toList [] none, .newline, 1⟩) = some (true, .endc, []) := by decide +kernel

theorem skipTo_stuck {σ : Type} {id : σ → Dir} {next : σ → Outcome (Bool × σ)} {s : σ} {close : Dir} (h1 : closer (id s) = some close)
    (h2 : close ≠ id s) (h3 : next s = .ok (false, s)) (fuel : Nat) : ∀ (stop : Dir → Bool), stop (id s) = false → skipTo id next fuel stop s = .fail := by
  induction fuel with
  | zero => intro _ _; rfl
  | succ fuel ih =>
    intro stop hs
    rw [skipTo, hs, h1]
    show (next s).bind _ = _
    rw [h3, ok_bind]
    show (skipTo id next fuel (· == close) s).bind _ = _
    rw [ih (· == close) (beq_false_of_ne (Ne.symm h2))]
    rfl

/-- A buffer with the text ` IF 1`. -/
def text1 (stack : List Char) (i : Nat) : Buffer := ⟨stack, " IF 1".toList, i, [], none⟩

theorem step1 (f : Nat) : nextDirective words0 (f + 3) ⟨text1 ['\n'] 0, .newline, 1⟩ = .ok (true, ⟨text1 [' '] 4, .if, 2⟩) := by
  have h1 : skipToNextLine (f + 2) (text1 ['\n'] 0) = .ok (true, text1 [] 0) := rfl
  have h2 : charIs [';', '*'] (text1 [] 0) = .ok (false, text1 [' '] 1) := by decide +kernel
  have h3 : skipLabel (f + 2) (text1 [' '] 1) = .ok (text1 [' '] 1) := rfl
  have h4 : skipWhiteSpace (f + 2) (text1 [' '] 1) = .ok (false, text1 ['I'] 2) := rfl
  have h5 : readWord tokenSize [] (text1 ['I'] 2) = .ok (['I', 'F'], text1 [' '] 4) := by decide +kernel
  have h6 : words0 ['I', 'F'] = some .if := by decide +kernel
  rw [nextDirective, h1, ok_bind]
  show (if (!true) = true then _ else _) = _
  rw [if_neg (by decide)]
  simp only []
  rw [h2, ok_bind]
  show (if false = true then _ else _) = _
  rw [if_neg (by decide), h3, ok_bind, h4, ok_bind]
  show (if false = true then _ else _) = _
  rw [if_neg (by decide), h5, ok_bind]
  simp only []
  rw [h6]

theorem words0_nil : words0 [] = none := by decide +kernel

theorem step3 (f : Nat) : nextDirective words0 (f + 3) ⟨text1 [] 5, .if, 3⟩ = .ok (false, ⟨text1 [] 5, .if, 3⟩) := rfl

theorem step2 (f : Nat) : nextDirective words0 (f + 3) ⟨text1 [' '] 4, .if, 2⟩ = .ok (false, ⟨text1 [] 5, .if, 3⟩) := by
  have h1 : skipToNextLine (f + 2) (text1 [' '] 4) = .ok (true, text1 [] 5) := rfl
  have h2 : charIs [';', '*'] (text1 [] 5) = .ok (false, text1 [nul] 5) := by decide +kernel
  have h3 : skipLabel (f + 2) (text1 [nul] 5) = .ok (text1 [nul] 5) := rfl
  have h4 : skipWhiteSpace (f + 2) (text1 [nul] 5) = .ok (false, text1 [nul] 5) := rfl
  have h5 : readWord tokenSize [] (text1 [nul] 5) = .ok ([], text1 [nul] 5) := by decide +kernel
  rw [nextDirective, h1, ok_bind]
  show (if (!true) = true then _ else _) = _
  rw [if_neg (by decide)]
  simp only []
  rw [h2, ok_bind]
  show (if false = true then _ else _) = _
  rw [if_neg (by decide), h3, ok_bind, h4, ok_bind]
  show (if false = true then _ else _) = _
  rw [if_neg (by decide), h5, ok_bind]
  simp only []
  rw [words0_nil]
  rfl

/-- **C34 does not hold for a condition without `ENDC` in which a nested one is not closed either.** The code calls itself
without end: no number of rounds suffices. -/
theorem C34_endless (fuel : Nat) : skipPastTrueBranch words0 fuel ⟨init " IF 1".toList [] none, .newline, 1⟩ = .fail := by
  match fuel with
  | 0 => rfl
  | 1 => rfl
  | 2 => rfl
  | f + 3 =>
    have hun : unput (init " IF 1".toList [] none) '\n' = .ok (text1 ['\n'] 0) := by decide +kernel
    unfold skipPastTrueBranch skipPast
    rw [if_pos rfl, hun, ok_bind, ok_bind, skipTo, if_neg (by decide)]
    show (nextDirective words0 (f + 3) ⟨text1 ['\n'] 0, .newline, 1⟩).bind _ = _
    rw [step1, ok_bind]
    show skipTo Ctx.id (nextDirective words0 (f + 3)) (f + 2) isFalseBranch ⟨text1 [' '] 4, .if, 2⟩ = _
    rw [skipTo, if_neg (by decide)]
    show (nextDirective words0 (f + 3) ⟨text1 [' '] 4, .if, 2⟩).bind _ = _
    rw [step2, ok_bind]
    show (skipTo Ctx.id (nextDirective words0 (f + 3)) (f + 1) (· == .endc) ⟨text1 [] 5, .if, 3⟩).bind _ = _
    rw [skipTo_stuck (close := .endc) rfl (by decide) (step3 f) _ _ (by decide)]
    rfl

/-- **C34 does not hold for macros whose name begins with a reserved word followed by a digit or an underscore.** While
text is skipped, `if_x` is `IF`: the first `ENDC` is taken for its end. -/
theorem C34_name_prefix :
    outcomeOf (skipPastTrueBranch words0 100 ⟨init " if_x 1\n ENDC\n nop\n ENDC ; not this\n nop".toList [] none, .newline, 1⟩) =
      some (true, .endc, " ; not this\n nop".toList) := by decide +kernel

/-- **C34 does not hold for a comment that directly follows a label.** -/
theorem C34_comment_at_label :
    outcomeOf (skipPastTrueBranch words0 100 ⟨init "x:; if so\n ENDC\n nop\n ENDC ; not this\n nop".toList [] none, .newline, 1⟩) =
      some (true, .endc, " ; not this\n nop".toList) := by decide +kernel

/-- The body that is copied, and what follows. -/
def bodyOf (o : Outcome (Option (List Char) × Ctx)) : Option (Option (List Char) × List Char) :=
  match o with
  | .ok (body, c) => some (body, raw c.buffer)
  | _ => none

/-- **C34 does not hold for the body of a macro in which an empty line or a label is followed by a comment in the first
column.** `skipLabelIndexed` goes on in the next line, so that the first word of the comment is looked at: here `; if so`
makes the macro incomplete, and `; endm` ends it. -/
theorem C34_macro_comment :
    bodyOf (copyMacroBlock words0 100 ⟨init "\n\n; if so\n nop\n ENDM\n nop\n".toList [] none, .macro, 1⟩) =
      some (none, "\n\n; if so\n nop\n ENDM\n nop\n".toList) ∧
    bodyOf (copyMacroBlock words0 100 ⟨init "\nx:\n; endm follows\n nop\n ENDM\n nop\n".toList [] none, .macro, 1⟩) =
      some (some "\nx:\n; endm".toList, " follows\n nop\n ENDM\n nop\n".toList) := by decide +kernel

end Verif.Lexer
