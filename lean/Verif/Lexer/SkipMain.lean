import Verif.Lexer.SkipText
/-!
# C34: the theorems about skipped text
-/
namespace Verif.Lexer

/-- The lines still to come after the current token: if the token is the end of a line, it belongs to them. The values of
the macro arguments have at most `A` characters, at most `d` characters have been put back, no backslash makes a
placeholder, and the lines are well formed. -/
structure Upcoming (A d : Nat) (words : Words) (c : Ctx) (ls : List Line) : Prop where
  text : ∃ V, Shows c.buffer A V d ∧ Literal (values c.buffer.args c.buffer.unique) V ∧
    ((c.id = .newline ∧ '\n' :: V = linesText ls) ∨ (c.id ≠ .newline ∧ ∃ r, '\n' ∉ r ∧ V = r ++ linesText ls))
  ok : ∀ l ∈ ls, l.Ok ∧ l.Plain words
  line : c.line < W32

/-- Where the context is after a directive of the list was found. -/
def Within (A d : Nat) (v : Values) (all : List Line) (c : Ctx) (as : List Line) : Prop :=
  as = all ∨ ∃ pre l, all = pre ++ l :: as ∧ St A d v c.buffer (l.rest ++ linesText as)

theorem nextDirective_within {A d : Nat} {v : Values} {words : Words} (hw0 : words [] = none) (fuel L N : Nat) (all : List Line) :
    Follows Ctx.id (nextDirective words fuel) (Line.directive words) (fun c as => At A d v words fuel L N c as ∧ Within A d v all c as) where
  some s as t r evs hR he := by
    obtain ⟨hR, hW⟩ := hR
    obtain ⟨pre, a, h1, h2, h3, _⟩ := events_split he
    subst h1
    obtain ⟨c', h4, h5, ⟨r', _, rfl, h7⟩, h6⟩ := nextDirective_some hw0 h2 h3 hR
    refine ⟨c', h4, h5, h6, .inr ?_⟩
    rcases hW with rfl | ⟨p, l, rfl, _⟩
    · exact ⟨pre, a, rfl, h7⟩
    · exact ⟨p ++ l :: pre, a, by simp, h7⟩
  none s as hR he := nextDirective_none hw0 (events_nil he) hR.1

theorem unput_newline {A d : Nat} {words : Words} {c : Ctx} {ls : List Line} (h : Upcoming A d words c ls)
    (hA : A + d < stackSize) :
    ∃ b, (∀ fuel stop, skipPast words fuel stop c = skipTo Ctx.id (nextDirective words fuel) fuel stop { c with buffer := b }) ∧
      ∃ r, '\n' ∉ r ∧ St A (d + 1) (values c.buffer.args c.buffer.unique) b (r ++ linesText ls) := by
  obtain ⟨⟨V, hs, hl, hV⟩, hok, hline⟩ := h
  rcases hV with ⟨hid, hV⟩ | ⟨hid, r, hr, rfl⟩
  · obtain ⟨b, h1, h2, h3, h4, h5, _⟩ := hs.unput (c := '\n') (by decide) (by omega) (fun h => absurd h (by decide))
    refine ⟨b, ?_, [], by simp, ⟨?_, ?_, ?_, by omega, by omega⟩⟩
    · intro fuel stop
      unfold skipPast
      rw [if_pos hid, h1]; rfl
    · rw [List.nil_append, ← hV]; exact h2
    · rw [h4, h5]
    · rw [List.nil_append, ← hV]; exact ⟨fun h => absurd h (by decide), hl⟩
  · refine ⟨c.buffer, ?_, r, hr, ⟨hs.mono (by omega), rfl, hl, by omega, by omega⟩⟩
    intro fuel stop
    unfold skipPast
    rw [if_neg hid]; rfl

/-- Skipping ends behind the directive looked for. -/
theorem skipPast_found {A d : Nat} (hA : A + d < stackSize) {words : Words} (hw0 : words [] = none) {c : Ctx} {pre post : List Line} {l : Line}
    {t : Dir} {p : Dir → Prop} {stop : Dir → Bool} (hstop : ∀ d, stop d = true ↔ p d) (h : Upcoming A d words c (pre ++ l :: post))
    (hc : Complete p (directives words pre)) (hl : l.directive words = some t) (ht : p t) (hid : begins c.id = none ∧ ¬ p c.id) :
    ∃ F, ∀ fuel, F ≤ fuel → ∃ b', skipPast words fuel stop c = .ok (true, ⟨b', t, (c.line + pre.length + 1) % W32⟩) ∧
      Shows b' A (l.rest ++ linesText post) (d + 1) ∧ values b'.args b'.unique = values c.buffer.args c.buffer.unique := by
  obtain ⟨b, h1, r, hr, hst⟩ := unput_newline h hA
  refine ⟨(r ++ linesText (pre ++ l :: post)).length + pre.length + 2, ?_⟩
  intro fuel hf
  have hat : At A (d + 1) (values c.buffer.args c.buffer.unique) words fuel c.line (pre ++ l :: post).length { c with buffer := b } (pre ++ l :: post) :=
    ⟨⟨r, hr, hst, by omega⟩, h.ok, by simp [Nat.mod_eq_of_lt h.line], Nat.le_refl _⟩
  obtain ⟨c', h2, h3, h4, h5⟩ := skipTo_found (nextDirective_within hw0 fuel c.line (pre ++ l :: post).length (pre ++ l :: post)) hstop hc hl ht
    (s := { c with buffer := b }) ⟨hat, .inl rfl⟩ hid.1 hid.2 (fuel := fuel) (by omega)
  refine ⟨c'.buffer, ?_, ?_⟩
  · rw [h1, h2]
    have hline := h4.line
    have : c.line + ((pre ++ l :: post).length - post.length) = c.line + pre.length + 1 := by
      simp only [List.length_append, List.length_cons]; omega
    rw [this] at hline
    rw [← hline, ← h3]
  · rcases h5 with h5 | ⟨p', l', h5, h6⟩
    · exact absurd (congrArg List.length h5) (by simp; omega)
    · have h7 : pre ++ [l] = p' ++ [l'] := by
        have : (pre ++ [l]) ++ post = (p' ++ [l']) ++ post := by simpa using h5
        exact List.append_cancel_right this
      have h8 : l = l' := (List.append_inj' h7 rfl).2 |> List.cons.inj |>.1
      subst h8
      exact ⟨h6.shows, h6.vals⟩

/-- If there are only complete blocks and the last directive ends no block, nothing is found. -/
theorem skipPast_missing {A d : Nat} (hA : A + d < stackSize) {words : Words} (hw0 : words [] = none) {c : Ctx} {ls : List Line}
    {ds : List Dir} {t : Dir} {p : Dir → Prop} {stop : Dir → Bool} (hstop : ∀ d, stop d = true ↔ p d) (h : Upcoming A d words c ls)
    (hds : c.id :: directives words ls = ds ++ [t]) (hc : Complete p ds) (ht : begins t = none ∧ ¬ p t) :
    ∃ F, ∀ fuel, F ≤ fuel → ∃ c', skipPast words fuel stop c = .ok (false, c') := by
  obtain ⟨b, h1, r, hr, hst⟩ := unput_newline h hA
  refine ⟨(r ++ linesText ls).length + ls.length + 2, ?_⟩
  intro fuel hf
  have hat : At A (d + 1) (values c.buffer.args c.buffer.unique) words fuel c.line ls.length { c with buffer := b } ls :=
    ⟨⟨r, hr, hst, by omega⟩, h.ok, by simp [Nat.mod_eq_of_lt h.line], Nat.le_refl _⟩
  obtain ⟨c', h2, _⟩ := skipTo_missing (nextDirective_follows hw0 fuel c.line ls.length) hstop (s := { c with buffer := b }) hat hds hc
    ht.1 ht.2 (fuel := fuel) (by omega)
  exact ⟨c', by rw [h1, h2]⟩

theorem isFalseBranch_iff (d : Dir) : isFalseBranch d = true ↔ d = .else ∨ d = .endc := by simp [isFalseBranch]

/-- **C34, false condition.** Whatever complete blocks the skipped lines contain, assembling goes on behind the first
`ELSE` or `ENDC` that is not inside one of them, and the lines are counted. -/
theorem C34_true_branch_partial {A d : Nat} (hA : A + d < 256) {words : Words} (hw0 : words [] = none) {c : Ctx}
    {pre post : List Line} {l : Line} {t : Dir} (h : Upcoming A d words c (pre ++ l :: post))
    (hc : Complete (fun d => d = .else ∨ d = .endc) (directives words pre)) (hl : l.directive words = some t)
    (ht : t = .else ∨ t = .endc) (hid : begins c.id = none ∧ c.id ≠ .else ∧ c.id ≠ .endc) :
    ∃ F, ∀ fuel, F ≤ fuel → ∃ b', skipPastTrueBranch words fuel c = .ok (true, ⟨b', t, (c.line + pre.length + 1) % 2 ^ 32⟩) ∧
      Shows b' A (l.rest ++ linesText post) (d + 1) ∧ values b'.args b'.unique = values c.buffer.args c.buffer.unique :=
  skipPast_found hA hw0 isFalseBranch_iff h hc hl ht ⟨hid.1, fun h => h.elim hid.2.1 hid.2.2⟩

/-- **C34, ELSE behind a true condition.** Assembling goes on behind the first `ENDC` that is not inside a complete
block. -/
theorem C34_endc_partial {A d : Nat} (hA : A + d < 256) {words : Words} (hw0 : words [] = none) {c : Ctx}
    {pre post : List Line} {l : Line} (h : Upcoming A d words c (pre ++ l :: post))
    (hc : Complete (· = .endc) (directives words pre)) (hl : l.directive words = some .endc)
    (hid : begins c.id = none ∧ c.id ≠ .endc) :
    ∃ F, ∀ fuel, F ≤ fuel → ∃ b', skipPastEndc words fuel c = .ok (true, ⟨b', .endc, (c.line + pre.length + 1) % 2 ^ 32⟩) ∧
      Shows b' A (l.rest ++ linesText post) (d + 1) ∧ values b'.args b'.unique = values c.buffer.args c.buffer.unique :=
  skipPast_found hA hw0 (by simp) h hc hl rfl hid

/-- **C34, REPT 0 and REXIT.** Assembling goes on behind the first `ENDR` that is not inside a complete block. -/
theorem C34_endr_partial {A d : Nat} (hA : A + d < 256) {words : Words} (hw0 : words [] = none) {c : Ctx}
    {pre post : List Line} {l : Line} (h : Upcoming A d words c (pre ++ l :: post))
    (hc : Complete (· = .endr) (directives words pre)) (hl : l.directive words = some .endr)
    (hid : begins c.id = none ∧ c.id ≠ .endr) :
    ∃ F, ∀ fuel, F ≤ fuel → ∃ b', skipPastEndr words fuel c = .ok (true, ⟨b', .endr, (c.line + pre.length + 1) % 2 ^ 32⟩) ∧
      Shows b' A (l.rest ++ linesText post) (d + 1) ∧ values b'.args b'.unique = values c.buffer.args c.buffer.unique :=
  skipPast_found hA hw0 (by simp) h hc hl rfl hid

/-- **C34.** If no `ELSE` or `ENDC` follows outside complete blocks, and the last directive of the text ends no block,
this is noticed. -/
theorem C34_missing_partial {A d : Nat} (hA : A + d < 256) {words : Words} (hw0 : words [] = none) {c : Ctx} {ls : List Line}
    {ds : List Dir} {t : Dir} (h : Upcoming A d words c ls) (hds : c.id :: directives words ls = ds ++ [t])
    (hc : Complete (fun d => d = .else ∨ d = .endc) ds) (ht : begins t = none ∧ t ≠ .else ∧ t ≠ .endc) :
    ∃ F, ∀ fuel, F ≤ fuel → ∃ c', skipPastTrueBranch words fuel c = .ok (false, c') :=
  skipPast_missing hA hw0 isFalseBranch_iff h hds hc ⟨ht.1, fun h => h.elim ht.2.1 ht.2.2⟩

end Verif.Lexer
