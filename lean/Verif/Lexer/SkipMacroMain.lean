import Verif.Lexer.SkipMacro
/-!
# C34: the theorem about the bodies of macros
-/
namespace Verif.Lexer

theorem NoTrap.left {pre ls : List Line} (h : NoTrap (pre ++ ls)) : NoTrap pre := by
  induction pre with
  | nil => trivial
  | cons x pre ih =>
    have h1 := ih h.tail
    cases x <;> try exact h1
    cases pre with
    | nil => trivial
    | cons y pre => cases y <;> first | exact h1 | exact absurd h id

theorem NoTrap.right {pre ls : List Line} (h : NoTrap (pre ++ ls)) : NoTrap ls := by
  induction pre with
  | nil => exact h
  | cons x pre ih => exact ih h.tail

section

variable {b : Buffer} {X : List Char}

/-- Where the index is. -/
structure AtIndex (words : Words) (X : List Char) (all : List Line) (s : Dir × Nat) (as : List Line) : Prop where
  text : ∃ r, '\n' ∉ r ∧ X.drop s.2 = r ++ linesText as
  ok : ∀ l ∈ as, l.Ok ∧ l.Plain words
  trap : NoTrap as
  place : as = all ∨ ∃ pre l, all = pre ++ l :: as ∧ X.drop s.2 = l.rest ++ linesText as ∧ s.2 ≤ X.length

theorem nextDirectiveAt_follows (hX : Holds b X) {words : Words} (hw0 : words [] = none) {fuel : Nat} (hf : X.length + 1 < fuel) (all : List Line) :
    Follows Prod.fst (nextDirectiveAt words b fuel) (Line.directive words) (AtIndex words X all) where
  some s as t r evs hR he := by
    obtain ⟨pre, a, h1, h2, h3, _⟩ := events_split he
    subst h1
    obtain ⟨r', hr', htext⟩ := hR.text
    have hlen : (X.drop s.2).length ≤ X.length := by simp
    obtain ⟨j, h4, h5, h6⟩ := (nextDirectiveAt_some hX hw0 h3 (hR.ok a (by simp)).1 (fun l hl => hR.ok l (by simp [hl])) h2 hR.trap.left).1
      s.1 s.2 r' fuel hr' htext (by omega)
    refine ⟨(t, j), h4, rfl, ⟨⟨a.rest, ?_, h5⟩, fun l hl => hR.ok l (by simp [hl]), hR.trap.right.tail, .inr ?_⟩⟩
    · obtain ⟨label, gap, word, rest, rfl, _⟩ := directive_stmt h3
      exact (hR.ok (.stmt label gap word rest) (by simp)).1.2.2.2.2.1
    · rcases hR.place with rfl | ⟨p, l, rfl, _⟩
      · exact ⟨pre, a, rfl, h5, h6⟩
      · exact ⟨p ++ l :: pre, a, by simp, h5, h6⟩
  none s as hR he := by
    obtain ⟨r', hr', htext⟩ := hR.text
    have hlen : (X.drop s.2).length ≤ X.length := by simp
    obtain ⟨j, h4⟩ := (nextDirectiveAt_none hX hw0 hR.ok (events_nil he) hR.trap).1 s.1 s.2 r' fuel hr' htext (by omega)
    exact ⟨(s.1, j), h4, rfl⟩

end

theorem Line.text_noNewline {l : Line} (h : l.Ok) : '\n' ∉ l.text := by
  have hlab : ∀ {x : List Char}, Label x → '\n' ∉ x := fun h hx => (h.1 _ hx).2.2.1 rfl
  have hgap : ∀ {x : List Char}, Gap x → '\n' ∉ x := fun h hx => by rcases h.2 _ hx with h | h <;> revert h <;> decide
  have hmark : ∀ {x : Char}, (x = ';' ∨ x = '*') → '\n' ≠ x := by rintro x (rfl | rfl) <;> decide
  cases l with
  | comment mark text => simp [Line.text, hmark h.1, h.2]
  | bare label => exact hlab h
  | remark label gap mark text => simp [Line.text, hlab h.1, hgap h.2.1, hmark h.2.2.1, h.2.2.2]
  | stmt label gap word rest =>
    have hw : '\n' ∉ word := fun hx => absurd (h.2.2.1 _ hx) (by decide)
    simp [Line.text, hlab h.1, hgap h.2.1, hw, h.2.2.2.2.1]

theorem linesText_count {ls : List Line} (h : ∀ l ∈ ls, l.Ok) : (linesText ls).count '\n' = ls.length := by
  induction ls with
  | nil => rfl
  | cons l ls ih =>
    have h1 := List.count_eq_zero.mpr (Line.text_noNewline (h l (by simp)))
    simp only [linesText, List.cons_append, List.count_cons, List.count_append, h1, ih (fun l hl => h l (by simp [hl])), List.length_cons]
    simp

theorem linesText_append (a b : List Line) : linesText (a ++ b) = linesText a ++ linesText b := by
  induction a with
  | nil => rfl
  | cons l a ih => simp [linesText, ih]

/-- **C34, macro bodies.** The body of a macro is the text up to and including the first `ENDM` that is not inside a
complete block, whatever placeholders it contains; assembling goes on behind it and the lines are counted. -/
theorem C34_macro_partial {words : Words} (hw0 : words [] = none) {c : Ctx} {r : List Char} {pre post : List Line} {l : Line}
    (hi : c.buffer.index ≤ c.buffer.text.length) (htext : raw c.buffer = r ++ linesText (pre ++ l :: post)) (hr : '\n' ∉ r)
    (hnul : nul ∉ raw c.buffer) (hback : c.buffer.stack.length ≤ r.length + 1) (hok : ∀ x ∈ pre ++ l :: post, x.Ok ∧ x.Plain words)
    (htrap : NoTrap (pre ++ l :: post)) (hc : Complete (· = .endm) (directives words pre)) (hl : l.directive words = some .endm) :
    ∃ F, ∀ fuel, F ≤ fuel → ∃ body b', copyMacroBlock words fuel c = .ok (some body, ⟨b', .endm, (c.line + pre.length + 1) % 2 ^ 32⟩) ∧
      body ++ l.rest = r ++ linesText (pre ++ [l]) ∧ raw b' = l.rest ++ linesText post := by
  refine ⟨(raw c.buffer).length + pre.length + 2, ?_⟩
  intro fuel hf
  have hX : Holds c.buffer (raw c.buffer) := ⟨rfl, hnul⟩
  obtain ⟨s, h1, h2, h3⟩ := skipTo_found (nextDirectiveAt_follows hX hw0 (fuel := fuel) (by omega) (pre ++ l :: post)) (p := (· = .endm)) (stop := (· == .endm))
    (by simp) hc hl rfl (s := (.other 0, 0)) ⟨⟨r, hr, htext⟩, hok, htrap, .inl rfl⟩ rfl (by decide) (fuel := fuel) (by omega)
  obtain ⟨id, i⟩ := s
  have h2 : id = .endm := h2
  subst h2
  have hplace : (raw c.buffer).drop i = l.rest ++ linesText post ∧ i ≤ (raw c.buffer).length := by
    rcases h3.place with h5 | ⟨p', l', h5, h6⟩
    · exact absurd (congrArg List.length h5) (by simp; omega)
    · have h7 : pre ++ [l] = p' ++ [l'] := by
        have : (pre ++ [l]) ++ post = (p' ++ [l']) ++ post := by simpa using h5
        exact List.append_cancel_right this
      have h8 : l = l' := (List.append_inj' h7 rfl).2 |> List.cons.inj |>.1
      subst h8
      exact h6
  obtain ⟨label, gap, word, rest, rfl, _⟩ := directive_stmt hl
  have hlok := (hok (.stmt label gap word rest) (by simp)).1
  have hsplit : (raw c.buffer).take i ++ (rest ++ linesText post) = (r ++ linesText pre ++ '\n' :: (label ++ gap ++ word)) ++ (rest ++ linesText post) := by
    rw [← show (raw c.buffer).drop i = rest ++ linesText post from hplace.1, List.take_append_drop, htext,
      show (r ++ linesText (pre ++ Line.stmt label gap word rest :: post)).drop i = rest ++ linesText post from htext ▸ hplace.1]
    simp [linesText_append, linesText, Line.text]
  have htake := List.append_cancel_right hsplit
  have hilen : i = (r ++ linesText pre ++ '\n' :: (label ++ gap ++ word)).length := by
    rw [← htake, List.length_take]; omega
  have hist : c.buffer.stack.length ≤ i := by
    rw [hilen]; simp only [List.length_append, List.length_cons]; omega
  have h4 := C33_copy c.buffer i hi hist hplace.2
  obtain ⟨b', h5, h6⟩ := C33_skip c.buffer i hi (fun h => hnul (by unfold raw; simp [h])) hist hplace.2
  refine ⟨(raw c.buffer).take i, b', ?_, ?_, by rw [h6, hplace.1]⟩
  · unfold copyMacroBlock
    rw [h1, ok_bind]
    show (copyUnexpanded c.buffer i).bind _ = _
    rw [h4, ok_bind, h5, ok_bind]
    have hcount : ((raw c.buffer).take i).count '\n' = pre.length + 1 := by
      rw [htake]
      have h7 := linesText_count (ls := pre) (fun x hx => (hok x (by simp [hx])).1)
      have h8 := Line.text_noNewline hlok
      simp only [Line.text, List.mem_append, not_or] at h8
      simp only [List.count_append, List.count_cons, h7, List.count_eq_zero.mpr hr, List.count_eq_zero.mpr h8.1.1.1,
        List.count_eq_zero.mpr h8.1.1.2, List.count_eq_zero.mpr h8.1.2]
      simp
    rw [hcount, Nat.add_assoc c.line]
  · rw [htake]
    simp [linesText_append, linesText, Line.text, Line.rest]

/-- **C34, macro bodies.** If no `ENDM` follows outside complete blocks, and the last directive of the text ends no
block, this is noticed. -/
theorem C34_macro_missing_partial {words : Words} (hw0 : words [] = none) {c : Ctx} {r : List Char} {ls : List Line}
    {ds : List Dir} {t : Dir} (htext : raw c.buffer = r ++ linesText ls) (hr : '\n' ∉ r) (hnul : nul ∉ raw c.buffer)
    (hok : ∀ x ∈ ls, x.Ok ∧ x.Plain words) (htrap : NoTrap ls) (hds : .other 0 :: directives words ls = ds ++ [t])
    (hc : Complete (· = .endm) ds) (ht : begins t = none ∧ t ≠ .endm) :
    ∃ F, ∀ fuel, F ≤ fuel → ∃ c', copyMacroBlock words fuel c = .ok (none, c') := by
  refine ⟨(raw c.buffer).length + ls.length + 2, ?_⟩
  intro fuel hf
  have hX : Holds c.buffer (raw c.buffer) := ⟨rfl, hnul⟩
  obtain ⟨s, h1, _⟩ := skipTo_missing (nextDirectiveAt_follows hX hw0 (fuel := fuel) (by omega) ls) (p := (· = .endm)) (stop := (· == .endm))
    (by simp) (as := ls) (s := (.other 0, 0)) ⟨⟨r, hr, htext⟩, hok, htrap, .inl rfl⟩ hds hc ht.1 ht.2 (fuel := fuel) (by omega)
  refine ⟨{ c with id := s.1 }, ?_⟩
  unfold copyMacroBlock
  rw [h1]
  rfl

end Verif.Lexer
