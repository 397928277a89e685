import Verif.Lexer.SkipProps
/-!
# C34: finding the directives in a text
-/
namespace Verif.Lexer

/-- The characters still to be read are `V`, none of which makes a placeholder. -/
structure St (A d : Nat) (v : Values) (b : Buffer) (V : List Char) : Prop where
  shows : Shows b A V d
  vals : values b.args b.unique = v
  lit : Literal v V
  pos : 1 ≤ d
  room : A + d ≤ stackSize

theorem literal_append {v : Values} {u w : List Char} (h : Literal v (u ++ w)) : Literal v w := by
  induction u with
  | nil => exact h
  | cons c u ih => exact ih h.2

theorem literal_tail {v : Values} {V : List Char} (h : Literal v V) : Literal v V.tail := by
  cases V with
  | nil => exact h
  | cons c V => exact h.2

/-- The next character, or zero at the end. -/
def hd (V : List Char) : Char := V.head?.getD nul

section

variable {A d : Nat} {v : Values}

theorem St.get {b : Buffer} {V : List Char} (h : St A d v b V) :
    ∃ b', getChar b = .ok (hd V, b') ∧ St A d v b' V.tail ∧ ∃ b'', unput b' (hd V) = .ok b'' ∧ St A d v b'' V := by
  obtain ⟨b', h1, h2, h3, h4⟩ := h.shows.get' (by have := h.room; have := h.pos; omega)
  have hv : values b'.args b'.unique = v := by rw [Same.values h4]; exact h.vals
  refine ⟨b', h1, ⟨h2.mono (by omega), hv, literal_tail h.lit, h.pos, h.room⟩, ?_⟩
  have hp := h.pos
  have hr := h.room
  obtain ⟨b'', h5, h6, _, h8⟩ := h2.back h.shows.noNul h3 (by omega) (by rw [hv]; exact Back.of_literal h.lit)
  exact ⟨b'', h5, ⟨h6.mono (by omega), by rw [Same.values h8]; exact hv, h.lit, h.pos, h.room⟩⟩

theorem dropChars_st {p : Char → Bool} {u w : List Char} (hu : ∀ c ∈ u, p c = true) (hw : ¬ p (hd w) = true) :
    ∀ {b : Buffer}, St A d v b (u ++ w) → ∀ {fuel : Nat}, u.length < fuel →
    ∃ b', dropChars p fuel b = .ok (hd w, b') ∧ St A d v b' w.tail ∧ ∃ b'', unput b' (hd w) = .ok b'' ∧ St A d v b'' w := by
  induction u with
  | nil =>
    intro b h fuel hf
    obtain ⟨f, rfl⟩ : ∃ f, fuel = f + 1 := ⟨fuel - 1, by omega⟩
    obtain ⟨b', h1, h2⟩ := St.get (V := w) h
    refine ⟨b', ?_, h2⟩
    rw [dropChars, h1, ok_bind]
    exact if_neg hw
  | cons c u ih =>
    intro b h fuel hf
    obtain ⟨f, rfl⟩ : ∃ f, fuel = f + 1 := ⟨fuel - 1, by omega⟩
    obtain ⟨b', h1, h2, _⟩ := St.get h
    simp only [List.length_cons] at hf
    obtain ⟨b'', h3, h4⟩ := ih (fun c hc => hu c (by simp [hc])) (b := b') h2 (fuel := f) (by omega)
    refine ⟨b'', ?_, h4⟩
    rw [dropChars, h1, ok_bind]
    show (if p c = true then _ else _) = _
    rw [if_pos (hu c (by simp)), h3]

theorem hd_cons (c : Char) (V : List Char) : hd (c :: V) = c := rfl

theorem St.noNul {b : Buffer} {V : List Char} (h : St A d v b V) : nul ∉ V := h.shows.noNul

/-- To the next line. -/
theorem skipToNextLine_st {r w : List Char} (hr : '\n' ∉ r) {b : Buffer} (h : St A d v b (r ++ '\n' :: w)) {fuel : Nat}
    (hf : r.length < fuel) : ∃ b', skipToNextLine fuel b = .ok (true, b') ∧ St A d v b' w := by
  have hn := h.noNul
  obtain ⟨b1, h1, h2, _⟩ := h.get
  unfold skipToNextLine
  rw [h1, ok_bind]
  cases r with
  | nil =>
    exact ⟨b1, by rfl, h2⟩
  | cons c r =>
    simp only [List.cons_append, List.mem_cons, not_or] at hn hr
    simp only [List.length_cons] at hf
    obtain ⟨b2, h3, h4, _⟩ := dropChars_st (p := fun c => !isLineEnd c) (u := r) (w := '\n' :: w) (b := b1)
      (by
        intro x hx
        have hx1 : x ≠ '\n' := by rintro rfl; exact hr.2 hx
        have hx2 : x ≠ nul := by rintro rfl; exact hn.2 (by simp [hx])
        simp [isLineEnd, hx1, hx2])
      (by simp [hd_cons, isLineEnd]) h2 (fuel := fuel) (by omega)
    refine ⟨b2, ?_, h4⟩
    show (if c = nul then _ else _) = _
    rw [if_neg (Ne.symm hn.1), if_neg (by simp [isLineEnd, hd_cons, Ne.symm hn.1, Ne.symm hr.1]), h3]
    rfl

/-- At the end there is no next line, but a last line without an end counts. -/
theorem skipToNextLine_end {r : List Char} (hr : '\n' ∉ r) {b : Buffer} (h : St A d v b r) {fuel : Nat} (hf : r.length < fuel) :
    ∃ b', skipToNextLine fuel b = .ok (!r.isEmpty, b') ∧ St A d v b' [] := by
  have hn := h.noNul
  obtain ⟨b1, h1, h2, _⟩ := h.get
  unfold skipToNextLine
  rw [h1, ok_bind]
  cases r with
  | nil => exact ⟨b1, by rfl, h2⟩
  | cons c r =>
    simp only [List.mem_cons, not_or] at hn hr
    simp only [List.length_cons] at hf
    obtain ⟨b2, h3, h4, _⟩ := dropChars_st (p := fun c => !isLineEnd c) (u := r) (w := []) (b := b1)
      (by
        intro x hx
        have hx1 : x ≠ '\n' := by rintro rfl; exact hr.2 hx
        have hx2 : x ≠ nul := by rintro rfl; exact hn.2 hx
        simp [isLineEnd, hx1, hx2])
      (by simp [hd, isLineEnd]) (by simpa using h2) (fuel := fuel) (by omega)
    refine ⟨b2, ?_, h4⟩
    show (if c = nul then _ else _) = _
    rw [if_neg (Ne.symm hn.1), if_neg (by simp [isLineEnd, hd_cons, Ne.symm hn.1, Ne.symm hr.1]), h3]
    rfl

theorem charIs_st {cs : List Char} {b : Buffer} {V : List Char} (h : St A d v b V) :
    ∃ b', charIs cs b = .ok (hd V != nul && cs.contains (hd V), b') ∧ St A d v b' V := by
  obtain ⟨b1, h1, _, b2, h2, h3⟩ := h.get
  refine ⟨b2, ?_, h3⟩
  unfold charIs
  rw [h1, ok_bind]
  show (unput b1 (hd V)).bind _ = _
  rw [h2]; rfl

theorem skipLabel_st {label w : List Char} (hl : ∀ c ∈ label, c ≠ ' ' ∧ c ≠ '\t' ∧ c ≠ '\n')
    (hw : hd w = ' ' ∨ hd w = '\t' ∨ hd w = '\n' ∨ hd w = nul) {b : Buffer} (h : St A d v b (label ++ w)) {fuel : Nat}
    (hf : label.length < fuel) : ∃ b', skipLabel fuel b = .ok b' ∧ St A d v b' w := by
  have hn := h.noNul
  obtain ⟨b1, h1, _, b2, h2, h3⟩ := dropChars_st (p := fun c => !([' ', '\t', '\n'].contains c) && c != nul) (u := label) (w := w) (b := b)
    (by
      intro c hc
      have hc0 : c ≠ nul := by rintro rfl; exact hn (by simp [hc])
      obtain ⟨h1, h2, h3⟩ := hl c hc
      simp [hc0, h1, h2, h3])
    (by rcases hw with h | h | h | h <;> simp [h]) h hf
  refine ⟨b2, ?_, h3⟩
  unfold skipLabel
  rw [h1, ok_bind]
  exact h2

/-- White space is skipped; then there is a comment or something else. -/
theorem skipWhiteSpaceFrom_st {gap w : List Char} (hg : ∀ c ∈ gap, c = ' ' ∨ c = '\t') (hw : hd w ≠ ' ' ∧ hd w ≠ '\t') :
    ∀ {x : Char} {b b0 : Buffer}, (x = ' ' ∨ x = '\t') → St A d v b (gap ++ w) → ∀ {fuel : Nat}, gap.length + 1 < fuel →
    ∃ b', skipWhiteSpaceFrom fuel x b = .ok (hd w == '*' || hd w == ';', b') ∧
      St A d v b' (if hd w == '*' || hd w == ';' then w.tail else w) := by
  induction gap with
  | nil =>
    intro x b b0 hx h fuel hf
    obtain ⟨f, rfl⟩ : ∃ f, fuel = f + 2 := ⟨fuel - 2, by simp only [List.length_nil] at hf; omega⟩
    obtain ⟨b1, h1, h2, b2, h3, h4⟩ := St.get (V := w) h
    have hx0 : x ≠ nul ∧ ['\t', ' '].contains x = true := by rcases hx with rfl | rfl <;> decide
    rw [skipWhiteSpaceFrom, if_pos hx0, h1, ok_bind]
    show ∃ b', (if hd w = '*' then _ else _) = _ ∧ _
    by_cases hstar : hd w = '*'
    · exact ⟨b1, by simp [hstar], by simp only [hstar]; exact h2⟩
    · have hns : ¬ (hd w ≠ nul ∧ ['\t', ' '].contains (hd w) = true) := by simp [hw.1, hw.2]
      rw [if_neg hstar, skipWhiteSpaceFrom, if_neg hns]
      by_cases hsemi : hd w = ';'
      · exact ⟨b1, by simp [hsemi], by simp only [hsemi]; exact h2⟩
      · refine ⟨b2, ?_, by simp only [beq_false_of_ne hstar, beq_false_of_ne hsemi]; exact h4⟩
        rw [if_neg hsemi, h3]
        rw [beq_false_of_ne hstar, beq_false_of_ne hsemi]
        rfl
  | cons c gap ih =>
    intro x b b0 hx h fuel hf
    obtain ⟨f, rfl⟩ : ∃ f, fuel = f + 1 := ⟨fuel - 1, by omega⟩
    obtain ⟨b1, h1, h2, _⟩ := h.get
    have hx0 : x ≠ nul ∧ ['\t', ' '].contains x = true := by rcases hx with rfl | rfl <;> decide
    have hc := hg c (by simp)
    have hc1 : c ≠ '*' := by rcases hc with rfl | rfl <;> decide
    simp only [List.length_cons] at hf
    obtain ⟨b2, h3, h4⟩ := ih (fun c hc => hg c (by simp [hc])) (x := c) (b := b1) (b0 := b1) hc h2 (fuel := f) (by omega)
    refine ⟨b2, ?_, h4⟩
    rw [skipWhiteSpaceFrom, if_pos hx0, h1, ok_bind]
    show (if c = '*' then _ else _) = _
    rw [if_neg hc1]
    exact h3

theorem skipWhiteSpace_st {gap w : List Char} (hg : Gap gap) (hw : hd w ≠ ' ' ∧ hd w ≠ '\t') {b : Buffer}
    (h : St A d v b (gap ++ w)) {fuel : Nat} (hf : gap.length < fuel) :
    ∃ b', skipWhiteSpace fuel b = .ok (hd w == '*' || hd w == ';', b') ∧
      St A d v b' (if hd w == '*' || hd w == ';' then w.tail else w) := by
  obtain ⟨hne, hg⟩ := hg
  cases gap with
  | nil => exact absurd rfl hne
  | cons x gap =>
    obtain ⟨b1, h1, h2, _⟩ := h.get
    simp only [List.length_cons] at hf
    obtain ⟨b2, h3, h4⟩ := skipWhiteSpaceFrom_st (fun c hc => hg c (by simp [hc])) hw (x := x) (b := b1) (b0 := b1)
      (hg x (by simp)) h2 (fuel := fuel) (by omega)
    exact ⟨b2, by unfold skipWhiteSpace; rw [h1, ok_bind]; exact h3, h4⟩

/-- No white space at the end of a line. -/
theorem skipWhiteSpace_none {w : List Char} (hw : hd w = '\n' ∨ hd w = nul) {b : Buffer} (h : St A d v b w) {fuel : Nat}
    (hf : 0 < fuel) : ∃ b', skipWhiteSpace fuel b = .ok (false, b') ∧ St A d v b' w := by
  obtain ⟨f, rfl⟩ : ∃ f, fuel = f + 1 := ⟨fuel - 1, by omega⟩
  obtain ⟨b1, h1, _, b2, h2, h3⟩ := h.get
  refine ⟨b2, ?_, h3⟩
  unfold skipWhiteSpace
  rw [h1, ok_bind]
  show skipWhiteSpaceFrom _ _ _ = _
  rw [skipWhiteSpaceFrom, if_neg (by rcases hw with h | h <;> simp [h]), if_neg (by rcases hw with h | h <;> rw [h] <;> decide), h2]
  rfl

theorem isAlpha_iff (c : Char) : isAlpha c = true ↔ letter c := by
  have h1 : ∀ a b : Char, a ≤ b ↔ a.toNat ≤ b.toNat := by
    intro a b; simp [Char.le_def, UInt32.le_iff_toNat_le]
  have ha : 'a'.toNat = 97 := rfl
  have hz : 'z'.toNat = 122 := rfl
  have hA : 'A'.toNat = 65 := rfl
  have hZ : 'Z'.toNat = 90 := rfl
  simp only [isAlpha, letter, Bool.or_eq_true, Bool.and_eq_true, decide_eq_true_eq, h1, ha, hz, hA, hZ, List.mem_range'_1]
  omega

theorem readWord_st {word w : List Char} (hword : ∀ c ∈ word, letter c) (hw : ¬ letter (hd w)) :
    ∀ {text : List Char} {b : Buffer}, St A d v b (word ++ w) → ∀ {room : Nat}, word.length < room →
    ∃ b', readWord room text b = .ok (text ++ word, b') ∧ St A d v b' w := by
  induction word with
  | nil =>
    intro text b h room hr
    obtain ⟨f, rfl⟩ : ∃ f, room = f + 1 := ⟨room - 1, by simp only [List.length_nil] at hr; omega⟩
    obtain ⟨b1, h1, _, b2, h2, h3⟩ := St.get (V := w) h
    refine ⟨b2, ?_, h3⟩
    rw [readWord, h1, ok_bind]
    show (if isAlpha (hd w) = true then _ else _) = _
    rw [if_neg (by rw [isAlpha_iff]; exact hw), h2, List.append_nil]
    rfl
  | cons c word ih =>
    intro text b h room hr
    obtain ⟨f, rfl⟩ : ∃ f, room = f + 1 := ⟨room - 1, by omega⟩
    obtain ⟨b1, h1, h2, _⟩ := h.get
    simp only [List.length_cons] at hr
    obtain ⟨b2, h3, h4⟩ := ih (fun c hc => hword c (by simp [hc])) (text := text ++ [c]) (b := b1) h2 (room := f) (by omega)
    refine ⟨b2, ?_, h4⟩
    rw [readWord, h1, ok_bind]
    show (if isAlpha c = true then _ else _) = _
    rw [if_pos ((isAlpha_iff c).mpr (hword c (by simp)))]
    show readWord f (text ++ [c]) b1 = _
    rw [h3]
    simp

/-! ### Lines -/

/-- What follows a line: nothing or the next line. -/
def Eol (W : List Char) : Prop := W = [] ∨ ∃ W', W = '\n' :: W'

theorem eol_lines (ls : List Line) : Eol (linesText ls) := by
  cases ls with
  | nil => exact .inl rfl
  | cons l ls => exact .inr ⟨_, rfl⟩

theorem Eol.hd {W : List Char} (h : Eol W) : hd W = '\n' ∨ hd W = nul := by
  rcases h with rfl | ⟨W', rfl⟩
  · exact .inr rfl
  · exact .inl rfl

theorem not_letter_eol : ¬ letter '\n' ∧ ¬ letter nul := by decide

theorem hd_append {u W : List Char} (hW : Eol W) : (∃ c, u.head? = some c ∧ hd (u ++ W) = c) ∨ (u = [] ∧ (hd (u ++ W) = '\n' ∨ hd (u ++ W) = nul)) := by
  cases u with
  | nil => exact .inr ⟨rfl, hW.hd⟩
  | cons c u => exact .inl ⟨c, rfl, rfl⟩

/-- The part of a round that is the same for all lines that are no comments. -/
theorem nextDirective_round {words : Words} {c : Ctx} {r w label V : List Char} (hr : '\n' ∉ r) (hlab : Label label)
    (hw : hd w = ' ' ∨ hd w = '\t' ∨ hd w = '\n' ∨ hd w = nul) (hV : V = r ++ '\n' :: (label ++ w)) (h : St A d v c.buffer V) {fuel : Nat}
    (hf : V.length < fuel) :
    ∃ b, St A d v b w ∧ nextDirective words (fuel + 1) c =
      ((skipWhiteSpace fuel b).bind fun (comment, b) =>
        if comment then nextDirective words fuel { c with buffer := b, line := (c.line + 1) % W32 }
        else
          (readWord tokenSize [] b).bind fun (word, b) =>
            match words word with
            | some id => .ok (true, { buffer := b, id := id, line := (c.line + 1) % W32 })
            | none => nextDirective words fuel { c with buffer := b, line := (c.line + 1) % W32 }) := by
  subst hV
  simp only [List.length_append, List.length_cons] at hf
  obtain ⟨b1, h1, h2⟩ := skipToNextLine_st hr h (fuel := fuel) (by omega)
  obtain ⟨b2, h3, h4⟩ := charIs_st (cs := [';', '*']) h2
  have hc : (hd (label ++ w) != nul && [';', '*'].contains (hd (label ++ w))) = false := by
    cases label with
    | nil =>
      have : hd w ≠ ';' ∧ hd w ≠ '*' := by rcases hw with h | h | h | h <;> rw [h] <;> decide
      simp [this.1, this.2]
    | cons x label =>
      have h1 := (hlab.1 x (by simp)).2.2.2
      have h2 : x ≠ '*' := by rintro rfl; exact hlab.2 rfl
      simp [hd_cons, h1, h2]
  rw [hc] at h3
  obtain ⟨b3, h5, h6⟩ := skipLabel_st (fun c hc => ⟨(hlab.1 c hc).1, (hlab.1 c hc).2.1, (hlab.1 c hc).2.2.1⟩) hw h4 (fuel := fuel) (by omega)
  refine ⟨b3, h6, ?_⟩
  rw [nextDirective, h1, ok_bind]
  show (if (!true) = true then _ else (charIs [';', '*'] b1).bind _) = _
  rw [if_neg (by decide), h3, ok_bind]
  show (if false = true then _ else (skipLabel fuel b2).bind _) = _
  rw [if_neg (by decide), h5, ok_bind]
  rfl

/-- The word of a statement is read. -/
theorem nextDirective_stmt {words : Words} {c : Ctx} {r W V label gap word rest : List Char} (hr : '\n' ∉ r)
    (hok : (Line.stmt label gap word rest).Ok) (hW : Eol W) (hV : V = r ++ '\n' :: ((Line.stmt label gap word rest).text ++ W))
    (h : St A d v c.buffer V) {fuel : Nat} (hf : V.length < fuel) :
    ∃ b, St A d v b (rest ++ W) ∧ nextDirective words (fuel + 1) c =
      match words word with
      | some id => .ok (true, { buffer := b, id := id, line := (c.line + 1) % W32 })
      | none => nextDirective words fuel { c with buffer := b, line := (c.line + 1) % W32 } := by
  obtain ⟨hl, hg, hword, hlen, hrest, hend, hempty⟩ := hok
  have hg' : hd (gap ++ (word ++ (rest ++ W))) = ' ' ∨ hd (gap ++ (word ++ (rest ++ W))) = '\t' := by
    obtain ⟨hne, hg⟩ := hg
    cases gap with
    | nil => exact absurd rfl hne
    | cons x gap => exact hg x (by simp)
  have hw : hd (gap ++ (word ++ (rest ++ W))) = ' ' ∨ hd (gap ++ (word ++ (rest ++ W))) = '\t' ∨
      hd (gap ++ (word ++ (rest ++ W))) = '\n' ∨ hd (gap ++ (word ++ (rest ++ W))) = nul := by
    rcases hg' with h | h <;> simp [h]
  have hV' : V = r ++ '\n' :: (label ++ (gap ++ (word ++ (rest ++ W)))) := by rw [hV]; simp [Line.text]
  obtain ⟨b, h1, h2⟩ := nextDirective_round (words := words) hr hl hw hV' h hf
  subst hV'
  simp only [List.length_append, List.length_cons] at hf
  have hnw : hd (word ++ (rest ++ W)) ≠ ' ' ∧ hd (word ++ (rest ++ W)) ≠ '\t' ∧ hd (word ++ (rest ++ W)) ≠ ';' ∧ hd (word ++ (rest ++ W)) ≠ '*' := by
    cases word with
    | cons x word =>
      have := hword x (by simp)
      rw [List.cons_append, hd_cons]
      refine ⟨?_, ?_, ?_, ?_⟩ <;> (rintro rfl; revert this; decide)
    | nil =>
      rw [List.nil_append]
      rcases hd_append (u := rest) hW with ⟨x, hx, he⟩ | ⟨_, he | he⟩
      · rw [he]; exact hempty rfl x hx
      · rw [he]; decide
      · rw [he]; decide
  obtain ⟨b1, h3, h4⟩ := skipWhiteSpace_st hg ⟨hnw.1, hnw.2.1⟩ h1 (fuel := fuel) (by omega)
  have hc : (hd (word ++ (rest ++ W)) == '*' || hd (word ++ (rest ++ W)) == ';') = false := by simp [hnw.2.2.1, hnw.2.2.2]
  rw [hc] at h3 h4
  have hnl : ¬ letter (hd (rest ++ W)) := by
    rcases hd_append (u := rest) hW with ⟨x, hx, he⟩ | ⟨_, he | he⟩
    · rw [he]; exact hend x hx
    · rw [he]; decide
    · rw [he]; decide
  obtain ⟨b2, h5, h6⟩ := readWord_st hword hnl (text := []) (b := b1) h4 (room := tokenSize) (by show _ < 257; omega)
  refine ⟨b2, h6, ?_⟩
  rw [h2, h3, ok_bind]
  show (if false = true then _ else (readWord tokenSize [] b1).bind _) = _
  rw [if_neg (by decide), h5, ok_bind]
  rfl

/-- A line without a directive is skipped. -/
theorem nextDirective_skip {words : Words} (hw0 : words [] = none) {c : Ctx} {r W V : List Char} {l : Line} (hr : '\n' ∉ r)
    (hok : l.Ok) (hpl : l.Plain words) (hdir : l.directive words = none) (hW : Eol W) (hV : V = r ++ '\n' :: (l.text ++ W))
    (h : St A d v c.buffer V) {fuel : Nat} (hf : V.length < fuel) :
    ∃ b r', nextDirective words (fuel + 1) c = nextDirective words fuel { c with buffer := b, line := (c.line + 1) % W32 } ∧
      '\n' ∉ r' ∧ St A d v b (r' ++ W) ∧ r'.length ≤ l.text.length := by
  cases l with
  | comment mark text =>
    obtain ⟨hm, ht⟩ := hok
    subst hV
    simp only [List.length_append, List.length_cons] at hf
    obtain ⟨b1, h1, h2⟩ := skipToNextLine_st hr h (fuel := fuel) (by omega)
    obtain ⟨b2, h3, h4⟩ := charIs_st (cs := [';', '*']) h2
    have hc : (hd ((Line.comment mark text).text ++ W) != nul && [';', '*'].contains (hd ((Line.comment mark text).text ++ W))) = true := by
      show (mark != nul && [';', '*'].contains mark) = true
      rcases hm with rfl | rfl <;> decide
    rw [hc] at h3
    refine ⟨b2, mark :: text, ?_, ?_, h4, by simp [Line.text]⟩
    · rw [nextDirective, h1, ok_bind]
      show (if (!true) = true then _ else (charIs [';', '*'] b1).bind _) = _
      rw [if_neg (by decide), h3, ok_bind]
      rfl
    · simp only [List.mem_cons, not_or]
      exact ⟨by rcases hm with rfl | rfl <;> decide, ht⟩
  | bare label =>
    have hw : hd W = ' ' ∨ hd W = '\t' ∨ hd W = '\n' ∨ hd W = nul := by rcases hW.hd with h | h <;> simp [h]
    obtain ⟨b, h1, h2⟩ := nextDirective_round (words := words) hr hok hw hV h hf
    obtain ⟨b1, h3, h4⟩ := skipWhiteSpace_none hW.hd h1 (fuel := fuel) (by omega)
    obtain ⟨b2, h5, h6⟩ := readWord_st (word := []) (by simp) (by rcases hW.hd with h | h <;> rw [h] <;> decide) (text := []) h4 (room := tokenSize) (by decide)
    refine ⟨b2, [], ?_, by simp, h6, by simp⟩
    rw [h2, h3, ok_bind]
    show (if false = true then _ else (readWord tokenSize [] b1).bind _) = _
    rw [if_neg (by decide), h5, ok_bind]
    show (match words [] with | some id => _ | none => _) = _
    rw [hw0]
  | remark label gap mark text =>
    obtain ⟨hl, hg, hm, ht⟩ := hok
    have hg' : hd (gap ++ mark :: (text ++ W)) = ' ' ∨ hd (gap ++ mark :: (text ++ W)) = '\t' := by
      obtain ⟨hne, hg⟩ := hg
      cases gap with
      | nil => exact absurd rfl hne
      | cons x gap => exact hg x (by simp)
    have hw : hd (gap ++ mark :: (text ++ W)) = ' ' ∨ hd (gap ++ mark :: (text ++ W)) = '\t' ∨
        hd (gap ++ mark :: (text ++ W)) = '\n' ∨ hd (gap ++ mark :: (text ++ W)) = nul := by
      rcases hg' with h | h <;> simp [h]
    have hV' : V = r ++ '\n' :: (label ++ (gap ++ mark :: (text ++ W))) := by rw [hV]; simp [Line.text]
    obtain ⟨b, h1, h2⟩ := nextDirective_round (words := words) hr hl hw hV' h hf
    subst hV'
    simp only [List.length_append, List.length_cons] at hf
    obtain ⟨b1, h3, h4⟩ := skipWhiteSpace_st hg (w := mark :: (text ++ W)) (by rw [hd_cons]; rcases hm with rfl | rfl <;> decide) h1 (fuel := fuel) (by omega)
    have hc : (hd (mark :: (text ++ W)) == '*' || hd (mark :: (text ++ W)) == ';') = true := by
      rw [hd_cons]; rcases hm with rfl | rfl <;> decide
    rw [hc] at h3 h4
    refine ⟨b1, text, ?_, ht, h4, by simp [Line.text]; omega⟩
    rw [h2, h3, ok_bind]
    rfl
  | stmt label gap word rest =>
    have hrest := hok.2.2.2.2.1
    obtain ⟨b, h1, h2⟩ := nextDirective_stmt (words := words) hr hok hW hV h hf
    have hn : words word = none := by
      rw [Line.directive] at hdir
      split at hdir
      · rename_i hx; exact hpl hx
      · exact hdir
    rw [hn] at h2
    exact ⟨b, rest, h2, hrest, h1, by simp [Line.text]; omega⟩

/-- A line with a directive is found. -/
theorem nextDirective_hit {words : Words} {c : Ctx} {r W V : List Char} {l : Line} {t : Dir} (hr : '\n' ∉ r)
    (hok : l.Ok) (hdir : l.directive words = some t) (hW : Eol W) (hV : V = r ++ '\n' :: (l.text ++ W))
    (h : St A d v c.buffer V) {fuel : Nat} (hf : V.length < fuel) :
    ∃ b, nextDirective words (fuel + 1) c = .ok (true, { buffer := b, id := t, line := (c.line + 1) % W32 }) ∧
      '\n' ∉ l.rest ∧ St A d v b (l.rest ++ W) ∧ l.rest.length ≤ l.text.length := by
  cases l with
  | comment mark text => cases hdir
  | bare label => cases hdir
  | remark label gap mark text => cases hdir
  | stmt label gap word rest =>
    obtain ⟨b, h1, h2⟩ := nextDirective_stmt (words := words) hr hok hW hV h hf
    have hn : words word = some t := by
      rw [Line.directive] at hdir
      split at hdir
      · cases hdir
      · exact hdir
    rw [hn] at h2
    exact ⟨b, h2, hok.2.2.2.2.1, h1, by simp [Line.text, Line.rest]; omega⟩

/-- At the end of the text there is no directive. -/
theorem nextDirective_end {words : Words} (hw0 : words [] = none) {c : Ctx} {r : List Char} (hr : '\n' ∉ r)
    (h : St A d v c.buffer r) {fuel : Nat} (hf : r.length + 1 < fuel) :
    ∃ c', nextDirective words fuel c = .ok (false, c') ∧ c'.id = c.id := by
  have hend : ∀ (c : Ctx), St A d v c.buffer [] → ∀ fuel, 1 < fuel → ∃ c', nextDirective words fuel c = .ok (false, c') ∧ c'.id = c.id := by
    intro c h fuel hf
    obtain ⟨f, rfl⟩ : ∃ f, fuel = f + 1 := ⟨fuel - 1, by omega⟩
    obtain ⟨b1, h1, _⟩ := skipToNextLine_end (r := []) (by simp) h (fuel := f) (by simp; omega)
    refine ⟨{ c with buffer := b1 }, ?_, rfl⟩
    rw [nextDirective, h1, ok_bind]
    rfl
  cases r with
  | nil => exact hend c h fuel (by simpa using hf)
  | cons x r =>
    simp only [List.length_cons] at hf
    obtain ⟨f, rfl⟩ : ∃ f, fuel = f + 1 := ⟨fuel - 1, by omega⟩
    obtain ⟨b1, h1, h2⟩ := skipToNextLine_end hr h (fuel := f) (by simp; omega)
    obtain ⟨b2, h3, h4⟩ := charIs_st (cs := [';', '*']) h2
    obtain ⟨b3, h5, h6⟩ := skipLabel_st (label := []) (w := []) (by simp) (by simp [hd]) h4 (fuel := f) (by simp; omega)
    obtain ⟨b4, h7, h8⟩ := skipWhiteSpace_none (.inr rfl) h6 (fuel := f) (by omega)
    obtain ⟨b5, h9, h10⟩ := readWord_st (word := []) (w := []) (by simp) (by decide) (text := []) h8 (room := tokenSize) (by decide)
    obtain ⟨c', h11, h12⟩ := hend { c with buffer := b5, line := (c.line + 1) % W32 } h10 f (by omega)
    refine ⟨c', ?_, h12⟩
    rw [nextDirective, h1, ok_bind]
    show (if (!true) = true then _ else (charIs [';', '*'] b1).bind _) = _
    rw [if_neg (by decide), h3, ok_bind]
    show (if false = true then _ else (skipLabel f b2).bind _) = _
    rw [if_neg (by decide), h5, ok_bind, h7, ok_bind]
    show (if false = true then _ else (readWord tokenSize [] b4).bind _) = _
    rw [if_neg (by decide), h9, ok_bind]
    show (match words [] with | some id => _ | none => _) = _
    rw [hw0]
    exact h11

/-- The context is at the end of a line, before some other lines; `N` lines were there when the line number was `L`. -/
structure At (A d : Nat) (v : Values) (words : Words) (fuel L N : Nat) (c : Ctx) (ls : List Line) : Prop where
  text : ∃ r, '\n' ∉ r ∧ St A d v c.buffer (r ++ linesText ls) ∧ (r ++ linesText ls).length + 1 < fuel
  ok : ∀ l ∈ ls, l.Ok ∧ l.Plain words
  line : c.line = (L + (N - ls.length)) % W32
  le : ls.length ≤ N

theorem next_line (L N n : Nat) (h : n + 1 ≤ N) : ((L + (N - (n + 1))) % W32 + 1) % W32 = (L + (N - n)) % W32 := by
  have : L + (N - n) = L + (N - (n + 1)) + 1 := by omega
  rw [this, Nat.mod_add_mod]

/-- From directive to directive. -/
theorem nextDirective_some {words : Words} (hw0 : words [] = none) {L N : Nat} {pre post : List Line} {l : Line} {t : Dir}
    (hpre : ∀ l ∈ pre, l.directive words = none) (hl : l.directive words = some t) :
    ∀ {fuel : Nat} {c : Ctx}, At A d v words fuel L N c (pre ++ l :: post) →
    ∃ c', nextDirective words fuel c = .ok (true, c') ∧ c'.id = t ∧ (∃ r, '\n' ∉ r ∧ r = l.rest ∧ St A d v c'.buffer (r ++ linesText post)) ∧
      At A d v words fuel L N c' post := by
  induction pre with
  | nil =>
    intro fuel c h
    obtain ⟨⟨r, hr, hst, hf⟩, hok, hline, hle⟩ := h
    obtain ⟨f, rfl⟩ : ∃ f, fuel = f + 1 := ⟨fuel - 1, by omega⟩
    obtain ⟨b, h1, h2, h3, h4⟩ := nextDirective_hit (words := words) hr (hok l (by simp)).1 hl (eol_lines post) rfl hst (fuel := f) (Nat.lt_of_succ_lt_succ hf)
    have hlen : (r ++ linesText ([] ++ l :: post)).length = r.length + 1 + l.text.length + (linesText post).length := by
      simp [linesText]; omega
    refine ⟨_, h1, rfl, ⟨_, h2, rfl, h3⟩, ⟨⟨l.rest, h2, h3, ?_⟩, fun x hx => hok x (by simp [hx]), ?_, ?_⟩⟩
    · rw [hlen] at hf; simp only [List.length_append]; omega
    · show (c.line + 1) % W32 = _
      rw [hline]
      simp only [List.nil_append, List.length_cons] at hle ⊢
      exact next_line L N post.length hle
    · simp only [List.nil_append, List.length_cons] at hle; omega
  | cons x pre ih =>
    intro fuel c h
    obtain ⟨⟨r, hr, hst, hf⟩, hok, hline, hle⟩ := h
    obtain ⟨f, rfl⟩ : ∃ f, fuel = f + 1 := ⟨fuel - 1, by omega⟩
    have hx := hok x (by simp)
    obtain ⟨b, r', h1, h2, h3, h4⟩ := nextDirective_skip (words := words) hw0 hr hx.1 hx.2 (hpre x (by simp)) (eol_lines (pre ++ l :: post)) rfl hst (fuel := f) (Nat.lt_of_succ_lt_succ hf)
    have hlen : (r ++ linesText (x :: pre ++ l :: post)).length = r.length + 1 + x.text.length + (linesText (pre ++ l :: post)).length := by
      simp [linesText]; omega
    rw [hlen] at hf
    have hat : At A d v words f L N { c with buffer := b, line := (c.line + 1) % W32 } (pre ++ l :: post) := by
      refine ⟨⟨r', h2, h3, ?_⟩, fun y hy => hok y (by simp only [List.cons_append, List.mem_cons]; exact .inr hy), ?_, ?_⟩
      · simp only [List.length_append] at hf ⊢; omega
      · show (c.line + 1) % W32 = _
        rw [hline]
        exact next_line L N _ (by simpa using hle)
      · simp only [List.cons_append, List.length_cons] at hle; omega
    obtain ⟨c', h5, h6, h7, h8⟩ := ih (fun y hy => hpre y (by simp [hy])) hat
    refine ⟨c', h1.trans h5, h6, h7, ?_⟩
    obtain ⟨⟨r2, a1, a2, a3⟩, a4, a5, a6⟩ := h8
    exact ⟨⟨r2, a1, a2, by omega⟩, a4, a5, a6⟩

/-- No directive is left. -/
theorem nextDirective_none {words : Words} (hw0 : words [] = none) {L N : Nat} {ls : List Line}
    (hls : ∀ l ∈ ls, l.directive words = none) :
    ∀ {fuel : Nat} {c : Ctx}, At A d v words fuel L N c ls → ∃ c', nextDirective words fuel c = .ok (false, c') ∧ c'.id = c.id := by
  induction ls with
  | nil =>
    intro fuel c h
    obtain ⟨⟨r, hr, hst, hf⟩, hok, hline, hle⟩ := h
    simp only [linesText, List.append_nil] at hst hf
    exact nextDirective_end hw0 hr hst hf
  | cons x ls ih =>
    intro fuel c h
    obtain ⟨⟨r, hr, hst, hf⟩, hok, hline, hle⟩ := h
    obtain ⟨f, rfl⟩ : ∃ f, fuel = f + 1 := ⟨fuel - 1, by omega⟩
    have hx := hok x (by simp)
    obtain ⟨b, r', h1, h2, h3, h4⟩ := nextDirective_skip (words := words) hw0 hr hx.1 hx.2 (hls x (by simp)) (eol_lines ls) rfl hst (fuel := f) (Nat.lt_of_succ_lt_succ hf)
    have hlen : (r ++ linesText (x :: ls)).length = r.length + 1 + x.text.length + (linesText ls).length := by
      simp [linesText]; omega
    rw [hlen] at hf
    have hat : At A d v words f L N { c with buffer := b, line := (c.line + 1) % W32 } ls := by
      refine ⟨⟨r', h2, h3, ?_⟩, fun y hy => hok y (by simp [hy]), ?_, ?_⟩
      · simp only [List.length_append]; omega
      · show (c.line + 1) % W32 = _
        rw [hline]
        exact next_line L N _ (by simpa using hle)
      · simp only [List.length_cons] at hle; omega
    obtain ⟨c', h5, h6⟩ := ih (fun y hy => hls y (by simp [hy])) hat
    exact ⟨c', h1.trans h5, h6⟩

theorem nextDirective_follows {words : Words} (hw0 : words [] = none) (fuel L N : Nat) :
    Follows Ctx.id (nextDirective words fuel) (Line.directive words) (At A d v words fuel L N) where
  some s as t r evs hR he := by
    obtain ⟨pre, a, h1, h2, h3, _⟩ := events_split he
    rw [h1] at hR
    obtain ⟨c', h4, h5, _, h6⟩ := nextDirective_some hw0 h2 h3 hR
    exact ⟨c', h4, h5, h6⟩
  none s as hR he := nextDirective_none hw0 (events_nil he) hR

end

end Verif.Lexer
