import Verif.Lexer.SkipMain
/-!
# C34: the bodies of macros
-/
namespace Verif.Lexer

/-- No label that stands alone, and no empty line, is followed by a comment in the first column. -/
def NoTrap : List Line → Prop
  | [] => True
  | .bare _ :: .comment _ _ :: _ => False
  | _ :: ls => NoTrap ls

theorem NoTrap.tail {l : Line} {ls : List Line} (h : NoTrap (l :: ls)) : NoTrap ls := by
  cases l <;> try exact h
  cases ls with
  | nil => trivial
  | cons l' ls => cases l' <;> first | exact h | exact absurd h id

section

variable {b : Buffer} {X : List Char}

/-- The buffer holds `X`, without placeholders being replaced. -/
structure Holds (b : Buffer) (X : List Char) : Prop where
  raw : raw b = X
  noNul : nul ∉ X

theorem Holds.char (h : Holds b X) (i : Nat) : getUnexpandedChar b i = hd (X.drop i) := by
  rw [C33_unexpanded, h.raw, hd, List.head?_drop]

theorem drop_add {X u w : List Char} {i : Nat} (h : X.drop i = u ++ w) : X.drop (i + u.length) = w := by
  rw [← List.drop_drop, h, List.drop_left]

theorem dropAt_st (hX : Holds b X) {p : Char → Bool} {u w : List Char} (hu : ∀ c ∈ u, p c = true) (hw : ¬ p (hd w) = true) :
    ∀ {i : Nat}, X.drop i = u ++ w → ∀ {fuel : Nat}, u.length < fuel → dropAt p b fuel i = .ok (i + u.length) := by
  induction u with
  | nil =>
    intro i h fuel hf
    obtain ⟨f, rfl⟩ : ∃ f, fuel = f + 1 := ⟨fuel - 1, by omega⟩
    rw [dropAt, hX.char, h, List.nil_append, if_neg hw]
    rfl
  | cons c u ih =>
    intro i h fuel hf
    obtain ⟨f, rfl⟩ : ∃ f, fuel = f + 1 := ⟨fuel - 1, by omega⟩
    simp only [List.length_cons] at hf
    have h1 : X.drop (i + 1) = u ++ w := drop_add (u := [c]) (w := u ++ w) (by simpa using h)
    rw [dropAt, hX.char, h, List.cons_append, hd_cons, if_pos (hu c (by simp)),
      ih (fun c hc => hu c (by simp [hc])) h1 (by omega), List.length_cons, Nat.add_right_comm, Nat.add_assoc]

theorem mem_drop {X u w : List Char} {i : Nat} (h : X.drop i = u ++ w) {c : Char} (hc : c ∈ u) : c ∈ X := by
  have : c ∈ X.drop i := by rw [h]; simp [hc]
  exact List.mem_of_mem_drop this

theorem skipToNextLineAt_st (hX : Holds b X) {r w : List Char} (hr : '\n' ∉ r) {i : Nat} (h : X.drop i = r ++ '\n' :: w) {fuel : Nat}
    (hf : r.length < fuel) : ∃ j, skipToNextLineAt b fuel i = .ok (true, j) ∧ X.drop j = w ∧ j = i + (r.length + 1) := by
  have h1 := dropAt_st hX (p := fun c => !(isLineEnd c)) (u := r) (w := '\n' :: w) (by
    intro x hx
    have hx1 : x ≠ '\n' := by rintro rfl; exact hr hx
    have hx2 : x ≠ nul := by rintro rfl; exact hX.noNul (mem_drop h hx)
    simp [isLineEnd, hx1, hx2]) (by simp [hd_cons, isLineEnd]) h hf
  refine ⟨i + r.length + 1, ?_, ?_, by omega⟩
  · unfold skipToNextLineAt
    rw [h1, ok_bind, hX.char, drop_add h]
    rfl
  · exact drop_add (u := ['\n']) (w := w) (by rw [drop_add h]; rfl)

theorem skipToNextLineAt_end (hX : Holds b X) {r : List Char} (hr : '\n' ∉ r) {i : Nat} (h : X.drop i = r) {fuel : Nat}
    (hf : r.length < fuel) : ∃ j, skipToNextLineAt b fuel i = .ok (false, j) := by
  have h' : X.drop i = r ++ [] := by simpa using h
  have h1 := dropAt_st hX (p := fun c => !(isLineEnd c)) (u := r) (w := []) (by
    intro x hx
    have hx1 : x ≠ '\n' := by rintro rfl; exact hr hx
    have hx2 : x ≠ nul := by rintro rfl; exact hX.noNul (mem_drop h' hx)
    simp [isLineEnd, hx1, hx2]) (by simp [hd, isLineEnd]) h' hf
  refine ⟨i + r.length + 1, ?_⟩
  unfold skipToNextLineAt
  rw [h1, ok_bind, hX.char, drop_add h']
  rfl

theorem charIsAt_st (hX : Holds b X) (cs : List Char) (i : Nat) : charIsAt cs b i = (hd (X.drop i) != nul && cs.contains (hd (X.drop i))) := by
  unfold charIsAt
  rw [hX.char]

theorem skipLabelAt_st (hX : Holds b X) {u w : List Char} (hu : ∀ c ∈ u, c ≠ ' ' ∧ c ≠ '\t') (hw : hd w = ' ' ∨ hd w = '\t' ∨ hd w = nul)
    {i : Nat} (h : X.drop i = u ++ w) {fuel : Nat} (hf : u.length < fuel) : skipLabelAt b fuel i = .ok (i + u.length) := by
  unfold skipLabelAt
  refine dropAt_st hX ?_ ?_ h hf
  · intro c hc
    have hx2 : c ≠ nul := by rintro rfl; exact hX.noNul (mem_drop h hc)
    obtain ⟨h1, h2⟩ := hu c hc
    simp [h1, h2, hx2]
  · rcases hw with h | h | h <;> simp [h]

theorem skipWhiteSpaceAtFrom_st (hX : Holds b X) {gap w : List Char} (hg : ∀ c ∈ gap, c = ' ' ∨ c = '\t') (hw : hd w ≠ ' ' ∧ hd w ≠ '\t') :
    ∀ {x : Char} {i : Nat}, (x = ' ' ∨ x = '\t') → X.drop i = x :: (gap ++ w) → ∀ {fuel : Nat}, gap.length + 1 < fuel →
    skipWhiteSpaceAtFrom b fuel x i = .ok (hd w == '*' || hd w == ';' || hd w == nul, i + (gap.length + 1)) := by
  induction gap with
  | nil =>
    intro x i hx h fuel hf
    obtain ⟨f, rfl⟩ : ∃ f, fuel = f + 2 := ⟨fuel - 2, by simp only [List.length_nil] at hf; omega⟩
    have h1 : X.drop (i + 1) = w := drop_add (u := [x]) (w := w) (by simpa using h)
    have hx0 : x ≠ nul ∧ ['\t', ' '].contains x = true := by rcases hx with rfl | rfl <;> decide
    rw [skipWhiteSpaceAtFrom, if_pos hx0, hX.char, h1]
    show (if hd w = '*' then _ else _) = _
    by_cases hstar : hd w = '*'
    · rw [if_pos hstar]; simp [hstar]
    · have hns : ¬ (hd w ≠ nul ∧ ['\t', ' '].contains (hd w) = true) := by simp [hw.1, hw.2]
      rw [if_neg hstar, skipWhiteSpaceAtFrom, if_neg hns, beq_false_of_ne hstar]
      rfl
  | cons c gap ih =>
    intro x i hx h fuel hf
    obtain ⟨f, rfl⟩ : ∃ f, fuel = f + 1 := ⟨fuel - 1, by omega⟩
    have h1 : X.drop (i + 1) = c :: (gap ++ w) := drop_add (u := [x]) (w := c :: (gap ++ w)) (by simpa using h)
    have hx0 : x ≠ nul ∧ ['\t', ' '].contains x = true := by rcases hx with rfl | rfl <;> decide
    have hc := hg c (by simp)
    have hc1 : c ≠ '*' := by rcases hc with rfl | rfl <;> decide
    simp only [List.length_cons] at hf
    rw [skipWhiteSpaceAtFrom, if_pos hx0, hX.char, h1, hd_cons]
    show (if c = '*' then _ else _) = _
    rw [if_neg hc1, ih (fun c hc => hg c (by simp [hc])) hc h1 (by omega), List.length_cons]
    congr 2
    omega

theorem skipWhiteSpaceAt_st (hX : Holds b X) {gap w : List Char} (hg : Gap gap) (hw : hd w ≠ ' ' ∧ hd w ≠ '\t') {i : Nat}
    (h : X.drop i = gap ++ w) {fuel : Nat} (hf : gap.length < fuel) :
    skipWhiteSpaceAt b fuel i = .ok (hd w == '*' || hd w == ';' || hd w == nul, i + gap.length) := by
  obtain ⟨hne, hg⟩ := hg
  cases gap with
  | nil => exact absurd rfl hne
  | cons x gap =>
    unfold skipWhiteSpaceAt
    rw [hX.char, h, List.cons_append, hd_cons]
    exact skipWhiteSpaceAtFrom_st hX (fun c hc => hg c (by simp [hc])) hw (hg x (by simp)) h (by simpa using hf)

theorem readWordAt_st (hX : Holds b X) {word w : List Char} (hword : ∀ c ∈ word, letter c) (hw : ¬ letter (hd w)) :
    ∀ {text : List Char} {i : Nat}, X.drop i = word ++ w → ∀ {room : Nat}, word.length < room →
    readWordAt b room text i = .ok (text ++ word, i + word.length) := by
  induction word with
  | nil =>
    intro text i h room hr
    obtain ⟨f, rfl⟩ : ∃ f, room = f + 1 := ⟨room - 1, by simp only [List.length_nil] at hr; omega⟩
    rw [readWordAt, hX.char, h, List.nil_append]
    show (if isAlpha (hd w) = true then _ else _) = _
    rw [if_neg (by rw [isAlpha_iff]; exact hw), List.append_nil]
    rfl
  | cons c word ih =>
    intro text i h room hr
    obtain ⟨f, rfl⟩ : ∃ f, room = f + 1 := ⟨room - 1, by omega⟩
    have h1 : X.drop (i + 1) = word ++ w := drop_add (u := [c]) (w := word ++ w) (by simpa using h)
    simp only [List.length_cons] at hr
    rw [readWordAt, hX.char, h, List.cons_append, hd_cons]
    show (if isAlpha c = true then _ else _) = _
    rw [if_pos ((isAlpha_iff c).mpr (hword c (by simp))), ih (fun c hc => hword c (by simp [hc])) h1 (by omega), List.length_cons]
    simp only [List.append_assoc, List.singleton_append]
    congr 2
    omega

/-! ### Lines -/

/-- The part of a round behind the test for a comment. -/
def roundAt (words : Words) (b : Buffer) (fuel : Nat) (id : Dir) (i : Nat) : Outcome (Bool × (Dir × Nat)) :=
  (skipLabelAt b fuel i).bind fun i =>
    (skipWhiteSpaceAt b fuel i).bind fun (comment, i) =>
      if comment then nextDirectiveAt words b fuel (id, i)
      else
        (readWordAt b tokenSize [] i).bind fun (word, i) =>
          match words word with
          | some id => .ok (true, (id, i))
          | none => nextDirectiveAt words b fuel (id, i)

def Line.isComment : Line → Bool
  | .comment _ _ => true
  | _ => false

theorem charIsAt_line (hX : Holds b X) {l : Line} (hok : l.Ok) {W : List Char} (hW : Eol W) {i : Nat} (h : X.drop i = l.text ++ W) :
    charIsAt [';', '*'] b i = l.isComment := by
  rw [charIsAt_st hX, h]
  have hlab : ∀ {label w : List Char}, Label label → (hd w = ' ' ∨ hd w = '\t' ∨ hd w = '\n' ∨ hd w = nul) →
      (hd (label ++ w) != nul && [';', '*'].contains (hd (label ++ w))) = false := by
    intro label w hlab hw
    cases label with
    | nil =>
      have : hd w ≠ ';' ∧ hd w ≠ '*' := by rcases hw with h | h | h | h <;> rw [h] <;> decide
      simp [this.1, this.2]
    | cons x label =>
      have h1 := (hlab.1 x (by simp)).2.2.2
      have h2 : x ≠ '*' := by rintro rfl; exact hlab.2 rfl
      simp [hd_cons, h1, h2]
  have hgap : ∀ {gap w : List Char}, Gap gap → (hd (gap ++ w) = ' ' ∨ hd (gap ++ w) = '\t' ∨ hd (gap ++ w) = '\n' ∨ hd (gap ++ w) = nul) := by
    intro gap w hg
    obtain ⟨hne, hg⟩ := hg
    cases gap with
    | nil => exact absurd rfl hne
    | cons x gap => rcases hg x (by simp) with rfl | rfl <;> simp [hd_cons]
  cases l with
  | comment mark text =>
    show (mark != nul && [';', '*'].contains mark) = true
    rcases hok.1 with rfl | rfl <;> decide
  | bare label => exact hlab hok (by rcases hW.hd with h | h <;> simp [h])
  | remark label gap mark text =>
    simp only [Line.text, List.append_assoc]
    exact hlab hok.1 (hgap hok.2.1)
  | stmt label gap word rest =>
    simp only [Line.text, List.append_assoc]
    exact hlab hok.1 (hgap hok.2.1)

/-- The first part of a round. -/
theorem nextDirectiveAt_line (hX : Holds b X) {words : Words} {id : Dir} {r : List Char} {l : Line} {ls : List Line} (hr : '\n' ∉ r)
    (hok : l.Ok) {i : Nat} (h : X.drop i = r ++ linesText (l :: ls)) {f : Nat} (hf : (X.drop i).length < f) :
    ∃ j, X.drop j = l.text ++ linesText ls ∧ (X.drop j).length + 1 ≤ (X.drop i).length ∧
      nextDirectiveAt words b (f + 1) (id, i) = if l.isComment then nextDirectiveAt words b f (id, j) else roundAt words b f id j := by
  have hlen : (X.drop i).length = r.length + (1 + (l.text ++ linesText ls).length) := by rw [h]; simp [linesText]; omega
  obtain ⟨j, h1, h2, _⟩ := skipToNextLineAt_st hX hr (w := l.text ++ linesText ls) h (fuel := f) (by omega)
  refine ⟨j, h2, by rw [h2]; omega, ?_⟩
  rw [nextDirectiveAt, h1, ok_bind]
  show (if (!true) = true then _ else if charIsAt [';', '*'] b j = true then _ else _) = _
  rw [if_neg (by decide), charIsAt_line hX hok (eol_lines ls) h2]
  rfl

/-- A remark is skipped. -/
theorem roundAt_remark (hX : Holds b X) {words : Words} {id : Dir} {u label gap text W : List Char} {mark : Char}
    (hu : ∀ c ∈ u, c ≠ ' ' ∧ c ≠ '\t') (hok : (Line.remark label gap mark text).Ok) {i : Nat}
    (h : X.drop i = u ++ ((Line.remark label gap mark text).text ++ W)) {f : Nat} (hf : (X.drop i).length < f) :
    ∃ j, X.drop j = (mark :: text) ++ W ∧ (X.drop j).length ≤ (X.drop i).length ∧ roundAt words b f id i = nextDirectiveAt words b f (id, j) := by
  obtain ⟨hl, hg, hm, ht⟩ := hok
  have h' : X.drop i = (u ++ label) ++ (gap ++ mark :: (text ++ W)) := by rw [h]; simp [Line.text]
  have hlen := congrArg List.length h'
  simp only [List.length_append, List.length_cons] at hlen
  have hg' : hd (gap ++ mark :: (text ++ W)) = ' ' ∨ hd (gap ++ mark :: (text ++ W)) = '\t' ∨ hd (gap ++ mark :: (text ++ W)) = nul := by
    obtain ⟨hne, hg⟩ := hg
    cases gap with
    | nil => exact absurd rfl hne
    | cons x gap => rcases hg x (by simp) with rfl | rfl <;> simp [hd_cons]
  have h1 := skipLabelAt_st hX (u := u ++ label) (w := gap ++ mark :: (text ++ W)) (by
    intro c hc
    rcases List.mem_append.mp hc with hc | hc
    · exact hu c hc
    · exact ⟨(hl.1 c hc).1, (hl.1 c hc).2.1⟩) hg' h' (fuel := f) (by simp only [List.length_append]; omega)
  have h2 := drop_add h'
  have h3 := skipWhiteSpaceAt_st hX hg (w := mark :: (text ++ W)) (by rw [hd_cons]; rcases hm with rfl | rfl <;> decide) h2 (fuel := f) (by omega)
  have h4 := drop_add h2
  refine ⟨_, h4, ?_, ?_⟩
  · rw [h4]; simp only [List.length_append, List.length_cons]; omega
  · unfold roundAt
    rw [h1, ok_bind, h3, ok_bind]
    show (if (mark == '*' || mark == ';' || mark == nul) = true then _ else _) = _
    rw [if_pos (by rcases hm with rfl | rfl <;> decide)]

/-- The word of a statement is read. -/
theorem roundAt_stmt (hX : Holds b X) {words : Words} {id : Dir} {u label gap word rest W : List Char} (hu : ∀ c ∈ u, c ≠ ' ' ∧ c ≠ '\t')
    (hw0 : words [] = none) (hok : (Line.stmt label gap word rest).Ok) (hW : Eol W) {i : Nat}
    (h : X.drop i = u ++ ((Line.stmt label gap word rest).text ++ W)) {f : Nat} (hf : (X.drop i).length < f) :
    ∃ j, X.drop j = rest ++ W ∧ ((X.drop j).length ≤ (X.drop i).length ∧ j ≤ X.length) ∧ roundAt words b f id i =
      match words word with
      | some id => .ok (true, (id, j))
      | none => nextDirectiveAt words b f (id, j) := by
  obtain ⟨hl, hg, hword, hwl, hrest, hend, hempty⟩ := hok
  have h' : X.drop i = (u ++ label) ++ (gap ++ (word ++ (rest ++ W))) := by rw [h]; simp [Line.text]
  have hlen := congrArg List.length h'
  simp only [List.length_append, List.length_cons] at hlen
  have hgl : 0 < gap.length := List.length_pos_iff.mpr hg.1
  have hg' : hd (gap ++ (word ++ (rest ++ W))) = ' ' ∨ hd (gap ++ (word ++ (rest ++ W))) = '\t' ∨ hd (gap ++ (word ++ (rest ++ W))) = nul := by
    obtain ⟨hne, hg⟩ := hg
    cases gap with
    | nil => exact absurd rfl hne
    | cons x gap => rcases hg x (by simp) with rfl | rfl <;> simp [hd_cons]
  have h1 := skipLabelAt_st hX (u := u ++ label) (w := gap ++ (word ++ (rest ++ W))) (by
    intro c hc
    rcases List.mem_append.mp hc with hc | hc
    · exact hu c hc
    · exact ⟨(hl.1 c hc).1, (hl.1 c hc).2.1⟩) hg' h' (fuel := f) (by simp only [List.length_append]; omega)
  have h2 := drop_add h'
  have hnw : hd (word ++ (rest ++ W)) ≠ ' ' ∧ hd (word ++ (rest ++ W)) ≠ '\t' ∧ hd (word ++ (rest ++ W)) ≠ ';' ∧ hd (word ++ (rest ++ W)) ≠ '*' := by
    cases word with
    | cons x word =>
      have := hword x (by simp)
      rw [List.cons_append, hd_cons]
      refine ⟨?_, ?_, ?_, ?_⟩ <;> (rintro rfl; revert this; decide)
    | nil =>
      rw [List.nil_append]
      rcases hd_append (u := rest) hW with ⟨x, hx, he⟩ | ⟨_, he | he⟩
      · rw [he]; exact hempty rfl x hx
      · rw [he]; decide
      · rw [he]; decide
  have h3 := skipWhiteSpaceAt_st hX hg ⟨hnw.1, hnw.2.1⟩ h2 (fuel := f) (by omega)
  have h4 := drop_add h2
  have hnl : ¬ letter (hd (rest ++ W)) := by
    rcases hd_append (u := rest) hW with ⟨x, hx, he⟩ | ⟨_, he | he⟩
    · rw [he]; exact hend x hx
    · rw [he]; decide
    · rw [he]; decide
  have h5 := readWordAt_st hX hword hnl (text := []) h4 (room := tokenSize) (by show _ < 257; omega)
  have h6 := drop_add h4
  by_cases hz : hd (word ++ (rest ++ W)) = nul
  · have hwe : word ++ (rest ++ W) = [] := by
      cases hx : word ++ (rest ++ W) with
      | nil => rfl
      | cons y ys =>
        rw [hx, hd_cons] at hz
        subst hz
        rw [hx] at h4
        exact absurd (List.mem_of_mem_drop (by rw [h4]; simp)) hX.noNul
    have hword0 : word = [] := (List.append_eq_nil_iff.mp hwe).1
    subst hword0
    refine ⟨_, h4, ⟨?_, ?_⟩, ?_⟩
    · rw [h4]; simp only [List.nil_append, List.length_append] at hlen ⊢; omega
    · simp only [List.length_append]; rw [List.length_drop] at hlen; omega
    · unfold roundAt
      rw [h1, ok_bind, h3, ok_bind, hw0]
      show (if (hd ([] ++ (rest ++ W)) == '*' || hd ([] ++ (rest ++ W)) == ';' || hd ([] ++ (rest ++ W)) == nul) = true then _ else _) = _
      rw [if_pos (by simp only [hz]; decide)]
  · refine ⟨_, h6, ⟨?_, ?_⟩, ?_⟩
    · rw [h6]; simp only [List.length_append]; omega
    · simp only [List.length_append]; rw [List.length_drop] at hlen; omega
    · unfold roundAt
      rw [h1, ok_bind, h3, ok_bind]
      show (if (hd (word ++ (rest ++ W)) == '*' || hd (word ++ (rest ++ W)) == ';' || hd (word ++ (rest ++ W)) == nul) = true then _ else _) = _
      rw [if_neg (by simp [hnw.2.2.1, hnw.2.2.2]; exact hz), h5, ok_bind]
      rfl

/-- The text of some lines behind the first end of a line. -/
def bodyText : List Line → List Char
  | [] => []
  | l :: ls => l.text ++ linesText ls

/-- The first line is not a comment in the first column. -/
def Begins : List Line → Prop
  | .comment _ _ :: _ => False
  | _ => True

theorem NoTrap.bare {label : List Char} {ls : List Line} (h : NoTrap (.bare label :: ls)) : Begins ls := by
  cases ls with
  | nil => trivial
  | cons l ls => cases l <;> first | exact absurd h id | trivial

theorem directive_stmt {words : Words} {l : Line} {t : Dir} (h : l.directive words = some t) :
    ∃ label gap word rest, l = .stmt label gap word rest ∧ words word = some t := by
  cases l with
  | stmt label gap word rest =>
    refine ⟨label, gap, word, rest, rfl, ?_⟩
    simp only [Line.directive] at h
    split at h
    · cases h
    · exact h
  | _ => cases h

theorem nodirective_stmt {words : Words} {label gap word rest : List Char} (h : (Line.stmt label gap word rest).directive words = none)
    (hp : (Line.stmt label gap word rest).Plain words) : words word = none := by
  simp only [Line.directive] at h
  split at h
  · next hs => exact hp hs
  · exact h

/-- The next directive is found, at the start of a round and behind the test for a comment. -/
theorem nextDirectiveAt_some (hX : Holds b X) {words : Words} (hw0 : words [] = none) {l : Line} {post : List Line} {t : Dir}
    (hl : l.directive words = some t) (hlok : l.Ok) {pre : List Line} (hok : ∀ l ∈ pre, l.Ok ∧ l.Plain words)
    (hnone : ∀ l ∈ pre, l.directive words = none) (htrap : NoTrap pre) :
    (∀ (id : Dir) (i : Nat) (r : List Char) (fuel : Nat), '\n' ∉ r → X.drop i = r ++ linesText (pre ++ l :: post) →
      (X.drop i).length + 1 < fuel → ∃ j, nextDirectiveAt words b fuel (id, i) = .ok (true, (t, j)) ∧ X.drop j = l.rest ++ linesText post ∧ j ≤ X.length) ∧
    (∀ (id : Dir) (i : Nat) (u : List Char) (fuel : Nat), (∀ c ∈ u, c ≠ ' ' ∧ c ≠ '\t') → Begins pre → X.drop i = u ++ bodyText (pre ++ l :: post) →
      (X.drop i).length + 1 < fuel → ∃ j, roundAt words b fuel id i = .ok (true, (t, j)) ∧ X.drop j = l.rest ++ linesText post ∧ j ≤ X.length) := by
  induction pre with
  | nil =>
    obtain ⟨label, gap, word, rest, rfl, hword⟩ := directive_stmt hl
    have hB : ∀ (id : Dir) (i : Nat) (u : List Char) (fuel : Nat), (∀ c ∈ u, c ≠ ' ' ∧ c ≠ '\t') → Begins [] →
        X.drop i = u ++ bodyText ([] ++ .stmt label gap word rest :: post) →
        (X.drop i).length + 1 < fuel → ∃ j, roundAt words b fuel id i = .ok (true, (t, j)) ∧ X.drop j = rest ++ linesText post ∧ j ≤ X.length := by
      intro id i u fuel hu _ h hf
      obtain ⟨j, h1, h2, h3⟩ := roundAt_stmt hX (id := id) hu hw0 hlok (eol_lines post) h (f := fuel) (by omega)
      rw [hword] at h3
      exact ⟨j, h3, h1, h2.2⟩
    refine ⟨?_, hB⟩
    intro id i r fuel hr h hf
    obtain ⟨f, rfl⟩ : ∃ f, fuel = f + 1 := ⟨fuel - 1, by omega⟩
    obtain ⟨j, h1, h2, h3⟩ := nextDirectiveAt_line hX (words := words) (id := id) hr hlok h (f := f) (by omega)
    rw [h3]
    exact hB id j [] f (by simp) trivial h1 (by omega)
  | cons x pre ih =>
    obtain ⟨ihA, ihB⟩ := ih (fun l hl => hok l (by simp [hl])) (fun l hl => hnone l (by simp [hl])) htrap.tail
    have hx := hok x (by simp)
    have hB : ∀ (id : Dir) (i : Nat) (u : List Char) (fuel : Nat), (∀ c ∈ u, c ≠ ' ' ∧ c ≠ '\t') → Begins (x :: pre) →
        X.drop i = u ++ bodyText (x :: pre ++ l :: post) →
        (X.drop i).length + 1 < fuel → ∃ j, roundAt words b fuel id i = .ok (true, (t, j)) ∧ X.drop j = l.rest ++ linesText post ∧ j ≤ X.length := by
      intro id i u fuel hu hb h hf
      cases x with
      | comment mark text => exact hb.elim
      | bare label =>
        refine ihB id i (u ++ label ++ ['\n']) fuel ?_ htrap.bare ?_ hf
        · intro c hc
          rcases List.mem_append.mp hc with hc | hc
          · rcases List.mem_append.mp hc with hc | hc
            · exact hu c hc
            · exact ⟨(hx.1.1 c hc).1, (hx.1.1 c hc).2.1⟩
          · rw [List.mem_singleton.mp hc]; decide
        · rw [h]
          have : ∀ ls : List Line, ls ≠ [] → linesText ls = '\n' :: bodyText ls := by
            intro ls hls
            cases ls with
            | nil => exact absurd rfl hls
            | cons _ _ => rfl
          show u ++ (label ++ linesText (pre ++ l :: post)) = _
          rw [this _ (by simp)]
          simp
      | remark label gap mark text =>
        obtain ⟨j, h1, h2, h3⟩ := roundAt_remark hX (words := words) (id := id) hu hx.1 h (f := fuel) (by omega)
        rw [h3]
        refine ihA id j (mark :: text) fuel ?_ h1 (by omega)
        have hm : mark ≠ '\n' := by rcases hx.1.2.2.1 with h | h <;> rw [h] <;> decide
        simp only [List.mem_cons, not_or]
        exact ⟨hm.symm, hx.1.2.2.2⟩
      | stmt label gap word rest =>
        obtain ⟨j, h1, h2, h3⟩ := roundAt_stmt hX (id := id) hu hw0 hx.1 (eol_lines (pre ++ l :: post)) h (f := fuel) (by omega)
        rw [nodirective_stmt (hnone _ (by simp)) hx.2] at h3
        rw [h3]
        exact ihA id j rest fuel hx.1.2.2.2.2.1 h1 (by omega)
    refine ⟨?_, hB⟩
    intro id i r fuel hr h hf
    obtain ⟨f, rfl⟩ : ∃ f, fuel = f + 1 := ⟨fuel - 1, by omega⟩
    obtain ⟨j, h1, h2, h3⟩ := nextDirectiveAt_line hX (words := words) (id := id) hr hx.1 h (f := f) (by omega)
    rw [h3]
    cases hcm : x.isComment with
    | true =>
      rw [if_pos rfl]
      cases x with
      | comment mark text =>
        refine ihA id j (mark :: text) f ?_ h1 (by omega)
        have hm : mark ≠ '\n' := by rcases hx.1.1 with h | h <;> rw [h] <;> decide
        simp only [List.mem_cons, not_or]
        exact ⟨hm.symm, hx.1.2⟩
      | _ => cases hcm
    | false =>
      rw [if_neg (by decide)]
      exact hB id j [] f (by simp) (by cases x <;> first | (cases hcm; done) | trivial) h1 (by omega)

/-- At the end of the text. -/
theorem nextDirectiveAt_none (hX : Holds b X) {words : Words} (hw0 : words [] = none) {ls : List Line} (hok : ∀ l ∈ ls, l.Ok ∧ l.Plain words)
    (hnone : ∀ l ∈ ls, l.directive words = none) (htrap : NoTrap ls) :
    (∀ (id : Dir) (i : Nat) (r : List Char) (fuel : Nat), '\n' ∉ r → X.drop i = r ++ linesText ls →
      (X.drop i).length + 1 < fuel → ∃ j, nextDirectiveAt words b fuel (id, i) = .ok (false, (id, j))) ∧
    (∀ (id : Dir) (i : Nat) (u : List Char) (fuel : Nat), (∀ c ∈ u, c ≠ ' ' ∧ c ≠ '\t') → Begins ls → X.drop i = u ++ bodyText ls →
      (X.drop i).length + 1 < fuel → ∃ j, roundAt words b fuel id i = .ok (false, (id, j))) := by
  induction ls with
  | nil =>
    have hA : ∀ (id : Dir) (i : Nat) (r : List Char) (fuel : Nat), '\n' ∉ r → X.drop i = r ++ linesText [] →
        (X.drop i).length + 1 < fuel → ∃ j, nextDirectiveAt words b fuel (id, i) = .ok (false, (id, j)) := by
      intro id i r fuel hr h hf
      obtain ⟨f, rfl⟩ : ∃ f, fuel = f + 1 := ⟨fuel - 1, by omega⟩
      have h' : X.drop i = r := by simpa [linesText] using h
      obtain ⟨j, h1⟩ := skipToNextLineAt_end hX hr h' (fuel := f) (by rw [h'] at hf; omega)
      refine ⟨j, ?_⟩
      rw [nextDirectiveAt, h1]
      rfl
    refine ⟨hA, ?_⟩
    intro id i u fuel hu _ h hf
    have h1 := skipLabelAt_st hX hu (w := []) (.inr (.inr rfl)) h (fuel := fuel) (by rw [h] at hf; simp [bodyText] at hf; omega)
    have h2 : X.drop (i + u.length) = [] := drop_add h
    obtain ⟨f, rfl⟩ : ∃ f, fuel = f + 1 := ⟨fuel - 1, by omega⟩
    obtain ⟨j, h3⟩ := hA id (i + u.length) [] (f + 1) (by simp) (by rw [h2]; rfl) (by rw [h2]; simp; omega)
    refine ⟨j, ?_⟩
    unfold roundAt
    rw [h1, ok_bind]
    have h4 : skipWhiteSpaceAt b (f + 1) (i + u.length) = .ok (true, i + u.length) := by
      unfold skipWhiteSpaceAt
      rw [hX.char, h2]
      rfl
    rw [h4, ok_bind]
    exact h3
  | cons x pre ih =>
    obtain ⟨ihA, ihB⟩ := ih (fun l hl => hok l (by simp [hl])) (fun l hl => hnone l (by simp [hl])) htrap.tail
    have hx := hok x (by simp)
    have hB : ∀ (id : Dir) (i : Nat) (u : List Char) (fuel : Nat), (∀ c ∈ u, c ≠ ' ' ∧ c ≠ '\t') → Begins (x :: pre) →
        X.drop i = u ++ bodyText (x :: pre) →
        (X.drop i).length + 1 < fuel → ∃ j, roundAt words b fuel id i = .ok (false, (id, j)) := by
      intro id i u fuel hu hb h hf
      cases x with
      | comment mark text => exact hb.elim
      | bare label =>
        cases pre with
        | nil =>
          refine ihB id i (u ++ label) fuel ?_ trivial (by rw [h]; simp [bodyText, Line.text, linesText]) hf
          intro c hc
          rcases List.mem_append.mp hc with hc | hc
          · exact hu c hc
          · exact ⟨(hx.1.1 c hc).1, (hx.1.1 c hc).2.1⟩
        | cons y pre =>
          refine ihB id i (u ++ label ++ ['\n']) fuel ?_ htrap.bare (by rw [h]; simp [bodyText, Line.text, linesText]) hf
          intro c hc
          rcases List.mem_append.mp hc with hc | hc
          · rcases List.mem_append.mp hc with hc | hc
            · exact hu c hc
            · exact ⟨(hx.1.1 c hc).1, (hx.1.1 c hc).2.1⟩
          · rw [List.mem_singleton.mp hc]; decide
      | remark label gap mark text =>
        obtain ⟨j, h1, h2, h3⟩ := roundAt_remark hX (words := words) (id := id) hu hx.1 h (f := fuel) (by omega)
        rw [h3]
        refine ihA id j (mark :: text) fuel ?_ h1 (by omega)
        have hm : mark ≠ '\n' := by rcases hx.1.2.2.1 with h | h <;> rw [h] <;> decide
        simp only [List.mem_cons, not_or]
        exact ⟨hm.symm, hx.1.2.2.2⟩
      | stmt label gap word rest =>
        obtain ⟨j, h1, h2, h3⟩ := roundAt_stmt hX (id := id) hu hw0 hx.1 (eol_lines pre) h (f := fuel) (by omega)
        rw [nodirective_stmt (hnone _ (by simp)) hx.2] at h3
        rw [h3]
        exact ihA id j rest fuel hx.1.2.2.2.2.1 h1 (by omega)
    refine ⟨?_, hB⟩
    intro id i r fuel hr h hf
    obtain ⟨f, rfl⟩ : ∃ f, fuel = f + 1 := ⟨fuel - 1, by omega⟩
    obtain ⟨j, h1, h2, h3⟩ := nextDirectiveAt_line hX (words := words) (id := id) hr hx.1 h (f := f) (by omega)
    rw [h3]
    cases hcm : x.isComment with
    | true =>
      rw [if_pos rfl]
      cases x with
      | comment mark text =>
        refine ihA id j (mark :: text) f ?_ h1 (by omega)
        have hm : mark ≠ '\n' := by rcases hx.1.1 with h | h <;> rw [h] <;> decide
        simp only [List.mem_cons, not_or]
        exact ⟨hm.symm, hx.1.2⟩
      | _ => cases hcm
    | false =>
      rw [if_neg (by decide)]
      exact hB id j [] f (by simp) (by cases x <;> first | (cases hcm; done) | trivial) h1 (by omega)

end

end Verif.Lexer
