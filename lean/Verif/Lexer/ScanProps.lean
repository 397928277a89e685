import Verif.Lexer.WordsProps
/-!
# C58: a line is divided into the longest tokens
-/
namespace Verif.Lexer

variable {v : Values} {A d : Nat} {b : Buffer}

theorem nul_notSpace : isSpace nul = false := by decide
theorem nul_notSymbol : isSymbol nul = false := by decide
theorem nul_notStart : isStart nul = false := by decide

theorem head_prop {V : List Char} {P : Char → Prop} (h0 : P nul) (h : ∀ c, V.head? = some c → P c) : P (V.head?.getD nul) := by
  cases V with
  | nil => exact h0
  | cons c V => exact h c rfl

/-! ### Blanks and comments -/

theorem skipBlanks_at (hd : 1 ≤ d) (hA : A + d ≤ stackSize) {V : List Char} (hV : ∀ c, V.head? = some c → isSpace c = true → c = '\n') :
    ∀ (g : List Char) (n : Nat) (s : Bool) (b : Buffer), Blanks g → g.length < n → Pos v A b (g ++ V) d →
      ∃ b', skipBlanks n s b = .ok (s || !g.isEmpty, b') ∧ Pos v A b' V d := by
  intro g
  induction g with
  | nil =>
    intro n s b _ hn hb
    obtain ⟨n, rfl⟩ : ∃ m, n = m + 1 := ⟨n - 1, by simp at hn; omega⟩
    simp only [List.nil_append] at hb
    cases V with
    | nil =>
      obtain ⟨b1, h1, h2, _⟩ := hb.get_nil (by omega)
      refine ⟨b1, ?_, h2.mono (by omega)⟩
      unfold skipBlanks
      rw [h1, ok_bind]
      simp
    | cons c V =>
      have hc : c ≠ nul := by rintro rfl; exact hb.noNul (by simp)
      obtain ⟨b1, b2, h1, h2, h3⟩ := hb.peek hd hA
      refine ⟨b2, ?_, h3⟩
      unfold skipBlanks
      rw [h1, ok_bind]
      simp only []
      rw [if_neg (fun h => h.1 (hV c rfl h.2.2)), if_pos (by simpa using hc), h2, ok_bind]
      simp
  | cons c g ih =>
    intro n s b hg hn hb
    obtain ⟨n, rfl⟩ : ∃ m, n = m + 1 := ⟨n - 1, by simp at hn; omega⟩
    have hc : c ≠ nul := by rintro rfl; exact hb.noNul (by simp)
    obtain ⟨b1, h1, h2⟩ := hb.get_cons (by omega)
    obtain ⟨b2, h3, h4⟩ := ih n true b1 (fun x hx => hg x (by simp [hx])) (by simp at hn; omega) (h2.mono (by omega))
    refine ⟨b2, ?_, h4⟩
    unfold skipBlanks
    rw [h1, ok_bind]
    simp only []
    rw [if_pos ⟨(hg c (by simp)).2, hc, (hg c (by simp)).1⟩, h3]
    simp

theorem skipComment_at (hA : A ≤ stackSize) {V : List Char} (hV : V = [] ∨ V.head? = some '\n') :
    ∀ (c : List Char) (n : Nat) (b : Buffer), '\n' ∉ c → c.length < n → Pos v A b (c ++ V) d →
      ∃ b', skipComment n b = .ok (V.head?.getD nul, b') ∧ Pos v A b' V.tail (d - 1) ∧ (V = [] → Ended b') := by
  intro c
  induction c with
  | nil =>
    intro n b _ hn hb
    obtain ⟨n, rfl⟩ : ∃ m, n = m + 1 := ⟨n - 1, by simp at hn; omega⟩
    obtain ⟨b1, h1, h2, h3⟩ := hb.get hA
    refine ⟨b1, ?_, h2, h3⟩
    unfold skipComment
    simp only [List.nil_append] at h1
    rw [h1, ok_bind]
    simp only []
    rw [if_pos]
    rcases hV with rfl | hV
    · decide
    · rw [hV]; decide
  | cons x c ih =>
    intro n b hc hn hb
    obtain ⟨n, rfl⟩ : ∃ m, n = m + 1 := ⟨n - 1, by simp at hn; omega⟩
    have hx : x ≠ nul := by rintro rfl; exact hb.noNul (by simp)
    simp only [List.mem_cons, not_or] at hc
    obtain ⟨b1, h1, h2⟩ := hb.get_cons hA
    obtain ⟨b2, h3, h4⟩ := ih n b1 hc.2 (by simp at hn; omega) (h2.mono (Nat.sub_le _ _))
    refine ⟨b2, ?_, h4⟩
    unfold skipComment
    rw [h1, ok_bind]
    simp only []
    rw [if_neg (by unfold atLineEnd; simp [hx, Ne.symm hc.1]), h3]

theorem comment_iff {V : List Char} (sp ls : Bool) :
    CommentAt (ls || sp) V ↔ V.head?.getD nul = ';' ∨ (V.head?.getD nul = '*' ∧ (sp = true ∨ ls = true)) := by
  cases V with
  | nil =>
    have h1 : ¬ nul = ';' := by decide
    have h2 : ¬ nul = '*' := by decide
    simp [CommentAt, h1, h2]
  | cons c V => simp [CommentAt, or_comm]

theorem consumeComment_none (hd : 1 ≤ d) (hA : A + d ≤ stackSize) {V : List Char} (n : Nat) (sp ls : Bool) (hV : ¬ CommentAt (ls || sp) V)
    (hb : Pos v A b V d) : ∃ b', consumeComment n sp ls b = .ok (sp, b') ∧ Pos v A b' V d := by
  obtain ⟨b1, b2, h1, h2, h3⟩ := hb.peek hd hA
  refine ⟨b2, ?_, h3⟩
  unfold consumeComment
  rw [h1, ok_bind]
  simp only []
  rw [if_neg (fun h => hV ((comment_iff sp ls).mpr h)), h2, ok_bind]

theorem consumeComment_some (hd : 1 ≤ d) (hA : A + d ≤ stackSize) {c V : List Char} {n : Nat} (sp ls : Bool) (hc : CommentAt (ls || sp) c)
    (hn : '\n' ∉ c) (hlen : c.length ≤ n) (hV : V = [] ∨ V.head? = some '\n')
    (hb : Pos v A b (c ++ V) d) : ∃ b', consumeComment n sp ls b = .ok (false, b') ∧ Pos v A b' V d := by
  cases c with
  | nil => simp [CommentAt] at hc
  | cons x c =>
    simp only [List.mem_cons, not_or] at hn
    obtain ⟨b1, h1, h2⟩ := hb.get_cons (by omega)
    obtain ⟨b2, h3, h4, h5⟩ := skipComment_at (by omega) hV c n b1 hn.2 (by simp at hlen; omega) h2
    have hlit : Literal v V := by
      have := hb.lit.drop (x :: c).length
      rwa [List.drop_left] at this
    obtain ⟨b3, h6, h7⟩ := h4.back (fun hm => hb.noNul (by simp [hm])) h5 (by omega) hlit
    refine ⟨b3, ?_, h7.mono (by omega)⟩
    unfold consumeComment
    rw [h1, ok_bind]
    simp only []
    have hc' : x = ';' ∨ (x = '*' ∧ (sp = true ∨ ls = true)) := (comment_iff (V := x :: c) sp ls).mp hc
    rw [if_pos hc', h3, ok_bind]
    simp only []
    rw [h6, ok_bind]

/-! ### Names -/

theorem symbolChars_at (hA : A ≤ stackSize) {V : List Char} (hV : ∀ c, V.head? = some c → isSymbol c = false) :
    ∀ (s text : List Char) (room : Nat) (b : Buffer) (d : Nat), (∀ c ∈ s, isSymbol c = true) → s.length ≤ room → Pos v A b (s ++ V) d →
      ∃ b', symbolChars room text b = .ok (text ++ s, V.head?.getD nul, b') ∧ Pos v A b' V.tail (d - (s.length + 1)) ∧ (V = [] → Ended b') := by
  intro s
  induction s with
  | nil =>
    intro text room b d _ _ hb
    obtain ⟨b1, h1, h2, h3⟩ := hb.get hA
    refine ⟨b1, ?_, by simpa using h2, h3⟩
    unfold symbolChars
    simp only [List.nil_append] at h1
    rw [h1, ok_bind]
    simp only []
    rw [if_neg (by rw [head_prop (P := fun c => isSymbol c = false) nul_notSymbol hV]; decide)]
    simp
  | cons x s ih =>
    intro text room b d hs hr hb
    obtain ⟨room, rfl⟩ : ∃ m, room = m + 1 := ⟨room - 1, by simp at hr; omega⟩
    obtain ⟨b1, h1, h2⟩ := hb.get_cons hA
    obtain ⟨b2, h3, h4, h5⟩ := ih (text ++ [x]) room b1 (d - 1) (fun c hc => hs c (by simp [hc])) (by simp at hr; omega) h2
    refine ⟨b2, ?_, h4.mono (by simp; omega), h5⟩
    unfold symbolChars
    rw [h1, ok_bind]
    simp only []
    rw [if_pos (hs x (by simp)), h3]
    simp

/-- A name is a point or nothing, a letter, and other characters. -/
theorem IsName.parts {name : List Char} (h : IsName name) :
    ∃ p c s, name = p ++ c :: s ∧ (p = [] ∨ p = ['.']) ∧ isStart c = true ∧ ∀ x ∈ s, isSymbol x = true := by
  match name, h with
  | [], h => exact absurd h (by simp [IsName])
  | [c], h =>
    have h' : isStart c = true ∧ ∀ x ∈ ([] : List Char), isSymbol x = true := by
      unfold IsName at h; split at h <;> simp_all
    exact ⟨[], c, [], rfl, .inl rfl, h'.1, h'.2⟩
  | c :: x :: s, h =>
    by_cases hc : c = '.'
    · subst hc; exact ⟨['.'], x, s, rfl, .inr rfl, h.1, h.2⟩
    · refine ⟨[], c, x :: s, rfl, .inl rfl, ?_⟩
      unfold IsName at h
      split at h
      · simp_all
      · simp_all
      · simp_all

theorem start_ne {c : Char} (h : isStart c = true) : c ≠ '.' ∧ c ≠ nul := by
  constructor <;> (rintro rfl; exact absurd h (by decide))

/-- The text of a name and the character behind it. -/
theorem acceptLabel_chars (E : Env) (hd : 2 ≤ d) (hA : A + d ≤ stackSize) {name V : List Char} (n : Nat) (hname : IsName name) (hlen : name.length ≤ 256)
    (hV : ∀ c, V.head? = some c → isSymbol c = false ∧ c ≠ '$') (hb : Pos v A b (name ++ V) d) :
    ∃ b1, Pos v A b1 V.tail (d - (name.length + 1)) ∧ (V = [] → Ended b1) ∧
      acceptLabel E (n + 1) b = match if V.head?.getD nul = '#' then E.strings name else none with
        | some value => (unputString b1 value).bind fun b => acceptLabel E n b
        | none => (unput b1 (V.head?.getD nul)).bind fun b => .ok (some name, b) := by
  have hsz : tokenSize = 257 := rfl
  obtain ⟨p, c, s, rfl, hp, hc, hs⟩ := hname.parts
  simp only [List.length_append, List.length_cons] at hlen
  have hlitV : Literal v V := by
    have := hb.lit.drop (p ++ c :: s).length
    rwa [List.drop_left] at this
  have hnulV : nul ∉ V := fun hm => hb.noNul (by simp [hm])
  -- the first letter
  have hfirst : ∃ b1, Pos v A b1 (s ++ V) (d - (p.length + 1)) ∧ acceptLabel E (n + 1) b =
      (symbolTail (p ++ [c]) b1).bind fun (text, b) =>
            (getChar b).bind fun (c, b) =>
              match if c = '#' then E.strings text else none with
              | some value => (unputString b value).bind fun b => acceptLabel E n b
              | none => (unput b c).bind fun b => .ok (some text, b) := by
    rcases hp with rfl | rfl
    · obtain ⟨b1, h1, h2⟩ := Pos.get_cons (c := c) (V := s ++ V) (by simpa using hb) (by omega)
      refine ⟨b1, by simpa using h2, ?_⟩
      conv => lhs; unfold acceptLabel
      rw [h1, ok_bind]
      simp only []
      rw [if_neg (start_ne hc).1, ok_bind]
      simp only []
      rw [if_pos hc]
      rfl
    · obtain ⟨b0, h0, h0'⟩ := Pos.get_cons (c := '.') (V := c :: (s ++ V)) (by simpa using hb) (by omega)
      obtain ⟨b1, h1, h2⟩ := h0'.get_cons (by omega)
      refine ⟨b1, by simpa [Nat.sub_sub] using h2, ?_⟩
      conv => lhs; unfold acceptLabel
      rw [h0, ok_bind]
      simp only []
      rw [if_pos trivial, h1, ok_bind, ok_bind]
      simp only []
      rw [if_pos hc]
      rfl
  obtain ⟨b1, hb1, heq⟩ := hfirst
  obtain ⟨b2, h2, hb2, he2⟩ := symbolChars_at (by omega) (fun x hx => (hV x hx).1) s (p ++ [c]) (tokenSize - (p ++ [c]).length) b1 _ hs
    (by simp; omega) hb1
  obtain ⟨b3, h3, hb3⟩ := hb2.back hnulV he2 (by omega) hlitV
  obtain ⟨b4, h4, hb4, he4⟩ := hb3.get (by omega)
  refine ⟨b4, hb4.mono ?_, he4, ?_⟩
  · simp only [List.length_append, List.length_cons]
    omega
  rw [heq]
  unfold symbolTail
  rw [h2, ok_bind]
  simp only []
  rw [if_neg (head_prop (P := fun c => c ≠ '$') (by decide) (fun x hx => (hV x hx).2)), h3, ok_bind,
    if_pos (by simp; omega), ok_bind]
  simp only []
  rw [h4, ok_bind]
  simp

theorem Literal.append {s V : List Char} (hs : '\\' ∉ s) (h : Literal v V) : Literal v (s ++ V) := by
  induction s with
  | nil => exact h
  | cons c s ih =>
    simp only [List.mem_cons, not_or] at hs
    exact ⟨fun hc => absurd hc.symm hs.1, ih hs.2⟩

/-- **Names.** A name is read, with the values of string symbols in it, and what follows is left. -/
theorem acceptLabel_some (E : Env) {k e : Nat} {V name rest : List Char} (h : NameAt E.strings k e V name rest) :
    ∀ {n : Nat} {b : Buffer} {d : Nat}, 2 ≤ d → A + d + e ≤ stackSize → k < n → Pos v A b V d →
      ∃ b', acceptLabel E n b = .ok (some name, b') ∧ Pos v A b' rest (d + e) := by
  induction h with
  | @plain name rest hname hlen hrest =>
    intro n b d hd hA hn hb
    obtain ⟨n, rfl⟩ : ∃ m, n = m + 1 := ⟨n - 1, by omega⟩
    obtain ⟨b1, h1, he, heq⟩ := acceptLabel_chars E hd (by omega) n hname hlen (fun c hc => ⟨(hrest c hc).1, (hrest c hc).2.1⟩) hb
    have hlit : Literal v rest := by
      have := hb.lit.drop name.length
      rwa [List.drop_left] at this
    obtain ⟨b2, h2, h3⟩ := h1.back (fun hm => hb.noNul (by simp [hm])) he (by omega) hlit
    refine ⟨b2, ?_, h3.mono (by omega)⟩
    rw [heq]
    have hno : (if rest.head?.getD nul = '#' then E.strings name else none) = none := by
      by_cases hx : rest.head?.getD nul = '#'
      · rw [if_pos hx]
        cases rest with
        | nil => exact absurd hx (by decide)
        | cons c rest => exact (hrest c rfl).2.2 hx
      · rw [if_neg hx]
    rw [hno]
    simp only []
    rw [h2, ok_bind]
  | @expand k e name value rest name' rest' hname hlen hS hv1 hv2 _ ih =>
    intro n b d hd hA hn hb
    obtain ⟨n, rfl⟩ : ∃ m, n = m + 1 := ⟨n - 1, by omega⟩
    obtain ⟨b1, h1, he, heq⟩ := acceptLabel_chars E hd (by omega) n hname hlen (V := '#' :: rest)
      (fun c hc => by cases hc; exact ⟨by decide, by decide⟩) hb
    have hlit : Literal v rest := by
      have := hb.lit.drop name.length
      rw [List.drop_left] at this
      exact this.2
    obtain ⟨b2, h2, h3⟩ := h1.unputString (s := value) hv1 (by omega) (hlit.append hv2)
    obtain ⟨b3, h4, h5⟩ := ih (n := n) (b := b2) (d := d + value.length) (by omega) (by omega) (by omega) (h3.mono (by omega))
    refine ⟨b3, ?_, h5.mono (by omega)⟩
    rw [heq]
    have hyes : (if ('#' :: rest).head?.getD nul = '#' then E.strings name else none) = some value := by
      rw [if_pos (by rfl), hS]
    rw [hyes]
    simp only []
    rw [h2, ok_bind, h4]

/-- Without a name nothing is consumed. -/
theorem acceptLabel_none (E : Env) (hd : 2 ≤ d) (hA : A + d ≤ stackSize) {V : List Char} {n : Nat} (hn : 0 < n) (h : NoName V) (hb : Pos v A b V d) :
    ∃ b', acceptLabel E n b = .ok (none, b') ∧ Pos v A b' V d := by
  obtain ⟨n, rfl⟩ : ∃ m, n = m + 1 := ⟨n - 1, by omega⟩
  by_cases hdot : V.head? = some '.'
  · obtain ⟨V, rfl⟩ : ∃ r, V = '.' :: r := by
      cases V with
      | nil => cases hdot
      | cons c V => cases hdot; exact ⟨V, rfl⟩
    have hnul : nul ∉ V := fun hm => hb.noNul (by simp [hm])
    obtain ⟨b1, h1, h2⟩ := hb.get_cons (by omega)
    obtain ⟨b2, h3, h4, he⟩ := h2.get (by omega)
    obtain ⟨b3, h5, h6⟩ := h4.back hnul he (by omega) hb.lit.2
    obtain ⟨b4, h7, h8⟩ := h6.unput (c := '.') (by decide) (by omega) hb.lit
    refine ⟨b4, ?_, h8.mono (by omega)⟩
    unfold acceptLabel
    rw [h1, ok_bind]
    simp only []
    rw [if_pos trivial, h3, ok_bind, ok_bind]
    simp only []
    rw [if_neg]
    · show (((unputString b2 []).bind fun b => unput b _).bind fun b => unput b '.').bind _ = _
      show (((Outcome.ok b2).bind fun b => unput b (V.head?.getD nul)).bind fun b => unput b '.').bind _ = _
      rw [ok_bind, h5, ok_bind, h7, ok_bind]
    · rw [head_prop (V := V) (P := fun c => isStart c = false) nul_notStart]
      · decide
      · intro c hc
        cases V with
        | nil => cases hc
        | cons x V => cases hc; exact h.2 _ _ rfl
  · obtain ⟨b1, b2, h1, h2, h3⟩ := hb.peek (by omega) hA
    refine ⟨b2, ?_, h3⟩
    unfold acceptLabel
    rw [h1, ok_bind]
    simp only []
    rw [if_neg (head_ne (by decide) hdot), ok_bind]
    simp only []
    rw [if_neg (by rw [head_prop (V := V) (P := fun c => isStart c = false) nul_notStart h.1]; decide)]
    show ((Outcome.ok b1).bind fun b => unput b (V.head?.getD nul)).bind _ = _
    rw [ok_bind, h2, ok_bind]

/-! ### Strings -/

theorem quoted_at (hA : A ≤ stackSize) {m : Option Char} {cs : List Char} (h : Quoted m cs) :
    ∀ (n : Nat) (text V : List Char) (b : Buffer), (∀ q, m = some q → q = '"' ∨ q = '\'') → cs.length < n → text.length + cs.length < tokenSize →
      Pos v A b (cs ++ m.getD '}' :: V) d →
      ∃ b', quoted n m text b = .ok (true, text ++ cs ++ [m.getD '}'], b') ∧ Pos v A b' V d := by
  induction h with
  | nil m =>
    intro n text V b hm hn ht hb
    obtain ⟨n, rfl⟩ : ∃ m, n = m + 1 := ⟨n - 1, by simp at hn; omega⟩
    obtain ⟨b1, h1, h2⟩ := Pos.get_cons (c := m.getD '}') (V := V) (by simpa using hb) hA
    refine ⟨b1, ?_, h2.mono (Nat.sub_le _ _)⟩
    unfold quoted
    rw [h1, ok_bind]
    simp only []
    rw [if_neg (by simp at ht; omega), if_pos trivial]
    simp
  | @plain q c cs h1 h2 h3 h4 h5 _ ih =>
    intro n text V b hm hn ht hb
    obtain ⟨n, rfl⟩ : ∃ m, n = m + 1 := ⟨n - 1, by simp at hn; omega⟩
    simp only [List.length_cons] at hn ht
    obtain ⟨b1, g1, g2⟩ := hb.get_cons hA
    obtain ⟨b2, g3, g4⟩ := ih n (text ++ [c]) V b1 hm (by omega) (by simp; omega) (g2.mono (Nat.sub_le _ _))
    refine ⟨b2, ?_, g4⟩
    unfold quoted
    rw [g1, ok_bind]
    simp only []
    rw [if_neg (by omega), if_neg (by simpa using h1), if_neg h2, if_neg h3, if_neg h4, g3]
    simp
  | @escape q c cs h1 _ ih =>
    intro n text V b hm hn ht hb
    obtain ⟨n, rfl⟩ : ∃ m, n = m + 1 := ⟨n - 1, by simp at hn; omega⟩
    simp only [List.length_cons] at hn ht
    obtain ⟨b1, g1, g2⟩ := hb.get_cons hA
    obtain ⟨b2, g3, g4⟩ := Pos.get_cons (c := c) (V := cs ++ q :: V) (by simpa using g2) hA
    obtain ⟨b3, g5, g6⟩ := ih n (text ++ ['\\'] ++ [c]) V b2 hm (by omega) (by simp; omega) (g4.mono (by omega))
    refine ⟨b3, ?_, g6⟩
    have hq : ¬ ('\\' = (some q).getD '}') := by
      rcases hm q rfl with rfl | rfl <;> decide
    unfold quoted
    rw [g1, ok_bind]
    simp only []
    rw [if_neg (by omega), if_neg hq, if_pos trivial, g3, ok_bind]
    simp only []
    rw [if_neg h1, if_neg (by simp; omega), g5]
    simp
  | @braces q inner cs _ _ ih1 ih2 =>
    intro n text V b hm hn ht hb
    obtain ⟨n, rfl⟩ : ∃ m, n = m + 1 := ⟨n - 1, by simp at hn; omega⟩
    simp only [List.length_cons, List.length_append, List.cons_append] at hn ht
    obtain ⟨b1, g1, g2⟩ := Pos.get_cons (c := '{') (V := inner ++ '}' :: (cs ++ q :: V)) (by simpa using hb) hA
    obtain ⟨b2, g3, g4⟩ := ih1 n (text ++ ['{']) (cs ++ q :: V) b1 (by simp) (by omega) (by simp; omega) (g2.mono (Nat.sub_le _ _))
    obtain ⟨b3, g5, g6⟩ := ih2 n (text ++ ['{'] ++ inner ++ ['}']) V b2 hm (by omega) (by simp; omega) g4
    refine ⟨b3, ?_, g6⟩
    have hq : ¬ ('{' = (some q).getD '}') := by
      rcases hm q rfl with rfl | rfl <;> decide
    unfold quoted
    rw [g1, ok_bind]
    simp only []
    rw [if_neg (by omega), if_neg hq, if_neg (by decide), if_pos trivial, g3, ok_bind]
    show quoted n (some q) (text ++ ['{'] ++ inner ++ ['}']) b2 = _
    rw [g5]
    simp
  | @inside c cs h1 h2 h3 h4 _ ih =>
    intro n text V b hm hn ht hb
    obtain ⟨n, rfl⟩ : ∃ m, n = m + 1 := ⟨n - 1, by simp at hn; omega⟩
    simp only [List.length_cons] at hn ht
    obtain ⟨b1, g1, g2⟩ := hb.get_cons hA
    obtain ⟨b2, g3, g4⟩ := ih n (text ++ [c]) V b1 hm (by omega) (by simp; omega) (g2.mono (Nat.sub_le _ _))
    refine ⟨b2, ?_, g4⟩
    unfold quoted
    rw [g1, ok_bind]
    simp only []
    rw [if_neg (by omega), if_neg (by simpa using h1), if_neg (by simp [h2, h3]), g3]
    simp
  | @nested q inner cs hq _ _ ih1 ih2 =>
    intro n text V b hm hn ht hb
    obtain ⟨n, rfl⟩ : ∃ m, n = m + 1 := ⟨n - 1, by simp at hn; omega⟩
    simp only [List.length_cons, List.length_append, List.cons_append] at hn ht
    obtain ⟨b1, g1, g2⟩ := Pos.get_cons (c := q) (V := inner ++ q :: (cs ++ '}' :: V)) (by simpa using hb) hA
    obtain ⟨b2, g3, g4⟩ := ih1 n (text ++ [q]) (cs ++ '}' :: V) b1 (fun q' h => by cases h; exact hq) (by omega) (by simp; omega) (g2.mono (Nat.sub_le _ _))
    obtain ⟨b3, g5, g6⟩ := ih2 n (text ++ [q] ++ inner ++ [q]) V b2 hm (by omega) (by simp; omega) g4
    refine ⟨b3, ?_, g6⟩
    have hq' : ¬ (q = (none : Option Char).getD '}') := by
      rcases hq with rfl | rfl <;> decide
    unfold quoted
    rw [g1, ok_bind]
    simp only []
    rw [if_neg (by omega), if_neg hq', if_pos hq.symm, g3, ok_bind]
    show quoted n none (text ++ [q] ++ inner ++ [q]) b2 = _
    rw [g5]
    simp

/-- **Strings.** A string is read to its end. -/
theorem acceptString_some (hA : A ≤ stackSize) {q : Char} {cs V : List Char} (hq : q = '"' ∨ q = '\'') (h : Quoted (some q) cs) (hlen : cs.length ≤ 256)
    (hb : Pos v A b (q :: cs ++ q :: V) d) : ∃ b', acceptString b = .ok (some cs, b') ∧ Pos v A b' V d := by
  have hsz : tokenSize = 257 := rfl
  obtain ⟨b1, h1, h2⟩ := hb.get_cons hA
  obtain ⟨b2, h3, h4⟩ := quoted_at hA h (tokenSize + 1) [] V b1 (fun q' h => by cases h; exact hq) (by omega) (by simp; omega) (h2.mono (Nat.sub_le _ _))
  refine ⟨b2, ?_, h4⟩
  unfold acceptString
  rw [h1, ok_bind]
  simp only []
  rw [if_pos hq, h3, ok_bind]
  simp

theorem acceptString_none (hd : 1 ≤ d) (hA : A + d ≤ stackSize) {V : List Char} (h : V.head? ≠ some '"' ∧ V.head? ≠ some '\'')
    (hb : Pos v A b V d) : ∃ b', acceptString b = .ok (none, b') ∧ Pos v A b' V d := by
  obtain ⟨b1, b2, h1, h2, h3⟩ := hb.peek hd hA
  refine ⟨b2, ?_, h3⟩
  unfold acceptString
  rw [h1, ok_bind]
  simp only []
  rw [if_neg (fun hx => hx.elim (head_ne (by decide) h.1) (head_ne (by decide) h.2)), h2, ok_bind]

/-! ### Numbers -/

theorem acceptVariadic_none (hd : 1 ≤ d) (hA : A + d ≤ stackSize) {V : List Char} (o : Options) (ls : Bool) (n : Nat) (h : NoNumber V)
    (hb : Pos v A b V d) : ∃ b', acceptVariadic o ls n b = .ok (none, b') ∧ Pos v A b' V d := by
  obtain ⟨b1, b2, h1, h2, h3⟩ := hb.peek hd hA
  refine ⟨b2, ?_, h3⟩
  have hh := head_prop (V := V) (P := fun c => c ≠ '$' ∧ c ≠ '%' ∧ c ≠ '`' ∧ ¬ ('0' ≤ c ∧ c ≤ '9')) (by decide) h
  unfold acceptVariadic
  rw [h1, ok_bind]
  simp only []
  rw [if_neg hh.1, if_neg hh.2.1, if_neg hh.2.2.1, h2, ok_bind, if_neg hh.2.2.2]

/-! ### Tokens -/

theorem Longest.unique {ws : List Word} {V : List Char} {w w' : Word} (h : Longest ws V w) (h' : Longest ws V w') : w = w' := by
  rcases Nat.lt_trichotomy w.name.length w'.name.length with hl | hl | hl
  · have := h.2.2 _ hl h'.1
    rw [h'.2.1] at this; cases this
  · have := h.2.1
    rw [hl, h'.2.1] at this
    cases this; rfl
  · have := h'.2.2 _ hl h.1
    rw [h.2.1] at this; cases this

theorem Longest.pos {ws : List Word} (hg : GoodWords ws) {V : List Char} {w : Word} (h : Longest ws V w) : 0 < w.name.length := by
  have hm := (named_mem h.2.1).1
  exact List.length_pos_iff.mpr (hg w hm).1

theorem NameAt.pos {S : List Char → Option (List Char)} {k e : Nat} {V name rest : List Char} (h : NameAt S k e V name rest) : 0 < name.length := by
  induction h with
  | plain hname _ _ =>
    obtain ⟨p, c, s, rfl, _⟩ := hname.parts
    simp; omega
  | expand _ _ _ _ _ _ ih => exact ih

/-- What the lexer works with is the language. -/
structure Env.Is (E : Env) (L : Language) : Prop where
  words : E.words.Holds L.words
  strings : E.strings = L.strings
  opts : E.opts = L.opts
  good : GoodWords L.words
  bin0 : L.opts.bin0 ≠ nul
  bin1 : L.opts.bin1 ≠ nul

/-- The part of `acceptToken` behind the numbers. -/
theorem acceptToken_tail {E : Env} {n : Nat} {V : List Char} (ls : Bool) (hd : 1 ≤ d) (hA : A + d ≤ stackSize) (h : NoNumber V) (hb : Pos v A b V d) :
    ∃ b', Pos v A b' V d ∧ acceptToken E n ls b =
      (matchWord E.words b').bind fun (word, afterWord) =>
        (acceptLabel E n b').bind fun (name, b) =>
          let wordLength := (word.map (·.name.length)).getD 0
          let nameLength := (name.map (·.length)).getD 0
          if nameLength ≠ 0 ∧ wordLength < nameLength then .ok (name.map .ident, b)
          else if wordLength ≠ 0 then .ok (word.map fun w => .word w.token, afterWord)
          else
            (acceptString b).bind fun
              | (some s, b) => .ok (some (.string s), b)
              | (none, b) => (getChar b).bind fun (c, b) => .ok (if c = nul then none else some (.char c), b) := by
  obtain ⟨b1, h1, h2⟩ := acceptVariadic_none hd hA E.opts ls n h hb
  refine ⟨b1, h2, ?_⟩
  unfold acceptToken
  rw [h1, ok_bind]
  rfl

theorem Literal.suffix {s V : List Char} (h : Literal v (s ++ V)) : Literal v V := by
  have := h.drop s.length
  rwa [List.drop_left] at this

theorem noNumber_quote {q : Char} {V : List Char} (hq : q = '"' ∨ q = '\'') : NoNumber (q :: V) := by
  intro c hc
  cases hc
  rcases hq with rfl | rfl <;> decide

theorem noName_quote {q : Char} {V : List Char} (hq : q = '"' ∨ q = '\'') : NoName (q :: V) := by
  refine ⟨?_, ?_⟩
  · intro c hc
    cases hc
    rcases hq with rfl | rfl <;> decide
  · intro c V' h
    cases h
    rcases hq with hq | hq <;> exact absurd hq (by decide)

/-- Without a word and a name. -/
theorem acceptToken_other {E : Env} {L : Language} (hE : E.Is L) {n : Nat} (hn : 0 < n) (hd : 2 ≤ d) (hT : E.words.maxLength ≤ d) (hA : A + d ≤ stackSize)
    {V : List Char} (ls : Bool) (h1 : NoNumber V) (h2 : NoWord L.words V) (h3 : NoName V) (hb : Pos v A b V d) :
    ∃ b', Pos v A b' V d ∧ acceptToken E n ls b = (acceptString b').bind fun
              | (some s, b) => .ok (some (.string s), b)
              | (none, b) => (getChar b).bind fun (c, b) => .ok (if c = nul then none else some (.char c), b) := by
  obtain ⟨b1, hb1, heq⟩ := acceptToken_tail (E := E) (n := n) ls (by omega) hA h1 hb
  obtain ⟨b2, e2, hb2⟩ := acceptLabel_none E hd hA hn h3 hb1
  rcases matchWord_at hE.words hE.good hA hT hb1 with ⟨w, b3, hw, _, _⟩ | ⟨b3, _, e3, _⟩
  · have := h2 _ (hw.pos hE.good) hw.1
    rw [hw.2.1] at this; cases this
  · refine ⟨b2, hb2, ?_⟩
    rw [heq, e3, ok_bind]
    simp only []
    rw [e2, ok_bind]
    rfl

theorem acceptToken_at {E : Env} {L : Language} (hE : E.Is L) {n e : Nat} (hn : 0 < n) (hd : 2 ≤ d) (hT : E.words.maxLength ≤ d) (hA : A + d + e ≤ stackSize)
    {V rest : List Char} {t : Token} {column0 : Bool} (h : TokenAt L n e column0 V t rest) (hl : column0 = true → NoName V) (hb : Pos v A b V d) :
    ∃ b', acceptToken E n column0 b = .ok (some t, b') ∧ Pos v A b' rest (d + e) := by
  cases h with
  | @label _ name _ k hc hname _ =>
    exfalso
    have hno := hl hc
    have hstart : ∀ {k e : Nat} {V name rest : List Char}, NameAt L.strings k e V name rest → NoName V → False := by
      intro k e V name rest h hno
      have : ∀ {nm r : List Char}, IsName nm → NoName (nm ++ r) → False := by
        intro nm r hnm hno
        obtain ⟨p, c, s, rfl, hp, hc, _⟩ := hnm.parts
        rcases hp with rfl | rfl
        · have := hno.1 c rfl
          rw [hc] at this; cases this
        · have := hno.2 c (s ++ r) rfl
          rw [hc] at this; cases this
      cases h with
      | plain h1 _ _ => exact this h1 hno
      | expand h1 _ _ _ _ _ => exact this h1 hno
    exact hstart hname hno
  | @number pre ds _ base value hpre hval hne hlen hends =>
    rw [← hE.opts] at hval hends
    have hlit : Literal v rest := Literal.suffix hb.lit
    obtain ⟨b1, h1, h2, h3⟩ := C31_number_partial (o := E.opts) (by rw [hE.opts]; exact hE.bin0) (by rw [hE.opts]; exact hE.bin1) hd (by omega) column0 n hpre hb.shows hval hne hlen hends
      ⟨by rw [hb.vals]; exact Back.of_literal hlit, by rw [hb.vals]; exact Back.of_literal hlit.tail'⟩
    refine ⟨b1, ?_, Pos.mono (d := d) ⟨h2, h3.values.trans hb.vals, hlit⟩ (by omega)⟩
    unfold acceptToken
    rw [h1, ok_bind]
  | @«local» ds _ value hval hne hlen =>
    rw [← hE.opts] at hval
    have hlit : Literal v rest := (Literal.suffix hb.lit).2
    obtain ⟨b1, h1, h2, h3⟩ := C31_local_label (o := E.opts) (by rw [hE.opts]; exact hE.bin0) (by rw [hE.opts]; exact hE.bin1) hd (by omega) column0 n hb.shows hval hne hlen
    refine ⟨b1, ?_, Pos.mono (d := d) ⟨h2, h3.values.trans hb.vals, hlit⟩ (by omega)⟩
    unfold acceptToken
    rw [h1, ok_bind]
  | @word _ w hnum hw hc hname =>
    obtain ⟨b1, hb1, heq⟩ := acceptToken_tail (E := E) (n := n) column0 (by omega) (by omega) hnum hb
    have hpos := hw.pos hE.good
    rcases matchWord_at hE.words hE.good (by omega) hT hb1 with ⟨w', b3, hw', e3, hb3⟩ | ⟨b3, hno, _, _⟩
    · cases hw.unique hw'
      refine ⟨b3, ?_, hb3.mono (by omega)⟩
      rw [heq, e3, ok_bind]
      simp only []
      rcases hname with hname | ⟨k, name, rest', hname, hk, hlen⟩
      · obtain ⟨b2, e2, hb2⟩ := acceptLabel_none E hd (by omega) hn hname hb1
        rw [e2, ok_bind]
        simp only [Option.map_some, Option.getD_some, Option.map_none, Option.getD_none]
        rw [if_neg (by simp), if_pos (by omega)]
      · obtain ⟨b2, e2, hb2⟩ := acceptLabel_some E (by rw [hE.strings]; exact hname) hd hA hk hb1
        rw [e2, ok_bind]
        simp only [Option.map_some, Option.getD_some]
        rw [if_neg (by omega), if_pos (by omega)]
    · have := hno _ hpos hw.1
      rw [hw.2.1] at this; cases this
  | @name _ name _ k hc hnum hname hk hlong =>
    obtain ⟨b1, hb1, heq⟩ := acceptToken_tail (E := E) (n := n) column0 (by omega) (by omega) hnum hb
    obtain ⟨b2, e2, hb2⟩ := acceptLabel_some E (by rw [hE.strings]; exact hname) hd hA hk hb1
    have hpos := hname.pos
    refine ⟨b2, ?_, hb2⟩
    rcases matchWord_at hE.words hE.good (by omega) hT hb1 with ⟨w', b3, hw', e3, hb3⟩ | ⟨b3, hno, e3, _⟩
    · rw [heq, e3, ok_bind]
      simp only []
      rw [e2, ok_bind]
      simp only [Option.map_some, Option.getD_some]
      rw [if_pos ⟨by omega, hlong w' hw'⟩]
    · rw [heq, e3, ok_bind]
      simp only []
      rw [e2, ok_bind]
      simp only [Option.map_some, Option.getD_some, Option.map_none, Option.getD_none]
      rw [if_pos ⟨by omega, by omega⟩]
  | @string q cs _ hq hcs hlen hno =>
    obtain ⟨b1, hb1, heq⟩ := acceptToken_other hE hn hd hT (by omega) column0 (noNumber_quote hq) hno (noName_quote hq) hb
    obtain ⟨b2, e2, hb2⟩ := acceptString_some (by omega) hq hcs hlen hb1
    refine ⟨b2, ?_, hb2.mono (by omega)⟩
    rw [heq, e2, ok_bind]
  | @char c _ hnum hno hname hq1 hq2 =>
    obtain ⟨b1, hb1, heq⟩ := acceptToken_other hE hn hd hT (by omega) column0 hnum hno hname hb
    obtain ⟨b2, e2, hb2⟩ := acceptString_none (by omega) (by omega) (V := c :: rest) ⟨by simpa using hq1, by simpa using hq2⟩ hb1
    obtain ⟨b3, e3, hb3⟩ := hb2.get_cons (by omega)
    have hc : c ≠ nul := by rintro rfl; exact hb.noNul (by simp)
    refine ⟨b3, ?_, hb3.mono (by omega)⟩
    rw [heq, e2, ok_bind]
    simp only []
    rw [e3, ok_bind]
    simp only []
    rw [if_neg hc]

/-! ### Lines -/

theorem noName_blank {g V : List Char} (hg : Blanks g) (hne : g ≠ []) : NoName (g ++ V) := by
  cases g with
  | nil => exact absurd rfl hne
  | cons c g =>
    have hc := (hg c (by simp)).1
    have hs : isStart c = false ∧ c ≠ '.' := by
      unfold isSpace at hc
      simp only [Bool.or_eq_true, decide_eq_true_eq, Bool.and_eq_true] at hc
      rcases hc with rfl | hc
      · decide
      · constructor
        · have hcases : c.toNat = 9 ∨ c.toNat = 10 ∨ c.toNat = 11 ∨ c.toNat = 12 ∨ c.toNat = 13 := by omega
          have e : c = Char.ofNat c.toNat := (Char.ofNat_toNat c).symm
          rcases hcases with h | h | h | h | h <;> (rw [e, h]; decide)
        · rintro rfl; exact absurd hc (by decide)
    refine ⟨fun x hx => by cases hx; exact hs.1, fun x V' hx => ?_⟩
    simp at hx
    exact absurd hx.1 hs.2

theorem not_comment_blank {g V : List Char} (hg : Blanks g) (hne : g ≠ []) (free : Bool) : ¬ CommentAt free (g ++ V) := by
  cases g with
  | nil => exact absurd rfl hne
  | cons c g =>
    have hc := (hg c (by simp)).1
    rintro (h | ⟨h, _⟩) <;> (simp at h; subst h; exact absurd hc (by decide))

/-- What `acceptNext` does at the start of a line before it skips blanks: a comment is skipped if there is one. -/
theorem acceptNext_inner {E : Env} {n : Nat} (hn : 0 < n) (hd : 2 ≤ d) (hA : A + d ≤ stackSize) {V : List Char} (column0 : Bool)
    (hcom : ¬ CommentAt column0 V) (hname : column0 = true → NoName V) (hb : Pos v A b V d) :
    ∃ b1, Pos v A b1 V d ∧ acceptNext E n column0 b = (skipBlanks n false b1).bind fun (wasSpace, b) =>
        (consumeComment n wasSpace (column0 && !wasSpace) b).bind fun (wasSpace', b) => acceptToken E n (column0 && !wasSpace && !wasSpace') b := by
  cases column0 with
  | false =>
    refine ⟨b, hb, ?_⟩
    unfold acceptNext
    rw [if_neg (by decide), ok_bind]
  | true =>
    obtain ⟨b1, h1, h2⟩ := consumeComment_none (by omega) hA n false true (by simpa using hcom) hb
    obtain ⟨b2, h3, h4⟩ := acceptLabel_none E hd hA hn (hname rfl) h2
    refine ⟨b2, h4, ?_⟩
    unfold acceptNext
    rw [if_pos (rfl : true = true), h1, ok_bind]
    simp only []
    rw [h3, ok_bind]

theorem noName_digit {c : Char} {V : List Char} (h : '0' ≤ c ∧ c ≤ '9') : NoName (c :: V) := by
  have hs : isStart c = false ∧ c ≠ '.' := by
    have hc : 48 ≤ c.toNat ∧ c.toNat ≤ 57 := by
      have := h
      simp only [Char.le_def, UInt32.le_iff_toNat_le] at this
      exact this
    have hcases : c.toNat = 48 ∨ c.toNat = 49 ∨ c.toNat = 50 ∨ c.toNat = 51 ∨ c.toNat = 52 ∨ c.toNat = 53 ∨ c.toNat = 54 ∨ c.toNat = 55 ∨
        c.toNat = 56 ∨ c.toNat = 57 := by omega
    have e : c = Char.ofNat c.toNat := (Char.ofNat_toNat c).symm
    rcases hcases with h | h | h | h | h | h | h | h | h | h <;> (rw [e, h]; decide)
  exact ⟨fun x hx => by cases hx; exact hs.1, fun x V' hx => by simp at hx; exact absurd hx.1 hs.2⟩

/-- **C58, one token.** Behind blanks the next token is the longest one, and exactly the token is consumed. -/
theorem C58_token {E : Env} {L : Language} (hE : E.Is L) {n e : Nat} (hd : 2 ≤ d) (hT : E.words.maxLength ≤ d) (hA : A + d + e ≤ stackSize)
    {g V rest : List Char} {t : Token} {column0 : Bool} (hg : Blanks g) (hn : g.length < n) (hcom : ¬ CommentAt (column0 || !g.isEmpty) V)
    (hV : ∀ c, V.head? = some c → isSpace c = false) (h : TokenAt L n e (column0 && g.isEmpty) V t rest) (hb : Pos v A b (g ++ V) d) :
    ∃ b', acceptNext E n column0 b = .ok (some t, b') ∧ Pos v A b' rest (d + e) := by
  -- a label
  by_cases hlab : ∃ name k, (column0 && g.isEmpty) = true ∧ NameAt L.strings k e V name rest ∧ k < n ∧ t = .label name
  · obtain ⟨name, k, hc, hname, hk, rfl⟩ := hlab
    simp only [Bool.and_eq_true, List.isEmpty_iff] at hc
    obtain ⟨rfl, rfl⟩ := hc
    obtain ⟨b1, h1, h2⟩ := consumeComment_none (by omega) (by omega) n false true (by simpa using hcom) hb
    obtain ⟨b2, h3, h4⟩ := acceptLabel_some E (by rw [hE.strings]; exact hname) hd hA hk h2
    refine ⟨b2, ?_, h4⟩
    unfold acceptNext
    rw [if_pos (rfl : true = true), h1, ok_bind]
    simp only []
    rw [h3, ok_bind]
  · have hno : (column0 && g.isEmpty) = true → NoName V := by
      intro hc
      cases h with
      | label _ hname hk => exact absurd ⟨_, _, hc, hname, hk, rfl⟩ hlab
      | @number pre ds _ base value hpre hval hne hlen hends =>
        cases hpre with
        | hex => exact ⟨fun c hc => by cases hc; decide, fun c V' h => by cases h⟩
        | bin => exact ⟨fun c hc => by cases hc; decide, fun c V' h => by cases h⟩
        | dec =>
          cases ds with
          | nil => exact absurd rfl (hne rfl)
          | cons x ds =>
            obtain ⟨y, m, hx, _, _⟩ := positional_cons hval
            exact noName_digit (digit_ten hx)
      | @«local» ds _ value hval hne hlen =>
        cases ds with
        | nil => exact absurd rfl hne
        | cons x ds =>
          obtain ⟨y, m, hx, _, _⟩ := positional_cons hval
          exact noName_digit (digit_ten hx)
      | word _ _ hc' _ => exact hc' hc
      | name hc' _ _ _ _ => rw [hc] at hc'; cases hc'
      | string hq _ _ _ => exact noName_quote hq
      | char _ _ h _ _ => exact h
    have hn0 : 0 < n := by omega
    obtain ⟨b1, hb1, heq⟩ := acceptNext_inner (E := E) (n := n) hn0 hd (by omega) column0
      (by
        by_cases hg0 : g = []
        · subst hg0
          intro hc; exact hcom (by simpa using hc)
        · exact not_comment_blank hg hg0 _)
      (by
        intro hc
        by_cases hg0 : g = []
        · subst hg0; exact hno (by simp [hc])
        · exact noName_blank hg hg0) hb
    obtain ⟨b2, h2, hb2⟩ := skipBlanks_at (by omega) (by omega) (fun c hc hs => by rw [hV c hc] at hs; cases hs) g n false b1 hg hn hb1
    obtain ⟨b3, h3, hb3⟩ := consumeComment_none (by omega) (by omega) n (!g.isEmpty) (column0 && !!g.isEmpty) (V := V)
      (by
        intro hc; apply hcom
        cases column0 <;> cases hgg : g.isEmpty <;> simpa [hgg] using hc) hb2
    obtain ⟨b4, h4, hb4⟩ := acceptToken_at hE hn0 hd hT hA h hno hb3
    refine ⟨b4, ?_, hb4⟩
    rw [heq, h2, ok_bind]
    simp only [Bool.false_or]
    rw [h3, ok_bind]
    simp only []
    rw [show (column0 && !!g.isEmpty && !!g.isEmpty) = (column0 && g.isEmpty) by cases column0 <;> cases g.isEmpty <;> rfl, h4]

theorem noWord_space {ws : List Word} (hg : GoodWords ws) {c : Char} {V : List Char} (hc : isSpace c = true) : NoWord ws (c :: V) := by
  intro j h1 h2
  refine named_space hg (c := c) ?_ hc
  obtain ⟨j, rfl⟩ : ∃ i, j = i + 1 := ⟨j - 1, by omega⟩
  simp

theorem acceptToken_newline {E : Env} {L : Language} (hE : E.Is L) {n : Nat} (hn : 0 < n) (hd : 2 ≤ d) (hT : E.words.maxLength ≤ d) (hA : A + d ≤ stackSize)
    {V : List Char} (ls : Bool) (hb : Pos v A b ('\n' :: V) d) :
    ∃ b', acceptToken E n ls b = .ok (some (.char '\n'), b') ∧ Pos v A b' V d := by
  have hno : NoName ('\n' :: V) := ⟨fun x hx => by cases hx; decide, fun x V' hx => by cases hx⟩
  exact acceptToken_at (e := 0) hE hn hd hT hA (TokenAt.char (fun c hc => by cases hc; decide) (noWord_space hE.good (by decide))
    hno (by decide) (by decide)) (fun _ => hno) hb

/-- **C58, the end of a line.** Blanks and a comment at the end of a line are skipped. -/
theorem C58_newline {E : Env} {L : Language} (hE : E.Is L) {n : Nat} (hd : 2 ≤ d) (hT : E.words.maxLength ≤ d) (hA : A + d ≤ stackSize)
    {g c rest : List Char} {column0 : Bool} (hg : Blanks g) (hn : g.length + c.length < n) (hc : '\n' ∉ c)
    (hcom : c = [] ∨ CommentAt (column0 || !g.isEmpty) c) (hb : Pos v A b (g ++ c ++ '\n' :: rest) d) :
    ∃ b', acceptNext E n column0 b = .ok (some (.char '\n'), b') ∧ Pos v A b' rest d := by
  have hno : NoName ('\n' :: rest) := ⟨fun x hx => by cases hx; decide, fun x V' hx => by cases hx⟩
  have hnc : ∀ free, ¬ CommentAt free ('\n' :: rest) := by
    rintro free (h | ⟨h, _⟩) <;> cases h
  have hnsp : ∀ c, ('\n' :: rest).head? = some c → isSpace c = true → c = '\n' := fun c hc _ => by cases hc; rfl
  by_cases hcase : column0 = true ∧ g = [] ∧ c ≠ []
  · -- a comment in the first column
    obtain ⟨rfl, rfl, hcne⟩ := hcase
    have hcom' : CommentAt true c := by simpa [hcne] using hcom
    obtain ⟨b1, h1, hb1⟩ := consumeComment_some (v := v) (A := A) (d := d) (b := b) (c := c) (V := '\n' :: rest) (n := n) (by omega) (by omega) false true (by simpa using hcom') hc (by omega) (.inr rfl) (by simpa using hb)
    obtain ⟨b2, h2, hb2⟩ := acceptLabel_none (n := n) E hd (by omega) (by omega) hno hb1
    obtain ⟨b3, h3, hb3⟩ := skipBlanks_at (by omega) (by omega) hnsp [] n false b2 (by intro c hc; cases hc) (by simp; omega) hb2
    obtain ⟨b4, h4, hb4⟩ := consumeComment_none (by omega) (by omega) n false true (hnc _) hb3
    obtain ⟨b5, h5, hb5⟩ := acceptToken_newline hE (n := n) (by omega) hd hT hA true hb4
    refine ⟨b5, ?_, hb5⟩
    unfold acceptNext
    rw [if_pos (rfl : true = true), h1, ok_bind]
    simp only []
    rw [h2, ok_bind]
    simp only []
    rw [h3, ok_bind]
    show (consumeComment n false true b3).bind _ = _
    rw [h4, ok_bind]
    exact h5
  · -- anything else
    have hfirst : g ≠ [] ∨ c = [] ∨ column0 = false := by
      cases column0 <;> by_cases hg0 : g = [] <;> by_cases hc0 : c = [] <;> simp_all
    have hcf : g = [] → c ≠ [] → c.head? = some ';' := by
      intro h1 h2
      subst h1
      rcases hfirst with h | h | h
      · exact absurd rfl h
      · exact absurd h h2
      · subst h
        rcases hcom with h | h
        · exact absurd h h2
        · rcases h with h | ⟨_, h⟩
          · exact h
          · cases h
    obtain ⟨b1, hb1, heq⟩ : ∃ b1, Pos v A b1 (g ++ c ++ '\n' :: rest) d ∧ acceptNext E n column0 b = (skipBlanks n false b1).bind fun (wasSpace, b) =>
        (consumeComment n wasSpace (column0 && !wasSpace) b).bind fun (wasSpace', b) => acceptToken E n (column0 && !wasSpace && !wasSpace') b := by
      cases hcol : column0 with
      | false =>
        refine ⟨b, hb, ?_⟩
        unfold acceptNext
        rw [if_neg (by decide), ok_bind]
      | true =>
        refine hcol ▸ acceptNext_inner (E := E) (n := n) (by omega) hd hA column0 ?_ ?_ hb
        · by_cases hg0 : g = []
          · subst hg0
            have : c = [] := by
              rcases hfirst with h | h | h
              · exact absurd rfl h
              · exact h
              · rw [hcol] at h; cases h
            subst this
            exact hnc _
          · rw [List.append_assoc]; exact not_comment_blank hg hg0 _
        · intro _
          by_cases hg0 : g = []
          · subst hg0
            have : c = [] := by
              rcases hfirst with h | h | h
              · exact absurd rfl h
              · exact h
              · rw [hcol] at h; cases h
            subst this
            exact hno
          · rw [List.append_assoc]; exact noName_blank hg hg0
    obtain ⟨b2, h2, hb2⟩ := skipBlanks_at (v := v) (A := A) (d := d) (by omega) (by omega) (V := c ++ '\n' :: rest) (by
        intro x hx hs
        cases c with
        | nil => cases hx; rfl
        | cons y c =>
          cases hx
          rcases hcom with h | h
          · cases h
          · rcases h with h | ⟨h, _⟩ <;> (cases h; exact absurd hs (by decide))) g n false b1 hg (by omega) (by simpa using hb1)
    have hfin : ∃ sp b3, consumeComment n (!g.isEmpty) (column0 && !!g.isEmpty) b2 = .ok (sp, b3) ∧ Pos v A b3 ('\n' :: rest) d := by
      by_cases hc0 : c = []
      · subst hc0
        obtain ⟨b3, h3, hb3⟩ := consumeComment_none (by omega) (by omega) n (!g.isEmpty) (column0 && !!g.isEmpty) (hnc _) hb2
        exact ⟨_, b3, h3, hb3⟩
      · obtain ⟨b3, h3, hb3⟩ := consumeComment_some (v := v) (A := A) (d := d) (b := b2) (c := c) (V := '\n' :: rest) (n := n) (by omega) (by omega) (!g.isEmpty) (column0 && !!g.isEmpty) (by
            rcases hcom with h | h
            · exact absurd h hc0
            · cases column0 <;> cases hgg : g.isEmpty <;> simpa [hgg] using h) hc (by omega) (.inr rfl) hb2
        exact ⟨_, b3, h3, hb3⟩
    obtain ⟨sp, b3, h3, hb3⟩ := hfin
    obtain ⟨b4, h4, hb4⟩ := acceptToken_newline hE (n := n) (by omega) hd hT hA (column0 && !!g.isEmpty && !sp) hb3
    refine ⟨b4, ?_, hb4⟩
    rw [heq, h2, ok_bind]
    simp only [Bool.false_or]
    rw [h3, ok_bind]
    exact h4

/-- **C58.** A line is divided into its tokens, and the next lines are left. -/
theorem C58_line {E : Env} {L : Language} (hE : E.Is L) {n e : Nat} {column0 : Bool} {V rest : List Char} {ts : List Token}
    (h : LineAt L n e column0 V ts rest) : ∀ {k d : Nat} {b : Buffer}, 2 ≤ d → E.words.maxLength ≤ d → A + d + e ≤ stackSize → ts.length ≤ k → Pos v A b V d →
      ∃ b', scanLine E n k column0 b = .ok (ts, b') ∧ Pos v A b' rest (d + e) := by
  induction h with
  | newline hg hn hc hcom =>
    intro k d b hd hT hA hk hb
    obtain ⟨k, rfl⟩ : ∃ m, k = m + 1 := ⟨k - 1, by simp at hk; omega⟩
    obtain ⟨b1, h1, hb1⟩ := C58_newline hE hd hT (by omega) hg hn hc hcom hb
    refine ⟨b1, ?_, hb1⟩
    unfold scanLine
    rw [h1, ok_bind]
    simp
  | @token column0 e e' g V rest rest' t ts hg hn hcom hV ht _ ih =>
    intro k d b hd hT hA hk hb
    obtain ⟨k, rfl⟩ : ∃ m, k = m + 1 := ⟨k - 1, by simp at hk; omega⟩
    obtain ⟨b1, h1, hb1⟩ := C58_token hE hd hT (by omega) hg hn hcom hV ht hb
    obtain ⟨b2, h2, hb2⟩ := ih (k := k) (by omega) (by omega) (by omega) (by simpa using hk) hb1
    refine ⟨b2, ?_, hb2.mono (by omega)⟩
    have hne : t ≠ .char '\n' := by
      intro he
      cases ht with
      | char _ _ _ _ _ => cases he; exact absurd (hV '\n' rfl) (by decide)
      | «local» => split at he <;> cases he
      | _ => cases he
    unfold scanLine
    rw [h1, ok_bind]
    simp only []
    rw [if_neg hne, h2, ok_bind]

end Verif.Lexer
