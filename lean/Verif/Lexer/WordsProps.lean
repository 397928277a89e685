import Verif.Lexer.ScanSpec
import Verif.Lexer.NumberProps
/-!
# The hash table finds the words
-/
namespace Verif.Lexer

/-! ### Buffers whose placeholders are known -/

/-- The buffer shows `V`, in which no backslash stands before a placeholder. -/
structure Pos (v : Values) (A : Nat) (b : Buffer) (V : List Char) (d : Nat) : Prop where
  shows : Shows b A V d
  vals : values b.args b.unique = v
  lit : Literal v V

theorem Pos.mono {v : Values} {A : Nat} {b : Buffer} {V : List Char} {d d' : Nat} (h : Pos v A b V d) (hd : d ≤ d') : Pos v A b V d' :=
  ⟨h.shows.mono hd, h.vals, h.lit⟩

theorem Pos.noNul {v : Values} {A : Nat} {b : Buffer} {V : List Char} {d : Nat} (h : Pos v A b V d) : nul ∉ V := h.shows.noNul

theorem Literal.drop {v : Values} {V : List Char} (h : Literal v V) (k : Nat) : Literal v (V.drop k) := by
  induction k generalizing V with
  | zero => exact h
  | succ k ih => cases V with
    | nil => exact h
    | cons c V => exact ih h.2

theorem Literal.tail' {v : Values} {V : List Char} (h : Literal v V) : Literal v V.tail := by
  cases V with
  | nil => exact h
  | cons c V => exact h.2

theorem Pos.get {v : Values} {A : Nat} {b : Buffer} {V : List Char} {d : Nat} (h : Pos v A b V d) (hA : A ≤ stackSize) :
    ∃ b', getChar b = .ok (V.head?.getD nul, b') ∧ Pos v A b' V.tail (d - 1) ∧ (V = [] → Ended b') := by
  obtain ⟨b', h1, h2, h3, h4⟩ := h.shows.get' hA
  exact ⟨b', h1, ⟨h2, h4.values.trans h.vals, h.lit.tail'⟩, h3⟩

theorem Pos.get_cons {v : Values} {A : Nat} {b : Buffer} {c : Char} {V : List Char} {d : Nat} (h : Pos v A b (c :: V) d) (hA : A ≤ stackSize) :
    ∃ b', getChar b = .ok (c, b') ∧ Pos v A b' V (d - 1) := by
  obtain ⟨b', h1, h2, _⟩ := h.get hA
  exact ⟨b', h1, h2⟩

theorem Pos.get_nil {v : Values} {A : Nat} {b : Buffer} {d : Nat} (h : Pos v A b [] d) (hA : A ≤ stackSize) :
    ∃ b', getChar b = .ok (nul, b') ∧ Pos v A b' [] (d - 1) ∧ Ended b' := by
  obtain ⟨b', h1, h2, h3⟩ := h.get hA
  exact ⟨b', h1, h2, h3 rfl⟩

/-- Putting a character back. -/
theorem Pos.unput {v : Values} {A : Nat} {b : Buffer} {c : Char} {V : List Char} {d : Nat} (h : Pos v A b V d) (hc : c ≠ nul)
    (hroom : A + d < stackSize) (hl : Literal v (c :: V)) :
    ∃ b', Lexer.unput b c = .ok b' ∧ Pos v A b' (c :: V) (d + 1) := by
  obtain ⟨b', h1, h2, h3, h4, h5, _⟩ := h.shows.unput hc hroom (by rw [h.vals]; exact hl.1)
  exact ⟨b', h1, ⟨h2, by rw [h4, h5]; exact h.vals, hl⟩⟩

/-- Putting back the character that was read, or the zero at the end. -/
theorem Pos.back {v : Values} {A : Nat} {b : Buffer} {V : List Char} {d : Nat} (h : Pos v A b V.tail d) (hn : nul ∉ V)
    (he : V = [] → Ended b) (hroom : A + d < stackSize) (hl : Literal v V) :
    ∃ b', Lexer.unput b (V.head?.getD nul) = .ok b' ∧ Pos v A b' V (d + 1) := by
  obtain ⟨b', h1, h2, _, h4⟩ := h.shows.back hn he hroom (by rw [h.vals]; exact Back.of_literal hl)
  exact ⟨b', h1, ⟨h2, h4.values.trans h.vals, hl⟩⟩

/-- Reading a character and putting it back. -/
theorem Pos.peek {v : Values} {A : Nat} {b : Buffer} {V : List Char} {d : Nat} (h : Pos v A b V d) (hd : 1 ≤ d) (hA : A + d ≤ stackSize) :
    ∃ b' b'', getChar b = .ok (V.head?.getD nul, b') ∧ Lexer.unput b' (V.head?.getD nul) = .ok b'' ∧ Pos v A b'' V d := by
  obtain ⟨b', h1, h2, h3⟩ := h.get (by omega)
  obtain ⟨b'', h4, h5⟩ := h2.back h.noNul h3 (by omega) h.lit
  exact ⟨b', b'', h1, h4, h5.mono (by omega)⟩

theorem Pos.unputString {v : Values} {A : Nat} {b : Buffer} {s V : List Char} {d : Nat} (h : Pos v A b V d) (hn : nul ∉ s)
    (hroom : A + d + s.length ≤ stackSize) (hl : Literal v (s ++ V)) :
    ∃ b', Lexer.unputString b s = .ok b' ∧ Pos v A b' (s ++ V) (d + s.length) := by
  induction s with
  | nil => exact ⟨b, rfl, by simpa using h⟩
  | cons c s ih =>
    simp only [List.mem_cons, not_or, List.length_cons] at hn hroom
    obtain ⟨b1, h1, h2⟩ := ih hn.2 (by omega) hl.2
    obtain ⟨b2, h3, h4⟩ := h2.unput (Ne.symm hn.1) (by omega) hl
    refine ⟨b2, ?_, by simpa [Nat.add_assoc] using h4⟩
    show (Lexer.unputString b s).bind _ = _
    rw [h1, ok_bind, h3]

/-! ### The table -/

/-- What the table holds. -/
structure Table.Holds (T : Table) (ws : List Word) : Prop where
  slots : ∀ i, T.slot i = ws.filter fun w => hashString w.name = i
  bound : ∀ w ∈ ws, w.name.length ≤ T.maxLength

/-- No words at first. -/
theorem C58_words_empty : Table.empty.Holds [] := ⟨fun _ => rfl, by simp⟩

/-- A word that is defined is added to the others, and hides an earlier word with the same name. -/
theorem C58_words_define {T : Table} {ws : List Word} (h : T.Holds ws) (w : Word) : (T.define w).Holds (w :: ws) := by
  refine ⟨fun i => ?_, ?_⟩
  · show (if i = hashString w.name then w :: T.slot i else T.slot i) = _
    rw [h.slots i, List.filter_cons]
    by_cases hi : hashString w.name = i
    · rw [if_pos hi.symm, if_pos (by simpa using hi)]
    · rw [if_neg (fun e => hi e.symm), if_neg (by simpa using hi)]
  · intro x hx
    show x.name.length ≤ if w.name.length > T.maxLength then w.name.length else T.maxLength
    rcases List.mem_cons.mp hx with rfl | hx
    · split <;> omega
    · have := h.bound x hx
      split <;> omega

theorem C58_words_all {T : Table} {ws : List Word} (h : T.Holds ws) (vs : List Word) : (T.defineAll vs).Holds (vs.reverse ++ ws) := by
  induction vs generalizing T ws with
  | nil => exact h
  | cons v vs ih =>
    have := ih (C58_words_define h v)
    simpa [Table.defineAll] using this

theorem filter_erase (ws : List Word) (w : Word) (p : Word → Bool) :
    (ws.erase w).filter p = if p w = true then (ws.filter p).erase w else ws.filter p := by
  induction ws with
  | nil => simp
  | cons x ws ih =>
    by_cases hx : x = w
    · subst hx
      by_cases hp : p x = true
      · simp [hp]
      · simp [hp]
    · rw [List.erase_cons, if_neg (by simpa using hx), List.filter_cons, List.filter_cons, ih]
      by_cases hp : p w = true
      · by_cases hpx : p x = true
        · simp only [hp, hpx, if_true]; rw [List.erase_cons, if_neg (by simpa using hx)]
        · simp [hp, hpx]
      · simp [hp]

/-- A word that is undefined is taken out, if there is one. -/
theorem C58_words_undefine {T : Table} {ws : List Word} (h : T.Holds ws) {w : Word} (hw : w ∈ ws) :
    ∃ T', T.undefine w = .ok T' ∧ T'.Holds (ws.erase w) := by
  have hm : w ∈ T.slot (hashString w.name) := by rw [h.slots]; simp [hw]
  refine ⟨⟨fun i => if i = hashString w.name then (T.slot i).erase w else T.slot i, T.maxLength⟩, by unfold Table.undefine; rw [if_pos hm], ⟨fun i => ?_, fun x hx => h.bound x (List.mem_of_mem_erase hx)⟩⟩
  show (if i = hashString w.name then (T.slot i).erase w else T.slot i) = _
  rw [h.slots i, filter_erase]
  by_cases hi : i = hashString w.name
  · rw [if_pos hi, if_pos (by simp [hi])]
  · rw [if_neg hi, if_neg (by simpa using fun e => hi e.symm)]

/-- A word that is not there cannot be undefined. -/
theorem C58_words_undefine_missing {T : Table} {ws : List Word} (h : T.Holds ws) {w : Word} (hw : w ∉ ws) : T.undefine w = .fail := by
  unfold Table.undefine
  rw [if_neg (by rw [h.slots]; simp [hw])]

/-! ### Finding a word -/

theorem upper_ascii {c : Char} (h : (upper c).toNat < 128) : c.toNat < 128 := by
  by_cases hc : 'a' ≤ c ∧ c ≤ 'z'
  · have : c.toNat ≤ 'z'.toNat := by have := hc.2; simpa [Char.le_def, UInt32.le_iff_toNat_le] using this
    have e : 'z'.toNat = 122 := rfl
    omega
  · unfold upper at h; rw [if_neg hc] at h; exact h

theorem hash_read {s t : List Char} (h : s.map upper = t) (ha : ∀ c ∈ t, c.toNat < 128) (hu : ∀ c ∈ t, upper c = c) (k : Nat) :
    s.foldl (fun h c => hashStep h (charKey c)) k = t.foldl (fun h c => hashStep h (upper c).toNat) k := by
  induction s generalizing t k with
  | nil => subst h; rfl
  | cons c s ih =>
    subst h
    simp only [List.map_cons, List.mem_cons, forall_eq_or_imp, List.foldl_cons] at ha hu ⊢
    have h1 : charKey c = (upper (upper c)).toNat := by
      unfold charKey
      rw [if_pos (upper_ascii ha.1), hu.1]
    rw [h1]
    exact ih rfl ha.2 hu.2 _

theorem find_words {T : Table} {ws : List Word} (h : T.Holds ws) (hg : GoodWords ws) (text : List Char) :
    T.find (text.foldl (fun h c => hashStep h (charKey c)) 0) text = named ws text := by
  unfold Table.find named
  rw [h.slots, List.find?_filter]
  have hcongr : ∀ ws' : List Word, (∀ w ∈ ws', w ∈ ws) →
      ws'.find? (fun w => decide (hashString w.name = text.foldl (fun h c => hashStep h (charKey c)) 0) &&
        (w.name.length == text.length && text.map upper == w.name.map upper)) = ws'.find? fun w => w.name = text.map upper := by
    intro ws'
    induction ws' with
    | nil => intro _; rfl
    | cons w ws' ih =>
      intro hm
      have hw := (hg w (hm w (by simp))).2
      have hu : w.name.map upper = w.name := by
        conv => rhs; rw [← List.map_id w.name]
        exact List.map_congr_left fun c hc => (hw c hc).2.1
      have e : (decide (hashString w.name = text.foldl (fun h c => hashStep h (charKey c)) 0) &&
        (w.name.length == text.length && text.map upper == w.name.map upper)) = decide (w.name = text.map upper) := by
        rw [hu]
        by_cases hn : w.name = text.map upper
        · have hh := hash_read hn.symm (fun c hc => (hw c hc).1) (fun c hc => (hw c hc).2.1) 0
          have hl : w.name.length = text.length := by rw [hn]; simp
          have hs : hashString w.name = text.foldl (fun h c => hashStep h (charKey c)) 0 := hh.symm
          rw [hs]
          simp [hl, hn]
        · have : ¬ (text.map upper = w.name) := fun e => hn e.symm
          simp [hn, this]
      rw [List.find?_cons, List.find?_cons, ih (fun x hx => hm x (by simp [hx]))]
      simp only [e]
  rw [← hcongr ws (fun _ h => h)]
  congr 1
  funext w
  rw [Bool.decide_and, Bool.decide_eq_true, Bool.decide_eq_true]

/-- A text is found in the table if a word is written like it. -/
theorem C58_token_string {T : Table} {ws : List Word} (h : T.Holds ws) (hg : GoodWords ws) (text : List Char) :
    matchTokenString T text = named ws text := find_words h hg text

theorem named_mem {ws : List Word} {s : List Char} {w : Word} (h : named ws s = some w) : w ∈ ws ∧ w.name = s.map upper := by
  refine ⟨List.mem_of_find?_eq_some h, ?_⟩
  have := List.find?_some h
  simpa using this

theorem named_length {ws : List Word} {s : List Char} {w : Word} (h : named ws s = some w) : w.name.length = s.length := by
  rw [(named_mem h).2]; simp

/-- The best word among the prefixes of `U` of at most `m` characters. -/
structure Best (ws : List Word) (U : List Char) (m : Nat) (found : Option Word) : Prop where
  some : ∀ w, found = some w → w.name.length ≤ m ∧ 0 < w.name.length ∧ w.name.length ≤ U.length ∧ named ws (U.take w.name.length) = .some w
  none : ∀ j, 0 < j → j ≤ m → j ≤ U.length → (∀ w, found = .some w → w.name.length < j) → named ws (U.take j) = .none

theorem upper_space {c : Char} (h : isSpace c = true) : upper c = c := by
  unfold upper
  rw [if_neg]
  rintro ⟨h1, h2⟩
  have h3 : 97 ≤ c.toNat := by
    have := h1
    simp only [Char.le_def, UInt32.le_iff_toNat_le] at this
    exact this
  unfold isSpace at h
  simp only [Bool.or_eq_true, decide_eq_true_eq, Bool.and_eq_true] at h
  rcases h with rfl | h
  · revert h3; decide
  · omega

theorem named_space {ws : List Word} (hg : GoodWords ws) {s : List Char} {c : Char} (hc : c ∈ s) (hs : isSpace c = true) : named ws s = none := by
  cases h : named ws s with
  | none => rfl
  | some w =>
    obtain ⟨hm, hn⟩ := named_mem h
    have : upper c ∈ w.name := by rw [hn]; exact List.mem_map_of_mem hc
    rw [upper_space hs] at this
    rw [((hg w hm).2 c this).2.2] at hs
    cases hs

theorem matchLoop_at {T : Table} {ws : List Word} (h : T.Holds ws) (hg : GoodWords ws) {v : Values} {A : Nat} (hA : A ≤ stackSize)
    (U : List Char) : ∀ (n : Nat) (V text : List Char) (found : Option Word) (b : Buffer) (d : Nat),
      U = text ++ V → text.length + n = T.maxLength → T.maxLength ≤ tokenSize → Pos v A b V d → Best ws U text.length found →
      ∃ k found' b', k ≤ n ∧ k ≤ V.length ∧
        matchLoop T n text (text.foldl (fun h c => hashStep h (charKey c)) 0) found b = .ok (text ++ V.take k, found', b') ∧
        Pos v A b' (V.drop k) (d - k) ∧ Best ws U U.length found' ∧ (∀ w, found' = some w → w.name.length ≤ text.length + k) := by
  intro n
  induction n with
  | zero =>
    intro V text found b d hU hn hT hb hbest
    refine ⟨0, found, b, by omega, by omega, by simp [matchLoop], by simpa using hb, ⟨?_, ?_⟩, fun w hw => by have := (hbest.some w hw).1; omega⟩
    · intro w hw
      obtain ⟨h1, h2, h3, h4⟩ := hbest.some w hw
      exact ⟨h3, h2, h3, h4⟩
    · intro j h1 h2 h3 h4
      by_cases hj : j ≤ text.length
      · exact hbest.none j h1 hj h3 h4
      · cases hx : named ws (U.take j) with
        | none => rfl
        | some w =>
          have := h.bound w (named_mem hx).1
          rw [named_length hx, List.length_take] at this
          omega
  | succ n ih =>
    intro V text found b d hU hn hT hb hbest
    cases V with
    | nil =>
      obtain ⟨b1, h1, h2, _⟩ := hb.get_nil hA
      refine ⟨0, found, b1, by omega, by simp, ?_, by simpa using h2.mono (by omega), ?_, fun w hw => by have := (hbest.some w hw).1; omega⟩
      · unfold matchLoop
        rw [h1, ok_bind]
        simp
      · have : U.length = text.length := by rw [hU]; simp
        rw [this]; exact hbest
    | cons c V =>
      obtain ⟨b1, h1, h2⟩ := hb.get_cons hA
      have hc : c ≠ nul := by rintro rfl; exact hb.noNul (by simp)
      have htake : U.take (text.length + 1) = text ++ [c] := by
        rw [hU, show text ++ c :: V = (text ++ [c]) ++ V by simp, List.take_left' (by simp)]
      by_cases hs : isSpace c = true
      · refine ⟨1, found, b1, by omega, by simp, ?_, by simpa using h2, ⟨?_, ?_⟩, fun w hw => by have := (hbest.some w hw).1; omega⟩
        · unfold matchLoop
          rw [h1, ok_bind]
          simp only []
          rw [if_neg hc, if_neg (by omega), if_pos hs]
          simp
        · intro w hw
          obtain ⟨h1, h2, h3, h4⟩ := hbest.some w hw
          exact ⟨h3, h2, h3, h4⟩
        · intro j h1 h2 h3 h4
          by_cases hj : j ≤ text.length
          · exact hbest.none j h1 hj h3 h4
          · refine named_space hg (c := c) ?_ hs
            have : U.take j = text ++ [c] ++ (U.take j).drop (text.length + 1) := by
              rw [← htake]
              conv => lhs; rw [← List.take_append_drop (text.length + 1) (U.take j)]
              rw [List.take_take, Nat.min_eq_left (by omega)]
            rw [this]; simp
      · have hfold : hashStep (text.foldl (fun h c => hashStep h (charKey c)) 0) (charKey c) =
            (text ++ [c]).foldl (fun h c => hashStep h (charKey c)) 0 := by simp
        have hbest' : Best ws U (text ++ [c]).length ((named ws (text ++ [c])).or found) := by
          constructor
          · intro w hw
            cases hx : named ws (text ++ [c]) with
            | some x =>
              rw [hx] at hw
              simp at hw
              subst hw
              have hl := named_length hx
              rw [hl]
              refine ⟨Nat.le_refl _, by simp, by rw [hU]; simp, ?_⟩
              rw [show (text ++ [c]).length = text.length + 1 by simp, htake, hx]
            | none =>
              rw [hx] at hw
              simp at hw
              obtain ⟨h1, h2, h3, h4⟩ := hbest.some w hw
              exact ⟨by simp; omega, h2, h3, h4⟩
          · intro j h1 h2 h3 h4
            by_cases hj : j ≤ text.length
            · cases hx : named ws (text ++ [c]) with
              | some x =>
                exfalso
                have := h4 x (by rw [hx]; rfl)
                rw [named_length hx] at this
                simp at this
                omega
              | none =>
                rw [hx] at h4
                exact hbest.none j h1 hj h3 (by simpa using h4)
            · have hj' : j = text.length + 1 := by simp at h2; omega
              subst hj'
              rw [htake]
              cases hx : named ws (text ++ [c]) with
              | none => rfl
              | some x =>
                exfalso
                have := h4 x (by rw [hx]; rfl)
                rw [named_length hx] at this
                simp at this
        obtain ⟨k, found', b', hk1, hk2, heq, hat, hb1, hb2⟩ := ih V (text ++ [c]) ((named ws (text ++ [c])).or found) b1 (d - 1)
          (by rw [hU]; simp) (by simp; omega) hT h2 hbest'
        refine ⟨k + 1, found', b', by omega, by simpa using hk2, ?_, ?_, hb1, ?_⟩
        · unfold matchLoop
          rw [h1, ok_bind]
          simp only []
          rw [if_neg hc, if_neg (by omega), if_neg hs, hfold, find_words h hg]
          simpa using heq
        · simpa [Nat.sub_sub, Nat.add_comm] using hat
        · intro w hw
          have := hb2 w hw
          simp at this
          omega

/-- **Words.** The longest word at the start of the text is found, and exactly the word is consumed. -/
theorem matchWord_at {T : Table} {ws : List Word} (h : T.Holds ws) (hg : GoodWords ws) {v : Values} {A d : Nat} (hA : A + d ≤ stackSize)
    (hT : T.maxLength ≤ d) {b : Buffer} {V : List Char} (hb : Pos v A b V d) :
    (∃ w b', Longest ws V w ∧ matchWord T b = .ok (some w, b') ∧ Pos v A b' (V.drop w.name.length) d) ∨
    (∃ b', NoWord ws V ∧ matchWord T b = .ok (none, b') ∧ Pos v A b' V d) := by
  have h256 : stackSize = 256 := rfl
  have hsz : tokenSize = 257 := rfl
  obtain ⟨k, found, b1, hk1, hk2, heq, hat, hbest, hlen⟩ := matchLoop_at h hg (by omega) V T.maxLength V [] none b d rfl (by simp) (by omega) hb
    ⟨by simp, fun j h1 h2 => by simp at h2; omega⟩
  simp only [List.nil_append, List.length_nil, Nat.zero_add, List.foldl_nil] at heq hlen
  have hmid : ∀ j, j ≤ k → (V.take k).drop j ++ V.drop k = V.drop j := by
    intro j hj
    conv => rhs; rw [← List.take_append_drop k V]
    rw [List.drop_append_of_le_length (by simp; omega)]
  have hput : ∀ j, j ≤ k → ∃ b', unputString b1 ((V.take k).drop j) = .ok b' ∧ Pos v A b' (V.drop j) d := by
    intro j hj
    have hl : ((V.take k).drop j).length = k - j := by simp; omega
    obtain ⟨b', e1, e2⟩ := hat.unputString (s := (V.take k).drop j) (fun hm => hb.noNul (List.mem_of_mem_take (List.mem_of_mem_drop hm)))
      (by rw [hl]; omega) (by rw [hmid j hj]; exact hb.lit.drop j)
    refine ⟨b', e1, ?_⟩
    rw [hmid j hj, hl] at e2
    exact e2.mono (by omega)
  cases found with
  | none =>
    obtain ⟨b', e1, e2⟩ := hput 0 (by omega)
    refine .inr ⟨b', fun j h1 h2 => hbest.none j h1 h2 h2 (by simp), ?_, by simpa using e2⟩
    unfold matchWord
    rw [heq, ok_bind]
    show (unputString b1 ((V.take k).drop 0)).bind _ = _
    rw [e1, ok_bind]
  | some w =>
    obtain ⟨b', e1, e2⟩ := hput w.name.length (hlen w rfl)
    obtain ⟨h1, h2, h3, h4⟩ := hbest.some w rfl
    refine .inl ⟨w, b', ⟨h3, h4, fun j hj hj' => hbest.none j (by omega) hj' hj' (fun w' hw' => by cases hw'; exact hj)⟩, ?_, e2⟩
    unfold matchWord
    rw [heq, ok_bind]
    show (unputString b1 ((V.take k).drop w.name.length)).bind _ = _
    rw [e1, ok_bind]

end Verif.Lexer
