import Verif.Lexer.Buffer
import Verif.Lexer.Spec
/-!
# What a buffer shows

`Shows b A V d`: the characters still to be read from the buffer `b` are `V`. No value of a placeholder is longer than
`A`, and at most `d` more characters have been put back than read again.
-/
namespace Verif.Lexer

theorem ok_bind {α β : Type} (a : α) (f : α → Outcome β) : (Outcome.ok a).bind f = f a := rfl

/-- Every backslash in `s`, which is followed by `T`, is followed by a character that is no placeholder. -/
def Lit (v : Values) : List Char → List Char → Prop
  | [], _ => True
  | c :: s, T => (c = '\\' → ∀ d, (s ++ T).head? = some d → v d = none) ∧ Lit v s T

theorem Lit.of_literal {v : Values} {s T : List Char} (h : Literal v (s ++ T)) : Lit v s T := by
  induction s with
  | nil => trivial
  | cons c s ih => exact ⟨h.1, ih h.2⟩

theorem Lit.plain {v : Values} {s T : List Char} (h : '\\' ∉ s) : Lit v s T := by
  induction s with
  | nil => trivial
  | cons c s ih =>
    simp only [List.mem_cons, not_or] at h
    exact ⟨fun hc => absurd hc.symm h.1, ih h.2⟩

theorem Literal.tail {v : Values} {c : Char} {T : List Char} (h : Literal v (c :: T)) : Literal v T := h.2

/-- The values are plain text of at most `A` characters. -/
def Plain (v : Values) (A : Nat) : Prop := ∀ c val, v c = some val → nul ∉ val ∧ '\\' ∉ val ∧ val.length ≤ A

structure Shows' (b : Buffer) (A : Nat) (s : List Char) (z : Nat) (V : List Char) (d : Nat) : Prop where
  stack : b.stack = s ++ List.replicate z nul
  noNul : nul ∉ s
  noNulText : nul ∉ b.text
  plain : Plain (values b.args b.unique) A
  lit : Lit (values b.args b.unique) s (substitute (values b.args b.unique) (b.text.drop b.index))
  noEmpty : NoEmpty (values b.args b.unique) (b.text.drop b.index)
  shows : V = s ++ substitute (values b.args b.unique) (b.text.drop b.index)
  room : b.stack.length ≤ A + d
  zeros : 0 < z → b.text.drop b.index = []

/-- The characters still to be read are `V`. -/
def Shows (b : Buffer) (A : Nat) (V : List Char) (d : Nat) : Prop := ∃ s z, Shows' b A s z V d

/-- The text is used up. -/
def Ended (b : Buffer) : Prop := b.text.drop b.index = []

/-! ### Characters of placeholders -/

theorem values_digit {b : Buffer} {c : Char} (h : '0' ≤ c ∧ c ≤ '9') :
    values b.args b.unique c = some (argument b c) := by
  have h1 : c ≠ '@' := by rintro rfl; revert h; decide
  have h2 : c.isDigit = true := by
    unfold Char.isDigit
    simp only [Char.le_def] at h
    simp
    exact h
  unfold values argument
  rw [if_neg h1, if_pos h2]
  show _ = some (((b.args[c.toNat - 48]?).bind id).getD [])
  cases hx : b.args[c.toNat - 48]? with
  | none => simp only [show '0'.toNat = 48 from rfl, hx]; rfl
  | some o => cases o <;> simp only [show '0'.toNat = 48 from rfl, hx] <;> rfl

theorem values_at (b : Buffer) : values b.args b.unique '@' = some (b.unique.getD []) := rfl

theorem values_other {b : Buffer} {c : Char} (h : ¬ ('0' ≤ c ∧ c ≤ '9')) (h1 : c ≠ '@') :
    values b.args b.unique c = none := by
  have h2 : ¬ c.isDigit = true := by
    unfold Char.isDigit
    simp only [Char.le_def] at h
    simp
    intro h3
    exact Classical.byContradiction fun h4 => h ⟨h3, by simpa using h4⟩
  unfold values
  rw [if_neg h1, if_neg h2]

theorem nul_not_digit : ¬ ('0' ≤ nul ∧ nul ≤ '9') := by decide
theorem slash_not_digit : ¬ ('0' ≤ '\\' ∧ '\\' ≤ '9') := by decide

/-- A character that is no placeholder is neither a digit nor an at sign. -/
theorem not_placeholder {b : Buffer} {c : Char} (h : values b.args b.unique c = none) : ¬ ('0' ≤ c ∧ c ≤ '9') ∧ c ≠ '@' := by
  constructor
  · intro hd; rw [values_digit hd] at h; cases h
  · rintro rfl; rw [values_at] at h; cases h

/-! ### Substitution -/

theorem substitute_cons {v : Values} {c : Char} {r : List Char} (h : c ≠ '\\') :
    substitute v (c :: r) = c :: substitute v r := by
  cases r with
  | nil => simp [substitute]
  | cons d r => rw [substitute, if_neg h]

theorem substitute_slash {v : Values} {d : Char} {r : List Char} (h : v d = none) :
    substitute v ('\\' :: d :: r) = '\\' :: substitute v (d :: r) := by
  rw [substitute, if_pos rfl, h]

theorem substitute_value {v : Values} {d : Char} {r val : List Char} (h : v d = some val) :
    substitute v ('\\' :: d :: r) = val ++ substitute v r := by
  rw [substitute, if_pos rfl, h]

theorem noEmpty_cons {v : Values} {c : Char} {r : List Char} (h : c ≠ '\\') (hn : NoEmpty v (c :: r)) : NoEmpty v r := by
  cases r with
  | nil => simp [NoEmpty]
  | cons d r => rw [NoEmpty, if_neg h] at hn; exact hn

theorem noEmpty_slash {v : Values} {d : Char} {r : List Char} (h : v d = none) (hn : NoEmpty v ('\\' :: d :: r)) : NoEmpty v (d :: r) := by
  rw [NoEmpty, if_pos rfl, h] at hn; exact hn

theorem noEmpty_value {v : Values} {d : Char} {r val : List Char} (h : v d = some val) (hn : NoEmpty v ('\\' :: d :: r)) :
    (val = [] → r.head? ≠ some '\\') ∧ NoEmpty v r := by
  rw [NoEmpty, if_pos rfl, h] at hn; exact hn

/-! ### Reading -/

theorem nextChar_stack {b : Buffer} {c : Char} {s : List Char} (h : b.stack = c :: s) (hc : c ≠ nul) :
    nextChar b = (c, { b with stack := s }) := by
  unfold nextChar; rw [h]; simp [hc]

theorem drop_get {t : List Char} {i : Nat} {c : Char} {r : List Char} (h : t.drop i = c :: r) :
    t[i]? = some c ∧ t.drop (i + 1) = r := by
  constructor
  · have := List.getElem?_drop (xs := t) (i := i) (j := 0)
    rw [h] at this; simpa using this.symm
  · rw [← List.drop_drop, h]; rfl

theorem drop_none {t : List Char} {i : Nat} (h : t.drop i = []) : t[i]? = none := by
  rw [List.drop_eq_nil_iff] at h
  exact List.getElem?_eq_none h

theorem nextChar_text {b : Buffer} {c : Char} {r : List Char} (h : b.stack = []) (ht : b.text.drop b.index = c :: r) :
    nextChar b = (c, { b with index := b.index + 1 }) := by
  unfold nextChar; rw [h]; simp [(drop_get ht).1, h]

theorem nextChar_end {b : Buffer} {z : Nat} (h : b.stack = List.replicate z nul) (ht : b.text.drop b.index = []) :
    nextChar b = (nul, { b with stack := List.replicate (z - 1) nul }) := by
  unfold nextChar; rw [h]
  cases z with
  | zero => simp [drop_none ht]; cases b; simp_all
  | succ z => simp [List.replicate_succ, drop_none ht]

theorem peekChar_stack {b : Buffer} {c : Char} {s : List Char} (h : b.stack = c :: s) (hc : c ≠ nul) : peekChar b = c := by
  unfold peekChar; rw [h]; simp [hc]

theorem peekChar_text {b : Buffer} {z : Nat} (h : b.stack = List.replicate z nul) : peekChar b = (b.text[b.index]?).getD nul := by
  unfold peekChar; rw [h]
  cases z with
  | zero => rfl
  | succ z => simp [List.replicate_succ]

theorem unputString_ok (b : Buffer) (s : List Char) (h : s.length + b.stack.length ≤ stackSize) :
    unputString b s = .ok { b with stack := s ++ b.stack } := by
  induction s with
  | nil => rfl
  | cons c s ih =>
    simp only [List.length_cons] at h
    unfold unputString
    rw [ih (by omega), ok_bind]
    unfold unput
    rw [if_pos (by simp; omega)]
    rfl

/-- A character that is no backslash, or one that is not followed by a placeholder, is returned as it is. -/
theorem getChar_plain {b b' : Buffer} {c : Char} (h : nextChar b = (c, b')) (hc : c ≠ nul)
    (hp : c = '\\' → ¬ ('0' ≤ peekChar b' ∧ peekChar b' ≤ '9') ∧ peekChar b' ≠ '@') : getChar b = .ok (c, b') := by
  unfold getChar
  rw [h]
  simp only []
  rw [if_neg hc]
  by_cases hs : c = '\\'
  · rw [if_pos hs, if_neg (hp hs).1, if_neg (hp hs).2]
  · rw [if_neg hs]

/-- A placeholder puts its value on the stack. -/
theorem getChar_value {b b1 b2 : Buffer} {d : Char} {val : List Char} (h : nextChar b = ('\\', b1)) (hp : peekChar b1 = d)
    (h2 : nextChar b1 = (d, b2)) (hv : values b2.args b2.unique d = some val) (hroom : val.length + b2.stack.length ≤ stackSize) :
    getChar b = .ok (nextChar { b2 with stack := val ++ b2.stack }) := by
  unfold getChar
  rw [h]
  simp only []
  rw [if_neg (by decide), if_pos trivial, hp]
  by_cases hd : '0' ≤ d ∧ d ≤ '9'
  · rw [if_pos hd, h2]
    rw [values_digit hd] at hv
    cases hv
    simp only []
    rw [unputString_ok _ _ hroom, ok_bind]
  · rw [if_neg hd]
    by_cases ha : d = '@'
    · subst ha
      rw [if_pos rfl, h2]
      rw [values_at] at hv
      cases hv
      simp only []
      rw [unputString_ok _ _ hroom, ok_bind]
    · rw [values_other hd ha] at hv; cases hv

theorem drop_mem {t : List Char} {i : Nat} {r : List Char} (h : t.drop i = r) {c : Char} (hc : c ∈ r) : c ∈ t := by
  rw [← h] at hc; exact List.mem_of_mem_drop hc

/-- Reading from a buffer gives the next character and leaves the others. At the end it gives zero. -/
theorem Shows.get {b : Buffer} {A : Nat} {V : List Char} {d : Nat} (h : Shows b A V d) (hA : A ≤ stackSize) :
    ∃ b', getChar b = .ok (V.head?.getD nul, b') ∧ Shows b' A V.tail (d - 1) ∧ (V = [] → Ended b') ∧
      b'.text = b.text ∧ b'.args = b.args ∧ b'.unique = b.unique := by
  obtain ⟨s, z, ⟨hst, hs0, ht0, hpl, hlit, hne, hV, hroom, hz⟩⟩ := h
  cases s with
  | cons x s =>
    simp only [List.mem_cons, not_or] at hs0
    have hn := nextChar_stack (b := b) (c := x) (s := s ++ List.replicate z nul) hst (Ne.symm hs0.1)
    refine ⟨{ b with stack := s ++ List.replicate z nul }, ?_, ⟨s, z, ⟨rfl, hs0.2, ht0, hpl, hlit.2, hne, ?_, ?_, hz⟩⟩, ?_, rfl, rfl, rfl⟩
    · rw [hV]
      refine getChar_plain hn (Ne.symm hs0.1) ?_
      intro hx
      have hl := hlit.1 hx
      cases s with
      | cons y s =>
        simp only [List.mem_cons, not_or] at hs0
        rw [peekChar_stack (c := y) (s := s ++ List.replicate z nul) rfl (Ne.symm hs0.2.1)]
        exact not_placeholder (b := b) (hl y rfl)
      | nil =>
        rw [peekChar_text (z := z) (by simp)]
        cases hr : b.text.drop b.index with
        | nil => rw [drop_none hr]; exact ⟨nul_not_digit, by decide⟩
        | cons y r =>
          rw [(drop_get hr).1]
          show ¬ ('0' ≤ y ∧ y ≤ '9') ∧ y ≠ '@'
          by_cases hy : y = '\\'
          · subst hy; exact ⟨slash_not_digit, by decide⟩
          · refine not_placeholder (b := b) (hl y ?_)
            rw [hr, substitute_cons hy]; rfl
    · rw [hV]; rfl
    · rw [hst] at hroom; simp at hroom ⊢; omega
    · intro h0; rw [hV] at h0; simp at h0
  | nil =>
    simp only [List.nil_append] at hst hV
    cases hr : b.text.drop b.index with
    | nil =>
      have hV' : V = [] := by rw [hV, hr]; simp [substitute]
      subst hV'
      refine ⟨{ b with stack := List.replicate (z - 1) nul }, ?_, ⟨[], z - 1, ⟨by simp, by simp, ht0, hpl, trivial, hne, ?_, ?_, fun _ => hr⟩⟩, fun _ => hr, rfl, rfl, rfl⟩
      · have hn := nextChar_end hst hr
        unfold getChar
        rw [hn]
        simp
      · show [] = [] ++ substitute _ (b.text.drop b.index); rw [hr]; simp [substitute]
      · rw [hst] at hroom; simp at hroom ⊢; omega
    | cons x r =>
      have hz0 : z = 0 := by
        rcases Nat.eq_zero_or_pos z with h0 | h0
        · exact h0
        · rw [hz h0] at hr; cases hr
      subst hz0
      simp only [List.replicate_zero] at hst
      have hx0 : x ≠ nul := by rintro rfl; exact ht0 (drop_mem hr (by simp))
      have hn := nextChar_text hst hr
      have hidx := (drop_get hr).2
      by_cases hx : x = '\\'
      · subst hx
        cases r with
        | nil =>
          have hV' : V = ['\\'] := by rw [hV, hr]; simp [substitute]
          subst hV'
          refine ⟨{ b with index := b.index + 1 }, ?_, ⟨[], 0, ⟨by simpa using hst, by simp, ht0, hpl, trivial, ?_, ?_, ?_, fun h => by omega⟩⟩, by simp, rfl, rfl, rfl⟩
          · refine getChar_plain hn hx0 (fun _ => ?_)
            rw [peekChar_text (z := 0) (by simpa using hst)]
            show ¬ ('0' ≤ (b.text[b.index + 1]?).getD nul ∧ _) ∧ _
            rw [drop_none hidx]
            exact ⟨nul_not_digit, by decide⟩
          · show NoEmpty _ (b.text.drop (b.index + 1)); rw [hidx]; simp [NoEmpty]
          · show _ = [] ++ substitute _ (b.text.drop (b.index + 1)); rw [hidx]; simp [substitute]
          · show b.stack.length ≤ _; rw [hst]; simp
        | cons y r =>
          have hpk : peekChar { b with index := b.index + 1 } = y := by
            rw [peekChar_text (z := 0) (by simpa using hst)]
            show (b.text[b.index + 1]?).getD nul = y
            rw [(drop_get hidx).1]; rfl
          rw [hr] at hne hV
          cases hv : values b.args b.unique y with
          | none =>
            rw [substitute_slash hv] at hV
            subst hV
            refine ⟨{ b with index := b.index + 1 }, ?_, ⟨[], 0, ⟨by simpa using hst, by simp, ht0, hpl, trivial, ?_, ?_, ?_, fun h => by omega⟩⟩, by simp, rfl, rfl, rfl⟩
            · refine getChar_plain hn hx0 (fun _ => ?_)
              rw [hpk]
              exact not_placeholder (b := b) hv
            · show NoEmpty _ (b.text.drop (b.index + 1)); rw [hidx]; exact noEmpty_slash hv hne
            · show _ = [] ++ substitute _ (b.text.drop (b.index + 1)); rw [hidx]; rfl
            · show b.stack.length ≤ _; rw [hst]; simp
          | some val =>
            obtain ⟨hp1, hp2, hp3⟩ := hpl y val hv
            obtain ⟨hn1, hn2⟩ := noEmpty_value hv hne
            rw [substitute_value hv] at hV
            have hn' : nextChar { b with index := b.index + 1 } = (y, { b with index := b.index + 1 + 1 }) :=
              nextChar_text (b := { b with index := b.index + 1 }) hst hidx
            have hidx2 := (drop_get hidx).2
            have hg := getChar_value (b := b) hn hpk hn' (val := val) hv (by show val.length + b.stack.length ≤ _; rw [hst]; simp; omega)
            have hstk : val ++ ({ b with index := b.index + 1 + 1 } : Buffer).stack = val := by
              show val ++ b.stack = val; rw [hst]; simp
            rw [hstk] at hg
            cases val with
            | cons w val =>
              simp only [List.mem_cons, not_or] at hp1 hp2
              subst hV
              refine ⟨{ b with stack := val, index := b.index + 1 + 1 }, ?_, ⟨val, 0, ⟨by simp, hp1.2, ht0, hpl, Lit.plain hp2.2, ?_, ?_, ?_, fun h => by omega⟩⟩, by simp, rfl, rfl, rfl⟩
              · rw [hg]
                rw [nextChar_stack (b := { b with stack := w :: val, index := b.index + 1 + 1 }) rfl (Ne.symm hp1.1)]
                rfl
              · show NoEmpty _ (b.text.drop (b.index + 1 + 1)); rw [hidx2]; exact hn2
              · show _ = val ++ substitute _ (b.text.drop (b.index + 1 + 1)); rw [hidx2]; rfl
              · show val.length ≤ _; simp at hp3; omega
            | nil =>
              simp only [List.nil_append] at hV
              cases r with
              | nil =>
                have hV' : V = [] := by rw [hV]; simp [substitute]
                subst hV'
                refine ⟨{ b with stack := [], index := b.index + 1 + 1 }, ?_, ⟨[], 0, ⟨by simp, by simp, ht0, hpl, trivial, ?_, ?_, ?_, fun h => by omega⟩⟩, fun _ => hidx2, rfl, rfl, rfl⟩
                · rw [hg, nextChar_end (z := 0) (by simp) hidx2]; rfl
                · show NoEmpty _ (b.text.drop (b.index + 1 + 1)); rw [hidx2]; exact hn2
                · show _ = [] ++ substitute _ (b.text.drop (b.index + 1 + 1)); rw [hidx2]; simp [substitute]
                · simp
              | cons w r =>
                have hw0 : w ≠ nul := by rintro rfl; exact ht0 (drop_mem hidx2 (by simp))
                have hw : w ≠ '\\' := by
                  rintro rfl; exact hn1 rfl rfl
                rw [substitute_cons hw] at hV
                subst hV
                refine ⟨{ b with stack := [], index := b.index + 1 + 1 + 1 }, ?_, ⟨[], 0, ⟨by simp, by simp, ht0, hpl, trivial, ?_, ?_, ?_, fun h => by omega⟩⟩, by simp, rfl, rfl, rfl⟩
                · rw [hg, nextChar_text (b := { b with stack := [], index := b.index + 1 + 1 }) rfl hidx2]; rfl
                · show NoEmpty _ (b.text.drop (b.index + 1 + 1 + 1)); rw [(drop_get hidx2).2]; exact noEmpty_cons hw hn2
                · show _ = [] ++ substitute _ (b.text.drop (b.index + 1 + 1 + 1)); rw [(drop_get hidx2).2]; rfl
                · simp
      · rw [hr, substitute_cons hx] at hV
        subst hV
        refine ⟨{ b with index := b.index + 1 }, getChar_plain hn hx0 (fun h => absurd h hx), ⟨[], 0, ⟨by simpa using hst, by simp, ht0, hpl, trivial, ?_, ?_, ?_, fun h => by omega⟩⟩, by simp, rfl, rfl, rfl⟩
        · show NoEmpty _ (b.text.drop (b.index + 1)); rw [hidx]; rw [hr] at hne; exact noEmpty_cons hx hne
        · show _ = [] ++ substitute _ (b.text.drop (b.index + 1)); rw [hidx]; rfl
        · show b.stack.length ≤ _; rw [hst]; simp

/-- Putting a character back makes it the next one. -/
theorem Shows.unput {b : Buffer} {A : Nat} {V : List Char} {d : Nat} (h : Shows b A V d) {c : Char} (hc : c ≠ nul)
    (hroom' : A + d < stackSize) (hl : c = '\\' → ∀ e, V.head? = some e → values b.args b.unique e = none) :
    ∃ b', unput b c = .ok b' ∧ Shows b' A (c :: V) (d + 1) ∧ b'.text = b.text ∧ b'.args = b.args ∧ b'.unique = b.unique ∧
      b'.index = b.index := by
  obtain ⟨s, z, ⟨hst, hs0, ht0, hpl, hlit, hne, hV, hroom, hz⟩⟩ := h
  refine ⟨{ b with stack := c :: b.stack }, ?_, ⟨c :: s, z, ⟨?_, ?_, ht0, hpl, ⟨?_, hlit⟩, hne, ?_, ?_, hz⟩⟩, rfl, rfl, rfl, rfl⟩
  · unfold Lexer.unput; rw [if_pos (by omega)]
  · show c :: b.stack = _; rw [hst]; rfl
  · simp [Ne.symm hc, hs0]
  · rw [hV] at hl; exact hl
  · rw [hV]; rfl
  · show (c :: b.stack).length ≤ _; simp; omega

/-- Putting the zero back that was read at the end changes nothing. -/
theorem Shows.unput_nul {b : Buffer} {A : Nat} {d : Nat} (h : Shows b A [] d) (he : Ended b)
    (hroom' : A + d < stackSize) :
    ∃ b', Lexer.unput b nul = .ok b' ∧ Shows b' A [] (d + 1) ∧ Ended b' ∧ b'.text = b.text ∧ b'.args = b.args ∧ b'.unique = b.unique := by
  obtain ⟨s, z, ⟨hst, hs0, ht0, hpl, hlit, hne, hV, hroom, hz⟩⟩ := h
  have hs : s = [] := by cases s with
    | nil => rfl
    | cons x s => simp at hV
  subst hs
  refine ⟨{ b with stack := nul :: b.stack }, ?_, ⟨[], z + 1, ⟨?_, by simp, ht0, hpl, trivial, hne, hV, ?_, fun _ => he⟩⟩, he, rfl, rfl, rfl⟩
  · unfold Lexer.unput; rw [if_pos (by omega)]
  · show nul :: b.stack = _; rw [hst]; simp [List.replicate_succ]
  · show (nul :: b.stack).length ≤ _; simp; omega

/-- A new buffer shows its text with the placeholders replaced. -/
theorem shows_init (text : List Char) (args : List (Option (List Char))) (unique : Option (List Char)) (A : Nat)
    (ht : nul ∉ text) (hp : Plain (values args unique) A) (hn : NoEmpty (values args unique) text) :
    Shows (init text args unique) A (substitute (values args unique) text) 0 :=
  ⟨[], 0, ⟨rfl, by simp, ht, hp, trivial, hn, rfl, by simp [init], fun h => by omega⟩⟩

end Verif.Lexer
