import Verif.Layout.Model
import Verif.Layout.Spec
/-!
# Words of a line and the tokens of the parser
-/
namespace Verif.Layout

theorem separator_iff (c : Char) : Separator c ↔ delim c = true := by
  simp [Separator, delim]

theorem mark_single {c : Char} (h : c ∈ "$%+-*/()[]:@,.".toList) : single c = true := by
  simpa [single] using h

theorem single_not_blank {c : Char} (h : single c = true) : blank c = false ∧ c ≠ ';' := by
  have : c ∈ ['$', '%', '+', '-', '*', '/', '(', ')', '[', ']', ':', '@', ',', '.'] := by simpa [single] using h
  revert c
  intro c _ h
  simp only [List.mem_cons, List.not_mem_nil, or_false] at h
  rcases h with h | h | h | h | h | h | h | h | h | h | h | h | h | h <;> subst h <;> decide

theorem not_delim {c : Char} (h : delim c = false) : blank c = false ∧ c ≠ ';' ∧ single c = false := by
  simp only [delim, List.contains_eq_mem, List.mem_cons, List.not_mem_nil, or_false, decide_eq_false_iff_not, not_or] at h
  obtain ⟨h1, h2, h3, h4, h5, h6, h7, h8, h9, h10, h11, h12, h13, h14, h15, h16, h17, h18⟩ := h
  refine ⟨by simp [blank, h1, h2], h16, ?_⟩
  simp [single, *]

theorem dropWhile_blanks {b : List Char} (hb : Blanks b) (s : List Char) :
    (b ++ s).dropWhile blank = s.dropWhile blank := by
  induction b with
  | nil => rfl
  | cons c b ih =>
    have hc : blank c = true := by
      rcases hb c (by simp) with h | h <;> subst h <;> decide
    rw [List.cons_append, List.dropWhile_cons, if_pos hc]
    exact ih (fun x hx => hb x (by simp [hx]))

/-- The parser has read the first of the words `ts`, and the others follow. -/
inductive At : St → List (List Char) → Prop where
  | nil (rest : List Char) : Spells [] rest → At ⟨[], rest⟩ []
  | cons (t : List Char) (ts : List (List Char)) (rest : List Char) : t ≠ [] → Spells ts rest → At ⟨t, rest⟩ (t :: ts)

theorem takeWhile_word {t s : List Char} (h : ∀ c ∈ t, ¬ Separator c) (hs : ∀ c, s.head? = some c → Separator c) :
    (t ++ s).takeWhile (fun x => !delim x) = t ∧ (t ++ s).dropWhile (fun x => !delim x) = s := by
  induction t with
  | nil =>
    cases s with
    | nil => exact ⟨rfl, rfl⟩
    | cons c s =>
      have := (separator_iff c).1 (hs c rfl)
      simp [this]
  | cons c t ih =>
    have hc : delim c = false := by
      have := h c (by simp)
      rw [separator_iff] at this
      simpa using this
    obtain ⟨h1, h2⟩ := ih (fun x hx => h x (by simp [hx]))
    simp [hc, h1, h2]

theorem at_next {ts : List (List Char)} {s : List Char} (h : Spells ts s) : At (nextToken s) ts := by
  cases h with
  | done b hb =>
    have h1 := dropWhile_blanks hb []
    rw [List.append_nil] at h1
    have : nextToken s = ⟨[], []⟩ := by rw [nextToken, h1]; rfl
    rw [this]
    exact .nil _ (.done [] (by intro c hc; cases hc))
  | comment b c hb =>
    have : nextToken (b ++ ';' :: c) = ⟨[], ';' :: c⟩ := by
      have h2 : List.dropWhile blank (';' :: c) = ';' :: c := by rw [List.dropWhile_cons, if_neg (by decide)]
      rw [nextToken, dropWhile_blanks hb, h2]
      simp
    rw [this]
    exact .nil _ (.comment [] c (by intro c hc; cases hc))
  | mark b t ts s hb ht hs =>
    obtain ⟨c, rfl, hc⟩ := ht
    have h1 := mark_single hc
    obtain ⟨h2, h3⟩ := single_not_blank h1
    have : nextToken (b ++ [c] ++ s) = ⟨[c], s⟩ := by
      have h4 : List.dropWhile blank (c :: s) = c :: s := by rw [List.dropWhile_cons, if_neg (by simp [h2])]
      rw [nextToken, List.append_assoc, dropWhile_blanks hb, List.singleton_append, h4]
      simp only
      rw [if_neg h3, if_pos h1]
    rw [this]
    exact .cons _ _ _ (by simp) hs
  | word b t ts s hb ht hh hs =>
    obtain ⟨hne, hw⟩ := ht
    obtain ⟨c, t', rfl⟩ := List.exists_cons_of_ne_nil hne
    have hc : delim c = false := by
      have := hw c (by simp)
      rw [separator_iff] at this
      simpa using this
    obtain ⟨h1, h2, h3⟩ := not_delim hc
    obtain ⟨h5, h6⟩ := takeWhile_word hw hh
    have : nextToken (b ++ (c :: t') ++ s) = ⟨c :: t', s⟩ := by
      have h4 : List.dropWhile blank (c :: t' ++ s) = c :: (t' ++ s) := by
        rw [List.cons_append, List.dropWhile_cons, if_neg (by simp [h1])]
      rw [nextToken, List.append_assoc, dropWhile_blanks hb, h4]
      simp only
      rw [if_neg h2, if_neg (by simp [h3]), ← List.cons_append, h5, h6]
    rw [this]
    exact .cons _ _ _ (by simp) hs

theorem At.tok_eq {st : St} {ts : List (List Char)} (h : At st ts) : st.tok = ts.headD [] := by
  cases h <;> rfl

theorem At.next {st : St} {t : List Char} {ts : List (List Char)} (h : At st (t :: ts)) : At (nextToken st.rest) ts := by
  cases h with
  | cons _ _ _ _ hs => exact at_next hs

theorem At.tok {st : St} {t : List Char} {ts : List (List Char)} (h : At st (t :: ts)) : st.tok = t := by
  cases h; rfl

theorem At.tok_ne {st : St} {t : List Char} {ts : List (List Char)} (h : At st (t :: ts)) : st.tok ≠ [] := by
  cases h with
  | cons _ _ _ h _ => exact h

theorem At.tok_nil {st : St} (h : At st []) : st.tok = [] := by
  cases h; rfl

/-! ### The text gets shorter -/

theorem nextToken_size (s : List Char) : (nextToken s).tok.length + (nextToken s).rest.length ≤ s.length := by
  have h := (List.dropWhile_suffix blank (l := s)).length_le
  rw [nextToken]
  cases hd : s.dropWhile blank with
  | nil => simp
  | cons c r =>
    rw [hd] at h
    simp only
    split
    · simpa using h
    · split
      · simp at h ⊢; omega
      · have := congrArg List.length (List.takeWhile_append_dropWhile (p := fun x => !delim x) (l := c :: r))
        rw [List.length_append] at this
        simp only
        omega

def size (st : St) : Nat := st.tok.length + st.rest.length

theorem nextToken_lt {st : St} (h : st.tok ≠ []) : size (nextToken st.rest) < size st := by
  have := nextToken_size st.rest
  have h2 := List.length_pos_iff.2 h
  unfold size
  omega

theorem nextToken_le (st : St) : size (nextToken st.rest) ≤ size st := by
  have := nextToken_size st.rest
  unfold size
  omega

end Verif.Layout
