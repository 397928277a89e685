import Verif.Lexer.Stream
/-!
# C32 and C33: reading macro bodies and putting characters back
-/
namespace Verif.Lexer

/-! ### C32 -/

theorem getChars_shows {b : Buffer} {A : Nat} {V : List Char} {d : Nat} (hA : A ≤ stackSize) (h : Shows b A V d) (n : Nat)
    (hn : n ≤ V.length) : ∃ b', getChars b n = .ok (V.take n, b') ∧ Shows b' A (V.drop n) (d - n) := by
  induction n generalizing b V d with
  | zero => exact ⟨b, rfl, h⟩
  | succ n ih =>
    cases V with
    | nil => simp at hn
    | cons c V =>
      obtain ⟨b1, hg, hs, _⟩ := h.get hA
      obtain ⟨b2, hg2, hs2⟩ := ih hs (by simpa using hn)
      refine ⟨b2, ?_, ?_⟩
      · unfold getChars
        rw [hg, ok_bind]
        simp only [List.tail_cons] at hg2
        simp only [hg2, ok_bind]
        rfl
      · rw [show d - (n + 1) = d - 1 - n by omega]; exact hs2

/-- **C32.** Reading a macro body gives the body with every `\0` to `\9` replaced by the argument and `\@` by the unique
value, and then the end, for every body and all arguments without zero bytes, provided that no argument contains a
backslash or has more than 256 characters, and no empty argument is directly followed by a backslash. Without these
conditions it does not hold, see `C32_empty_argument`, `C32_nested` and `C32_long_argument`. -/
theorem C32_substitution_partial (text : List Char) (args : List (Option (List Char))) (unique : Option (List Char))
    (ht : nul ∉ text) (hp : Plain (values args unique) 256) (hn : NoEmpty (values args unique) text) :
    ∃ b, getChars (init text args unique) (substitute (values args unique) text).length =
        .ok (substitute (values args unique) text, b) ∧ (getChar b).bind (fun r => .ok r.1) = .ok nul := by
  obtain ⟨b, h1, h2⟩ := getChars_shows (Nat.le_refl 256) (shows_init text args unique 256 ht hp hn) _ (Nat.le_refl _)
  rw [List.take_length] at h1
  rw [List.drop_length] at h2
  obtain ⟨b', h3, _⟩ := h2.get (Nat.le_refl 256)
  exact ⟨b, h1, by rw [h3]; rfl⟩

/-- The arguments of a macro call `mac d0,5` in a body ` move.\0 \1,\2\@`. -/
def args0 : List (Option (List Char)) := [some "w".toList, some "d0".toList, some "5".toList]

theorem plain_values (args : List (Option (List Char))) (unique : Option (List Char)) (A : Nat)
    (h : ∀ a ∈ args, ∀ v, a = some v → nul ∉ v ∧ '\\' ∉ v ∧ v.length ≤ A)
    (hu : ∀ v, unique = some v → nul ∉ v ∧ '\\' ∉ v ∧ v.length ≤ A) : Plain (values args unique) A := by
  intro c val hv
  unfold values at hv
  split at hv
  · cases hv
    cases unique with
    | none => simp
    | some u => exact hu u rfl
  · split at hv
    · split at hv
      · next v hx => cases hv; exact h _ (List.mem_of_getElem? hx) _ rfl
      · cases hv; simp
    · cases hv

theorem plain0 : Plain (values args0 (some "_7".toList)) 3 := by
  apply plain_values
  · intro a ha v hv; subst hv
    simp [args0] at ha
    rcases ha with rfl | rfl | rfl <;> decide
  · intro v hv; cases hv; decide

instance noEmptyDec (v : Values) : (t : List Char) → Decidable (NoEmpty v t)
  | [] => isTrue (by simp [NoEmpty])
  | [_] => isTrue (by simp [NoEmpty])
  | c :: d :: rest => by
    have h1 := noEmptyDec v rest
    have h2 := noEmptyDec v (d :: rest)
    unfold NoEmpty
    split
    · cases v d with
      | none => exact h2
      | some val => exact @instDecidableAnd _ _ inferInstance h1
    · exact h2

example : substitute (values args0 (some "_7".toList)) " move.\\0 \\1,\\2\\@".toList = " move.w d0,5_7".toList := by decide +kernel

example : ∃ b, getChars (init " move.\\0 \\1,\\2\\@".toList args0 (some "_7".toList)) 14 = .ok (" move.w d0,5_7".toList, b) ∧
    (getChar b).bind (fun r => .ok r.1) = .ok nul := by
  have := C32_substitution_partial " move.\\0 \\1,\\2\\@".toList args0 (some "_7".toList) (by decide)
    (fun c v h => let ⟨a, b, d⟩ := plain0 c v h; ⟨a, b, by omega⟩) (by decide +kernel)
  have e : substitute (values args0 (some "_7".toList)) " move.\\0 \\1,\\2\\@".toList = " move.w d0,5_7".toList := by decide +kernel
  rw [e] at this
  exact this

/-- **C32.** After `SHIFT n` argument `i` is the former argument `i + n`; argument 0 stays. -/
theorem C32_shift (b : Buffer) (n : Nat) (a0 : Option (List Char)) (rest : List (Option (List Char))) (h : b.args = a0 :: rest) :
    (shiftArguments b n).args = a0 :: rest.drop n := by
  induction n generalizing b rest with
  | zero => exact h
  | succ n ih =>
    unfold shiftArguments
    cases rest with
    | nil => rw [h]; simp [h]
    | cons a1 rest =>
      rw [h]
      simp only [List.length_cons]
      rw [if_pos (by omega), ih _ rest (by simp)]
      simp

example : (shiftArguments (init [] args0 none) 1).args = [some "w".toList, some "5".toList] := by decide +kernel

/-- What is read from a buffer until its end, `n` characters at most. -/
def readText (b : Buffer) (n : Nat) : Option (List Char) :=
  match getChars b n with
  | .ok (cs, _) => some (cs.takeWhile (· ≠ nul))
  | _ => none

/-- **C32 does not hold for empty arguments followed by another placeholder.** `\1\2` with an empty first argument gives
`\2` instead of the second argument. -/
theorem C32_empty_argument :
    readText (init "\\1\\2".toList [some "w".toList, some [], some "b".toList] none) 9 = some "\\2".toList ∧
    substitute (values [some "w".toList, some [], some "b".toList] none) "\\1\\2".toList = "b".toList := by decide +kernel

/-- The same for an argument that is not given. -/
theorem C32_missing_argument : readText (init "\\9\\1".toList [some "w".toList, some "a".toList] none) 9 = some "\\1".toList := by
  decide +kernel

/-- Placeholders in arguments are replaced, except at the start of an argument. -/
theorem C32_nested :
    readText (init "\\1".toList [some [], some "x\\2".toList, some "b".toList] none) 9 = some "xb".toList ∧
    readText (init "\\1".toList [some [], some "\\2".toList, some "b".toList] none) 9 = some "\\2".toList := by decide +kernel

/-- An argument of 257 characters is written past the end of the stack. -/
theorem C32_long_argument : getChar (init "\\1".toList [none, some (List.replicate 257 'x')] none) = .ub := by decide +kernel

/-! ### C33 -/

/-- What a lexer does with its input: read a character, or put back the last one read that was not put back. -/
inductive Op where
  | get
  | unget
  deriving Repr, DecidableEq

/-- The characters read. The history lists the characters that can be put back. -/
def run : List Op → Buffer → List Char → Outcome (List Char)
  | [], _, _ => .ok []
  | .get :: ops, b, hist => (getChar b).bind fun (c, b) => (run ops b (c :: hist)).bind fun out => .ok (c :: out)
  | .unget :: ops, b, c :: hist => (unput b c).bind fun b => run ops b hist
  | .unget :: ops, b, [] => run ops b []

/-- The same with a text and a position in it: putting back moves the position by one. Behind the text there are zeros. -/
def look (V : List Char) : List Op → Nat → List Char
  | [], _ => []
  | .get :: ops, p => (V[p]?).getD nul :: look V ops (p + 1)
  | .unget :: ops, p => look V ops (p - 1)

/-- The number of characters put back and not yet read again never exceeds the room on the stack. -/
def Fits (A : Nat) : List Op → Nat → Prop
  | [], _ => True
  | .get :: ops, d => Fits A ops (d - 1)
  | .unget :: ops, d => A + d < stackSize ∧ Fits A ops (d + 1)

theorem literal_drop {v : Values} {V : List Char} (h : Literal v V) (n : Nat) : Literal v (V.drop n) := by
  induction n generalizing V with
  | zero => exact h
  | succ n ih => cases V with
    | nil => trivial
    | cons c V => exact ih h.2

theorem Fits.mono {A : Nat} {ops : List Op} {d d' : Nat} (h : Fits A ops d) (hd : d' ≤ d) : Fits A ops d' := by
  induction ops generalizing d d' with
  | nil => trivial
  | cons o ops ih => cases o with
    | get => exact ih (d' := d' - 1) h (by omega)
    | unget => exact ⟨by have := h.1; omega, ih h.2 (by omega)⟩

/-- The history behind position `p`: the characters before it, zeros behind the text. -/
def Hist (V : List Char) (p : Nat) (hist : List Char) : Prop :=
  hist.length = p ∧ ∀ i < p, hist[p - 1 - i]? = some ((V[i]?).getD nul)

theorem run_look {V : List Char} {A : Nat} (hA : A ≤ stackSize) (ops : List Op) (b : Buffer) (hist : List Char) (p d : Nat)
    (hsh : Shows b A (V.drop p) d) (hV : nul ∉ V) (hlit : Literal (values b.args b.unique) V) (hh : Hist V p hist) (hf : Fits A ops d)
    (hend : V.length < p → Ended b) : run ops b hist = .ok (look V ops p) := by
  induction ops generalizing b hist p d with
  | nil => rfl
  | cons o ops ih =>
    cases o with
    | get =>
      obtain ⟨b', hg, hs, he, ht, ha, hu⟩ := hsh.get hA
      have hhead : (V.drop p).head?.getD nul = (V[p]?).getD nul := by rw [List.head?_drop]
      have htail : (V.drop p).tail = V.drop (p + 1) := by rw [List.tail_drop]
      rw [hhead] at hg
      rw [htail] at hs
      unfold run look
      rw [hg, ok_bind]
      simp only []
      rw [ih b' ((V[p]?).getD nul :: hist) (p + 1) (d - 1) hs (by rw [ha, hu]; exact hlit) ?_ hf ?_]
      · rfl
      · refine ⟨by simp [hh.1], ?_⟩
        intro i hi
        by_cases hip : i = p
        · subst hip; simp
        · rw [show p + 1 - 1 - i = (p - 1 - i) + 1 by omega, List.getElem?_cons_succ]
          exact hh.2 i (by omega)
      · intro hlt
        exact he (List.drop_eq_nil_of_le (by omega))
    | unget =>
      cases hist with
      | nil =>
        have hp : p = 0 := hh.1.symm
        subst hp
        unfold run look
        exact ih b [] 0 d hsh hlit hh (hf.2.mono (by omega)) hend
      | cons c hist =>
        have hp : p = hist.length + 1 := by have := hh.1; simp at this; omega
        have hc : c = (V[hist.length]?).getD nul := by
          have := hh.2 hist.length (by omega)
          rw [show p - 1 - hist.length = 0 by omega] at this
          simpa using this
        have hh' : Hist V hist.length hist := by
          refine ⟨rfl, ?_⟩
          intro i hi
          have := hh.2 i (by omega)
          rw [show p - 1 - i = (hist.length - 1 - i) + 1 by omega, List.getElem?_cons_succ] at this
          exact this
        unfold run look
        rw [show p - 1 = hist.length by omega]
        by_cases hlt : hist.length < V.length
        · have hget : V[hist.length]? = some V[hist.length] := List.getElem?_eq_getElem hlt
          rw [hget] at hc
          simp only [Option.getD_some] at hc
          have hc0 : c ≠ nul := by rintro rfl; exact hV (by rw [hc]; exact List.getElem_mem _)
          have hdrop : V.drop hist.length = c :: V.drop p := by
            rw [hp, hc]; exact List.drop_eq_getElem_cons hlt
          have hl := literal_drop hlit hist.length
          rw [hdrop] at hl
          obtain ⟨b', hu, hs, ht, ha, hq, hi⟩ := hsh.unput hc0 hf.1 hl.1
          rw [hu, ok_bind]
          refine ih b' hist hist.length (d + 1) (by rw [hdrop]; exact hs) (by rw [ha, hq]; exact hlit) hh' hf.2 ?_
          intro h; omega
        · have hc0 : c = nul := by rw [hc, List.getElem?_eq_none (by omega)]; rfl
          have hnil : V.drop p = [] := List.drop_eq_nil_of_le (by omega)
          rw [hnil] at hsh
          obtain ⟨b', hu, hs, he, ht, ha, hq⟩ := hsh.unput_nul (hend (by omega)) hf.1
          rw [hc0, hu, ok_bind]
          refine ih b' hist hist.length (d + 1) ?_ (by rw [ha, hq]; exact hlit) hh' hf.2 (fun _ => he)
          rw [List.drop_eq_nil_of_le (by omega)]; exact hs

/-- **C33.** Putting characters back never loses, duplicates or reorders text: whatever sequence of reads and put-backs
a lexer performs on a macro body or a file, it reads the characters of the expanded text at the positions a cursor
would have. The arguments are plain text of at most `A` characters, at most `256 - A` characters are put back at a time,
and the expanded text has no backslash in front of a digit or an at sign. -/
theorem C33_transparent_partial (text : List Char) (args : List (Option (List Char))) (unique : Option (List Char)) (A : Nat)
    (ht : nul ∉ text) (hA : A ≤ 256) (hp : Plain (values args unique) A) (hn : NoEmpty (values args unique) text)
    (hl : Literal (values args unique) (substitute (values args unique) text)) (ops : List Op) (hf : Fits A ops 0) :
    run ops (init text args unique) [] = .ok (look (substitute (values args unique) text) ops 0) := by
  have hs := shows_init text args unique A ht hp hn
  have key : ∀ (v : Values), Plain v A → ∀ t, nul ∉ t → nul ∉ substitute v t := by
    intro v hv t
    induction t using substitute.induct (v := v) with
    | case1 => simp [substitute]
    | case2 c => intro h; simpa [substitute] using h
    | case3 c rest value hval ih =>
      intro h
      rw [substitute_value hval]
      simp only [List.mem_cons, not_or] at h
      rw [List.mem_append, not_or]
      exact ⟨(hv _ _ hval).1, ih h.2.2⟩
    | case4 c rest hval ih =>
      intro h
      rw [substitute_slash hval]
      simp only [List.mem_cons, not_or] at h
      rw [List.mem_cons, not_or]
      exact ⟨by decide, ih (by simp [h])⟩
    | case5 c d rest hc ih =>
      intro h
      rw [substitute_cons hc]
      simp only [List.mem_cons, not_or] at h
      rw [List.mem_cons, not_or]
      exact ⟨h.1, ih (by simp [h])⟩
  exact run_look hA ops _ [] 0 0 hs (key _ hp text ht) hl ⟨rfl, fun i hi => absurd hi (Nat.not_lt_zero i)⟩ hf
    (fun h => by omega)

example : run [.get, .get, .unget, .unget, .get, .get, .get, .unget] (init "\\1,".toList args0 none) [] = .ok "d0d0,".toList := by
  decide +kernel

instance literalDec (v : Values) : (t : List Char) → Decidable (Literal v t)
  | [] => isTrue trivial
  | c :: rest => by
    have := literalDec v rest
    unfold Literal
    have h : Decidable (∀ d, rest.head? = some d → v d = none) := by
      cases rest with
      | nil => exact isTrue (by simp)
      | cons x r =>
        cases hx : v x with
        | none => exact isTrue (by intro d h; simp at h; subst h; exact hx)
        | some y => exact isFalse (by intro h; rw [h x rfl] at hx; cases hx)
    infer_instance

example : run [.get, .get, .unget, .unget, .get, .get, .get, .unget] (init "\\1,".toList args0 (some "_7".toList)) [] = .ok "d0d0,".toList :=
  C33_transparent_partial "\\1,".toList args0 (some "_7".toList) 3 (by decide) (by decide) plain0 (by decide +kernel) (by decide +kernel)
    _ (by simp [Fits, stackSize])

/-- The characters that come next without replacing placeholders. -/
def raw (b : Buffer) : List Char := b.stack ++ b.text.drop b.index

/-- **C33.** Looking ahead by index sees the characters that come next. -/
theorem C33_unexpanded (b : Buffer) (i : Nat) : getUnexpandedChar b i = ((raw b)[i]?).getD nul := by
  unfold getUnexpandedChar raw
  split
  · next h => rw [List.getElem?_append_left h]
  · next h =>
    rw [List.getElem?_append_right (by omega), List.getElem?_drop, Nat.add_comm]

/-- **C33.** Copying characters copies the ones that come next, as many as asked for. -/
theorem C33_copy (b : Buffer) (n : Nat) (hi : b.index ≤ b.text.length) (h1 : b.stack.length ≤ n) (h2 : n ≤ (raw b).length) :
    copyUnexpanded b n = .ok ((raw b).take n) := by
  unfold copyUnexpanded raw
  unfold raw at h2
  simp at h2
  rw [if_neg (by omega), List.take_append, List.take_of_length_le h1, if_neg (by omega)]

theorem popAll_clean {s : List Char} (h : nul ∉ s) : popAll s = (s, []) := by
  induction s with
  | nil => rfl
  | cons c s ih =>
    simp only [List.mem_cons, not_or] at h
    unfold popAll
    rw [if_neg (Ne.symm h.1), ih h.2]

/-- **C33.** Skipping characters skips the ones that come next and counts the lines among them. -/
theorem C33_skip (b : Buffer) (n : Nat) (hi : b.index ≤ b.text.length) (h0 : nul ∉ b.stack) (h1 : b.stack.length ≤ n)
    (h2 : n ≤ (raw b).length) :
    ∃ b', skipUnexpanded b n = .ok (b', ((raw b).take n).count '\n') ∧ raw b' = (raw b).drop n := by
  unfold raw at h2
  simp at h2
  refine ⟨{ b with stack := [], index := b.index + (n - b.stack.length) }, ?_, ?_⟩
  · unfold skipUnexpanded raw
    rw [popAll_clean h0]
    simp only []
    rw [if_neg (by omega), if_neg (by omega), List.take_append, List.take_of_length_le h1]
  · unfold raw
    rw [List.drop_append, List.drop_eq_nil_of_le h1]
    simp

example : skipUnexpanded ⟨"ab".toList, "xcd\nef".toList, 1, [], none⟩ 5 = .ok (⟨[], "xcd\nef".toList, 4, [], none⟩, 1) := by decide +kernel

/-- Copying or skipping fewer characters than were put back does not work: the count wraps around. -/
theorem C33_short_copy : copyUnexpanded ⟨"ab".toList, "cd".toList, 0, [], none⟩ 1 = .ub ∧
    skipUnexpanded ⟨"ab".toList, "cd".toList, 0, [], none⟩ 1 = .ub := by decide +kernel

/-! ### What does not hold -/

/-- **C33 does not hold for a backslash that is followed by an argument that begins with a digit.** In `\\1` the first
backslash is read as it is and the argument `2` follows. When both are put back, they are read as the second argument. -/
theorem C33_backslash :
    run [.get, .get, .unget, .unget, .get, .get] (init "\\\\1".toList [none, some "2".toList, some "xy".toList] none) [] =
      .ok "\\2xy".toList ∧
    look "\\2".toList [.get, .get, .unget, .unget, .get, .get] 0 = "\\2\\2".toList := by decide +kernel

/-- More than 256 characters cannot be put back. -/
theorem C33_overflow : run (List.replicate 257 .get ++ List.replicate 257 .unget) (init (List.replicate 300 'x') [] none) [] = .ub := by
  decide +kernel

/-- A zero on the stack hides what is below it: the text comes first. -/
theorem C33_zero : (nextChar ⟨[nul, 'a'], "b".toList, 0, [], none⟩).1 = 'b' := by decide +kernel

end Verif.Lexer
