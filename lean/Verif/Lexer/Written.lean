import Verif.Lexer.ScanProps
/-!
# Tokens that are separated by blanks

A line in which every token is separated from the next one is divided into these tokens.
-/
namespace Verif.Lexer

/-- Words that blanks, `*` and `;` separate: no word has one of them, except `*` and `**`. Words do not begin like numbers or
strings, and not with a point; where the letters of a word end, there is neither `$` nor `#`. -/
structure Regular (L : Language) : Prop where
  good : GoodWords L.words
  comment : ∀ w ∈ L.words, ';' ∉ w.name
  star : ∀ w ∈ L.words, '*' ∈ w.name → ∀ c ∈ w.name, c = '*'
  begins : ∀ w ∈ L.words, NoNumber w.name ∧ w.name.head? ≠ some '"' ∧ w.name.head? ≠ some '\'' ∧ w.name.head? ≠ some '.'
  ends : ∀ w ∈ L.words, (w.name.dropWhile isSymbol).head? ≠ some '$' ∧ (w.name.dropWhile isSymbol).head? ≠ some '#'
  short : ∀ w ∈ L.words, w.name.length ≤ 256
  bin0 : isSpace L.opts.bin0 = false ∧ L.opts.bin0 ≠ '*' ∧ L.opts.bin0 ≠ ';'
  bin1 : isSpace L.opts.bin1 = false ∧ L.opts.bin1 ≠ '*' ∧ L.opts.bin1 ≠ ';'

/-- How tokens are written. -/
inductive Spelling (L : Language) : List Char → Token → Prop where
  | number {pre ds : List Char} {base value : Nat} : Prefix pre base → positional L.opts.bin0 L.opts.bin1 base ds = some value →
      (pre = [] → ds ≠ []) → ds.length ≤ 257 → Spelling L (pre ++ ds) (.number (value % 2 ^ 32))
  | local {ds : List Char} {value : Nat} : positional L.opts.bin0 L.opts.bin1 10 ds = some value → ds ≠ [] → ds.length ≤ 255 →
      Spelling L (ds ++ ['$']) (.ident (ds ++ ['$']))
  | word {s : List Char} {w : Word} : named L.words s = some w → Spelling L s (.word w.token)
  | name {s : List Char} : IsName s → s.length ≤ 256 → named L.words s = none → Spelling L s (.ident s)
  | string {q : Char} {cs : List Char} : q = '"' ∨ q = '\'' → Quoted (some q) cs → cs.length ≤ 256 → Spelling L (q :: cs ++ [q]) (.string cs)
  | char {c : Char} : NoNumber [c] → isStart c = false → named L.words [c] = none → c ≠ '"' → c ≠ '\'' → c ≠ '*' → c ≠ ';' →
      isSpace c = false → Spelling L [c] (.char c)

/-- A line of tokens, each with the blanks before it and its text, and what is behind them: a comment. A token that begins with `*` has no
blanks before it and another token before that; the others have blanks before them. `star` says that a `*` may come. -/
inductive Written (L : Language) (n : Nat) : Bool → List Char → List Token → List Char → Prop where
  | newline {star : Bool} {g c rest : List Char} : Blanks g → g.length + c.length < n → '\n' ∉ c → c = [] ∨ CommentAt (!g.isEmpty) c →
      Written L n star (g ++ c ++ '\n' :: rest) [.char '\n'] rest
  | token {star : Bool} {g s V rest : List Char} {t : Token} {ts : List Token} : Spelling L s t → s.head? ≠ some '*' → Blanks g → g ≠ [] → g.length < n →
      Written L n true V ts rest → Written L n star (g ++ s ++ V) (t :: ts) rest
  | star {s V rest : List Char} {t : Token} {ts : List Token} : Spelling L s t → s.head? = some '*' →
      Written L n false V ts rest → Written L n true (s ++ V) (t :: ts) rest

/-- The character at the end of a token. -/
def IsSep (c : Char) : Prop := isSpace c = true ∨ c = '*' ∨ c = ';'

theorem Written.sep {L : Language} {n : Nat} {star : Bool} {V rest : List Char} {ts : List Token} (h : Written L n star V ts rest) :
    ∃ c V', V = c :: V' ∧ IsSep c ∧ (star = false → c ≠ '*') := by
  cases h with
  | @newline _ g c rest hg _ _ hc =>
    cases g with
    | cons x g =>
      have := hg x List.mem_cons_self
      exact ⟨x, _, rfl, .inl this.1, fun _ h => by subst h; exact absurd this.1 (by decide)⟩
    | nil =>
      rcases hc with rfl | hc
      · exact ⟨'\n', _, rfl, .inl (by decide), fun _ => by decide⟩
      · rcases hc with hc | ⟨_, hc⟩
        · cases c with
          | nil => cases hc
          | cons x c => cases hc; exact ⟨';', _, rfl, .inr (.inr rfl), fun _ => by decide⟩
        · cases hc
  | @token _ g s V' _ _ _ hs _ hg hne _ _ =>
    cases g with
    | nil => exact absurd rfl hne
    | cons x g =>
      have := hg x List.mem_cons_self
      exact ⟨x, _, rfl, .inl this.1, fun _ h => by subst h; exact absurd this.1 (by decide)⟩
  | @star s V' _ _ _ hs hstar _ =>
    cases s with
    | nil => cases hstar
    | cons x s => cases hstar; exact ⟨'*', _, rfl, .inr (.inl rfl), fun h => by cases h⟩

theorem Written.pos {L : Language} {n : Nat} {star : Bool} {V rest : List Char} {ts : List Token} (h : Written L n star V ts rest) : 0 < n := by
  induction h with
  | newline _ h _ _ => omega
  | token _ _ _ _ h _ _ => omega
  | star _ _ _ ih => exact ih

theorem sep_props {c : Char} (h : IsSep c) : isSymbol c = false ∧ isStart c = false ∧ c ≠ '$' ∧ c ≠ '#' ∧ c ≠ '.' ∧ c ≠ 'f' ∧ c ≠ '0' ∧ c ≠ '1' ∧
    digitTable.lookup c = none := by
  rcases h with h | rfl | rfl
  · unfold isSpace at h
    have h : c = ' ' ∨ (9 ≤ c.toNat ∧ c.toNat ≤ 13) := by simpa using h
    have h : c.toNat = 32 ∨ c.toNat = 9 ∨ c.toNat = 10 ∨ c.toNat = 11 ∨ c.toNat = 12 ∨ c.toNat = 13 := by
      rcases h with rfl | h
      · exact .inl (by decide)
      · omega
    have hc : c = Char.ofNat c.toNat := (Char.ofNat_toNat c).symm
    rcases h with h | h | h | h | h | h <;> rw [h] at hc <;> subst hc <;> decide
  · decide
  · decide

/-! ### Lower case letters -/

theorem upper_cases (c : Char) : upper c = c ∨ ∃ k : Fin 26, c = Char.ofNat (97 + k.val) := by
  by_cases h : 'a' ≤ c ∧ c ≤ 'z'
  · right
    have h1 : 97 ≤ c.toNat := by have := h.1; simp only [Char.le_def, UInt32.le_iff_toNat_le] at this; exact this
    have h2 : c.toNat ≤ 122 := by have := h.2; simp only [Char.le_def, UInt32.le_iff_toNat_le] at this; exact this
    refine ⟨⟨c.toNat - 97, by omega⟩, ?_⟩
    show c = Char.ofNat (97 + (c.toNat - 97))
    rw [show 97 + (c.toNat - 97) = c.toNat by omega]
    exact (Char.ofNat_toNat c).symm
  · left; unfold upper; rw [if_neg h]

theorem upper_symbol (c : Char) : isSymbol (upper c) = isSymbol c := by
  rcases upper_cases c with h | ⟨k, rfl⟩
  · rw [h]
  · revert k; decide

theorem upper_start (c : Char) : isStart (upper c) = isStart c := by
  rcases upper_cases c with h | ⟨k, rfl⟩
  · rw [h]
  · revert k; decide

/-- Only letters are changed. -/
theorem upper_other {c d : Char} (hd : isStart d = false) (h : upper c = d) : c = d := by
  rcases upper_cases c with h' | ⟨k, rfl⟩
  · rw [← h', h]
  · exfalso
    subst h
    rw [upper_start] at hd
    revert hd
    revert k
    decide

theorem map_upper_dropWhile (s : List Char) : (s.map upper).dropWhile isSymbol = (s.dropWhile isSymbol).map upper := by
  induction s with
  | nil => rfl
  | cons c s ih =>
    rw [List.map_cons, List.dropWhile_cons, List.dropWhile_cons, upper_symbol, ih]
    split <;> rfl

theorem head_upper {s : List Char} {d : Char} (hd : isStart d = false) (h : s.head? = some d) : (s.map upper).head? = some d := by
  cases s with
  | nil => cases h
  | cons c s =>
    cases h
    rw [List.map_cons, List.head?_cons]
    rcases upper_cases d with h | ⟨k, rfl⟩
    · rw [h]
    · exfalso; revert hd; revert k; decide

/-! ### Words and separators -/

/-- A separator is not inside a word. -/
theorem named_sep {L : Language} (hL : Regular L) {s : List Char} {c : Char} (hc : IsSep c) (hs : c = '*' → ∃ x ∈ s, x ≠ '*') (hm : c ∈ s) :
    named L.words s = none := by
  cases h : named L.words s with
  | none => rfl
  | some w =>
    obtain ⟨hw, hn⟩ := named_mem h
    rcases hc with hc | rfl | rfl
    · rw [named_space hL.good hm hc] at h; cases h
    · exfalso
      obtain ⟨x, hx, hx'⟩ := hs rfl
      have h1 : '*' ∈ w.name := by rw [hn]; exact List.mem_map.2 ⟨'*', hm, by decide⟩
      have h2 : upper x ∈ w.name := by rw [hn]; exact List.mem_map.2 ⟨x, hx, rfl⟩
      exact hx' (upper_other (by decide) (hL.star w hw h1 _ h2))
    · exfalso
      have h1 : ';' ∈ w.name := by rw [hn]; exact List.mem_map.2 ⟨';', hm, by decide⟩
      exact hL.comment w hw h1

/-- No word is longer than the text before a separator. -/
theorem named_take {L : Language} (hL : Regular L) {s V : List Char} {c : Char} (hc : IsSep c) (hs : c = '*' → ∃ x, s.head? = some x ∧ x ≠ '*') {j : Nat}
    (hj : s.length < j) : named L.words ((s ++ c :: V).take j) = none := by
  obtain ⟨i, rfl⟩ : ∃ i, j = s.length + (i + 1) := ⟨j - s.length - 1, by omega⟩
  rw [List.take_length_add_append, List.take_succ_cons]
  refine named_sep hL hc (fun h => ?_) (by simp)
  obtain ⟨x, hx, hx'⟩ := hs h
  refine ⟨x, ?_, hx'⟩
  cases s with
  | nil => cases hx
  | cons y s => cases hx; simp

theorem named_pos {L : Language} (hL : Regular L) {s : List Char} {w : Word} (h : named L.words s = some w) : s ≠ [] := by
  rintro rfl
  obtain ⟨hw, hn⟩ := named_mem h
  exact (hL.good w hw).1 hn

/-! ### Tokens before separators -/

/-- A token that a separator follows. -/
theorem Spelling.at {L : Language} (hL : Regular L) {n : Nat} (hn : 0 < n) {s : List Char} {t : Token} (h : Spelling L s t) {c : Char} {V : List Char} (hc : IsSep c)
    (hs : s.head? = some '*' → c ≠ '*') : TokenAt L n 0 false (s ++ c :: V) t (c :: V) := by
  obtain ⟨p1, p2, p3, p4, p5, p6, p7, p8, p9⟩ := sep_props hc
  have hstar : s ≠ [] → c = '*' → ∃ x, s.head? = some x ∧ x ≠ '*' := by
    intro hne hc'
    cases s with
    | nil => exact absurd rfl hne
    | cons x s => exact ⟨x, rfl, fun hx => hs (by rw [hx]; rfl) hc'⟩
  cases h with
  | @number pre ds base value hp hv hne hlen =>
    refine .number hp hv hne hlen ⟨?_, by simp [p6], by simp [p3], fun r hr => by cases hr; exact absurd rfl p5⟩
    intro x hx
    cases hx
    have hb0 : c ≠ L.opts.bin0 := by
      rintro rfl
      rcases hc with h | h | h
      · rw [hL.bin0.1] at h; cases h
      · exact hL.bin0.2.1 h
      · exact hL.bin0.2.2 h
    have hb1 : c ≠ L.opts.bin1 := by
      rintro rfl
      rcases hc with h | h | h
      · rw [hL.bin1.1] at h; cases h
      · exact hL.bin1.2.1 h
      · exact hL.bin1.2.2 h
    refine ⟨?_, fun _ => ⟨p7, p8⟩⟩
    unfold digit
    rw [p9, if_neg hb0, if_neg hb1]
    split <;> rfl
  | @«local» ds value hv hne hlen =>
    rw [List.append_assoc]
    exact .local hv hne hlen
  | @word _ w hw =>
    obtain ⟨hm, hname⟩ := named_mem hw
    have hlen := named_length hw
    have hne := named_pos hL hw
    have hword : TokenAt L n 0 false (s ++ c :: V) (.word w.token) ((s ++ c :: V).drop w.name.length) := by
      obtain ⟨x, s', rfl⟩ := List.exists_cons_of_ne_nil hne
      have hb := hL.begins w hm
      have he := hL.ends w hm
      rw [hname] at hb he
      refine .word ?_ ⟨by rw [hlen]; simp, ?_, fun j hj hV => ?_⟩ (fun h => by cases h) ?_
      · intro y hy
        cases hy
        have hx : ∀ d, isStart d = false → x = d → (upper x) = d := fun d hd hx => by
          have := head_upper (s := x :: s') hd (by rw [hx]; rfl)
          simpa using this
        have hno := hb.1 (upper x) rfl
        refine ⟨fun h => hno.1 (hx _ (by decide) h), fun h => hno.2.1 (hx _ (by decide) h), fun h => hno.2.2.1 (hx _ (by decide) h), fun h => ?_⟩
        apply hno.2.2.2
        rcases upper_cases x with hu | ⟨k, rfl⟩
        · rw [hu]; exact h
        · exact absurd h ((by decide : ∀ k : Fin 26, ¬ ('0' ≤ Char.ofNat (97 + k.val) ∧ Char.ofNat (97 + k.val) ≤ '9')) k)
      · rw [hlen, List.take_left' rfl]; exact hw
      · rw [hlen] at hj
        exact named_take hL hc (hstar hne) hj
      · by_cases hx : isStart x = true
        · right
          -- the letters at the start of the word are a name
          refine ⟨0, (x :: s').takeWhile isSymbol, (x :: s').dropWhile isSymbol ++ c :: V, ?_, hn, ?_⟩
          · have e : x :: s' ++ c :: V = (x :: s').takeWhile isSymbol ++ ((x :: s').dropWhile isSymbol ++ c :: V) := by
              rw [← List.append_assoc, List.takeWhile_append_dropWhile]
            rw [e]
            have hsx : isSymbol x = true := by unfold isSymbol; rw [hx]; rfl
            have htw : (x :: s').takeWhile isSymbol = x :: s'.takeWhile isSymbol := by rw [List.takeWhile_cons, if_pos hsx]
            refine .plain ?_ ?_ ?_
            · rw [htw]
              have : ∀ y ∈ s'.takeWhile isSymbol, isSymbol y = true := fun y hy => by
                have := List.all_takeWhile (p := isSymbol) (l := s')
                exact List.all_eq_true.1 this y hy
              have hxd : x ≠ '.' := by rintro rfl; revert hx; decide
              unfold IsName
              split
              · rename_i h; exact absurd (List.cons.inj h).1 hxd
              · rename_i c' s'' _ h
                obtain ⟨rfl, rfl⟩ := List.cons.inj h
                exact ⟨hx, this⟩
              · rename_i h; cases h
            · have := hL.short w hm
              rw [hlen] at this
              exact Nat.le_trans (List.takeWhile_prefix _).length_le this
            · intro y hy
              cases hd : (x :: s').dropWhile isSymbol with
              | nil =>
                rw [hd] at hy
                cases hy
                exact ⟨p1, p3, fun h => absurd h p4⟩
              | cons z zs =>
                rw [hd] at hy
                obtain rfl : z = y := by simpa using hy
                rw [map_upper_dropWhile, hd] at he
                refine ⟨?_, fun h => he.1 (head_upper (by decide) (by rw [h]; rfl)), fun h => absurd (head_upper (s := z :: zs) (by decide) (by rw [h]; rfl)) he.2⟩
                have := List.head?_dropWhile_not isSymbol (x :: s')
                rw [hd] at this
                simpa using this
          · rw [hlen]; exact (List.takeWhile_prefix _).length_le
        · left
          have hx : isStart x = false := by simpa using hx
          refine ⟨fun y hy => by cases hy; exact hx, fun y V' hy => ?_⟩
          exfalso
          have : x = '.' := by simpa using (List.cons.inj hy).1
          exact hb.2.2.2 (head_upper (by decide) (by rw [this]; rfl))
    rwa [hlen, List.drop_left' rfl] at hword
  | name hname hlen hnone =>
    have hne : s ≠ [] := by rintro rfl; exact hname
    refine .name (k := 0) rfl ?_ (.plain hname hlen fun y hy => ?_) hn fun w hw => ?_
    · intro y hy
      obtain ⟨x, s', rfl⟩ := List.exists_cons_of_ne_nil hne
      obtain rfl : x = y := by simpa using hy
      have hx : isStart x = true ∨ x = '.' := by
        unfold IsName at hname
        split at hname
        · rename_i h; exact .inr (List.cons.inj h).1
        · rename_i h; exact .inl (by rw [(List.cons.inj h).1]; exact hname.1)
        · cases hname
      refine ⟨?_, ?_, ?_, fun h => ?_⟩
      · rintro rfl; revert hx; decide
      · rintro rfl; revert hx; decide
      · rintro rfl; revert hx; decide
      · have hnn := noName_digit (V := []) h
        rcases hx with hx | rfl
        · have := hnn.1 x rfl; rw [hx] at this; cases this
        · revert h; decide
    · cases hy; exact ⟨p1, p3, fun h => absurd h p4⟩
    · by_cases hlt : w.name.length < s.length
      · exact hlt
      · exfalso
        rcases Nat.eq_or_lt_of_le (Nat.le_of_not_lt hlt) with h | h
        · have := hw.2.1
          rw [← h, List.take_left' rfl, hnone] at this
          cases this
        · have := hw.2.1
          rw [named_take hL hc (hstar hne) h] at this
          cases this
  | @string q cs hq hcs hlen =>
    have e : q :: cs ++ [q] ++ c :: V = q :: cs ++ q :: (c :: V) := by simp
    rw [e]
    refine .string hq hcs hlen fun j h0 hj => ?_
    cases hnm : named L.words ((q :: cs ++ q :: (c :: V)).take j) with
    | none => rfl
    | some w =>
      exfalso
      obtain ⟨hm, hname⟩ := named_mem hnm
      obtain ⟨j, rfl⟩ : ∃ i, j = i + 1 := ⟨j - 1, by omega⟩
      have hb := hL.begins w hm
      rw [hname] at hb
      rcases hq with rfl | rfl
      · exact hb.2.1 rfl
      · exact hb.2.2.1 rfl
  | @char x hno hst hnm h1 h2 h3 h4 h5 =>
    refine .char (fun y hy => hno y hy) (fun j h0 hj => ?_) ⟨fun y hy => by cases hy; exact hst, fun y V' hy => ?_⟩ h1 h2
    · by_cases h : j = 1
      · subst h; exact hnm
      · exact named_take (s := [x]) hL hc (fun _ => ⟨x, rfl, h3⟩) (by simp; omega)
    · obtain ⟨rfl, h⟩ := List.cons.inj hy
      obtain ⟨rfl, _⟩ := List.cons.inj h
      exact p2

theorem Spelling.head {L : Language} (hL : Regular L) {s : List Char} {t : Token} (h : Spelling L s t) :
    ∃ x s', s = x :: s' ∧ isSpace x = false ∧ x ≠ ';' := by
  have hd : ∀ c : Char, (isSymbol c = true ∨ c = '$' ∨ c = '%' ∨ c = '"' ∨ c = '\'' ∨ c = '.') → isSpace c = false ∧ c ≠ ';' := by
    intro c hc
    refine ⟨?_, ?_⟩
    · cases hsp : isSpace c with
      | false => rfl
      | true =>
        exfalso
        have := sep_props (.inl hsp)
        rcases hc with h | rfl | rfl | rfl | rfl | rfl
        · rw [this.1] at h; cases h
        all_goals (revert hsp; decide)
    · rintro rfl; revert hc; decide
  have hdec : ∀ {c : Char} {ds : List Char} {value : Nat}, positional L.opts.bin0 L.opts.bin1 10 (c :: ds) = some value → isSpace c = false ∧ c ≠ ';' := by
    intro c ds value hv
    obtain ⟨d, m, hdig, _⟩ := positional_cons hv
    have hns : ¬ IsSep c := fun hc => by
      unfold digit at hdig
      rw [if_neg (by decide), (sep_props hc).2.2.2.2.2.2.2.2] at hdig
      cases hdig
    refine ⟨?_, fun h => hns (.inr (.inr h))⟩
    cases hsp : isSpace c with
    | false => rfl
    | true => exact absurd (.inl hsp) hns
  cases h with
  | @number pre ds base value hp hv hne hlen =>
    cases hp with
    | hex => exact ⟨'$', _, rfl, hd _ (by simp)⟩
    | bin => exact ⟨'%', _, rfl, hd _ (by simp)⟩
    | dec =>
      cases ds with
      | nil => exact absurd rfl (hne rfl)
      | cons c ds => exact ⟨c, ds, rfl, hdec hv⟩
  | @«local» ds value hv hne hlen =>
    cases ds with
    | nil => exact absurd rfl hne
    | cons c ds => exact ⟨c, ds ++ ['$'], rfl, hdec hv⟩
  | @word _ w hw =>
    obtain ⟨hm, hname⟩ := named_mem hw
    obtain ⟨x, s', rfl⟩ := List.exists_cons_of_ne_nil (named_pos hL hw)
    refine ⟨x, s', rfl, ?_, ?_⟩
    · cases hsp : isSpace x with
      | false => rfl
      | true => rw [named_space hL.good List.mem_cons_self hsp] at hw; cases hw
    · rintro rfl
      exact hL.comment w hm (by rw [hname]; exact List.mem_map.2 ⟨';', by simp, by decide⟩)
  | name hname hlen hnone =>
    unfold IsName at hname
    split at hname
    · exact ⟨'.', _, rfl, hd _ (by simp)⟩
    · rename_i c s'' _
      exact ⟨c, _, rfl, hd _ (.inl (by unfold isSymbol; rw [hname.1]; rfl))⟩
    · cases hname
  | @string q cs hq hcs hlen =>
    refine ⟨q, _, rfl, hd _ ?_⟩
    rcases hq with rfl | rfl <;> simp
  | @char x hno hst hnm h1 h2 h3 h4 h5 => exact ⟨x, [], rfl, h5, h4⟩

/-- **A line whose tokens are separated has these tokens.** -/
theorem Written.line {L : Language} (hL : Regular L) {n : Nat} {star : Bool} {V rest : List Char} {ts : List Token} (h : Written L n star V ts rest) :
    LineAt L n 0 false V ts rest := by
  induction h with
  | newline hg hn hc hcom => exact .newline hg hn hc hcom
  | @token star g s V rest t ts hs hstar hg hne hlen hw ih =>
    obtain ⟨c, V', rfl, hc, _⟩ := hw.sep
    obtain ⟨x, s', rfl, hx, hx'⟩ := hs.head hL
    rw [List.append_assoc]
    refine LineAt.token (e := 0) (e' := 0) hg hlen ?_ (fun y hy => by cases hy; exact hx) (hs.at hL (by omega) hc (fun h => absurd h hstar)) ih
    rintro (h | ⟨h, _⟩)
    · cases h; exact hx' rfl
    · exact hstar h
  | @star s V rest t ts hs hstar hw ih =>
    obtain ⟨c, V', rfl, hc, hnc⟩ := hw.sep
    obtain ⟨x, s', rfl, hx, hx'⟩ := hs.head hL
    refine LineAt.token (e := 0) (e' := 0) (g := []) (fun _ h => by cases h) ?_ ?_ (fun y hy => by cases hy; exact hx) (hs.at hL ?_ hc (fun _ => hnc rfl)) ih
    · exact hw.pos
    · rintro (h | ⟨h, h'⟩)
      · cases h; exact hx' rfl
      · cases h'
    · exact hw.pos

/-- The same at the start of a line: there must be a blank before the first token. -/
theorem Written.first {L : Language} (hL : Regular L) {n : Nat} {V rest : List Char} {ts : List Token} (h : Written L n false V ts rest) :
    LineAt L n 0 true V ts rest := by
  cases h with
  | newline hg hn hc hcom => exact .newline hg hn hc (hcom.imp id fun h => h.imp id fun h => ⟨h.1, rfl⟩)
  | @token _ g s V rest t ts hs hstar hg hne hlen hw =>
    obtain ⟨c, V', rfl, hc, _⟩ := hw.sep
    obtain ⟨x, s', rfl, hx, hx'⟩ := hs.head hL
    rw [List.append_assoc]
    refine LineAt.token (e := 0) (e' := 0) hg hlen ?_ (fun y hy => by cases hy; exact hx) ?_ (hw.line hL)
    · rintro (h | ⟨h, _⟩)
      · cases h; exact hx' rfl
      · exact hstar h
    · have : (true && g.isEmpty) = false := by cases g with
        | nil => exact absurd rfl hne
        | cons _ _ => rfl
      rw [this]
      exact hs.at hL (by omega) hc (fun h => absurd h hstar)

/-- A label at the start of the line. -/
theorem Written.label {L : Language} (hL : Regular L) {n : Nat} {star : Bool} {name V rest : List Char} {ts : List Token} (hname : IsName name)
    (hlen : name.length ≤ 256) (h : Written L n star V ts rest) : LineAt L n 0 true (name ++ V) (.label name :: ts) rest := by
  obtain ⟨c, V', rfl, hc, _⟩ := h.sep
  obtain ⟨p1, p2, p3, p4, p5, _⟩ := sep_props hc
  refine LineAt.token (e := 0) (e' := 0) (g := []) (fun _ h => by cases h) h.pos ?_ ?_
    (.label (k := 0) rfl (.plain hname hlen fun y hy => by cases hy; exact ⟨p1, p3, fun h => absurd h p4⟩) h.pos) (h.line hL)
  · unfold IsName at hname
    split at hname
    · rintro (h | ⟨h, _⟩) <;> cases h
    · rintro (h | ⟨h, _⟩)
      · cases h; revert hname; rintro ⟨h, _⟩; revert h; decide
      · cases h; revert hname; rintro ⟨h, _⟩; revert h; decide
    · cases hname
  · intro y hy
    unfold IsName at hname
    split at hname
    · cases hy; decide
    · rename_i x s _
      obtain rfl : x = y := by simpa using hy
      cases hsp : isSpace x with
      | false => rfl
      | true => have := (sep_props (.inl hsp)).2.1; rw [hname.1] at this; cases this
    · cases hname

end Verif.Lexer
