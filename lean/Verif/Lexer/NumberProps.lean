import Verif.Lexer.Number
import Verif.Lexer.NumberSpec
import Verif.Lexer.BufferProps
/-!
# C31: numbers in the source denote their value
-/
namespace Verif.Lexer

/-! ### Buffers -/

theorem Shows.mono {b : Buffer} {A : Nat} {V : List Char} {d d' : Nat} (h : Shows b A V d) (hd : d ≤ d') : Shows b A V d' := by
  obtain ⟨s, z, ⟨h1, h2, h3, h4, h5, h6, h7, h8, h9⟩⟩ := h
  exact ⟨s, z, ⟨h1, h2, h3, h4, h5, h6, h7, by omega, h9⟩⟩

/-- The same arguments and text. -/
def Same (b b' : Buffer) : Prop := b'.text = b.text ∧ b'.args = b.args ∧ b'.unique = b.unique

theorem Same.refl (b : Buffer) : Same b b := ⟨rfl, rfl, rfl⟩

theorem Same.trans {a b c : Buffer} (h : Same a b) (h' : Same b c) : Same a c :=
  ⟨h'.1.trans h.1, h'.2.1.trans h.2.1, h'.2.2.trans h.2.2⟩

theorem Same.values {a b : Buffer} (h : Same a b) : values b.args b.unique = values a.args a.unique := by
  rw [h.2.1, h.2.2]

theorem Shows.get' {b : Buffer} {A : Nat} {V : List Char} {d : Nat} (h : Shows b A V d) (hA : A ≤ stackSize) :
    ∃ b', getChar b = .ok (V.head?.getD nul, b') ∧ Shows b' A V.tail (d - 1) ∧ (V = [] → Ended b') ∧ Same b b' := by
  obtain ⟨b', h1, h2, h3, h4, h5, h6⟩ := h.get hA
  exact ⟨b', h1, h2, h3, h4, h5, h6⟩

/-- A backslash is followed by no placeholder. -/
def Back (v : Values) (V : List Char) : Prop := V.head? = some '\\' → ∀ e, V.tail.head? = some e → v e = none

theorem Back.of_literal {v : Values} {V : List Char} (h : Literal v V) : Back v V := by
  cases V with
  | nil => intro h; cases h
  | cons c V => intro hc; simp at hc; exact h.1 hc

theorem Shows.noNul {b : Buffer} {A : Nat} {V : List Char} {d : Nat} (h : Shows b A V d) : nul ∉ V := by
  obtain ⟨s, z, ⟨_, hs, ht, hp, _, _, hV, _, _⟩⟩ := h
  rw [hV]
  simp only [List.mem_append, not_or]
  refine ⟨hs, ?_⟩
  have : ∀ t : List Char, nul ∉ t → nul ∉ substitute (Lexer.values b.args b.unique) t := by
    intro t
    induction t using substitute.induct (v := Lexer.values b.args b.unique) with
    | case1 => simp [substitute]
    | case2 c => simp [substitute]
    | case3 d rest val hv ih =>
      intro hn
      rw [substitute_value hv]
      simp only [List.mem_cons, not_or, List.mem_append] at hn ⊢
      exact ⟨(hp _ _ hv).1, ih hn.2.2⟩
    | case4 d rest hv ih =>
      intro hn
      rw [substitute_slash hv]
      simp only [List.mem_cons, not_or] at hn ih ⊢
      exact ⟨hn.1, ih hn.2⟩
    | case5 c d rest hc ih =>
      intro hn
      rw [substitute_cons hc]
      simp only [List.mem_cons, not_or] at hn ih ⊢
      exact ⟨hn.1, ih hn.2⟩
  exact this _ (fun hm => ht (List.mem_of_mem_drop hm))

/-- Putting back the character that was read, or the zero at the end. -/
theorem Shows.back {b : Buffer} {A : Nat} {V : List Char} {d : Nat} (h : Shows b A V.tail d) (hn : nul ∉ V)
    (he : V = [] → Ended b) (hroom : A + d < stackSize) (hb : Back (Lexer.values b.args b.unique) V) :
    ∃ b', Lexer.unput b (V.head?.getD nul) = .ok b' ∧ Shows b' A V (d + 1) ∧ (V = [] → Ended b') ∧ Same b b' := by
  cases V with
  | nil =>
    obtain ⟨b', h1, h2, h3, h4, h5, h6⟩ := Shows.unput_nul h (he rfl) hroom
    exact ⟨b', h1, h2, fun _ => h3, h4, h5, h6⟩
  | cons c V =>
    simp only [List.mem_cons, not_or] at hn
    obtain ⟨b', h1, h2, h4, h5, h6, _⟩ := Shows.unput h (c := c) (Ne.symm hn.1) hroom (fun hc => hb (by simp [hc]))
    exact ⟨b', h1, h2, by simp, h4, h5, h6⟩

/-! ### Digits -/

theorem char_big {c : Char} (h : ¬ c.toNat < 128) (d : Char) (hd : d.toNat < 128) : c ≠ d := by
  rintro rfl; exact h hd

theorem asciiToBinary_eq (c : Char) : asciiToBinary c = digitTable.lookup c := by
  by_cases h : c.toNat < 128
  · have hall : ∀ n < 128, asciiToBinary (Char.ofNat n) = digitTable.lookup (Char.ofNat n) := by decide +kernel
    have := hall c.toNat h
    rwa [Char.ofNat_toNat] at this
  · have h1 : asciiToBinary c = none := by
      have hle : ∀ d : Char, d.toNat < 128 → ¬ c ≤ d := by
        intro d hd hcd
        have : c.toNat ≤ d.toNat := by simpa [Char.le_def, UInt32.le_iff_toNat_le] using hcd
        omega
      unfold asciiToBinary
      rw [if_neg (fun hc => hle '9' (by decide) hc.2), if_neg (fun hc => hle 'f' (by decide) hc.2),
        if_neg (fun hc => hle 'F' (by decide) hc.2)]
    rw [h1]
    symm
    rw [List.lookup_eq_none_iff]
    intro p hp
    have hall : ∀ p ∈ digitTable, p.1.toNat < 128 := by decide
    simp only [bne_iff_ne, ne_eq]
    have := char_big h p.1 (hall p hp)
    simpa using this

theorem toRadix_of_digit {o : Options} {base d : Nat} {c : Char} (h : digit o.bin0 o.bin1 base c = some d) :
    asciiToRadixBinary o c base = some d := by
  unfold digit at h
  unfold asciiToRadixBinary
  by_cases hb : base = 2
  · rw [if_pos hb] at h ⊢
    by_cases h0 : c = o.bin0
    · rw [if_pos h0] at h ⊢; exact h
    · rw [if_neg h0] at h ⊢
      by_cases h1 : c = o.bin1
      · rw [if_pos h1] at h ⊢; exact h
      · rw [if_neg h1] at h; cases h
  · rw [if_neg hb] at h ⊢
    rw [asciiToBinary_eq]
    cases hl : digitTable.lookup c with
    | none => rw [hl] at h; cases h
    | some n =>
      rw [hl] at h
      simp only [Option.filter_some, decide_eq_true_eq] at h
      exact h

theorem toRadix_none {o : Options} {base : Nat} {c : Char} (h : digit o.bin0 o.bin1 base c = none)
    (h2 : base = 2 → c ≠ '0' ∧ c ≠ '1') : asciiToRadixBinary o c base = none := by
  unfold digit at h
  unfold asciiToRadixBinary
  rw [asciiToBinary_eq]
  by_cases hb : base = 2
  · rw [if_pos hb] at h ⊢
    by_cases h0 : c = o.bin0
    · rw [if_pos h0] at h; cases h
    · rw [if_neg h0] at h ⊢
      by_cases h1 : c = o.bin1
      · rw [if_pos h1] at h; cases h
      · rw [if_neg h1]
        subst hb
        obtain ⟨z, w⟩ := h2 rfl
        cases hl : digitTable.lookup c with
        | none => rfl
        | some n =>
          show (if n < 2 then some n else none) = none
          rw [if_neg]
          intro hn
          have hall : ∀ p ∈ digitTable, p.2 < 2 → p.1 = '0' ∨ p.1 = '1' := by decide
          have hmem : (c, n) ∈ digitTable := by
            obtain ⟨l1, l2, he, _⟩ := List.lookup_eq_some_iff.mp hl
            rw [he]; simp
          rcases hall _ hmem hn with h | h
          · exact z h
          · exact w h
  · rw [if_neg hb] at h ⊢
    cases hl : digitTable.lookup c with
    | none => rfl
    | some n =>
      rw [hl] at h
      simp only [Option.filter_some, decide_eq_true_eq] at h
      exact h

theorem nul_none {o : Options} {base : Nat} (h0 : o.bin0 ≠ nul) (h1 : o.bin1 ≠ nul) : asciiToRadixBinary o nul base = none := by
  refine toRadix_none ?_ (fun _ => by decide)
  unfold digit
  rw [if_neg (Ne.symm h0), if_neg (Ne.symm h1)]
  have : digitTable.lookup nul = none := by decide
  rw [this]
  simp

/-- Reading digits from the left: `acc` is what was read before. -/
theorem positional_cons {z w : Char} {base : Nat} {c : Char} {cs : List Char} {n : Nat}
    (h : positional z w base (c :: cs) = some n) :
    ∃ d m, digit z w base c = some d ∧ positional z w base cs = some m ∧ n = d * base ^ cs.length + m := by
  unfold positional at h ⊢
  rw [List.reverse_cons] at h
  have key : ∀ (l : List Char) (n : Nat), positionalRev z w base (l ++ [c]) = some n →
      ∃ d m, digit z w base c = some d ∧ positionalRev z w base l = some m ∧ n = d * base ^ l.length + m := by
    intro l
    induction l with
    | nil =>
      intro n h
      simp only [List.nil_append, positionalRev] at h
      cases hd : digit z w base c with
      | none => rw [hd] at h; cases h
      | some d => rw [hd] at h; simp at h; exact ⟨d, 0, rfl, rfl, by simp [h]⟩
    | cons x l ih =>
      intro n h
      simp only [List.cons_append, positionalRev] at h
      cases hx : digit z w base x with
      | none => rw [hx] at h; cases h
      | some e =>
        rw [hx] at h
        cases hr : positionalRev z w base (l ++ [c]) with
        | none => rw [hr] at h; cases h
        | some k =>
          rw [hr] at h
          obtain ⟨d, m, h1, h2, h3⟩ := ih k hr
          simp at h
          refine ⟨d, e + base * m, h1, by simp [positionalRev, hx, h2], ?_⟩
          rw [← h, h3, List.length_cons, Nat.pow_succ, Nat.mul_add]
          have : base * (d * base ^ l.length) = d * (base ^ l.length * base) := by
            rw [Nat.mul_comm base, Nat.mul_assoc]
          omega
  have := key cs.reverse n h
  rwa [List.length_reverse] at this

theorem positional_nil {z w : Char} {base : Nat} : positional z w base [] = some 0 := rfl

/-- Reading digits. -/
theorem readDigits_shows {o : Options} (ho0 : o.bin0 ≠ nul) (ho1 : o.bin1 ≠ nul) {base A : Nat} (hA : A ≤ stackSize) {rest : List Char}
    (hrest : NoDigit o.bin0 o.bin1 base rest) (ds : List Char) :
    ∀ {b : Buffer} {d n v p : Nat} {t : List Char} {room : Nat}, Shows b A (ds ++ rest) d → positional o.bin0 o.bin1 base ds = some n →
      ds.length ≤ room → v < W32 → p < W32 →
      ∃ b', readDigits o base v p t room b = .ok ⟨(v * base ^ ds.length + n) % W32, p * base ^ ds.length % W32, t ++ ds, rest.head?.getD nul, b'⟩ ∧
        Shows b' A rest.tail (d - ds.length - 1) ∧ (rest = [] → Ended b') ∧ Same b b' := by
  induction ds with
  | nil =>
    intro b d n v p t room hb hn _ hv hp
    obtain ⟨b', hg, hs, he, hsame⟩ := hb.get' hA
    refine ⟨b', ?_, hs, he, hsame⟩
    rw [positional_nil] at hn
    cases hn
    have hstop : asciiToRadixBinary o (rest.head?.getD nul) base = none := by
      cases hr : rest.head? with
      | none => exact nul_none ho0 ho1
      | some c => exact toRadix_none (hrest c hr).1 (hrest c hr).2
    unfold readDigits
    simp only [List.nil_append] at hg
    rw [hg, ok_bind]
    simp only [hstop]
    simp [Nat.mod_eq_of_lt hv, Nat.mod_eq_of_lt hp]
  | cons c ds ih =>
    intro b d n v p t room hb hn hroom hv hp
    obtain ⟨e, m, he, hm, hnm⟩ := positional_cons hn
    obtain ⟨b1, hg, hs, _, hsame⟩ := hb.get' hA
    simp only [List.cons_append, List.tail_cons, List.head?_cons, Option.getD_some] at hg hs
    simp only [List.length_cons] at hroom
    obtain ⟨room', rfl⟩ : ∃ k, room = k + 1 := ⟨room - 1, by omega⟩
    obtain ⟨b', h1, h2, h3, h4⟩ := ih (v := (v * base + e) % W32) (p := p * base % W32) (t := t ++ [c]) (room := room') hs hm (by omega)
      (Nat.mod_lt _ (by decide)) (Nat.mod_lt _ (by decide))
    refine ⟨b', ?_, h2.mono (by simp only [List.length_cons]; omega), h3, hsame.trans h4⟩
    unfold readDigits
    rw [hg, ok_bind]
    simp only [toRadix_of_digit he]
    rw [h1]
    have e1 : ((v * base + e) % W32 * base ^ ds.length + m) % W32 = (v * base ^ (c :: ds).length + n) % W32 := by
      rw [Nat.add_mod, Nat.mod_mul_mod, ← Nat.add_mod, hnm]
      congr 1
      rw [List.length_cons, Nat.pow_succ, Nat.add_mul, Nat.mul_assoc v, Nat.mul_comm base]
      omega
    have e2 : p * base % W32 * base ^ ds.length % W32 = p * base ^ (c :: ds).length % W32 := by
      rw [Nat.mod_mul_mod, List.length_cons, Nat.pow_succ, Nat.mul_assoc p, Nat.mul_comm base]
    rw [e1, e2]
    simp

/-! ### Literals -/

theorem noDigit_stop {o : Options} (ho0 : o.bin0 ≠ nul) (ho1 : o.bin1 ≠ nul) {base : Nat} {rest : List Char}
    (h : NoDigit o.bin0 o.bin1 base rest) : positional o.bin0 o.bin1 base [] = some 0 ∧ asciiToRadixBinary o (rest.head?.getD nul) base = none := by
  refine ⟨rfl, ?_⟩
  cases hr : rest.head? with
  | none => exact nul_none ho0 ho1
  | some c => exact toRadix_none (h c hr).1 (h c hr).2

theorem head_ne {rest : List Char} {c : Char} (hc : nul ≠ c) (h : rest.head? ≠ some c) : rest.head?.getD nul ≠ c := by
  cases rest with
  | nil => exact hc
  | cons x r => intro hx; apply h; simp at hx; simp [hx]

/-- The part of `acceptNumeric` behind the first loop, for a number that ends there. -/
theorem acceptNumeric_number {o : Options} (ho0 : o.bin0 ≠ nul) (ho1 : o.bin1 ≠ nul) {base A d : Nat} (hd : 2 ≤ d) (hA : A + d ≤ stackSize)
    {b : Buffer} {ds rest : List Char} {n : Nat} (ls : Bool) (hb : Shows b A (ds ++ rest) d)
    (hn : positional o.bin0 o.bin1 base ds = some n) (hlen : ds.length ≤ tokenSize) (hends : Ends o.bin0 o.bin1 base rest)
    (hback : Back (values b.args b.unique) rest ∧ Back (values b.args b.unique) rest.tail) :
    ∃ b', acceptNumeric o base ls b = .ok (.number (n % W32), b') ∧ Shows b' A rest d ∧ Same b b' := by
  have hA' : A ≤ stackSize := by omega
  obtain ⟨hnd, hnf, hnl, hdot⟩ := hends
  have hnul : nul ∉ rest := fun h => hb.noNul (by simp [h])
  obtain ⟨b1, h1, hs1, he1, hsame1⟩ := readDigits_shows ho0 ho1 hA' hnd ds (v := 0) (p := 1) (t := []) (room := tokenSize) hb hn hlen (by decide) (by decide)
  unfold acceptNumeric
  rw [h1, ok_bind]
  simp only [Nat.zero_mul, Nat.zero_add]
  rw [if_neg (fun h => head_ne (c := '$') (by decide) (hnl h.1) h.2)]
  by_cases hp : rest.head?.getD nul = '.'
  · rw [if_pos hp]
    obtain ⟨rest', rfl⟩ : ∃ r, rest = '.' :: r := by
      cases rest with
      | nil => exact absurd hp (by decide)
      | cons x r => simp at hp; exact ⟨r, by rw [hp]⟩
    simp only [List.tail_cons] at hs1 hback
    simp only [List.mem_cons, not_or] at hnul
    obtain ⟨b2, h2, hs2, he2, hsame2⟩ := readDigits_shows ho0 ho1 hA' (hdot rest' rfl) [] (v := 0) (p := 1) (t := []) (room := tokenSize - ([] ++ ds).length)
      (b := b1) (d := d - 1) (hs1.mono (by omega)) positional_nil (by simp) (by decide) (by decide)
    simp only [List.length_nil] at h2 hs2
    obtain ⟨b3, h3, hs3, he3, hsame3⟩ := Shows.back (b := b2) (V := rest') (d := d - 2) (hs2.mono (by omega)) hnul.2 he2 (by omega)
      (by rw [(hsame1.trans hsame2).values]; exact hback.2)
    obtain ⟨b4, h4, hs4, e1, e2, e3, _⟩ := Shows.unput (b := b3) (c := '.') (d := d - 1) (hs3.mono (by omega)) (by decide) (by omega) (fun h => absurd h (by decide))
    refine ⟨b4, ?_, hs4.mono (by omega), hsame1.trans (hsame2.trans (hsame3.trans ⟨e1, e2, e3⟩))⟩
    rw [h2, ok_bind]
    simp only [List.append_nil]
    rw [if_pos trivial, h3, ok_bind, ok_bind]
    simp only []
    rw [if_neg (by decide), h4, ok_bind, if_pos trivial]
  · rw [if_neg hp, ok_bind]
    simp only []
    rw [if_neg (head_ne (by decide) hnf)]
    obtain ⟨b3, h3, hs3, he3, hsame3⟩ := Shows.back (b := b1) (V := rest) (d := d - 1) (hs1.mono (by omega)) hnul he1 (by omega)
      (by rw [hsame1.values]; exact hback.1)
    refine ⟨b3, ?_, hs3.mono (by omega), hsame1.trans hsame3⟩
    rw [h3, ok_bind, if_pos trivial]

/-- A decimal digit. -/
theorem digit_ten {z w c : Char} {e : Nat} (h : digit z w 10 c = some e) : '0' ≤ c ∧ c ≤ '9' := by
  unfold digit at h
  rw [if_neg (by decide)] at h
  cases hl : digitTable.lookup c with
  | none => rw [hl] at h; cases h
  | some n =>
    rw [hl] at h
    simp only [Option.filter_some, decide_eq_true_eq] at h
    have hall : ∀ p ∈ digitTable, p.2 < 10 → '0' ≤ p.1 ∧ p.1 ≤ '9' := by decide
    have hmem : (c, n) ∈ digitTable := by
      obtain ⟨l1, l2, he, _⟩ := List.lookup_eq_some_iff.mp hl
      rw [he]; simp
    refine hall _ hmem ?_
    by_cases hn : n < 10
    · exact hn
    · rw [if_neg hn] at h; cases h

/-- What a literal begins with decides how it is read. -/
theorem acceptVariadic_prefix {o : Options} {base A d : Nat} (hd : 2 ≤ d) (hA : A + d ≤ stackSize)
    {b : Buffer} {pre ds rest : List Char} {n : Nat} (ls : Bool) (fuel : Nat) (hpre : Prefix pre base) (hb : Shows b A (pre ++ ds ++ rest) d)
    (hn : positional o.bin0 o.bin1 base ds = some n) (hne : pre = [] → ds ≠ []) :
    ∃ b1, Shows b1 A (ds ++ rest) d ∧ Same b b1 ∧
      acceptVariadic o ls fuel b = (acceptNumeric o base ls b1).bind fun (t, b) => .ok (some t, b) := by
  have hA' : A ≤ stackSize := by omega
  obtain ⟨b1, hg, hs, he, hsame⟩ := hb.get' hA'
  cases hpre with
  | hex =>
    refine ⟨b1, hs.mono (by omega), hsame, ?_⟩
    unfold acceptVariadic
    rw [hg, ok_bind]
    rfl
  | bin =>
    refine ⟨b1, hs.mono (by omega), hsame, ?_⟩
    unfold acceptVariadic
    rw [hg, ok_bind]
    rfl
  | dec =>
    cases ds with
    | nil => exact absurd rfl (hne rfl)
    | cons c ds =>
      obtain ⟨e, m, hc, _, _⟩ := positional_cons hn
      have hdig := digit_ten hc
      simp only [List.nil_append, List.cons_append, List.tail_cons, List.head?_cons, Option.getD_some] at hg hs hb
      have hnul : nul ∉ c :: (ds ++ rest) := hb.noNul
      have hc0 : c ≠ nul := by rintro rfl; exact hnul (by simp)
      obtain ⟨b2, h2, hs2, e1, e2, e3, _⟩ := Shows.unput (b := b1) (c := c) (d := d - 1) hs hc0 (by omega)
        (by rintro rfl; exact absurd hdig (by decide))
      refine ⟨b2, hs2.mono (by omega), hsame.trans ⟨e1, e2, e3⟩, ?_⟩
      unfold acceptVariadic
      rw [hg, ok_bind]
      simp only []
      rw [if_neg (by rintro rfl; exact absurd hdig (by decide)), if_neg (by rintro rfl; exact absurd hdig (by decide)),
        if_neg (by rintro rfl; exact absurd hdig (by decide)), h2, ok_bind, if_pos hdig]

/-- **C31, for at most 257 digits.** A hexadecimal, binary or decimal number denotes its positional value, modulo 2^32, and
exactly the number is consumed. A number without digits is 0, if it begins with `$` or `%`. -/
theorem C31_number_partial {o : Options} (ho0 : o.bin0 ≠ nul) (ho1 : o.bin1 ≠ nul) {base A d : Nat} (hd : 2 ≤ d) (hA : A + d ≤ stackSize)
    {b : Buffer} {pre ds rest : List Char} {n : Nat} (ls : Bool) (fuel : Nat) (hpre : Prefix pre base) (hb : Shows b A (pre ++ ds ++ rest) d)
    (hn : positional o.bin0 o.bin1 base ds = some n) (hne : pre = [] → ds ≠ []) (hlen : ds.length ≤ 257)
    (hends : Ends o.bin0 o.bin1 base rest)
    (hback : Back (values b.args b.unique) rest ∧ Back (values b.args b.unique) rest.tail) :
    ∃ b', acceptVariadic o ls fuel b = .ok (some (.number (n % 2 ^ 32)), b') ∧ Shows b' A rest d ∧ Same b b' := by
  obtain ⟨b1, hs1, hsame1, heq⟩ := acceptVariadic_prefix hd hA ls fuel hpre hb hn hne
  obtain ⟨b2, h2, hs2, hsame2⟩ := acceptNumeric_number ho0 ho1 hd hA ls hs1 hn hlen hends (by rw [hsame1.values]; exact hback)
  refine ⟨b2, ?_, hs2, hsame1.trans hsame2⟩
  rw [heq, h2, ok_bind]

/-! ### Fractions, floating point numbers and local labels -/

theorem readDigits_fraction {o : Options} (ho0 : o.bin0 ≠ nul) (ho1 : o.bin1 ≠ nul) {base A d : Nat} (hd : 2 ≤ d) (hA : A + d ≤ stackSize)
    {b : Buffer} {ds fs rest : List Char} {n m : Nat} (hb : Shows b A (ds ++ '.' :: fs ++ rest) d)
    (hn : positional o.bin0 o.bin1 base ds = some n) (hm : positional o.bin0 o.bin1 base fs = some m)
    (hdot : NoDigit o.bin0 o.bin1 base ['.']) (hlen : ds.length + fs.length ≤ tokenSize)
    (hrest : NoDigit o.bin0 o.bin1 base rest) :
    ∃ b1 b2, readDigits o base 0 1 [] tokenSize b = .ok ⟨n % W32, base ^ ds.length % W32, ds, '.', b1⟩ ∧
      readDigits o base 0 1 [] (tokenSize - ds.length) b1 = .ok ⟨m % W32, base ^ fs.length % W32, fs, rest.head?.getD nul, b2⟩ ∧
      Shows b2 A rest.tail (d - 1) ∧ (rest = [] → Ended b2) ∧ Same b b2 := by
  have hA' : A ≤ stackSize := by omega
  have hnd : NoDigit o.bin0 o.bin1 base ('.' :: fs ++ rest) := by
    intro c hc; exact hdot c (by simpa using hc)
  obtain ⟨b1, h1, hs1, he1, hsame1⟩ := readDigits_shows ho0 ho1 hA' hnd ds (v := 0) (p := 1) (t := []) (room := tokenSize)
    (by rw [List.append_assoc] at hb; exact hb) hn (by omega) (by decide) (by decide)
  obtain ⟨b2, h2, hs2, he2, hsame2⟩ := readDigits_shows ho0 ho1 hA' hrest fs (v := 0) (p := 1) (t := []) (room := tokenSize - ds.length)
    (b := b1) (by simpa using hs1) hm (by omega) (by decide) (by decide)
  refine ⟨b1, b2, ?_, ?_, hs2.mono (by omega), he2, hsame1.trans hsame2⟩
  · rw [h1]; simp
  · rw [h2]; simp

theorem positional_append {z w : Char} {base : Nat} {ds fs : List Char} {n m : Nat} (hn : positional z w base ds = some n)
    (hm : positional z w base fs = some m) : positional z w base (ds ++ fs) = some (n * base ^ fs.length + m) := by
  unfold positional at *
  rw [List.reverse_append]
  have key : ∀ (l k : List Char) (m n : Nat), positionalRev z w base l = some m → positionalRev z w base k = some n →
      positionalRev z w base (l ++ k) = some (n * base ^ l.length + m) := by
    intro l k
    induction l with
    | nil => intro m n h1 h2; simp only [positionalRev] at h1; cases h1; simp [h2]
    | cons x l ih =>
      intro m n h1 h2
      simp only [positionalRev] at h1
      cases hx : digit z w base x with
      | none => rw [hx] at h1; cases h1
      | some e =>
        rw [hx] at h1
        cases hr : positionalRev z w base l with
        | none => rw [hr] at h1; cases h1
        | some k' =>
          rw [hr] at h1
          simp at h1
          simp only [List.cons_append, positionalRev, hx, ih k' n hr h2]
          simp only [Option.bind_eq_bind, Option.bind_some, List.length_cons, Nat.pow_succ, Option.some.injEq]
          rw [← h1, Nat.mul_add]
          have : base * (n * base ^ l.length) = n * (base ^ l.length * base) := by
            rw [Nat.mul_comm base, Nat.mul_assoc]
          omega
  have := key fs.reverse ds.reverse m n hm hn
  rwa [List.length_reverse] at this

theorem positional_lt {z w : Char} {base : Nat} (_hb : base = 2 ∨ base = 10 ∨ base = 16) {fs : List Char} {m : Nat}
    (hm : positional z w base fs = some m) : m < base ^ fs.length := by
  induction fs generalizing m with
  | nil => cases hm; simp
  | cons c fs ih =>
    obtain ⟨e, k, he, hk, rfl⟩ := positional_cons hm
    have hlt : e < base := by
      unfold digit at he
      by_cases h2 : base = 2
      · rw [if_pos h2] at he
        split at he
        · cases he; omega
        · split at he
          · cases he; omega
          · cases he
      · rw [if_neg h2] at he
        cases hl : digitTable.lookup c with
        | none => rw [hl] at he; cases he
        | some n =>
          rw [hl] at he
          simp only [Option.filter_some, decide_eq_true_eq] at he
          by_cases hn : n < base
          · rw [if_pos hn] at he; cases he; exact hn
          · rw [if_neg hn] at he; cases he
    have := ih hk
    rw [List.length_cons, Nat.pow_succ]
    calc e * base ^ fs.length + k < e * base ^ fs.length + base ^ fs.length := by omega
      _ = (e + 1) * base ^ fs.length := by rw [Nat.add_mul, Nat.one_mul]
      _ ≤ base * base ^ fs.length := Nat.mul_le_mul_right _ hlt
      _ = base ^ fs.length * base := Nat.mul_comm _ _

theorem Prefix.base {pre : List Char} {base : Nat} (h : Prefix pre base) : base = 2 ∨ base = 10 ∨ base = 16 := by
  cases h <;> simp

/-- **C31 for fixed point numbers.** Digits, a point and more digits denote the number of 65536ths, rounded down, modulo
2^32, if the power of the base that belongs to the fraction is below 2^32 (nine decimals). -/
theorem C31_fixed_partial {o : Options} (ho0 : o.bin0 ≠ nul) (ho1 : o.bin1 ≠ nul) {base A d : Nat} (hd : 2 ≤ d) (hA : A + d ≤ stackSize)
    {b : Buffer} {pre ds fs rest : List Char} {n m N : Nat} (ls : Bool) (fuel : Nat) (hpre : Prefix pre base)
    (hb : Shows b A (pre ++ ds ++ '.' :: fs ++ rest) d) (hn : positional o.bin0 o.bin1 base ds = some n)
    (hm : positional o.bin0 o.bin1 base fs = some m) (hN : positional o.bin0 o.bin1 base (ds ++ fs) = some N)
    (hne : pre = [] → ds ≠ []) (hfs : fs ≠ []) (hlen : ds.length + fs.length ≤ 257) (hpow : base ^ fs.length < 2 ^ 32)
    (hdot : base = 2 → o.bin0 ≠ '.' ∧ o.bin1 ≠ '.') (hrest : NoDigit o.bin0 o.bin1 base rest) (hf : rest.head? ≠ some 'f')
    (hback : Back (values b.args b.unique) rest) :
    ∃ b', acceptVariadic o ls fuel b = .ok (some (.number (N * 65536 / base ^ fs.length % 2 ^ 32)), b') ∧ Shows b' A rest d ∧ Same b b' := by
  have hdot' : NoDigit o.bin0 o.bin1 base ['.'] := by
    intro c hc; cases hc
    refine ⟨?_, fun _ => by decide⟩
    unfold digit
    by_cases h2 : base = 2
    · rw [if_pos h2, if_neg (Ne.symm (hdot h2).1), if_neg (Ne.symm (hdot h2).2)]
    · rw [if_neg h2]; rfl
  have hnul : nul ∉ rest := fun h => hb.noNul (by simp [h])
  rw [List.append_assoc, List.append_assoc, ← List.append_assoc] at hb
  obtain ⟨b0, hs0, hsame0, heq⟩ := acceptVariadic_prefix hd hA ls fuel hpre hb hn hne
  obtain ⟨b1, b2, h1, h2, hs2, he2, hsame2⟩ := readDigits_fraction ho0 ho1 hd hA (by rw [List.append_assoc]; exact hs0) hn hm hdot' hlen hrest
  have hsame := hsame0.trans hsame2
  obtain ⟨b3, h3, hs3, he3, hsame3⟩ := Shows.back (b := b2) (V := rest) (d := d - 1) hs2 hnul he2 (by omega)
      (by rw [hsame.values]; exact hback)
  refine ⟨b3, ?_, hs3.mono (by omega), hsame.trans hsame3⟩
  rw [heq]
  unfold acceptNumeric
  rw [h1, ok_bind]
  simp only []
  rw [if_neg (fun h => absurd h.2 (by decide)), if_pos trivial, h2, ok_bind, if_neg hfs, ok_bind]
  simp only []
  have hpos : 0 < base ^ fs.length := Nat.pow_pos (by rcases hpre.base with h | h | h <;> omega)
  have hml : m < base ^ fs.length := positional_lt hpre.base hm
  rw [if_neg (head_ne (by decide) hf), h3, ok_bind, if_neg hfs, Nat.mod_eq_of_lt (show base ^ fs.length < W32 from hpow), if_neg (by omega), ok_bind]
  have hval : (n % W32 * 65536 + m % W32 * 65536 / base ^ fs.length) % W32 = N * 65536 / base ^ fs.length % 2 ^ 32 := by
    rw [positional_append hn hm] at hN
    cases hN
    rw [Nat.mod_eq_of_lt (show m < W32 from Nat.lt_trans hml hpow), Nat.add_mod, Nat.mod_mul_mod, ← Nat.add_mod]
    show _ % 2 ^ 32 = _
    rw [Nat.add_mul, Nat.mul_right_comm, Nat.add_comm (n * 65536 * _), Nat.add_mul_div_right _ _ hpos, Nat.add_comm]
  rw [hval]

/-- **A fraction whose power of the base is a multiple of 2^32 divides by zero**: 32 decimals, 8 hexadecimal digits, 32 binary
digits. -/
theorem C31_fraction_undefined {o : Options} (ho0 : o.bin0 ≠ nul) (ho1 : o.bin1 ≠ nul) {base A d : Nat} (hd : 2 ≤ d) (hA : A + d ≤ stackSize)
    {b : Buffer} {pre ds fs rest : List Char} {n m : Nat} (ls : Bool) (fuel : Nat) (hpre : Prefix pre base)
    (hb : Shows b A (pre ++ ds ++ '.' :: fs ++ rest) d) (hn : positional o.bin0 o.bin1 base ds = some n)
    (hm : positional o.bin0 o.bin1 base fs = some m)
    (hne : pre = [] → ds ≠ []) (hlen : ds.length + fs.length ≤ 257) (hpow : base ^ fs.length % 2 ^ 32 = 0)
    (hdot : base = 2 → o.bin0 ≠ '.' ∧ o.bin1 ≠ '.') (hrest : NoDigit o.bin0 o.bin1 base rest) (hf : rest.head? ≠ some 'f')
    (hback : Back (values b.args b.unique) rest) :
    acceptVariadic o ls fuel b = .ub := by
  have hfs : fs ≠ [] := by rintro rfl; simp at hpow
  have hdot' : NoDigit o.bin0 o.bin1 base ['.'] := by
    intro c hc; cases hc
    refine ⟨?_, fun _ => by decide⟩
    unfold digit
    by_cases h2 : base = 2
    · rw [if_pos h2, if_neg (Ne.symm (hdot h2).1), if_neg (Ne.symm (hdot h2).2)]
    · rw [if_neg h2]; rfl
  have hnul : nul ∉ rest := fun h => hb.noNul (by simp [h])
  rw [List.append_assoc, List.append_assoc, ← List.append_assoc] at hb
  obtain ⟨b0, hs0, hsame0, heq⟩ := acceptVariadic_prefix hd hA ls fuel hpre hb hn hne
  obtain ⟨b1, b2, h1, h2, hs2, he2, hsame2⟩ := readDigits_fraction ho0 ho1 hd hA (by rw [List.append_assoc]; exact hs0) hn hm hdot' hlen hrest
  have hsame := hsame0.trans hsame2
  obtain ⟨b3, h3, hs3, he3, hsame3⟩ := Shows.back (b := b2) (V := rest) (d := d - 1) hs2 hnul he2 (by omega)
      (by rw [hsame.values]; exact hback)
  rw [heq]
  unfold acceptNumeric
  rw [h1, ok_bind]
  simp only []
  rw [if_neg (fun h => absurd h.2 (by decide)), if_pos trivial, h2, ok_bind, if_neg hfs, ok_bind]
  simp only []
  rw [if_neg (head_ne (by decide) hf), h3, ok_bind, if_neg hfs, if_pos (show base ^ fs.length % W32 = 0 from hpow)]
  rfl

/-- With the suffix `f` the number is a floating point number: the integer part, the fraction and the power of the base,
each modulo 2^32. -/
theorem C31_float {o : Options} (ho0 : o.bin0 ≠ nul) (ho1 : o.bin1 ≠ nul) {A d : Nat} (hd : 2 ≤ d) (hA : A + d ≤ stackSize)
    {b : Buffer} {ds fs rest : List Char} {n m : Nat} (ls : Bool) (fuel : Nat)
    (hb : Shows b A (ds ++ '.' :: fs ++ 'f' :: rest) d) (hn : positional o.bin0 o.bin1 10 ds = some n)
    (hm : positional o.bin0 o.bin1 10 fs = some m) (hds : ds ≠ []) (hfs : fs ≠ []) (hlen : ds.length + fs.length ≤ 257) :
    ∃ b', acceptVariadic o ls fuel b = .ok (some (.float (n % 2 ^ 32) (m % 2 ^ 32) (10 ^ fs.length % 2 ^ 32)), b') ∧ Shows b' A rest d ∧ Same b b' := by
  have hdot' : NoDigit o.bin0 o.bin1 10 ['.'] := by
    intro c hc; cases hc
    exact ⟨rfl, fun _ => by decide⟩
  have hrest : NoDigit o.bin0 o.bin1 10 ('f' :: rest) := by
    intro c hc; cases hc
    exact ⟨rfl, fun _ => by decide⟩
  obtain ⟨b0, hs0, hsame0, heq⟩ := acceptVariadic_prefix (rest := '.' :: fs ++ 'f' :: rest) hd hA ls fuel Prefix.dec (by simpa using hb) hn (fun _ => hds)
  obtain ⟨b1, b2, h1, h2, hs2, he2, hsame2⟩ := readDigits_fraction ho0 ho1 hd hA (by rw [List.append_assoc]; exact hs0) hn hm hdot' hlen hrest
  refine ⟨b2, ?_, hs2.mono (by omega), hsame0.trans hsame2⟩
  rw [heq]
  unfold acceptNumeric
  rw [h1, ok_bind]
  simp only []
  rw [if_neg (fun h => absurd h.2 (by decide)), if_pos trivial, h2, ok_bind, if_neg hfs, ok_bind]
  rfl

/-- Decimal digits and `$` are the name of a local label. -/
theorem C31_local_label {o : Options} (ho0 : o.bin0 ≠ nul) (ho1 : o.bin1 ≠ nul) {A d : Nat} (hd : 2 ≤ d) (hA : A + d ≤ stackSize)
    {b : Buffer} {ds rest : List Char} {n : Nat} (ls : Bool) (fuel : Nat)
    (hb : Shows b A (ds ++ '$' :: rest) d) (hn : positional o.bin0 o.bin1 10 ds = some n) (hds : ds ≠ []) (hlen : ds.length ≤ 255) :
    ∃ b', acceptVariadic o ls fuel b = .ok (some (if ls then .label (ds ++ ['$']) else .ident (ds ++ ['$'])), b') ∧ Shows b' A rest d ∧ Same b b' := by
  have hnd : NoDigit o.bin0 o.bin1 10 ('$' :: rest) := by
    intro c hc; cases hc
    exact ⟨rfl, fun _ => by decide⟩
  obtain ⟨b0, hs0, hsame0, heq⟩ := acceptVariadic_prefix (rest := '$' :: rest) hd hA ls fuel Prefix.dec (by simpa using hb) hn (fun _ => hds)
  obtain ⟨b1, h1, hs1, he1, hsame1⟩ := readDigits_shows ho0 ho1 (by omega) hnd ds (v := 0) (p := 1) (t := []) (room := tokenSize) hs0 hn
    (by simp only [tokenSize]; omega) (by decide) (by decide)
  refine ⟨b1, ?_, hs1.mono (by omega), hsame0.trans hsame1⟩
  rw [heq]
  unfold acceptNumeric
  rw [h1, ok_bind]
  simp only []
  rw [if_pos (by simp), if_pos (by show ([] ++ ds).length + 2 ≤ tokenSize; simp only [List.nil_append, tokenSize]; omega), ok_bind]
  cases ls <;> simp

/-! ### What does not hold -/

theorem readDigits_long {o : Options} {base A : Nat} (hA : A ≤ stackSize) (ds : List Char) :
    ∀ {b : Buffer} {d n v p : Nat} {t rest : List Char} {room : Nat}, Shows b A (ds ++ rest) d → positional o.bin0 o.bin1 base ds = some n →
      room < ds.length → readDigits o base v p t room b = .ub := by
  induction ds with
  | nil => intro b d n v p t rest room _ _ h; simp at h
  | cons c ds ih =>
    intro b d n v p t rest room hb hn hlt
    obtain ⟨e, m, he, hm, _⟩ := positional_cons hn
    obtain ⟨b1, hg, hs, _, _⟩ := hb.get' hA
    simp only [List.cons_append, List.tail_cons, List.head?_cons, Option.getD_some] at hg hs
    unfold readDigits
    rw [hg, ok_bind]
    simp only [toRadix_of_digit he]
    cases room with
    | zero => rfl
    | succ room => simp only [List.length_cons] at hlt; exact ih hs hm (by omega)

/-- **C31 does not hold for more than 257 digits**, which are written behind the end of an array. -/
theorem C31_long_undefined {o : Options} {base A d : Nat} (hd : 2 ≤ d) (hA : A + d ≤ stackSize)
    {b : Buffer} {pre ds rest : List Char} {n : Nat} (ls : Bool) (fuel : Nat) (hpre : Prefix pre base) (hb : Shows b A (pre ++ ds ++ rest) d)
    (hn : positional o.bin0 o.bin1 base ds = some n) (hlen : 257 < ds.length) : acceptVariadic o ls fuel b = .ub := by
  obtain ⟨b1, hs1, _, heq⟩ := acceptVariadic_prefix hd hA ls fuel hpre hb hn (fun _ => by rintro rfl; simp at hlen)
  rw [heq]
  unfold acceptNumeric
  rw [readDigits_long (by omega) ds hs1 hn hlen]
  rfl

/-! ### Game Boy graphics -/

theorem plane_cons_mod (bit v : Nat) (ps : List Nat) : plane bit (v :: ps) = v / 2 ^ bit % 2 * 2 ^ ps.length + plane bit ps := rfl

theorem mapM_length {g xs : List Char} {qs : List Nat} (hq : xs.mapM (g.idxOf? ·) = some qs) : qs.length = xs.length := by
  induction xs generalizing qs with
  | nil => simp at hq; simp [← hq]
  | cons x xs ihx =>
    rw [List.mapM_cons] at hq
    cases hx : g.idxOf? x with
    | none => rw [hx] at hq; cases hq
    | some w =>
      rw [hx] at hq
      cases hy : xs.mapM (g.idxOf? ·) with
      | none => rw [hy] at hq; cases hq
      | some ws =>
        rw [hy] at hq
        simp at hq
        subst hq
        simp [ihx hy]

theorem acceptGameboy_shows {o : Options} {A : Nat} (hA : A ≤ stackSize) (hgb : nul ∉ o.gb) {rest : List Char}
    (hrest : ∀ c, rest.head? = some c → c ∉ o.gb) (cs : List Char) :
    ∀ {b : Buffer} {d r fuel : Nat} {ps : List Nat}, Shows b A (cs ++ rest) d → cs.mapM (o.gb.idxOf? ·) = some ps → cs.length < fuel → r < W32 →
      ∃ b', acceptGameboy o fuel r b = .ok (.number ((r * 2 ^ cs.length + plane 0 ps * 256 + plane 1 ps) % W32), b') ∧
        Shows b' A rest.tail (d - 1) ∧ Same b b' := by
  induction cs with
  | nil =>
    intro b d r fuel ps hb hps hf hr
    obtain ⟨fuel, rfl⟩ : ∃ k, fuel = k + 1 := ⟨fuel - 1, by simp at hf; omega⟩
    obtain ⟨b', hg, hs, _, hsame⟩ := hb.get' hA
    simp at hps
    subst hps
    refine ⟨b', ?_, hs, hsame⟩
    unfold acceptGameboy
    simp only [List.nil_append] at hg
    rw [hg, ok_bind]
    have hstop : gameboyChar o (rest.head?.getD nul) = none := by
      unfold gameboyChar
      rw [List.idxOf?_eq_none_iff]
      cases hr : rest.head? with
      | none => exact hgb
      | some c => exact hrest c hr
    simp only [hstop]
    simp [plane, Nat.mod_eq_of_lt hr]
  | cons c cs ih =>
    intro b d r fuel ps hb hps hf hr
    obtain ⟨fuel, rfl⟩ : ∃ k, fuel = k + 1 := ⟨fuel - 1, by simp at hf; omega⟩
    obtain ⟨b1, hg, hs, _, hsame⟩ := hb.get' hA
    simp only [List.cons_append, List.tail_cons, List.head?_cons, Option.getD_some] at hg hs
    rw [List.mapM_cons] at hps
    cases hv : o.gb.idxOf? c with
    | none => rw [hv] at hps; cases hps
    | some v =>
      rw [hv] at hps
      cases hq : cs.mapM (o.gb.idxOf? ·) with
      | none => rw [hq] at hps; cases hps
      | some qs =>
        rw [hq] at hps
        simp at hps
        subst hps
        have hqlen := mapM_length hq
        obtain ⟨b', h1, h2, h3⟩ := ih (r := (r * 2 + v % 2 * 256 + v / 2 % 2) % W32) (fuel := fuel) hs hq (by simp at hf; omega) (Nat.mod_lt _ (by decide))
        refine ⟨b', ?_, h2.mono (by omega), hsame.trans h3⟩
        unfold acceptGameboy
        rw [hg, ok_bind]
        have hv' : gameboyChar o c = some v := hv
        simp only [hv']
        rw [h1]
        have e : ((r * 2 + v % 2 * 256 + v / 2 % 2) % W32 * 2 ^ cs.length + plane 0 qs * 256 + plane 1 qs) % W32 =
            (r * 2 ^ (c :: cs).length + plane 0 (v :: qs) * 256 + plane 1 (v :: qs)) % W32 := by
          rw [Nat.add_assoc, Nat.add_mod, Nat.mod_mul_mod, ← Nat.add_mod]
          congr 1
          rw [plane_cons_mod, plane_cons_mod, hqlen, List.length_cons, Nat.pow_succ]
          simp only [Nat.add_mul, Nat.pow_zero, Nat.div_one, Nat.pow_one]
          rw [Nat.mul_assoc r, Nat.mul_comm 2, Nat.mul_right_comm (v % 2)]
          omega
        rw [e]

/-- A Game Boy literal is the first bit plane times 256 plus the second one, modulo 2^32. **The character behind it is lost**:
what is left to read is the rest without its first character. -/
theorem C31_gameboy_loses {o : Options} {A d : Nat} (hd : 2 ≤ d) (hA : A + d ≤ stackSize) (hgb : nul ∉ o.gb)
    {b : Buffer} {cs rest : List Char} {ps : List Nat} (ls : Bool) {fuel : Nat} (hb : Shows b A ('`' :: cs ++ rest) d)
    (hps : cs.mapM (o.gb.idxOf? ·) = some ps) (hf : cs.length < fuel) (hrest : ∀ c, rest.head? = some c → c ∉ o.gb) :
    ∃ b', acceptVariadic o ls fuel b = .ok (some (.number ((plane 0 ps * 256 + plane 1 ps) % 2 ^ 32)), b') ∧
      Shows b' A rest.tail d ∧ Same b b' := by
  obtain ⟨b1, hg, hs, _, hsame⟩ := hb.get' (by omega)
  obtain ⟨b2, h1, h2, h3⟩ := acceptGameboy_shows (by omega) hgb hrest cs (r := 0) hs hps hf (by decide)
  refine ⟨b2, ?_, h2.mono (by omega), hsame.trans h3⟩
  unfold acceptVariadic
  rw [hg, ok_bind]
  simp only [List.cons_append, List.head?_cons, Option.getD_some]
  rw [if_neg (by decide), if_neg (by decide), if_pos trivial, h1, ok_bind]
  simp

/-! ### Examples -/

/-- The number at the start of a text and what is left. -/
def lexNumber (o : Options) (text : List Char) : Option (Token × List Char) :=
  match acceptVariadic o false 300 (init text args0 (some "_7".toList)) with
  | .ok (some t, b) => (readText b 20).map fun r => (t, r)
  | _ => none

/-- Numbers made from macro arguments: `$\\2F,` with the second argument `5`. -/
theorem shows0 (t : List Char) (ht : nul ∉ t) (hn : NoEmpty (values args0 (some "_7".toList)) t) :
    Shows (init t args0 (some "_7".toList)) 3 (substitute (values args0 (some "_7".toList)) t) 2 :=
  (shows_init t args0 (some "_7".toList) 3 ht plain0 hn).mono (by omega)

example : ∃ b', acceptVariadic options0 false 9 (init "$\\2F,\\1".toList args0 (some "_7".toList)) = .ok (some (.number 95), b') ∧
    Shows b' 3 ",d0".toList 2 ∧ Same (init "$\\2F,\\1".toList args0 (some "_7".toList)) b' :=
  C31_number_partial (pre := ['$']) (ds := "5F".toList) (rest := ",d0".toList) (by decide) (by decide) (by decide) (by decide) false 9 Prefix.hex
    (shows0 "$\\2F,\\1".toList (by decide) (by decide +kernel)) (n := 95) (by decide +kernel) (by decide) (by decide)
    ⟨by intro c hc; cases hc; exact ⟨rfl, fun h => by cases h⟩, by decide, by decide, by intro r h; cases h⟩
    ⟨(by intro h; cases h), (by intro h; cases h)⟩

example : ∃ b', acceptVariadic options0 false 9 (init "\\2.75 ".toList args0 (some "_7".toList)) = .ok (some (.number (575 * 65536 / 10 ^ 2 % 2 ^ 32)), b') ∧
    Shows b' 3 " ".toList 2 ∧ Same (init "\\2.75 ".toList args0 (some "_7".toList)) b' :=
  C31_fixed_partial (pre := []) (ds := "5".toList) (fs := "75".toList) (rest := " ".toList) (by decide) (by decide) (by decide) (by decide) false 9 Prefix.dec
    (shows0 "\\2.75 ".toList (by decide) (by decide +kernel)) (n := 5) (m := 75) (N := 575) (by decide +kernel) (by decide +kernel) (by decide +kernel)
    (by decide) (by decide) (by decide) (by decide) (by decide) (by intro c hc; cases hc; exact ⟨rfl, fun h => by cases h⟩) (by decide)
    (by intro h; cases h)

example : acceptVariadic options0 false 9 (init "$\\2.00000000 ".toList args0 (some "_7".toList)) = .ub :=
  C31_fraction_undefined (pre := ['$']) (ds := "5".toList) (fs := "00000000".toList) (rest := " ".toList) (by decide) (by decide) (by decide) (by decide) false 9 Prefix.hex
    (shows0 "$\\2.00000000 ".toList (by decide) (by decide +kernel)) (n := 5) (m := 0) (by decide +kernel) (by decide +kernel)
    (by decide) (by decide) (by decide) (by decide) (by intro c hc; cases hc; exact ⟨rfl, fun h => by cases h⟩) (by decide)
    (by intro h; cases h)

example : ∃ b', acceptVariadic options0 false 9 (init "\\2.25f,".toList args0 (some "_7".toList)) = .ok (some (.float 5 25 100), b') ∧
    Shows b' 3 ",".toList 2 ∧ Same (init "\\2.25f,".toList args0 (some "_7".toList)) b' :=
  C31_float (ds := "5".toList) (fs := "25".toList) (rest := ",".toList) (by decide) (by decide) (by decide) (by decide) false 9
    (shows0 "\\2.25f,".toList (by decide) (by decide +kernel)) (n := 5) (m := 25) (by decide +kernel) (by decide +kernel) (by decide) (by decide) (by decide)

example : ∃ b', acceptVariadic options0 true 9 (init "1\\2$ ".toList args0 (some "_7".toList)) = .ok (some (.label "15$".toList), b') ∧
    Shows b' 3 " ".toList 2 ∧ Same (init "1\\2$ ".toList args0 (some "_7".toList)) b' :=
  C31_local_label (ds := "15".toList) (rest := " ".toList) (by decide) (by decide) (by decide) (by decide) true 9
    (shows0 "1\\2$ ".toList (by decide) (by decide +kernel)) (n := 15) (by decide +kernel) (by decide) (by decide)

example : acceptVariadic options0 false 9 (init ('%' :: List.replicate 258 '1') args0 (some "_7".toList)) = .ub := by
  refine C31_long_undefined (pre := ['%']) (ds := List.replicate 258 '1') (rest := []) (d := 2) (A := 3) (n := 2 ^ 258 - 1) (by decide) (by decide) false 9 Prefix.bin ?_
    (by decide +kernel) (by decide +kernel)
  have := shows0 ('%' :: List.replicate 258 '1') (by decide +kernel) (by decide +kernel)
  have e : substitute (values args0 (some "_7".toList)) ('%' :: List.replicate 258 '1') = ['%'] ++ List.replicate 258 '1' ++ [] := by decide +kernel
  rwa [e] at this

/-- The line break behind a Game Boy literal is lost. -/
example : ∃ b', acceptVariadic options0 false 9 (init "`0123\n x".toList args0 (some "_7".toList)) = .ok (some (.number 0x0503), b') ∧
    Shows b' 3 " x".toList 2 ∧ Same (init "`0123\n x".toList args0 (some "_7".toList)) b' :=
  C31_gameboy_loses (cs := "0123".toList) (rest := "\n x".toList) (ps := [0, 1, 2, 3]) (by decide) (by decide) (by decide) false
    (shows0 "`0123\n x".toList (by decide) (by decide +kernel)) (by decide +kernel) (by decide) (by intro c hc; cases hc; decide)

/-- **Ten decimals are too many**: 0.1000000000 is 0.709, while 0.100000000 is 0.1. -/
theorem C31_ten_decimals :
    lexNumber options0 "0.1000000000,".toList = some (.number 46477, [',']) ∧
    lexNumber options0 "0.100000000,".toList = some (.number 6553, [',']) := by decide +kernel

/-- **A sign without digits is a number.** `$` and `%` alone are 0. -/
theorem C31_no_digits : lexNumber options0 "$ ,".toList = some (.number 0, " ,".toList) ∧
    lexNumber options0 "%,".toList = some (.number 0, ",".toList) := by decide +kernel

/-- **Letters of a word behind the point are taken for a fraction**: `$12.bar` is a fraction and `r`. -/
theorem C31_hex_point : lexNumber options0 "$12.bar".toList = some (.number (0x12ba * 65536 / 256), "r".toList) := by decide +kernel

end Verif.Lexer
