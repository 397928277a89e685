import Verif.Image.Model
/-!
# C20: binary images contain each section at its offset
-/
namespace Verif.Image

/-- The section goes to offset `p` of the file `o`, behind the header in the main file. -/
def Placed (header : Nat) (s : Sect) (o : Option Nat) (p : Nat) : Prop :=
  s.equ = false ∧ s.used = true ∧ s.assigned = true ∧ s.bss = false ∧ s.overlay = o ∧
    ∃ loc, s.image = some loc ∧ p = loc + (if o = none then header else 0)

/-- Image offsets fit, so that no file has 2^31 bytes. -/
def Fits (header : Nat) (l : List Sect) : Prop :=
  header < 2147483648 ∧ ∀ s ∈ l, ∀ o p, Placed header s o p → p + s.data.length < 2147483648

/-- Sections that go to the same file do not overlap. -/
def Apart (header : Nat) (l : List Sect) : Prop :=
  l.Pairwise fun s t => ∀ o p q, Placed header s o p → Placed header t o q →
    p + s.data.length ≤ q ∨ q + t.data.length ≤ p

/-- Section `s` supplies byte `k` of file `o`. -/
def Covers (header : Nat) (s : Sect) (o : Option Nat) (k : Nat) : Prop :=
  ∃ p, Placed header s o p ∧ p ≤ k ∧ k < p + s.data.length

theorem written_some {header : Nat} {s : Sect} {loc : Nat} :
    written s = some loc ↔ Placed header s s.overlay (loc + if s.overlay = none then header else 0) := by
  unfold written Placed
  cases s.equ <;> cases s.used <;> cases s.assigned <;> cases s.bss <;> simp

theorem placed_unique {header : Nat} {s : Sect} {o : Option Nat} {p q : Nat} (h : Placed header s o p)
    (h' : Placed header s o q) : p = q := by
  obtain ⟨-, -, -, -, -, l, h1, h2⟩ := h
  obtain ⟨-, -, -, -, -, l', h1', h2'⟩ := h'
  rw [h1] at h1'; cases h1'; omega

/-- The file after filling the gap and writing. -/
theorem writeAt_get {f b : Bytes} {off : Nat} (h : off ≤ f.length) (k : Nat) :
    (writeAt f off b)[k]? = if off ≤ k ∧ k < off + b.length then b[k - off]? else f[k]? := by
  unfold writeAt
  by_cases hb : b = []
  · subst hb; rw [if_pos rfl, if_neg (by simp only [List.length_nil]; omega)]
  · rw [if_neg hb]
    have hz : off - f.length = 0 := by omega
    simp only [hz, List.replicate_zero, List.append_nil]
    have hl : (f.take off).length = off := by simp [h]
    by_cases h1 : k < off
    · rw [if_neg (by omega), List.append_assoc, List.getElem?_append_left (by omega), List.getElem?_take_of_lt h1]
    · rw [List.append_assoc, List.getElem?_append_right (by omega), hl]
      by_cases h2 : k < off + b.length
      · rw [if_pos (by omega), List.getElem?_append_left (by omega)]
      · rw [if_neg (by omega), List.getElem?_append_right (by omega), List.getElem?_drop]
        congr 1; omega

theorem filled_get {f : Bytes} {start : Nat} (hs : start < 2147483648) :
    ∃ g, (if start > f.length then fillEnd f (start - f.length) else f) = g ∧ start ≤ g.length ∧
      ∀ k, g[k]? = if k < f.length then f[k]? else if k < start then some 0xFF else none := by
  refine ⟨_, rfl, ?_⟩
  by_cases h : start > f.length
  · rw [if_pos h]
    unfold fillEnd
    rw [if_pos (by omega)]
    refine ⟨by simp; omega, ?_⟩
    intro k
    by_cases h1 : k < f.length
    · rw [if_pos h1, List.getElem?_append_left h1]
    · rw [if_neg h1, List.getElem?_append_right (by omega), List.getElem?_replicate]
      by_cases h2 : k < start
      · rw [if_pos h2, if_pos (by omega)]
      · rw [if_neg h2, if_neg (by omega)]
  · rw [if_neg h]
    refine ⟨by omega, ?_⟩
    intro k
    by_cases h1 : k < f.length
    · rw [if_pos h1]
    · rw [if_neg h1, if_neg (by omega)]; exact List.getElem?_eq_none (by omega)

/-- What one section changes. -/
theorem writeSection_get {header : Nat} {fs : Files} {s : Sect} {loc : Nat} {p : Nat}
    (hp : Placed header s s.overlay p) (hw : written s = some loc) (hf : p + s.data.length < 2147483648) (o : Option Nat)
    (k : Nat) :
    (writeSection header fs s loc o)[k]? =
      if o = s.overlay then
        if p ≤ k ∧ k < p + s.data.length then s.data[k - p]?
        else if k < (fs o).length then (fs o)[k]? else if k < p then some 0xFF else none
      else (fs o)[k]? := by
  have he := placed_unique hp (written_some.1 hw)
  have hst : (if s.overlay = none then add32 loc header else loc) = p := by
    by_cases ho : s.overlay = none
    · rw [if_pos ho] at he ⊢; rw [add32_eq (by omega)]; exact he.symm
    · rw [if_neg ho] at he ⊢; omega
  unfold writeSection Files.set
  by_cases ho : o = s.overlay
  · subst ho
    simp only [hst, if_true]
    obtain ⟨g, hg, hgl, hget⟩ := filled_get (f := fs s.overlay) (start := p) (by omega)
    rw [hg, writeAt_get hgl, hget]
  · simp only [if_neg ho]

open Classical in
/-- What all sections change: bytes of sections, old bytes, filler. -/
theorem writeAll_get {header : Nat} : ∀ (l : List Sect) (fs : Files), Fits header l → Apart header l →
    ∀ (o : Option Nat) (k : Nat),
    (∀ s ∈ l, ∀ p, Placed header s o p → p ≤ k → k < p + s.data.length →
      (writeAll header l fs o)[k]? = s.data[k - p]?) ∧
    ((∀ s ∈ l, ¬ Covers header s o k) →
      (writeAll header l fs o)[k]? = if k < (fs o).length then (fs o)[k]?
        else if ∃ s ∈ l, ∃ p, Placed header s o p ∧ k < p then some 0xFF else none) := by
  intro l
  induction l with
  | nil => intro fs _ _ o k; simp [writeAll]
  | cons s l ih =>
    intro fs hf ha o k
    have hf' : Fits header l := ⟨hf.1, fun t ht => hf.2 t (by simp [ht])⟩
    have ha' := List.pairwise_cons.1 ha
    cases hw : written s with
    | none =>
      have hnp : ∀ o p, ¬ Placed header s o p := by
        intro o p hp
        have ho := hp.2.2.2.2.1
        subst ho
        obtain ⟨-, -, -, -, -, loc, hl, hpl⟩ := id hp
        have := (written_some (header := header) (s := s) (loc := loc)).2 (by rw [← hpl]; exact hp)
        rw [hw] at this; cases this
      have hstep : writeAll header (s :: l) fs = writeAll header l fs := by simp [writeAll, hw]
      rw [hstep]
      obtain ⟨h1, h2⟩ := ih fs hf' ha'.2 o k
      refine ⟨?_, ?_⟩
      · intro t ht p hp
        rcases List.mem_cons.1 ht with rfl | ht
        · exact absurd hp (hnp o p)
        · exact h1 t ht p hp
      · intro hc
        rw [h2 (fun t ht => hc t (by simp [ht]))]
        have : (∃ t ∈ l, ∃ p, Placed header t o p ∧ k < p) ↔ ∃ t ∈ s :: l, ∃ p, Placed header t o p ∧ k < p := by
          constructor
          · rintro ⟨t, ht, h⟩; exact ⟨t, by simp [ht], h⟩
          · rintro ⟨t, ht, p, hp, hk⟩
            rcases List.mem_cons.1 ht with rfl | ht
            · exact absurd hp (hnp o p)
            · exact ⟨t, ht, p, hp, hk⟩
        simp only [this]
    | some loc =>
      have hp0 := (written_some (header := header)).1 hw
      generalize hp0e : (loc + if s.overlay = none then header else 0) = p0 at hp0
      have hfit := hf.2 s (by simp) _ _ hp0
      have hstep : writeAll header (s :: l) fs = writeAll header l (writeSection header fs s loc) := by
        simp [writeAll, hw]
      rw [hstep]
      have hg := writeSection_get (fs := fs) hp0 hw hfit o k
      obtain ⟨h1, h2⟩ := ih (writeSection header fs s loc) hf' ha'.2 o k
      have hlen : k < (writeSection header fs s loc o).length ↔ (writeSection header fs s loc o)[k]? ≠ none := by
        rw [ne_eq, List.getElem?_eq_none_iff]; omega
      refine ⟨?_, ?_⟩
      · intro t ht p hp hk1 hk2
        rcases List.mem_cons.1 ht with rfl | ht
        · have ho := hp.2.2.2.2.1
          subst ho
          have := placed_unique hp hp0; subst this
          rw [if_pos rfl, if_pos ⟨hk1, hk2⟩] at hg
          have hd : t.data[k - p]? ≠ none := by rw [ne_eq, List.getElem?_eq_none_iff]; omega
          rw [h2 ?_, if_pos (hlen.2 (by rw [hg]; exact hd)), hg]
          rintro u hu ⟨q, hq, hq1, hq2⟩
          have := ha'.1 u hu _ p q hp hq
          omega
        · exact h1 t ht p hp hk1 hk2
      · intro hc
        rw [h2 (fun t ht => hc t (by simp [ht]))]
        by_cases ho : o = s.overlay
        · subst ho
          have hn : ¬ (p0 ≤ k ∧ k < p0 + s.data.length) := fun h => hc s (by simp) ⟨p0, hp0, h.1, h.2⟩
          rw [if_pos rfl, if_neg hn] at hg
          by_cases hk : k < (fs s.overlay).length
          · rw [if_pos hk] at hg ⊢
            rw [if_pos (hlen.2 (by rw [hg, ne_eq, List.getElem?_eq_none_iff]; omega)), hg]
          · rw [if_neg hk] at hg ⊢
            by_cases hkp : k < p0
            · rw [if_pos hkp] at hg
              rw [if_pos (hlen.2 (by rw [hg]; simp)), hg, if_pos ⟨s, by simp, p0, hp0, hkp⟩]
            · rw [if_neg hkp] at hg
              rw [if_neg (by rw [hlen, hg]; simp)]
              have : (∃ t ∈ l, ∃ p, Placed header t s.overlay p ∧ k < p) ↔
                  ∃ t ∈ s :: l, ∃ p, Placed header t s.overlay p ∧ k < p := by
                constructor
                · rintro ⟨t, ht, h⟩; exact ⟨t, by simp [ht], h⟩
                · rintro ⟨t, ht, p, hp, hk'⟩
                  rcases List.mem_cons.1 ht with rfl | ht
                  · have := placed_unique hp hp0; omega
                  · exact ⟨t, ht, p, hp, hk'⟩
              simp only [this]
        · rw [if_neg ho] at hg
          have hl : (writeSection header fs s loc o).length = (fs o).length := by
            unfold writeSection Files.set; simp only [if_neg ho]
          rw [hl, hg]
          have : (∃ t ∈ l, ∃ p, Placed header t o p ∧ k < p) ↔ ∃ t ∈ s :: l, ∃ p, Placed header t o p ∧ k < p := by
            constructor
            · rintro ⟨t, ht, h⟩; exact ⟨t, by simp [ht], h⟩
            · rintro ⟨t, ht, p, hp, hk'⟩
              rcases List.mem_cons.1 ht with rfl | ht
              · exact absurd hp.2.2.2.2.1.symm ho
              · exact ⟨t, ht, p, hp, hk'⟩
          simp only [this]

/-- The files before any section is written. -/
def empty (header : Bytes) : Files := Files.set (fun _ => []) none header

theorem empty_get (header : Bytes) (o : Option Nat) : empty header o = if o = none then header else [] := rfl

theorem writeBinary_ok {header : Bytes} {padding : Option Nat} {l : List Sect} {fs : Files}
    (h : writeBinary header padding l = .ok fs) :
    ∃ n, (∀ o, fs o = writeAll header.length l (empty header) o ++
        (if o = none then List.replicate n 0xFF else [])) ∧
      (padding = none → n = 0) ∧
      (∀ p, padding = some p → ∃ b, padBytes p (writeAll header.length l (empty header) none).length = .ok b ∧
        n = if b < 2147483648 then b else 0) := by
  unfold writeBinary at h
  cases padding with
  | none =>
    simp only at h; cases h
    exact ⟨0, by intro o; by_cases ho : o = none <;> simp [ho, empty], fun _ => rfl, by simp⟩
  | some p =>
    simp only at h
    cases hb : padBytes p (writeAll header.length l (Files.set (fun _ => []) none header) none).length with
    | fail => simp only [hb] at h; cases h
    | ub => simp only [hb] at h; cases h
    | ok b =>
      simp only [hb] at h; cases h
      refine ⟨if b < 2147483648 then b else 0, ?_, by simp, ?_⟩
      · intro o
        unfold Files.set fillEnd
        by_cases ho : o = none
        · subst ho
          by_cases hb2 : b < 2147483648 <;> simp [hb2] <;> rfl
        · simp [ho]; rfl
      · intro q hq; cases hq; exact ⟨b, hb, rfl⟩

theorem append_get {f g : Bytes} {k : Nat} {x : UInt8} (h : f[k]? = some x) : (f ++ g)[k]? = some x := by
  rw [List.getElem?_append_left]
  · exact h
  · have : f[k]? ≠ none := by simp [h]
    rw [ne_eq, List.getElem?_eq_none_iff] at this; omega

/-- Every placed section's bytes are in its file, at its offset. -/
theorem C20_section_at_offset (header : Bytes) (padding : Option Nat) (l : List Sect) (fs : Files)
    (hf : Fits header.length l) (ha : Apart header.length l) (h : writeBinary header padding l = .ok fs) (s : Sect)
    (hs : s ∈ l) (o : Option Nat) (p : Nat) (hp : Placed header.length s o p) (i : Nat) (hi : i < s.data.length) :
    (fs o)[p + i]? = s.data[i]? := by
  obtain ⟨n, hn, -⟩ := writeBinary_ok h
  have h1 := (writeAll_get l (empty header) hf ha o (p + i)).1 s hs p hp (by omega) (by omega)
  rw [show p + i - p = i by omega] at h1
  rw [hn o]
  rw [List.getElem?_eq_getElem hi] at h1 ⊢
  exact append_get h1

/-- A byte of a file that belongs to no section is the header's, or filler. -/
theorem C20_rest_is_filler (header : Bytes) (padding : Option Nat) (l : List Sect) (fs : Files)
    (hf : Fits header.length l) (ha : Apart header.length l) (h : writeBinary header padding l = .ok fs)
    (o : Option Nat) (k : Nat) (hk : k < (fs o).length) (hc : ∀ s ∈ l, ¬ Covers header.length s o k) :
    (fs o)[k]? = if o = none ∧ k < header.length then header[k]? else some 0xFF := by
  classical
  obtain ⟨n, hn, -⟩ := writeBinary_ok h
  have h2 := (writeAll_get l (empty header) hf ha o k).2 hc
  rw [hn o] at hk ⊢
  by_cases hw : k < (writeAll header.length l (empty header) o).length
  · rw [List.getElem?_append_left hw, h2, empty_get]
    have hne : (writeAll header.length l (empty header) o)[k]? ≠ none := by
      rw [ne_eq, List.getElem?_eq_none_iff]; omega
    rw [h2, empty_get] at hne
    by_cases ho : o = none
    · subst ho
      by_cases hh : k < header.length
      · simp [hh]
      · simp only [if_true, if_neg hh] at hne ⊢
        by_cases he : ∃ s ∈ l, ∃ p, Placed header.length s none p ∧ k < p
        · rw [if_pos he]; simp [hh]
        · rw [if_neg he] at hne; exact absurd rfl hne
    · simp only [if_neg ho, List.length_nil, Nat.not_lt_zero, if_false] at hne ⊢
      by_cases he : ∃ s ∈ l, ∃ p, Placed header.length s o p ∧ k < p
      · rw [if_pos he]; simp [ho]
      · rw [if_neg he] at hne; exact absurd rfl hne
  · rw [List.getElem?_append_right (by omega)]
    by_cases ho : o = none
    · subst ho
      rw [if_pos rfl, List.getElem?_replicate]
      rw [if_pos rfl, List.length_append, List.length_replicate] at hk
      rw [if_pos (by omega)]
      have hh : ¬ k < header.length := by
        intro hh
        rw [empty_get, if_pos rfl, if_pos hh, List.getElem?_eq_none (by omega)] at h2
        have := List.getElem?_eq_none_iff.1 h2.symm
        omega
      rw [if_neg (by simp [hh])]
    · rw [if_neg ho, List.append_nil] at hk
      exact absurd hk hw

/-- Without padding a file ends where its last section, or the header, ends. -/
theorem C20_size_without_padding (header : Bytes) (l : List Sect) (fs : Files)
    (hf : Fits header.length l) (ha : Apart header.length l) (h : writeBinary header none l = .ok fs)
    (o : Option Nat) (k : Nat) :
    k < (fs o).length ↔ (o = none ∧ k < header.length) ∨
      ∃ s ∈ l, ∃ p, Placed header.length s o p ∧ k < p + s.data.length := by
  classical
  obtain ⟨n, hn, h0, -⟩ := writeBinary_ok h
  have hz := h0 rfl
  subst hz
  have hfo : fs o = writeAll header.length l (empty header) o := by rw [hn o]; by_cases ho : o = none <;> simp [ho]
  rw [hfo]
  obtain ⟨h1, h2⟩ := writeAll_get l (empty header) hf ha o k
  have hlen : k < (writeAll header.length l (empty header) o).length ↔
      (writeAll header.length l (empty header) o)[k]? ≠ none := by
    rw [ne_eq, List.getElem?_eq_none_iff]; omega
  rw [hlen]
  by_cases hc : ∃ s ∈ l, Covers header.length s o k
  · obtain ⟨s, hs, p, hp, hk1, hk2⟩ := hc
    rw [h1 s hs p hp hk1 hk2]
    constructor
    · intro _; exact .inr ⟨s, hs, p, hp, hk2⟩
    · intro _; rw [ne_eq, List.getElem?_eq_none_iff]; omega
  · have hc' : ∀ s ∈ l, ¬ Covers header.length s o k := fun s hs hx => hc ⟨s, hs, hx⟩
    rw [h2 hc', empty_get]
    have hiff : (∃ s ∈ l, ∃ p, Placed header.length s o p ∧ k < p + s.data.length) ↔
        ∃ s ∈ l, ∃ p, Placed header.length s o p ∧ k < p := by
      constructor
      · rintro ⟨s, hs, p, hp, hk⟩
        refine ⟨s, hs, p, hp, ?_⟩
        by_cases hkp : k < p
        · exact hkp
        · exact absurd ⟨p, hp, by omega, hk⟩ (hc' s hs)
      · rintro ⟨s, hs, p, hp, hk⟩; exact ⟨s, hs, p, hp, by omega⟩
    rw [hiff]
    by_cases ho : o = none
    · subst ho
      by_cases hh : k < header.length
      · simp [hh]
      · simp only [if_true, if_neg hh]
        by_cases he : ∃ s ∈ l, ∃ p, Placed header.length s none p ∧ k < p
        · rw [if_pos he]; simp [he]
        · rw [if_neg he]; simp [hh]; intro s hs p hp; exact Nat.le_of_not_lt fun hk => he ⟨s, hs, p, hp, hk⟩
    · simp only [if_neg ho, List.length_nil, Nat.not_lt_zero, if_false]
      by_cases he : ∃ s ∈ l, ∃ p, Placed header.length s o p ∧ k < p
      · rw [if_pos he]; simp [he]
      · rw [if_neg he]; simp [ho]; intro s hs p hp; exact Nat.le_of_not_lt fun hk => he ⟨s, hs, p, hp, hk⟩

/-- The main file's size is a multiple of the padding. -/
theorem C20_padded_size (header : Bytes) (q : Nat) (hq : 0 < q) (hq2 : q < 2147483648) (l : List Sect) (fs : Files)
    (h : writeBinary header (some q) l = .ok fs) : q ∣ (fs none).length := by
  obtain ⟨n, hn, -, hp⟩ := writeBinary_ok h
  obtain ⟨b, hb, rfl⟩ := hp q rfl
  unfold padBytes at hb
  rw [if_neg (by omega)] at hb
  cases hb
  rw [hn none, if_pos rfl, List.length_append, List.length_replicate]
  generalize (writeAll header.length l (empty header) none).length = m
  have h1 := Nat.mod_lt m hq
  rw [if_pos (by omega)]
  refine ⟨m / q + 1, ?_⟩
  have h2 := Nat.div_add_mod m q
  rw [Nat.mul_add, Nat.mul_one]
  omega

theorem main_size_lt {header : Bytes} {l : List Sect} (hf : Fits header.length l) (ha : Apart header.length l)
    (o : Option Nat) : (writeAll header.length l (empty header) o).length < 2147483648 := by
  refine Nat.lt_of_not_le fun hc => ?_
  rcases (C20_size_without_padding header l _ hf ha rfl o 2147483647).1 (by
    show _ < (writeAll header.length l (empty header) o).length; omega) with ⟨-, h⟩ | ⟨s, hs, p, hp, h⟩
  · have := hf.1; omega
  · have := hf.2 s hs o p hp; omega

/-- Padding 0 makes the size a power of two. -/
theorem C20_power_of_two_size (header : Bytes) (l : List Sect) (fs : Files) (hf : Fits header.length l)
    (ha : Apart header.length l) (h : writeBinary header (some 0) l = .ok fs) : ∃ e, (fs none).length = 2 ^ e := by
  have hm := main_size_lt hf ha none
  obtain ⟨n, hn, -, hp⟩ := writeBinary_ok h
  obtain ⟨b, hb, rfl⟩ := hp 0 rfl
  rw [hn none, if_pos rfl, List.length_append, List.length_replicate]
  generalize (writeAll header.length l (empty header) none).length = m at hb hm
  unfold padBytes at hb
  rw [if_pos rfl] at hb
  by_cases h0 : m = 0
  · rw [if_pos h0] at hb; cases hb
  · rw [if_neg h0] at hb
    have h1 : 2 ^ m.log2 ≤ m := Nat.log2_self_le h0
    have h2 : m < 2 ^ (m.log2 + 1) := Nat.lt_log2_self
    have h4 : m.log2 < 31 := by
      refine Nat.lt_of_not_le fun hc => ?_
      have := Nat.pow_le_pow_right (n := 2) (by decide) hc
      omega
    rw [if_neg (by omega)] at hb
    have h3 : 2 ^ (m.log2 + 1) = 2 * 2 ^ m.log2 := by rw [Nat.pow_succ]; omega
    rw [Nat.mod_eq_of_lt (by omega), sub32_eq (by omega) (by omega)] at hb
    cases hb
    refine ⟨m.log2 + 1, ?_⟩
    rw [if_pos (by omega)]
    omega

/-- Writing never fails, unless an empty image is to be padded to a power of two. -/
theorem C20_always_written (header : Bytes) (padding : Option Nat) (l : List Sect) (hf : Fits header.length l)
    (ha : Apart header.length l) :
    ∃ gs, writeBinary header none l = .ok gs ∧ ((padding = some 0 → gs none ≠ []) →
      ∃ fs, writeBinary header padding l = .ok fs) := by
  refine ⟨_, rfl, ?_⟩
  intro h
  unfold writeBinary
  cases padding with
  | none => exact ⟨_, rfl⟩
  | some p =>
    have : ∃ b, padBytes p (writeAll header.length l (empty header) none).length = .ok b := by
      unfold padBytes
      by_cases hp : p = 0
      · subst hp
        have hn : (writeAll header.length l (empty header) none).length ≠ 0 := fun hx => h rfl (List.eq_nil_of_length_eq_zero hx)
        rw [if_pos rfl, if_neg hn, if_neg]
        · exact ⟨_, rfl⟩
        · have := (Nat.log2_lt (k := 32) hn).2 (by have := main_size_lt hf ha none; omega)
          omega
      · rw [if_neg hp]; exact ⟨_, rfl⟩
    obtain ⟨b, hb⟩ := this
    unfold empty at hb
    simp only [hb]
    exact ⟨_, rfl⟩

/-- Padding leaves overlay files alone and appends filler to the main file: at most one block, or, for padding 0, at most
as many bytes as there were. -/
theorem C20_padding_only_appends (header : Bytes) (q : Nat) (l : List Sect) (fs gs : Files)
    (hm : (gs none).length < 2147483648) (h : writeBinary header (some q) l = .ok fs)
    (h0 : writeBinary header none l = .ok gs) :
    (∀ o, o ≠ none → fs o = gs o) ∧
    ∃ n, fs none = gs none ++ List.replicate n 0xFF ∧ n ≤ if q = 0 then (gs none).length else q := by
  obtain ⟨n, hn, -, hp⟩ := writeBinary_ok h
  obtain ⟨n0, hn0, hz, -⟩ := writeBinary_ok h0
  have hz := hz rfl
  subst hz
  have hg : ∀ o, gs o = writeAll header.length l (empty header) o := by
    intro o; rw [hn0 o]; by_cases ho : o = none <;> simp [ho]
  refine ⟨fun o ho => by rw [hn o, hg o, if_neg ho, List.append_nil], n, by rw [hn none, hg none, if_pos rfl], ?_⟩
  obtain ⟨b, hb, hnb⟩ := hp q rfl
  rw [← hg none] at hb
  have hle : n ≤ b := by
    by_cases hx : b < 2147483648
    · rw [if_pos hx] at hnb; omega
    · rw [if_neg hx] at hnb; omega
  refine Nat.le_trans hle ?_
  generalize (gs none).length = m at hb hm
  unfold padBytes at hb
  by_cases hq : q = 0
  · rw [if_pos hq] at hb ⊢
    by_cases hm0 : m = 0
    · rw [if_pos hm0] at hb; cases hb
    · rw [if_neg hm0] at hb
      have h1 := Nat.log2_self_le hm0
      have h2 := Nat.lt_log2_self (n := m)
      rw [Nat.pow_succ] at h2
      by_cases h3 : m.log2 ≥ 32
      · rw [if_pos h3] at hb; cases hb
      · rw [if_neg h3] at hb
        cases hb
        generalize 2 ^ m.log2 = k at h1 h2
        unfold sub32
        rw [Nat.mod_eq_of_lt (a := 2 * k) (by omega)]
        omega
  · rw [if_neg hq] at hb ⊢
    cases hb
    omega

/-! Two sections in the main file behind a header of two bytes, written in descending order, one in an overlay. -/
def sects : List Sect :=
  [⟨false, true, true, false, some 4, none, [7, 8]⟩, ⟨false, true, true, false, some 1, none, [5]⟩,
   ⟨false, true, true, false, some 1, some 3, [9]⟩, ⟨false, false, true, false, some 0, none, [1, 1]⟩]

def contents (os : List (Option Nat)) : Outcome Files → Option (List Bytes)
  | .ok fs => some (os.map fs)
  | _ => none

example : contents [none, some 3] (writeBinary [0x41, 0x42] none sects)
    = some [[0x41, 0x42, 0xFF, 5, 0xFF, 0xFF, 7, 8], [0xFF, 9]] := by decide +kernel

theorem placed_iff {header : Nat} {s : Sect} {o : Option Nat} {p : Nat} : Placed header s o p ↔
    s.overlay = o ∧ ∃ loc, written s = some loc ∧ p = loc + (if o = none then header else 0) := by
  unfold Placed written
  cases s.equ <;> cases s.used <;> cases s.assigned <;> cases s.bss <;> simp

example : Fits 2 sects ∧ Apart 2 sects := by
  constructor
  · refine ⟨by decide, ?_⟩
    intro s hs o p hp
    obtain ⟨rfl, loc, hw, rfl⟩ := placed_iff.1 hp
    simp only [sects, List.mem_cons, List.not_mem_nil, or_false] at hs
    rcases hs with rfl | rfl | rfl | rfl <;> simp [written] at hw <;> subst hw <;> decide
  · have h : sects.Pairwise fun s t => s.overlay = t.overlay → ∀ a ∈ written s, ∀ b ∈ written t,
        a + s.data.length ≤ b ∨ b + t.data.length ≤ a := by decide
    refine h.imp ?_
    intro s t hst o p q hp hq
    obtain ⟨ho, a, ha, rfl⟩ := placed_iff.1 hp
    obtain ⟨ho', b, hb, rfl⟩ := placed_iff.1 hq
    have := hst (ho.trans ho'.symm) a ha b hb
    omega

/-! ### Where the code does not do what is expected -/

/-- An image that has the right size already is padded by a whole block. -/
theorem C20_full_image_padded : ∃ (l : List Sect) (fs : Files), (∃ gs, writeBinary [] none l = .ok gs ∧
    (gs none).length = 4) ∧ writeBinary [] (some 4) l = .ok fs ∧ (fs none).length = 8 :=
  ⟨[⟨false, true, true, false, some 0, none, [1, 2, 3, 4]⟩], _, ⟨_, rfl, by decide +kernel⟩, rfl, by decide +kernel⟩

/-- An image whose size is a power of two is doubled by padding 0. -/
theorem C20_power_of_two_doubled : ∃ (l : List Sect) (fs : Files), (∃ gs, writeBinary [] none l = .ok gs ∧
    (gs none).length = 4) ∧ writeBinary [] (some 0) l = .ok fs ∧ (fs none).length = 8 :=
  ⟨[⟨false, true, true, false, some 0, none, [1, 2, 3, 4]⟩], _, ⟨_, rfl, by decide +kernel⟩, rfl, by decide +kernel⟩

end Verif.Image
