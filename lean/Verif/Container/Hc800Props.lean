import Verif.Container.Hc800
import Verif.Image.Props
/-!
# C23: HC800 executables can be loaded
-/
namespace Verif.Container.Hc800
open Verif.Image (writeAt writeAt_get)

/-- The text sections of a bank: location and bytes. -/
def textOf (b : Nat) (s : Sect) : Option (Nat × Bytes) :=
  match s.kind with
  | .text d => if s.bank = b then some (s.image, d) else none
  | _ => none

def build (buf : Bytes) (t : List (Nat × Bytes)) : Bytes := t.foldl (fun buf x => addSection buf x.1 x.2) buf

theorem textOf_some {b : Nat} {s : Sect} {x : Nat × Bytes} (h : textOf b s = some x) :
    s.kind = .text x.2 ∧ s.bank = b ∧ s.image = x.1 := by
  unfold textOf at h
  split at h
  · split at h
    · cases h; exact ⟨by assumption, by assumption, rfl⟩
    · cases h
  · cases h

theorem textOf_none_of_bank {b : Nat} {s : Sect} (h : s.bank ≠ b) : textOf b s = none := by
  unfold textOf
  split
  · rw [if_neg h]
  · rfl

theorem bankLoop_eq (b : Nat) : ∀ (l : List Sect) (buf : Bytes), l.Pairwise (fun x y => x.bank ≤ y.bank) →
    (∀ s ∈ l, (b : Int) ≤ s.bank) → (∀ s ∈ l, s.kind = .equ → s.bank ≠ b) →
    ∃ rest, bankLoop b l buf = .ok (build buf (l.filterMap (textOf b)), rest) ∧ rest.length ≤ l.length ∧
      (∀ s ∈ rest, (b : Int) < s.bank) ∧ ∀ s ∈ rest, s ∈ l
  | [], buf, _, _, _ => ⟨[], rfl, by simp, by simp, by simp⟩
  | s :: l, buf, hp, hge, heq => by
    obtain ⟨hp1, hp2⟩ := List.pairwise_cons.1 hp
    rw [bankLoop]
    rw [if_neg (by have := hge s (by simp); omega)]
    by_cases hb : s.bank = b
    · rw [if_pos hb]
      have ih := fun buf => bankLoop_eq b l buf hp2 (fun t ht => hge t (by simp [ht])) (fun t ht => heq t (by simp [ht]))
      cases hk : s.kind with
      | equ => exact absurd hb (heq s (by simp) hk)
      | bss =>
        obtain ⟨rest, h1, h2, h3, h4⟩ := ih buf
        refine ⟨rest, ?_, by simp; omega, h3, fun t ht => by simp [h4 t ht]⟩
        simp only
        rw [h1, List.filterMap_cons]
        simp only [textOf, hk]
      | text d =>
        obtain ⟨rest, h1, h2, h3, h4⟩ := ih (addSection buf s.image d)
        refine ⟨rest, ?_, by simp; omega, h3, fun t ht => by simp [h4 t ht]⟩
        simp only
        have e : textOf b s = some (s.image, d) := by unfold textOf; rw [hk]; simp only; rw [if_pos hb]
        rw [h1, List.filterMap_cons, e]
        rfl
    · rw [if_neg hb]
      have hlt : ∀ t ∈ s :: l, (b : Int) < t.bank := by
        intro t ht
        have h1 := hge s (by simp)
        rcases List.mem_cons.1 ht with rfl | ht
        · omega
        · have := hp1 t ht; omega
      refine ⟨s :: l, ?_, by simp, hlt, fun t ht => ht⟩
      have e : (s :: l).filterMap (textOf b) = [] := by
        rw [List.filterMap_eq_nil_iff]
        intro t ht
        exact textOf_none_of_bank (by have := hlt t ht; omega)
      rw [e]
      rfl

theorem hunksOfBank_none (b : Nat) : ∀ (fuel : Nat) (l : List Sect), l.length ≤ fuel → (∀ s ∈ l, textOf b s = none) →
    hunksOfBank b fuel l = .ok []
  | fuel, [], _, _ => by cases fuel <;> rfl
  | 0, s :: l, h, _ => by simp at h
  | fuel + 1, s :: l, h, hn => by
    have ih := hunksOfBank_none b fuel l (by simp at h; omega) (fun t ht => hn t (by simp [ht]))
    have hs := hn s (by simp)
    rw [hunksOfBank]
    cases hk : s.kind with
    | equ => exact ih
    | bss => exact ih
    | text d =>
      simp only
      unfold textOf at hs
      rw [hk] at hs
      simp only at hs
      by_cases hb : s.bank = b
      · rw [if_pos hb] at hs; cases hs
      · rw [if_neg hb]; exact ih

theorem hunksOfBank_eq (b : Nat) : ∀ (fuel : Nat) (l : List Sect), l.length ≤ fuel →
    l.Pairwise (fun x y => x.bank ≤ y.bank) → (∀ s ∈ l, s.kind = .equ → s.bank ≠ b) →
    hunksOfBank b fuel l = .ok (match l.filterMap (textOf b) with
      | [] => []
      | t :: ts => hunk 2 (put8 b ++ build [] (t :: ts)))
  | fuel, [], _, _, _ => by cases fuel <;> rfl
  | 0, s :: l, h, _, _ => by simp at h
  | fuel + 1, s :: l, h, hp, heq => by
    obtain ⟨hp1, hp2⟩ := List.pairwise_cons.1 hp
    have ih := hunksOfBank_eq b fuel l (by simp at h; omega) hp2 (fun t ht => heq t (by simp [ht]))
    cases hs : textOf b s with
    | none =>
      rw [List.filterMap_cons, hs]
      simp only
      rw [← ih, hunksOfBank]
      cases hk : s.kind with
      | equ => rfl
      | bss => rfl
      | text d =>
        simp only
        unfold textOf at hs
        rw [hk] at hs
        simp only at hs
        by_cases hb : s.bank = b
        · rw [if_pos hb] at hs; cases hs
        · rw [if_neg hb]
    | some x =>
      obtain ⟨hk, hb, hi⟩ := textOf_some hs
      obtain ⟨rest, h1, h2, h3, h4⟩ := bankLoop_eq b (s :: l) [] hp (by
        intro t ht
        rcases List.mem_cons.1 ht with rfl | ht
        · omega
        · have := hp1 t ht; omega) heq
      have hlen : rest.length ≤ fuel := by
        -- the first section is not left
        simp only [List.length_cons] at h h2
        rcases Nat.lt_or_ge rest.length (l.length + 1) with hlt | hge
        · omega
        · rw [bankLoop, if_neg (by omega), if_pos hb, hk] at h1
          simp only at h1
          obtain ⟨rest', h1', h2', _, _⟩ := bankLoop_eq b l (addSection [] s.image x.2) hp2 (by
            intro t ht
            have := hp1 t ht; omega) (fun t ht => heq t (by simp [ht]))
          rw [h1'] at h1
          injection h1 with h1
          have := congrArg Prod.snd h1
          simp only at this
          rw [← this] at hge ⊢
          omega
      rw [hunksOfBank, hk]
      simp only
      rw [if_pos hb, h1]
      simp only
      rw [hunksOfBank_none b fuel rest hlen (fun t ht => textOf_none_of_bank (by have := h3 t ht; omega))]
      simp only [List.append_nil]
      rw [List.filterMap_cons, hs]

/-! ### The contents of a hunk -/

def Covers (x : Nat × Bytes) (i : Nat) : Prop := x.1 ≤ i ∧ i < x.1 + x.2.length

def ApartIn (x y : Nat × Bytes) : Prop := x.1 + x.2.length ≤ y.1 ∨ y.1 + y.2.length ≤ x.1

theorem padded_get (buf : Bytes) (n i : Nat) : (buf ++ List.replicate (n - buf.length) (0 : UInt8))[i]? =
    if i < buf.length then buf[i]? else if i < n then some 0 else none := by
  by_cases h : i < buf.length
  · rw [if_pos h, List.getElem?_append_left h]
  · rw [if_neg h, List.getElem?_append_right (by omega), List.getElem?_replicate]
    by_cases h2 : i < n
    · rw [if_pos h2, if_pos (by omega)]
    · rw [if_neg h2, if_neg (by omega)]

theorem addSection_get (buf : Bytes) (im : Nat) (d : Bytes) (i : Nat) : (addSection buf im d)[i]? =
    if im ≤ i ∧ i < im + d.length then d[i - im]? else if i < buf.length then buf[i]? else if i < im then some 0 else none := by
  unfold addSection
  rw [writeAt_get (by simp; omega), padded_get]

structure Built (t : List (Nat × Bytes)) (buf : Bytes) : Prop where
  bytes : ∀ x ∈ t, ∀ i, Covers x i → buf[i]? = x.2[i - x.1]?
  zero : ∀ i, i < buf.length → (∀ x ∈ t, ¬ Covers x i) → buf[i]? = some 0
  len : ∀ n, (∀ x ∈ t, x.1 + x.2.length ≤ n) → buf.length ≤ n

theorem length_le_of_none {b : Bytes} {n : Nat} (h : b[n]? = none) : b.length ≤ n := List.getElem?_eq_none_iff.1 h

theorem Built.add {t : List (Nat × Bytes)} {buf : Bytes} (h : Built t buf) (x : Nat × Bytes)
    (ha : ∀ y ∈ t, ApartIn y x) : Built (t ++ [x]) (addSection buf x.1 x.2) := by
  constructor
  · intro y hy i hc
    rcases List.mem_append.1 hy with hy | hy
    · have := ha y hy
      have hb := h.bytes y hy i hc
      obtain ⟨c1, c2⟩ := hc
      have hlt : i < buf.length := by
        rcases Nat.lt_or_ge i buf.length with hl | hl
        · exact hl
        · rw [List.getElem?_eq_none hl] at hb
          have := length_le_of_none hb.symm
          omega
      rw [addSection_get, if_neg (by unfold ApartIn at this; omega), if_pos hlt]
      exact hb
    · simp only [List.mem_singleton] at hy
      subst hy
      have hc' : y.1 ≤ i ∧ i < y.1 + y.2.length := hc
      rw [addSection_get, if_pos hc']
  · intro i hi hn
    have hx : ¬ (x.1 ≤ i ∧ i < x.1 + x.2.length) := hn x (by simp)
    rw [addSection_get, if_neg hx]
    by_cases h1 : i < buf.length
    · rw [if_pos h1]
      exact h.zero i h1 (fun y hy => hn y (by simp [hy]))
    · rw [if_neg h1]
      by_cases h2 : i < x.1
      · rw [if_pos h2]
      · exfalso
        have : (addSection buf x.1 x.2)[i]? = none := by rw [addSection_get, if_neg hx, if_neg h1, if_neg h2]
        have := length_le_of_none this
        omega
  · intro n hn
    apply length_le_of_none
    have h1 := h.len n (fun y hy => hn y (by simp [hy]))
    have h2 := hn x (by simp)
    rw [addSection_get, if_neg (by omega), if_neg (by omega), if_neg (by omega)]

theorem build_built : ∀ (t done : List (Nat × Bytes)) (buf : Bytes), Built done buf → (done ++ t).Pairwise ApartIn →
    Built (done ++ t) (build buf t)
  | [], done, buf, h, _ => by rw [List.append_nil]; exact h
  | x :: t, done, buf, h, hp => by
    have e : done ++ x :: t = (done ++ [x]) ++ t := by simp
    rw [e] at hp ⊢
    apply build_built t (done ++ [x]) (addSection buf x.1 x.2)
    · apply h.add
      intro y hy
      obtain ⟨hp', -, -⟩ := List.pairwise_append.1 hp
      exact (List.pairwise_append.1 hp').2.2 y hy x (by simp)
    · exact hp

theorem built_nil : Built [] [] := ⟨by simp, by simp, by simp⟩

/-! ### The file -/

/-- The data hunks that should come out. -/
def hunksOf (l : List Sect) (bs : List Nat) : List (Nat × Bytes) :=
  bs.filterMap fun b => match l.filterMap (textOf b) with
    | [] => none
    | t :: ts => some (b, build [] (t :: ts))

theorem dataHunks_eq (l : List Sect) (hp : l.Pairwise (fun x y => x.bank ≤ y.bank)) : ∀ bs : List Nat,
    (∀ b ∈ bs, ∀ s ∈ l, s.kind = .equ → s.bank ≠ b) →
    dataHunks l bs = .ok ((hunksOf l bs).flatMap fun h => hunk 2 (put8 h.1 ++ h.2))
  | [], _ => rfl
  | b :: bs, he => by
    rw [dataHunks, hunksOfBank_eq b l.length l (Nat.le_refl _) hp (he b (by simp))]
    simp only
    rw [dataHunks_eq l hp bs (fun c hc => he c (by simp [hc]))]
    simp only
    unfold hunksOf
    rw [List.filterMap_cons]
    cases l.filterMap (textOf b) with
    | nil => rfl
    | cons t ts => rfl

theorem loadHunks_all : ∀ (hs : List (Nat × Bytes)) (fuel : Nat), (∀ h ∈ hs, h.1 < 256 ∧ h.2.length < 65535) →
    hs.length < fuel → loadHunks fuel ((hs.flatMap fun h => hunk 2 (put8 h.1 ++ h.2)) ++ hunk 1 []) = some hs
  | [], fuel, _, hf => by
    obtain ⟨n, rfl⟩ : ∃ n, fuel = n + 1 := ⟨fuel - 1, by simp at hf; omega⟩
    rfl
  | h :: hs, fuel, hb, hf => by
    obtain ⟨n, rfl⟩ : ∃ n, fuel = n + 1 := ⟨fuel - 1, by simp at hf; omega⟩
    obtain ⟨h1, h2⟩ := hb h (by simp)
    have ih := loadHunks_all hs n (fun t ht => hb t (by simp [ht])) (by simp at hf; omega)
    rw [List.flatMap_cons, List.append_assoc]
    have hl : (put8 h.1 ++ h.2).length < 65536 := by simp [put8]; omega
    generalize hr : (hs.flatMap fun h => hunk 2 (put8 h.1 ++ h.2)) ++ hunk 1 [] = r at ih ⊢
    have e : hunk 2 (put8 h.1 ++ h.2) ++ r =
        put8 2 ++ (put16le (put8 h.1 ++ h.2).length ++ ((put8 h.1 ++ h.2) ++ r)) := by
      unfold hunk
      rw [Nat.mod_eq_of_lt hl]
      simp only [List.append_assoc]
    rw [e, loadHunks, get8_put8 (by omega)]
    simp only
    rw [get16le_put16le hl]
    simp only
    rw [getN_append]
    simp only
    rw [if_neg (by omega), if_pos trivial, get8_put8 h1]
    simp only
    rw [ih]
    rfl

/-- Text sections in the same bank do not overlap, and end below 65535. -/
structure Placed (l : List Sect) : Prop where
  sorted : l.Pairwise fun x y => x.bank ≤ y.bank
  equ : ∀ s ∈ l, s.kind = .equ → s.bank < 0x81 ∨ 0xFF < s.bank
  apart : l.Pairwise fun x y => x.bank = y.bank → ∀ d e, x.kind = .text d → y.kind = .text e →
    x.image + d.length ≤ y.image ∨ y.image + e.length ≤ x.image
  small : ∀ s ∈ l, ∀ d, s.kind = .text d → s.image + d.length < 65535

theorem Placed.textApart {l : List Sect} (h : Placed l) (b : Nat) : (l.filterMap (textOf b)).Pairwise ApartIn := by
  rw [List.pairwise_filterMap]
  apply h.apart.imp
  intro x y hxy u hu v hv
  obtain ⟨a1, a2, a3⟩ := textOf_some hu
  obtain ⟨b1, b2, b3⟩ := textOf_some hv
  have := hxy (by omega) _ _ a1 b1
  unfold ApartIn
  omega

theorem mem_hunksOf {l : List Sect} {bs : List Nat} {h : Nat × Bytes} (hp : Placed l) (hm : h ∈ hunksOf l bs) :
    h.1 ∈ bs ∧ Built (l.filterMap (textOf h.1)) h.2 ∧ l.filterMap (textOf h.1) ≠ [] := by
  unfold hunksOf at hm
  rw [List.mem_filterMap] at hm
  obtain ⟨b, hb, hm⟩ := hm
  cases ht : l.filterMap (textOf b) with
  | nil => rw [ht] at hm; cases hm
  | cons t ts =>
    rw [ht] at hm
    simp only [Option.some.injEq] at hm
    subst hm
    refine ⟨hb, ?_, by rw [ht]; simp⟩
    have := build_built (t :: ts) [] [] built_nil (by rw [List.nil_append, ← ht]; exact hp.textApart b)
    show Built (l.filterMap (textOf b)) (build [] (t :: ts))
    rw [ht]
    simpa using this

theorem mem_banks {b : Nat} : b ∈ banks ↔ 0x81 ≤ b ∧ b ≤ 0xFF := by
  unfold banks
  rw [List.mem_map]
  constructor
  · rintro ⟨i, hi, rfl⟩
    have := List.mem_range.1 hi
    omega
  · intro h
    exact ⟨b - 0x81, List.mem_range.2 (by omega), by omega⟩

theorem load_file {c : Bytes} (hc : c.length = 9) (l : List Sect) (hp : Placed l) :
    ∃ f, writeExecutable c l = .ok f ∧ load f = some (c, hunksOf l banks) := by
  unfold writeExecutable
  rw [dataHunks_eq l hp.sorted banks (by
    intro b hb s hs he
    have := mem_banks.1 hb
    have := hp.equ s hs he
    omega)]
  refine ⟨_, rfl, ?_⟩
  have e : [0x55, 0x43] ++ hunk 0 (c.take 9) ++ ((hunksOf l banks).flatMap fun h => hunk 2 (put8 h.1 ++ h.2)) ++ hunk 1 [] =
      [0x55, 0x43, 0, 9, 0] ++ (c ++ (((hunksOf l banks).flatMap fun h => hunk 2 (put8 h.1 ++ h.2)) ++ hunk 1 [])) := by
    have : c.take 9 = c := List.take_of_length_le (by omega)
    rw [this]
    have : hunk 0 c = [0, 9, 0] ++ c := by unfold hunk; rw [hc]; rfl
    rw [this]
    simp
  rw [e, load]
  have h5 := getN_append [0x55, 0x43, 0, 9, 0] (c ++ (((hunksOf l banks).flatMap fun h => hunk 2 (put8 h.1 ++ h.2)) ++ hunk 1 []))
  simp only [List.length_cons, List.length_nil, Nat.zero_add, Nat.reduceAdd] at h5
  rw [h5]
  simp only
  rw [← hc, getN_append]
  simp only
  rw [loadHunks_all]
  · rfl
  · intro h hm
    obtain ⟨h1, h2, _⟩ := mem_hunksOf hp hm
    have := mem_banks.1 h1
    refine ⟨by omega, ?_⟩
    have := h2.len 65534 (by
      intro x hx
      rw [List.mem_filterMap] at hx
      obtain ⟨s, hs, hx⟩ := hx
      obtain ⟨a1, a2, a3⟩ := textOf_some hx
      have := hp.small s hs _ a1
      omega)
    omega
  · rw [List.length_append]
    have : ∀ hs : List (Nat × Bytes), hs.length ≤ (hs.flatMap fun h => hunk 2 (put8 h.1 ++ h.2)).length := by
      intro hs
      induction hs with
      | nil => simp
      | cons h hs ih =>
        rw [List.flatMap_cons, List.length_append, List.length_cons]
        have : 1 ≤ (hunk 2 (put8 h.1 ++ h.2)).length := by simp [hunk, put8]
        omega
    have := this (hunksOf l banks)
    omega

/-- An executable holds the configuration, and for each bank from 0x81 to 0xFF with text sections one hunk: every section
is at its location, everything else in the hunk is zero, and the hunk ends with the last section. -/
theorem C23_hc800 (c : Bytes) (hc : c.length = 9) (l : List Sect) (hp : Placed l) :
    ∃ f hs, writeExecutable c l = .ok f ∧ load f = some (c, hs) ∧
      hs.Pairwise (fun x y => x.1 < y.1) ∧
      (∀ s ∈ l, ∀ d, s.kind = .text d → 0x81 ≤ s.bank → s.bank ≤ 0xFF →
        ∃ h ∈ hs, s.bank = h.1 ∧ ∀ i, i < d.length → h.2[s.image + i]? = d[i]?) ∧
      (∀ h ∈ hs, 0x81 ≤ h.1 ∧ h.1 ≤ 0xFF ∧ (∃ s ∈ l, s.bank = h.1 ∧ ∃ d, s.kind = .text d) ∧
        (∀ n, (∀ s ∈ l, s.bank = h.1 → ∀ d, s.kind = .text d → s.image + d.length ≤ n) → h.2.length ≤ n) ∧
        ∀ i, i < h.2.length → (∀ s ∈ l, s.bank = h.1 → ∀ d, s.kind = .text d → i < s.image ∨ s.image + d.length ≤ i) →
          h.2[i]? = some 0) := by
  obtain ⟨f, h1, h2⟩ := load_file hc l hp
  refine ⟨f, hunksOf l banks, h1, h2, ?_, ?_, ?_⟩
  · unfold hunksOf
    rw [List.pairwise_filterMap]
    have hb : banks.Pairwise (· < ·) := by
      unfold banks
      rw [List.pairwise_map]
      exact List.pairwise_lt_range.imp (fun h => by omega)
    apply hb.imp
    intro x y hxy u hu v hv
    have hu1 : u.1 = x := by
      split at hu
      · cases hu
      · cases hu; rfl
    have hv1 : v.1 = y := by
      split at hv
      · cases hv
      · cases hv; rfl
    omega
  · intro s hs d hd hb1 hb2
    have hbk : (s.bank.toNat : Int) = s.bank := by omega
    have hbm : s.bank.toNat ∈ banks := mem_banks.2 (by omega)
    have ht : textOf s.bank.toNat s = some (s.image, d) := by
      unfold textOf
      rw [hd]
      simp only
      rw [if_pos hbk.symm]
    have hmem : (s.image, d) ∈ l.filterMap (textOf s.bank.toNat) := List.mem_filterMap.2 ⟨s, hs, ht⟩
    cases hf : l.filterMap (textOf s.bank.toNat) with
    | nil => rw [hf] at hmem; simp at hmem
    | cons t ts =>
      have hh : (s.bank.toNat, build [] (t :: ts)) ∈ hunksOf l banks := by
        unfold hunksOf
        rw [List.mem_filterMap]
        exact ⟨s.bank.toNat, hbm, by rw [hf]⟩
      refine ⟨_, hh, hbk.symm, ?_⟩
      intro i hi
      have := (mem_hunksOf hp hh).2.1.bytes _ hmem (s.image + i) ⟨by show s.image ≤ _; omega, by show _ < s.image + d.length; omega⟩
      rw [this]
      show d[s.image + i - s.image]? = _
      rw [Nat.add_sub_cancel_left]
  · intro h hm
    obtain ⟨m1, m2, m3⟩ := mem_hunksOf hp hm
    have := mem_banks.1 m1
    refine ⟨this.1, this.2, ?_, ?_, ?_⟩
    · obtain ⟨x, hx⟩ := List.exists_mem_of_ne_nil _ m3
      rw [List.mem_filterMap] at hx
      obtain ⟨s, hs, hx⟩ := hx
      obtain ⟨a1, a2, a3⟩ := textOf_some hx
      exact ⟨s, hs, a2, _, a1⟩
    · intro n hn
      apply m2.len n
      intro x hx
      rw [List.mem_filterMap] at hx
      obtain ⟨s, hs, hx⟩ := hx
      obtain ⟨a1, a2, a3⟩ := textOf_some hx
      have := hn s hs a2 _ a1
      omega
    · intro i hi hn
      apply m2.zero i hi
      intro x hx hcov
      rw [List.mem_filterMap] at hx
      obtain ⟨s, hs, hx⟩ := hx
      obtain ⟨a1, a2, a3⟩ := textOf_some hx
      have := hn s hs a2 _ a1
      unfold Covers at hcov
      omega

/-- Two banks, a gap, BSS. -/
def hc800Example : List Sect :=
  [⟨true, 0, 0, .equ⟩, ⟨true, 0x81, 0, .text [1, 2]⟩, ⟨true, 0x81, 4, .text [3]⟩, ⟨true, 0x82, 0, .bss⟩,
   ⟨true, 0x82, 1, .text [4]⟩]

def smallConfig : Bytes := [0x00, 0x81, 0x82, 0x83, 0x84, 0x81, 0x82, 0x83, 0x84]

example : Placed hc800Example := by
  constructor
  · decide
  · decide
  · simp [hc800Example]
  · simp [hc800Example]

example : (match writeExecutable smallConfig hc800Example with
  | .ok f => load f == some (smallConfig, [(0x81, [1, 2, 0, 0, 3]), (0x82, [0, 4])])
  | _ => false) = true := by decide +kernel

/-- Sections that are not used are written if their bank was fixed: here a byte 9 of the unused section is
loaded. They come first in the list and have image location 0. -/
theorem C23_hc800_unused_written : ∃ (l : List Sect) (f : Bytes), writeExecutable smallConfig l = .ok f ∧
    load f = some (smallConfig, [(0x81, [1, 9]), (0x82, [2])]) ∧
    ∀ s ∈ l, s.used = true → s.kind ≠ .text [9, 9] ∧ s.kind ≠ .text [1, 9] :=
  ⟨[⟨false, 0x81, 0, .text [9, 9]⟩, ⟨true, 0x81, 0, .text [1]⟩, ⟨true, 0x82, 0, .text [2]⟩],
    [0x55, 0x43, 0, 9, 0, 0x00, 0x81, 0x82, 0x83, 0x84, 0x81, 0x82, 0x83, 0x84, 2, 3, 0, 0x81, 1, 9, 2, 2, 0, 0x82, 2, 1, 0, 0],
    by decide +kernel, by decide +kernel, by decide⟩

/-- If an unused section has a fixed bank and a used one has a lower bank, an assertion fails. The list is in the order
that the linker sorts it: unused sections first, then by bank. -/
theorem C23_hc800_unused_assertion : ∃ l : List Sect, writeExecutable smallConfig l = .fail ∧
    l.Pairwise (fun x y => x.used = y.used → x.bank ≤ y.bank) ∧ l.Pairwise (fun x y => x.used = true → y.used = true) :=
  ⟨[⟨false, 0x82, 0, .text [9]⟩, ⟨true, 0x81, 0, .text [1]⟩], by decide +kernel, by decide, by decide⟩

end Verif.Container.Hc800
