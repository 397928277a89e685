import Verif.Patch.Spec
import Verif.Expr.LinkLemmas
namespace Verif.Patch
open Verif.Expr

theorem setByte_ok {data data' : Bytes} {i : Nat} {b : UInt8} :
    setByte data i b = .ok data' ↔ i < data.length ∧ data' = data.set i b := by
  unfold setByte
  by_cases h : i < data.length
  · rw [if_pos h]; simp only [Outcome.ok.injEq, h, true_and]; exact ⟨fun h => h.symm, fun h => h.symm⟩
  · rw [if_neg h]; simp [h]

/-- The bytes that replace the window. -/
def bytesOf (type v : Nat) : Bytes :=
  match type with
  | 0 => put8 v
  | 1 => put16le v
  | 2 => put16be v
  | 3 => put32le v
  | 4 => put32be v
  | _ => []

/-- `data` with its bytes from `off` on replaced by `bs`. -/
def splice (data : Bytes) (off : Nat) (bs : Bytes) : Bytes :=
  data.take off ++ bs ++ data.drop (off + bs.length)

theorem length_bytesOf (type v : Nat) : (bytesOf type v).length = width type := by
  match type with
  | 0 => rfl
  | 1 => rfl
  | 2 => rfl
  | 3 => rfl
  | 4 => rfl
  | n + 5 => rfl

theorem getElem?_splice {data bs : Bytes} {off : Nat} (h : off + bs.length ≤ data.length) (i : Nat) :
    (splice data off bs)[i]? = if off ≤ i ∧ i < off + bs.length then bs[i - off]? else data[i]? := by
  have hl : (data.take off).length = off := by simp; omega
  unfold splice
  by_cases h1 : i < off
  · rw [if_neg (by omega), List.append_assoc, List.getElem?_append_left (by omega)]
    rw [List.getElem?_take_of_lt h1]
  · by_cases h2 : i < off + bs.length
    · rw [if_pos ⟨by omega, h2⟩, List.getElem?_append_left (by simp; omega),
        List.getElem?_append_right (by omega), hl]
    · rw [if_neg (by omega), List.getElem?_append_right (by simp; omega)]
      rw [List.getElem?_drop]
      congr 1
      simp
      omega

theorem length_splice {data bs : Bytes} {off : Nat} (h : off + bs.length ≤ data.length) :
    (splice data off bs).length = data.length := by
  unfold splice; simp; omega

theorem window_splice {data bs : Bytes} {off : Nat} (h : off + bs.length ≤ data.length) :
    ((splice data off bs).drop off).take bs.length = bs := by
  have hl : (data.take off).length = off := by simp; omega
  unfold splice
  rw [List.append_assoc, List.drop_append_of_le_length (by omega)]
  rw [List.drop_eq_nil_of_le (by omega), List.nil_append, List.take_append_of_le_length (Nat.le_refl _), List.take_length]

theorem set_eq_splice {data : Bytes} {i : Nat} {b : UInt8} (h : i < data.length) :
    data.set i b = splice data i [b] := by
  apply List.ext_getElem?
  intro j
  rw [getElem?_splice (by simp; omega), List.getElem?_set]
  by_cases hj : i = j
  · subst hj; simp [h]
  · rw [if_neg hj, if_neg (by simp; omega)]

theorem splice_splice {data bs : Bytes} {off : Nat} {b : UInt8} (h : off + bs.length + 1 ≤ data.length) :
    (splice data off bs).set (off + bs.length) b = splice data off (bs ++ [b]) := by
  apply List.ext_getElem?
  intro j
  have h1 : off + bs.length ≤ data.length := by omega
  have h2 : off + (bs ++ [b]).length ≤ data.length := by simp; omega
  rw [getElem?_splice h2, List.getElem?_set, getElem?_splice h1, length_splice h1]
  by_cases hj : off + bs.length = j
  · subst hj
    simp only [List.length_append, List.length_singleton]
    rw [if_pos trivial, if_pos (by omega), if_pos (by omega)]
    rw [show off + bs.length - off = bs.length by omega]
    simp
  · rw [if_neg hj]
    simp only [List.length_append, List.length_singleton]
    by_cases h3 : off ≤ j ∧ j < off + bs.length
    · rw [if_pos h3, if_pos (by omega), List.getElem?_append_left (by omega)]
    · rw [if_neg h3, if_neg (by omega)]

theorem store_iff {type offset : Nat} {r : Bool} {v : Int} {data data' : Bytes} (ht : type < 5)
    (ho : offset < 4294967296) (hd : data.length < 4294967296) (hv : I32 v) :
    store type r v offset data = .ok data' ↔
      Fits type v ∧ (type < 3 → r = false) ∧ offset + width type ≤ data.length ∧
      data' = splice data offset (bytesOf type (u32 v)) := by
  have two : ∀ (b0 b1 : UInt8), (do
      let data ← setByte data offset b0
      setByte data (add32 offset 1) b1) = .ok data' ↔
      offset + 2 ≤ data.length ∧ data' = splice data offset [b0, b1] := by
    intro b0 b1
    constructor
    · intro h
      obtain ⟨d1, h1, h2⟩ := Outcome.bind_ok.1 h
      obtain ⟨g1, rfl⟩ := setByte_ok.1 h1
      obtain ⟨g2, rfl⟩ := setByte_ok.1 h2
      rw [List.length_set] at g2
      have e : add32 offset 1 = offset + 1 := add32_eq (by omega)
      rw [e] at g2 ⊢
      refine ⟨by omega, ?_⟩
      rw [set_eq_splice g1]
      exact splice_splice (bs := [b0]) (by simp; omega)
    · rintro ⟨h, rfl⟩
      have e : add32 offset 1 = offset + 1 := add32_eq (by omega)
      refine Outcome.bind_ok.2 ⟨_, setByte_ok.2 ⟨by omega, rfl⟩, setByte_ok.2 ⟨by rw [List.length_set, e]; omega, ?_⟩⟩
      rw [e, set_eq_splice (data := data) (i := offset) (by omega)]
      exact (splice_splice (bs := [b0]) (by simp; omega)).symm
  have four : ∀ (b0 b1 b2 b3 : UInt8), (do
      let data ← setByte data offset b0
      let data ← setByte data (add32 offset 1) b1
      let data ← setByte data (add32 offset 2) b2
      setByte data (add32 offset 3) b3) = .ok data' ↔
      offset + 4 ≤ data.length ∧ data' = splice data offset [b0, b1, b2, b3] := by
    intro b0 b1 b2 b3
    have hset : offset + 4 ≤ data.length → (((data.set offset b0).set (offset + 1) b1).set (offset + 2) b2).set (offset + 3) b3
        = splice data offset [b0, b1, b2, b3] := by
      intro h
      rw [set_eq_splice (data := data) (i := offset) (by omega)]
      have e1 := splice_splice (data := data) (off := offset) (bs := [b0]) (b := b1) (by simp; omega)
      have e2 := splice_splice (data := data) (off := offset) (bs := [b0, b1]) (b := b2) (by simp; omega)
      have e3 := splice_splice (data := data) (off := offset) (bs := [b0, b1, b2]) (b := b3) (by simp; omega)
      simp only [List.length_cons, List.length_nil, List.cons_append, List.nil_append, Nat.zero_add] at e1 e2 e3
      rw [e1, e2, e3]
    constructor
    · intro h
      obtain ⟨d1, h1, h⟩ := Outcome.bind_ok.1 h
      obtain ⟨d2, h2, h⟩ := Outcome.bind_ok.1 h
      obtain ⟨d3, h3, h4⟩ := Outcome.bind_ok.1 h
      obtain ⟨g1, rfl⟩ := setByte_ok.1 h1
      obtain ⟨g2, rfl⟩ := setByte_ok.1 h2
      obtain ⟨g3, rfl⟩ := setByte_ok.1 h3
      obtain ⟨g4, rfl⟩ := setByte_ok.1 h4
      simp only [List.length_set] at g2 g3 g4
      have e : add32 offset 1 = offset + 1 := add32_eq (by omega)
      rw [e] at g2 ⊢
      have e' : add32 offset 2 = offset + 2 := add32_eq (by omega)
      rw [e'] at g3 ⊢
      have e'' : add32 offset 3 = offset + 3 := add32_eq (by omega)
      rw [e''] at g4 ⊢
      exact ⟨by omega, hset (by omega)⟩
    · rintro ⟨h, rfl⟩
      have e : add32 offset 1 = offset + 1 := add32_eq (by omega)
      have e' : add32 offset 2 = offset + 2 := add32_eq (by omega)
      have e'' : add32 offset 3 = offset + 3 := add32_eq (by omega)
      refine Outcome.bind_ok.2 ⟨_, setByte_ok.2 ⟨by omega, rfl⟩, ?_⟩
      refine Outcome.bind_ok.2 ⟨_, setByte_ok.2 ⟨by rw [List.length_set, e]; omega, rfl⟩, ?_⟩
      refine Outcome.bind_ok.2 ⟨_, setByte_ok.2 ⟨by rw [List.length_set, List.length_set, e']; omega, rfl⟩, ?_⟩
      refine setByte_ok.2 ⟨by rw [List.length_set, List.length_set, List.length_set, e'']; omega, ?_⟩
      rw [e, e', e'']
      exact (hset h).symm
  have cond : ∀ (a b : Int), (!r && decide (v ≥ a) && decide (v ≤ b)) = true ↔ (a ≤ v ∧ v ≤ b) ∧ r = false := by
    intro a b
    simp only [Bool.and_eq_true, Bool.not_eq_true', decide_eq_true_eq]
    constructor
    · rintro ⟨⟨h1, h2⟩, h3⟩; exact ⟨⟨h2, h3⟩, h1⟩
    · rintro ⟨⟨h2, h3⟩, h1⟩; exact ⟨⟨h1, h2⟩, h3⟩
  match type with
  | 0 =>
    simp only [store, Fits, width, bytesOf, put8]
    by_cases hc : (!r && decide (v ≥ -128) && decide (v ≤ 255)) = true
    · rw [if_pos hc, setByte_ok]
      have := (cond _ _).1 hc
      constructor
      · rintro ⟨h1, rfl⟩; exact ⟨this.1, fun _ => this.2, by omega, set_eq_splice h1⟩
      · rintro ⟨_, _, h1, rfl⟩; exact ⟨by omega, (set_eq_splice (by omega)).symm⟩
    · rw [if_neg hc]
      constructor
      · intro h; cases h
      · rintro ⟨h1, h2, _⟩; exact absurd ((cond _ _).2 ⟨h1, h2 (by omega)⟩) hc
  | 1 =>
    simp only [store, Fits, width, bytesOf, put16le]
    by_cases hc : (!r && decide (v ≥ -32768) && decide (v ≤ 65535)) = true
    · rw [if_pos hc, two]
      have := (cond _ _).1 hc
      constructor
      · rintro ⟨h1, rfl⟩; exact ⟨this.1, fun _ => this.2, h1, rfl⟩
      · rintro ⟨_, _, h1, rfl⟩; exact ⟨h1, rfl⟩
    · rw [if_neg hc]
      constructor
      · intro h; cases h
      · rintro ⟨h1, h2, _⟩; exact absurd ((cond _ _).2 ⟨h1, h2 (by omega)⟩) hc
  | 2 =>
    simp only [store, Fits, width, bytesOf, put16be]
    by_cases hc : (!r && decide (v ≥ -32768) && decide (v ≤ 65535)) = true
    · rw [if_pos hc, two]
      have := (cond _ _).1 hc
      constructor
      · rintro ⟨h1, rfl⟩; exact ⟨this.1, fun _ => this.2, h1, rfl⟩
      · rintro ⟨_, _, h1, rfl⟩; exact ⟨h1, rfl⟩
    · rw [if_neg hc]
      constructor
      · intro h; cases h
      · rintro ⟨h1, h2, _⟩; exact absurd ((cond _ _).2 ⟨h1, h2 (by omega)⟩) hc
  | 3 =>
    simp only [store, Fits, width, bytesOf, put32le, four]
    simp [hv]
  | 4 =>
    simp only [store, Fits, width, bytesOf, put32be, four]
    simp [hv]
  | n + 5 => omega

theorem decode_bytesOf {type : Nat} (ht : type < 5) (v : Int) :
    (decode type (bytesOf type (u32 v)) : Int) = v % (256 : Int) ^ width type := by
  have hu : (u32 v : Int) = v % 4294967296 := u32_cast v
  have hlt := u32_lt v
  match type with
  | 0 =>
    simp only [decode, bytesOf, put8, width, leNat, byte_toNat]
    simp
    omega
  | 1 =>
    simp only [decode, bytesOf, put16le, width, leNat, byte_toNat]
    simp
    omega
  | 2 =>
    simp only [decode, bytesOf, put16be, width]
    simp [leNat, byte_toNat]
    omega
  | 3 =>
    simp only [decode, bytesOf, put32le, width, leNat, byte_toNat]
    simp
    omega
  | 4 =>
    simp only [decode, bytesOf, put32be, width]
    simp [leNat, byte_toNat]
    omega
  | n + 5 => omega

theorem store_stored {type offset : Nat} {r : Bool} {v : Int} {data data' : Bytes} (ht : type < 5)
    (ho : offset < 4294967296) (hd : data.length < 4294967296) (hv : I32 v)
    (h : store type r v offset data = .ok data') : Stored type offset v data data' := by
  obtain ⟨_, _, h1, rfl⟩ := (store_iff ht ho hd hv).1 h
  have hw := length_bytesOf type (u32 v)
  have h1' : offset + (bytesOf type (u32 v)).length ≤ data.length := by omega
  refine ⟨h1, length_splice h1', ?_, ?_⟩
  · intro i hi
    rw [getElem?_splice h1', if_neg (by omega)]
  · rw [← decode_bytesOf ht]
    congr 2
    unfold window
    rw [← hw]
    exact window_splice h1'

end Verif.Patch
