import Verif.Sort.Model
/-!
# C24: sections are emitted in address order
-/
namespace Verif.Sort
open Verif.Expr (chk)

/-- Banks and addresses are -1 or not negative, and below 2^31 - 1. -/
def Key.Ok (k : Key) : Prop := -1 ≤ k.bank ∧ k.bank < 2147483647 ∧ -1 ≤ k.loc ∧ k.loc < 2147483647

instance (k : Key) : Decidable k.Ok := inferInstanceAs (Decidable (_ ∧ _))

/-- The order that is asked for: dropped sections first, then by bank, then by address. -/
def Le (a b : Key) : Prop :=
  (a.used = false ∧ b.used = true) ∨ (a.used = b.used ∧ (a.bank < b.bank ∨ (a.bank = b.bank ∧ a.loc ≤ b.loc)))

theorem chk_ok {a : Int} (h : Expr.I32 a) : chk a = .ok a := by unfold chk; rw [if_pos h]

/-- The comparison is defined, and its sign says which section comes first. -/
theorem compare_sign {a b : Key} (ha : a.Ok) (hb : b.Ok) :
    ∃ v, compare a b = .ok v ∧ (v ≤ 0 ↔ Le a b) ∧ (0 ≤ v ↔ Le b a) := by
  obtain ⟨ha1, ha2, ha3, ha4⟩ := ha
  obtain ⟨hb1, hb2, hb3, hb4⟩ := hb
  unfold compare Le
  by_cases hu : a.used = b.used
  · rw [if_neg (by simp [hu])]
    by_cases hk : a.bank = b.bank
    · rw [if_neg (by simp [hk]), chk_ok (by unfold Expr.I32; omega)]
      refine ⟨_, rfl, ?_, ?_⟩ <;> simp [hu, hk] <;> omega
    · rw [if_pos hk, chk_ok (by unfold Expr.I32; omega)]
      refine ⟨_, rfl, ?_, ?_⟩ <;> simp [hu] <;> omega
  · rw [if_pos hu]
    refine ⟨_, rfl, ?_, ?_⟩ <;> cases h1 : a.used <;> cases h2 : b.used <;> simp_all [boolInt]

/-- The comparison is what `qsort` needs: total and transitive. -/
theorem compare_total {a b : Key} : Le a b ∨ Le b a := by
  unfold Le
  cases a.used <;> cases b.used <;> simp <;> omega

theorem compare_trans {a b c : Key} (h : Le a b) (h' : Le b c) : Le a c := by
  unfold Le at *
  revert h h'
  cases a.used <;> cases b.used <;> cases c.used <;> simp <;> omega

theorem setNext_other (next : Nat → Option Nat) {i j : Nat} (v : Option Nat) (h : j ≠ i) :
    setNext next i v j = next j := by simp [setNext, h]

theorem link_other : ∀ (l : List Nat) (next : Nat → Option Nat) (k : Nat), k ∉ l → link next l k = next k
  | [], _, _, _ => rfl
  | [i], next, k, h => by simp at h; simp [link, setNext, h]
  | i :: j :: l, next, k, h => by
    simp only [link]
    rw [link_other (j :: l) _ k (by simp at h ⊢; exact ⟨h.2.1, h.2.2⟩)]
    simp at h
    exact setNext_other _ _ h.1

theorem walk_link : ∀ (l : List Nat) (next : Nat → Option Nat) (fuel : Nat), l.Nodup → l.length ≤ fuel →
    ∀ i t, l = i :: t → walk (link next l) fuel (some i) = some l
  | [], _, _, _, _, i, t, h => by cases h
  | [a], next, fuel, _, hf, i, t, h => by
    cases h
    obtain ⟨f, rfl⟩ : ∃ f, fuel = f + 1 := ⟨fuel - 1, by simp at hf; omega⟩
    cases f <;> simp [walk, link, setNext]
  | a :: b :: l, next, fuel, hn, hf, i, t, h => by
    cases h
    obtain ⟨f, rfl⟩ : ∃ f, fuel = f + 1 := ⟨fuel - 1, by simp at hf; omega⟩
    have hn' := List.nodup_cons.1 hn
    have hx : link next (a :: b :: l) a = some b := by
      simp only [link]
      rw [link_other _ _ _ hn'.1]
      simp [setNext]
    simp only [walk, hx]
    simp only [link]
    rw [walk_link (b :: l) _ f hn'.2 (by simp at hf ⊢; omega) b l rfl]
    rfl

/-- Whatever `qsort` makes of elements that compare equal: the new list has the same sections as the old one, the
dropped ones first and the others by bank and address. -/
theorem C24_sorted (key : Nat → Key) (hk : ∀ i, (key i).Ok) (fuel : Nat) (c c' : Chain) (l : List Nat)
    (hl : walk c.next fuel c.first = some l) (hn : l.Nodup) (hlen : l.length ≤ fuel)
    (h : Sorts key fuel c (.ok c')) :
    ∃ l', walk c'.next fuel c'.first = some l' ∧ l'.Perm l ∧ l'.Pairwise fun i j => Le (key i) (key j) := by
  obtain ⟨l1, l', h1, hq, he⟩ := h
  rw [hl] at h1
  cases h1
  cases l' with
  | nil => simp [fillList] at he
  | cons i t =>
    simp only [fillList] at he
    cases he
    refine ⟨i :: t, ?_, hq.perm, ?_⟩
    · exact walk_link (i :: t) c.next fuel (hq.perm.symm.nodup hn) (by rw [hq.perm.length_eq]; exact hlen) i t rfl
    · refine hq.order.imp ?_
      rintro a b ⟨v, hv, hle⟩
      obtain ⟨v', hv', h1, -⟩ := compare_sign (hk a) (hk b)
      rw [hv] at hv'
      cases hv'
      exact h1.1 hle

/-- In particular the kept sections are in the order of their banks, and of their addresses inside a bank. -/
theorem C24_kept_in_address_order (key : Nat → Key) (hk : ∀ i, (key i).Ok) (fuel : Nat) (c c' : Chain) (l : List Nat)
    (hl : walk c.next fuel c.first = some l) (hn : l.Nodup) (hlen : l.length ≤ fuel)
    (h : Sorts key fuel c (.ok c')) :
    ∃ l', walk c'.next fuel c'.first = some l' ∧ l'.Perm l ∧ (l'.filter fun i => (key i).used).Pairwise fun i j =>
      (key i).bank < (key j).bank ∨ ((key i).bank = (key j).bank ∧ (key i).loc ≤ (key j).loc) := by
  obtain ⟨l', h1, h2, h3⟩ := C24_sorted key hk fuel c c' l hl hn hlen h
  refine ⟨l', h1, h2, ?_⟩
  refine List.Pairwise.imp_of_mem ?_ (h3.filter _)
  intro a b ha hb hab
  have ha := (List.mem_filter.1 ha).2
  have hb := (List.mem_filter.1 hb).2
  unfold Le at hab
  rcases hab with hab | hab
  · rw [ha] at hab; simp at hab
  · exact hab.2

instance (a b : Key) : Decidable (Le a b) := inferInstanceAs (Decidable (_ ∨ _))

/-- Sorting a list that is not empty is never undefined: there is a result, and every result is a list. -/
theorem C24_result_exists (key : Nat → Key) (hk : ∀ i, (key i).Ok) (fuel : Nat) (c : Chain) (l : List Nat)
    (hl : walk c.next fuel c.first = some l) (hne : l ≠ []) :
    (∃ c', Sorts key fuel c (.ok c')) ∧ ∀ r, Sorts key fuel c r → ∃ c', r = .ok c' := by
  have some_list : ∀ l', l'.Perm l → ∃ c', fillList c l' = .ok c' := by
    intro l' hp
    cases l' with
    | nil => exact absurd (List.perm_nil.1 hp.symm) hne
    | cons i t => exact ⟨_, rfl⟩
  constructor
  · let le : Nat → Nat → Bool := fun i j => decide (Le (key i) (key j))
    have hp : (l.mergeSort le).Perm l := List.mergeSort_perm l le
    have ho : (l.mergeSort le).Pairwise fun i j => le i j = true := by
      apply List.pairwise_mergeSort
      · intro a b d h1 h2
        simp only [le, decide_eq_true_eq] at *
        exact compare_trans h1 h2
      · intro a b
        simp only [le, Bool.or_eq_true, decide_eq_true_eq]
        exact compare_total
    obtain ⟨c', hc⟩ := some_list _ hp
    refine ⟨c', l, l.mergeSort le, hl, ⟨hp, ho.imp ?_⟩, hc.symm⟩
    intro a b hab
    obtain ⟨v, hv, h1, -⟩ := compare_sign (hk a) (hk b)
    exact ⟨v, hv, h1.2 (by simpa [le] using hab)⟩
  · rintro r ⟨l1, l', h1, hq, rfl⟩
    rw [hl] at h1
    cases h1
    exact some_list l' hq.perm

/-! Three sections: 0 at $200 and 2 at $100 in bank 1, 1 is dropped. -/
def keys : Nat → Key
  | 0 => ⟨true, 1, 0x200⟩
  | 1 => ⟨false, -1, -1⟩
  | 2 => ⟨true, 1, 0x100⟩
  | _ => ⟨false, -1, -1⟩
def chain : Chain := ⟨some 0, fun i => if i < 2 then some (i + 1) else none⟩

theorem keys_ok (i : Nat) : (keys i).Ok := by
  match i with
  | 0 => decide
  | 1 => decide
  | 2 => decide
  | _ + 3 => exact (by decide : (⟨false, -1, -1⟩ : Key).Ok)

example : ∃ c', Sorts keys 3 chain (.ok c') ∧ walk c'.next 3 c'.first = some [1, 2, 0] := by
  refine ⟨⟨some 1, link chain.next [1, 2, 0]⟩, ⟨[0, 1, 2], [1, 2, 0], by decide, ⟨by decide, ?_⟩, rfl⟩, by decide⟩
  simp only [List.pairwise_cons, List.mem_cons, List.not_mem_nil, or_false, forall_eq_or_imp, forall_eq,
    List.Pairwise.nil, and_true, false_implies, implies_true]
  exact ⟨⟨⟨-1, by decide, by decide⟩, -1, by decide, by decide⟩, -256, by decide, by decide⟩

/-! ### Where the code does not do what is expected -/

/-- Without sections the array is accessed outside its bounds. -/
theorem C24_no_sections_ub (key : Nat → Key) (fuel : Nat) (next : Nat → Option Nat) (r : Outcome Chain)
    (h : Sorts key fuel ⟨none, next⟩ r) : r = .ub := by
  obtain ⟨l, l', h1, hq, rfl⟩ := h
  have : l = [] := by cases fuel <;> simpa [walk] using h1.symm
  subst this
  have : l' = [] := List.perm_nil.1 hq.perm
  subst this
  rfl

/-- `Key.Ok` is needed: the difference of addresses can overflow. -/
theorem C24_compare_overflows : ∃ a b : Key, compare a b = .ub :=
  ⟨⟨true, 0, 2147483647⟩, ⟨true, 0, -1⟩, by decide +kernel⟩

end Verif.Sort
