import Verif.Ami.Spec
/-! Numbers that are stored in a hunk, and what is added to them. -/
namespace Verif.Ami
open Verif.Expr (u32)

theorem length_put32be (n : Nat) : (put32be n).length = 4 := rfl

theorem length_store {d : Bytes} {off : Nat} {bs : Bytes} (h : off + bs.length ≤ d.length) : (store d off bs).length = d.length := by
  unfold store
  simp only [List.length_append, List.length_take, List.length_drop]
  omega

theorem store_out {d : Bytes} {off : Nat} {bs : Bytes} (h : off + bs.length ≤ d.length) {j : Nat} (hj : j < off ∨ off + bs.length ≤ j) :
    (store d off bs)[j]? = d[j]? := by
  unfold store
  rcases hj with hj | hj
  · rw [List.getElem?_append_left (by rw [List.length_take]; omega), List.getElem?_take_of_lt hj]
  · rw [List.getElem?_append_right (by rw [List.length_take]; omega), List.length_take,
      List.getElem?_append_right (by omega), List.getElem?_drop]
    congr 1
    omega

theorem store_in {d : Bytes} {off : Nat} {bs : Bytes} (h : off + bs.length ≤ d.length) : ((store d off bs).drop off).take bs.length = bs := by
  unfold store
  rw [List.drop_left' (by rw [List.length_take]; omega), List.take_left]

/-- The longword at an offset. -/
def long (d : Bytes) (off : Nat) : Bytes := (d.drop off).take 4

theorem long_store {d : Bytes} {off v : Nat} (h : off + 4 ≤ d.length) : long (store d off (put32be v)) off = put32be v := store_in (bs := put32be v) h

theorem long_store_out {d : Bytes} {off v q : Nat} (h : off + 4 ≤ d.length) (hq : q + 4 ≤ off ∨ off + 4 ≤ q) :
    long (store d off (put32be v)) q = long d q := by
  unfold long
  apply List.ext_getElem?
  intro i
  by_cases hi : i < 4
  · rw [List.getElem?_take_of_lt hi, List.getElem?_take_of_lt hi, List.getElem?_drop, List.getElem?_drop]
    exact store_out (bs := put32be v) h (by rw [length_put32be]; omega)
  · rw [List.getElem?_eq_none (by rw [List.length_take]; omega), List.getElem?_eq_none (by rw [List.length_take]; omega)]

/-- Values that are stored one after the other. -/
def setLongs (d : Bytes) (ps : List (Nat × Nat)) : Bytes := ps.foldl (fun d p => store d p.1 (put32be p.2)) d

theorem setLongs_append (d : Bytes) (a b : List (Nat × Nat)) : setLongs d (a ++ b) = setLongs (setLongs d a) b := List.foldl_append ..

theorem length_setLongs : ∀ {ps : List (Nat × Nat)} {d : Bytes}, (∀ p ∈ ps, p.1 + 4 ≤ d.length) → (setLongs d ps).length = d.length := by
  intro ps
  induction ps with
  | nil => intros; rfl
  | cons p ps ih =>
    intro d h
    have h1 := length_store (bs := put32be p.2) (h p (by simp))
    show (setLongs (store d p.1 (put32be p.2)) ps).length = _
    rw [ih (fun q hq => by rw [h1]; exact h q (by simp [hq])), h1]

theorem setLongs_out : ∀ {ps : List (Nat × Nat)} {d : Bytes} {j : Nat}, (∀ p ∈ ps, p.1 + 4 ≤ d.length) →
    (∀ p ∈ ps, j < p.1 ∨ p.1 + 4 ≤ j) → (setLongs d ps)[j]? = d[j]? := by
  intro ps
  induction ps with
  | nil => intros; rfl
  | cons p ps ih =>
    intro d j h hj
    have h1 := length_store (bs := put32be p.2) (h p (by simp))
    show (setLongs (store d p.1 (put32be p.2)) ps)[j]? = _
    rw [ih (fun q hq => by rw [h1]; exact h q (by simp [hq])) fun q hq => hj q (by simp [hq])]
    exact store_out (bs := put32be p.2) (h p (by simp)) (hj p (by simp))

theorem setLongs_long_out : ∀ {ps : List (Nat × Nat)} {d : Bytes} {q : Nat}, (∀ p ∈ ps, p.1 + 4 ≤ d.length) →
    (∀ p ∈ ps, q + 4 ≤ p.1 ∨ p.1 + 4 ≤ q) → long (setLongs d ps) q = long d q := by
  intro ps
  induction ps with
  | nil => intros; rfl
  | cons p ps ih =>
    intro d q h hq
    have h1 := length_store (bs := put32be p.2) (h p (by simp))
    show long (setLongs (store d p.1 (put32be p.2)) ps) q = _
    rw [ih (fun x hx => by rw [h1]; exact h x (by simp [hx])) fun x hx => hq x (by simp [hx])]
    exact long_store_out (h p (by simp)) (hq p (by simp))

theorem setLongs_in : ∀ {ps : List (Nat × Nat)} {d : Bytes}, (∀ p ∈ ps, p.1 + 4 ≤ d.length) →
    ps.Pairwise (fun p q => p.1 + 4 ≤ q.1 ∨ q.1 + 4 ≤ p.1) → ∀ p ∈ ps, long (setLongs d ps) p.1 = put32be p.2 := by
  intro ps
  induction ps with
  | nil => intro _ _ _ p hp; cases hp
  | cons p ps ih =>
    intro d h hd q hq
    have h1 := length_store (bs := put32be p.2) (h p (by simp))
    obtain ⟨hd1, hd2⟩ := List.pairwise_cons.1 hd
    show long (setLongs (store d p.1 (put32be p.2)) ps) q.1 = _
    rcases List.mem_cons.1 hq with rfl | hq
    · rw [setLongs_long_out (fun x hx => by rw [h1]; exact h x (by simp [hx])) hd1]
      exact long_store (h q (by simp))
    · exact ih (fun x hx => by rw [h1]; exact h x (by simp [hx])) hd2 q hq

theorem addLong_eq {d : Bytes} {off v : Nat} {x : Int} (hv : v < W32) (hl : long d off = put32be v) :
    addLong d (off, x) = some (store d off (put32be (u32 (v + x)))) := by
  have e : d.drop off = put32be v ++ (d.drop off).drop 4 := by
    rw [← hl]; exact (List.take_append_drop 4 (d.drop off)).symm
  unfold addLong
  simp only
  rw [e, get32be_put32be hv]
  rfl

/-- Numbers are added to the longwords of a list, each of which has its place for itself. -/
theorem addLongs : ∀ {l : List (Nat × Nat × Int)} {d : Bytes}, (∀ x ∈ l, x.1 + 4 ≤ d.length ∧ x.2.1 < W32 ∧ long d x.1 = put32be x.2.1) →
    l.Pairwise (fun p q => p.1 + 4 ≤ q.1 ∨ q.1 + 4 ≤ p.1) →
    (l.map fun x => (x.1, x.2.2)).foldlM addLong d = some (setLongs d (l.map fun x => (x.1, u32 (x.2.1 + x.2.2)))) := by
  intro l
  induction l with
  | nil => intros; rfl
  | cons x l ih =>
    intro d h hd
    obtain ⟨h1, h2, h3⟩ := h x (by simp)
    obtain ⟨hd1, hd2⟩ := List.pairwise_cons.1 hd
    rw [List.map_cons, List.foldlM_cons, addLong_eq h2 h3]
    show (l.map fun x => (x.1, x.2.2)).foldlM addLong (store d x.1 _) = _
    rw [ih ?_ hd2]
    · rfl
    · intro y hy
      obtain ⟨g1, g2, g3⟩ := h y (by simp [hy])
      rw [length_store (bs := put32be _) h1]
      exact ⟨g1, g2, by rw [long_store_out h1 (by have := hd1 y hy; omega), g3]⟩

/-- The contents of a hunk in which values have been stored, after the addresses have been added. -/
theorem memory_ok {l : List (Nat × Nat × Int)} {d : Bytes} (h : ∀ x ∈ l, x.1 + 4 ≤ d.length ∧ x.2.1 < W32)
    (hd : l.Pairwise (fun p q => p.1 + 4 ≤ q.1 ∨ q.1 + 4 ≤ p.1)) :
    ∃ m, (l.map fun x => (x.1, x.2.2)).foldlM addLong (setLongs d (l.map fun x => (x.1, x.2.1))) = some m ∧ m.length = d.length ∧
      (∀ j, (∀ x ∈ l, j < x.1 ∨ x.1 + 4 ≤ j) → m[j]? = d[j]?) ∧ ∀ x ∈ l, long m x.1 = put32be (u32 (x.2.1 + x.2.2)) := by
  have a1 : ∀ p ∈ l.map fun x => (x.1, x.2.1), p.1 + 4 ≤ d.length := by
    intro p hp
    obtain ⟨x, hx, rfl⟩ := List.mem_map.1 hp
    exact (h x hx).1
  have d1 : (l.map fun x => (x.1, x.2.1)).Pairwise (fun p q => p.1 + 4 ≤ q.1 ∨ q.1 + 4 ≤ p.1) := List.pairwise_map.2 hd
  have a2 : ∀ p ∈ l.map fun x => (x.1, u32 (x.2.1 + x.2.2)), p.1 + 4 ≤ (setLongs d (l.map fun x => (x.1, x.2.1))).length := by
    intro p hp
    obtain ⟨x, hx, rfl⟩ := List.mem_map.1 hp
    rw [length_setLongs a1]
    exact (h x hx).1
  have d2 : (l.map fun x => (x.1, u32 (x.2.1 + x.2.2))).Pairwise (fun p q => p.1 + 4 ≤ q.1 ∨ q.1 + 4 ≤ p.1) := List.pairwise_map.2 hd
  refine ⟨_, addLongs ?_ hd, ?_, ?_, ?_⟩
  · intro x hx
    rw [length_setLongs a1]
    exact ⟨(h x hx).1, (h x hx).2, setLongs_in a1 d1 _ (List.mem_map.2 ⟨x, hx, rfl⟩)⟩
  · rw [length_setLongs a2, length_setLongs a1]
  · intro j hj
    rw [setLongs_out a2, setLongs_out a1]
    · intro p hp
      obtain ⟨x, hx, rfl⟩ := List.mem_map.1 hp
      exact hj x hx
    · intro p hp
      obtain ⟨x, hx, rfl⟩ := List.mem_map.1 hp
      exact hj x hx
  · intro x hx
    exact setLongs_in a2 d2 _ (List.mem_map.2 ⟨x, hx, rfl⟩)

end Verif.Ami
