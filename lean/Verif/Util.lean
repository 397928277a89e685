/-! General helpers. -/
namespace Verif

/-- Two lists of equal length whose elements are pairwise related, in order. -/
inductive All2 {α β : Type} (R : α → β → Prop) : List α → List β → Prop
  | nil : All2 R [] []
  | cons {a b l1 l2} : R a b → All2 R l1 l2 → All2 R (a :: l1) (b :: l2)

namespace All2
variable {α β γ : Type}

theorem imp {R S : α → β → Prop} (h : ∀ a b, R a b → S a b) :
    ∀ {l1 l2}, All2 R l1 l2 → All2 S l1 l2
  | _, _, .nil => .nil
  | _, _, .cons h1 t => .cons (h _ _ h1) (imp h t)

theorem comp {R : α → β → Prop} {S : β → γ → Prop} {T : α → γ → Prop}
    (hRS : ∀ a b c, R a b → S b c → T a c) :
    ∀ {l1 l2 l3}, All2 R l1 l2 → All2 S l2 l3 → All2 T l1 l3
  | _, _, _, .nil, .nil => .nil
  | _, _, _, .cons h1 t1, .cons h2 t2 => .cons (hRS _ _ _ h1 h2) (comp hRS t1 t2)

theorem mem_right {R : α → β → Prop} {P : β → Prop} :
    ∀ {l1 l2}, All2 R l1 l2 → (∀ a b, a ∈ l1 → R a b → P b) → ∀ b ∈ l2, P b
  | _, _, .nil, _, b, hb => by simp at hb
  | _, _, .cons h t, hP, b, hb => by
    simp at hb
    rcases hb with rfl | hb
    · exact hP _ _ (by simp) h
    · exact mem_right t (fun a b ha => hP a b (by simp [ha])) b hb

theorem length_eq {R : α → β → Prop} : ∀ {l1 l2}, All2 R l1 l2 → l1.length = l2.length
  | _, _, .nil => rfl
  | _, _, .cons _ t => by simp [length_eq t]

theorem get {R : α → β → Prop} : ∀ {l1 l2}, All2 R l1 l2 → ∀ {i : Nat} {a b}, l1[i]? = some a → l2[i]? = some b → R a b
  | _, _, .nil, i, a, b, h, _ => by simp at h
  | _, _, .cons h t, 0, a, b, h1, h2 => by simp at h1 h2; subst h1; subst h2; exact h
  | _, _, .cons h t, i + 1, a, b, h1, h2 => by simp at h1 h2; exact get t h1 h2

theorem get_right {R : α → β → Prop} (h : All2 R l1 l2) {i : Nat} {a} (hi : l1[i]? = some a) :
    ∃ b, l2[i]? = some b ∧ R a b := by
  have hlt := (List.getElem?_eq_some_iff.1 hi).1
  have hlt2 : i < l2.length := by rw [← h.length_eq]; exact hlt
  exact ⟨l2[i], List.getElem?_eq_some_iff.2 ⟨hlt2, rfl⟩, h.get hi (List.getElem?_eq_some_iff.2 ⟨hlt2, rfl⟩)⟩

theorem get_left {R : α → β → Prop} (h : All2 R l1 l2) {i : Nat} {b} (hi : l2[i]? = some b) :
    ∃ a, l1[i]? = some a ∧ R a b := by
  have hlt := (List.getElem?_eq_some_iff.1 hi).1
  have hlt2 : i < l1.length := by rw [h.length_eq]; exact hlt
  exact ⟨l1[i], List.getElem?_eq_some_iff.2 ⟨hlt2, rfl⟩, h.get (List.getElem?_eq_some_iff.2 ⟨hlt2, rfl⟩) hi⟩

theorem refl {R : α → α → Prop} (h : ∀ a, R a a) : ∀ l, All2 R l l
  | [] => .nil
  | a :: l => .cons (h a) (refl h l)

end All2
end Verif
