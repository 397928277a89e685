import Verif.Smart.Spec
/-!
# Lemmas about smart linking
-/
namespace Verif.Smart

/-! ### Searches -/

theorem firstFrom_some {α : Type} {p : α → Bool} : ∀ {l : List α} {n i : Nat}, firstFrom p n l = some i →
    n ≤ i ∧ ∃ a, First l (fun a => p a = true) (i - n) a := by
  intro l
  induction l with
  | nil => intro n i h; simp [firstFrom] at h
  | cons a l ih =>
    intro n i h
    unfold firstFrom at h
    split at h
    next hp =>
      injection h with h; subst h
      refine ⟨Nat.le_refl _, a, ?_⟩
      rw [Nat.sub_self]
      exact ⟨rfl, hp, fun k hk => absurd hk (Nat.not_lt_zero k)⟩
    next hp =>
      obtain ⟨h1, b, h2, h3, h4⟩ := ih h
      refine ⟨by omega, b, ?_⟩
      have e : i - n = (i - (n + 1)) + 1 := by omega
      rw [e]
      refine ⟨by simpa using h2, h3, ?_⟩
      intro k hk c hc
      cases k with
      | zero => simp at hc; subst hc; exact hp
      | succ k => exact h4 k (by omega) c (by simpa using hc)

theorem firstFrom_none {α : Type} {p : α → Bool} : ∀ {l : List α} {n : Nat}, firstFrom p n l = none →
    ∀ a ∈ l, p a = false := by
  intro l
  induction l with
  | nil => intro n _ a ha; simp at ha
  | cons a l ih =>
    intro n h b hb
    unfold firstFrom at h
    split at h
    · cases h
    next hp =>
      rcases List.mem_cons.1 hb with rfl | hb
      · simpa using hp
      · exact ih h b hb

theorem First.unique {α : Type} {l : List α} {P : α → Prop} {i j : Nat} {a b : α} (h : First l P i a)
    (h' : First l P j b) : i = j ∧ a = b := by
  have : i = j := by
    rcases Nat.lt_trichotomy i j with hij | hij | hij
    · exact absurd h.2.1 (h'.2.2 i hij a h.1)
    · exact hij
    · exact absurd h'.2.1 (h.2.2 j hij b h'.1)
  subst this
  refine ⟨rfl, ?_⟩
  have := h.1; rw [h'.1] at this
  exact (Option.some.inj this).symm

theorem First.congr {α : Type} {l : List α} {P Q : α → Prop} {i : Nat} {a : α} (h : First l P i a)
    (hpq : ∀ b ∈ l, (P b ↔ Q b)) : First l Q i a := by
  refine ⟨h.1, (hpq a (List.mem_of_getElem? h.1)).1 h.2.1, ?_⟩
  intro k hk b hb
  rw [← hpq b (List.mem_of_getElem? hb)]
  exact h.2.2 k hk b hb

theorem First.mem {α : Type} {l : List α} {P : α → Prop} {i : Nat} {a : α} (h : First l P i a) : a ∈ l :=
  List.mem_of_getElem? h.1

/-- `firstFrom` finds the first element. -/
theorem firstFrom_iff {α : Type} {p : α → Bool} {P : α → Prop} {l : List α} (hp : ∀ a ∈ l, (p a = true ↔ P a))
    {i : Nat} : firstFrom p 0 l = some i ↔ ∃ a, First l P i a := by
  constructor
  · intro h
    obtain ⟨_, a, ha⟩ := firstFrom_some h
    exact ⟨a, ha.congr (fun b hb => hp b hb)⟩
  · rintro ⟨a, ha⟩
    cases h : firstFrom p 0 l with
    | none =>
      have := firstFrom_none h a ha.mem
      rw [(hp a ha.mem).2 ha.2.1] at this
      cases this
    | some j =>
      obtain ⟨_, b, hb⟩ := firstFrom_some h
      have := First.unique ha (hb.congr (fun b hb => hp b hb))
      simp only [Nat.sub_zero] at this
      rw [this.1]

theorem firstFrom_none_iff {α : Type} {p : α → Bool} {P : α → Prop} {l : List α}
    (hp : ∀ a ∈ l, (p a = true ↔ P a)) : firstFrom p 0 l = none ↔ ∀ a ∈ l, ¬ P a := by
  constructor
  · intro h a ha hpa
    have := firstFrom_none h a ha
    rw [(hp a ha).2 hpa] at this
    cases this
  · intro h
    cases h' : firstFrom p 0 l with
    | none => rfl
    | some j =>
      obtain ⟨b, hb⟩ := (firstFrom_iff hp).1 h'
      exact absurd hb.2.1 (h b hb.mem)

/-- `find?` finds the first element. -/
theorem find_first {α : Type} {p : α → Bool} : ∀ {l : List α} {a : α}, l.find? p = some a →
    ∃ k, First l (fun a => p a = true) k a := by
  intro l
  induction l with
  | nil => intro a h; simp at h
  | cons b l ih =>
    intro a h
    rw [List.find?_cons] at h
    split at h
    next hb =>
      injection h with h; subst h
      exact ⟨0, rfl, hb, fun k hk => absurd hk (Nat.not_lt_zero k)⟩
    next hb =>
      obtain ⟨k, h1, h2, h3⟩ := ih h
      refine ⟨k + 1, by simpa using h1, h2, ?_⟩
      intro j hj c hc
      cases j with
      | zero => simp at hc; subst hc; simp [hb]
      | succ j => exact h3 j (by omega) c (by simpa using hc)

theorem hasSymbol_first {s : Sect} {name : Bytes} {type : SymType} {y : Sym} (h : hasSymbol s name type = some y) :
    ∃ k, First s.symbols (fun y => y.type = type ∧ y.name = name) k y := by
  obtain ⟨k, hk⟩ := find_first h
  exact ⟨k, hk.congr (fun b _ => by simp)⟩

theorem hasSymbol_none {s : Sect} {name : Bytes} {type : SymType} :
    hasSymbol s name type = none ↔ ∀ y ∈ s.symbols, ¬ (y.type = type ∧ y.name = name) := by
  unfold hasSymbol
  rw [List.find?_eq_none]
  constructor
  · intro h y hy hc
    exact h y hy (by simp [hc.1, hc.2])
  · intro h y hy hc
    exact h y hy (by simpa using hc)

theorem hasSymbol_isSome {s : Sect} {name : Bytes} {type : SymType} :
    (hasSymbol s name type).isSome = true ↔ ∃ y ∈ s.symbols, y.type = type ∧ y.name = name := by
  cases h : hasSymbol s name type with
  | none =>
    simp only [Option.isSome_none, Bool.false_eq_true, false_iff]
    rintro ⟨y, hy, hc⟩
    exact hasSymbol_none.1 h y hy hc
  | some y =>
    obtain ⟨k, hk⟩ := hasSymbol_first h
    simp only [Option.isSome_some, true_iff]
    exact ⟨y, hk.mem, hk.2.1⟩

theorem exportOf_isSome {s : Sect} {name : Bytes} : (exportOf name s).isSome = true ↔ Exports name s := by
  unfold exportOf Exports
  rw [Option.isSome_or, Bool.or_eq_true, hasSymbol_isSome, hasSymbol_isSome]
  constructor
  · rintro (⟨y, h1, h2, h3⟩ | ⟨y, h1, h2, h3⟩)
    · exact ⟨y, h1, .inl h2, h3⟩
    · exact ⟨y, h1, .inr h2, h3⟩
  · rintro ⟨y, h1, h2 | h2, h3⟩
    · exact .inl ⟨y, h1, h2, h3⟩
    · exact .inr ⟨y, h1, h2, h3⟩

/-- A constant of an EQU section. -/
theorem containing_iff {secs : List Sect} (hn : NoPhantom secs) {s : Sect} (hs : s ∈ secs) (he : s.equ = true)
    {y : Sym} (hy : y ∈ s.symbols) {j : Nat} :
    containing secs y.value s.fileId = some j ↔ ∃ t, First secs (HoldsAddress s.fileId y.value) j t := by
  unfold containing
  apply firstFrom_iff
  intro t ht
  simp only [Bool.and_eq_true, beq_iff_eq, decide_eq_true_eq, HoldsAddress]
  constructor
  · rintro ⟨⟨h1, h2⟩, h3⟩
    refine ⟨h1, ?_, h2, h3⟩
    refine Int.not_lt.1 fun hneg => hn s hs he y hy t ht h1 hneg ⟨h2, h3⟩
  · rintro ⟨h1, _, h2, h3⟩
    exact ⟨⟨h1, h2⟩, h3⟩

theorem findGlobal_iff {secs : List Sect} (hn : NoPhantom secs) {name : Bytes} {j : Nat} :
    findGlobal secs name = some j ↔ Provides secs name j := by
  unfold findGlobal
  have hiff : ∀ i, firstFrom (fun s => (exportOf name s).isSome) 0 secs = some i ↔
      ∃ s, First secs (Exports name) i s := fun i => firstFrom_iff (fun a _ => exportOf_isSome)
  constructor
  · intro h
    simp only [Option.bind_eq_bind, Option.bind_eq_some_iff] at h
    obtain ⟨i, h1, s, h2, y, h3, h4⟩ := h
    obtain ⟨s', hs'⟩ := (hiff i).1 h1
    have : s' = s := by have := hs'.1; rw [h2] at this; exact (Option.some.inj this).symm
    subst this
    cases he : s'.equ with
    | false =>
      rw [if_neg (by simp [he])] at h4
      obtain rfl := Option.some.inj h4
      exact .plain hs' he
    | true =>
      unfold exportOf at h3
      cases hx : hasSymbol s' name .exported with
      | some z =>
        rw [hx] at h3
        obtain rfl : z = y := by simpa using h3
        obtain ⟨k, hk⟩ := hasSymbol_first hx
        rw [if_pos ⟨by rw [hk.2.1.1]; decide, he⟩] at h4
        obtain ⟨t, ht⟩ := (containing_iff hn hs'.mem he hk.mem).1 h4
        exact .address hs' he hk ht
      | none =>
        rw [hx] at h3
        simp only [Option.none_or] at h3
        obtain ⟨k, hk⟩ := hasSymbol_first h3
        rw [if_neg (by rw [hk.2.1.1]; simp)] at h4
        obtain rfl := Option.some.inj h4
        exact .linker hs' he (fun z hz hc => hasSymbol_none.1 hx z hz hc)
  · intro h
    simp only [Option.bind_eq_bind, Option.bind_eq_some_iff]
    cases h with
    | @plain _ s h he =>
      have := exportOf_isSome.2 h.2.1
      obtain ⟨y, hy⟩ := Option.isSome_iff_exists.1 this
      exact ⟨j, (hiff j).2 ⟨s, h⟩, s, h.1, y, hy, by rw [if_neg (by simp [he])]⟩
    | @linker _ s h he hl =>
      have h1 : hasSymbol s name .exported = none := hasSymbol_none.2 hl
      have := exportOf_isSome.2 h.2.1
      obtain ⟨y, hy⟩ := Option.isSome_iff_exists.1 this
      have hy' := hy
      unfold exportOf at hy'
      rw [h1] at hy'
      simp only [Option.none_or] at hy'
      obtain ⟨k, hk⟩ := hasSymbol_first hy'
      exact ⟨j, (hiff j).2 ⟨s, h⟩, s, h.1, y, hy, by rw [if_neg (by rw [hk.2.1.1]; simp)]⟩
    | @address i k _ s t y h he hy ht =>
      have h1 : hasSymbol s name .exported = some y := by
        cases hx : hasSymbol s name .exported with
        | none => exact absurd hy.2.1 (hasSymbol_none.1 hx y hy.mem)
        | some z =>
          obtain ⟨k', hk'⟩ := hasSymbol_first hx
          exact congrArg some (First.unique hk' hy).2
      refine ⟨i, (hiff i).2 ⟨s, h⟩, s, h.1, y, by simp [exportOf, h1], ?_⟩
      rw [if_pos ⟨by rw [hy.2.1.1]; decide, he⟩]
      exact (containing_iff hn h.mem he hy.mem).2 ⟨t, ht⟩

theorem findLocal_iff {secs : List Sect} (hn : NoPhantom secs) {file : Nat} {name : Bytes} {j : Nat} :
    findLocal secs name file = some j ↔ ProvidesLocally secs file name j := by
  unfold findLocal
  have hp : ∀ s ∈ secs, ((s.fileId == file && (hasSymbol s name .localExport).isSome) = true ↔
      ExportsLocally file name s) := by
    intro s _
    rw [Bool.and_eq_true, hasSymbol_isSome, beq_iff_eq]
    exact Iff.rfl
  split
  next i h1 =>
    obtain ⟨s, hs⟩ := (firstFrom_iff hp).1 h1
    obtain ⟨_, hfx⟩ := hs.2.1
    have := hasSymbol_isSome.2 hfx
    obtain ⟨y, hy⟩ := Option.isSome_iff_exists.1 this
    obtain ⟨k, hk⟩ := hasSymbol_first hy
    simp only [hs.1, hy, Option.bind_eq_bind, Option.bind_some]
    cases he : s.equ with
    | false =>
      simp only [Bool.false_eq_true, if_false, Option.some.injEq]
      constructor
      · rintro rfl; exact .plain hs he
      · intro h
        cases h with
        | plain h _ => exact (First.unique hs h).1
        | address h he' _ _ => rw [← (First.unique hs h).2, he] at he'; cases he'
        | global h _ => exact absurd hs.2.1 (h s hs.mem)
    | true =>
      simp only [if_true]
      rw [containing_iff hn hs.mem he hk.mem]
      constructor
      · rintro ⟨t, ht⟩; exact .address hs he hk ht
      · intro h
        cases h with
        | plain h he' => rw [← (First.unique hs h).2, he] at he'; cases he'
        | @address _ _ _ s' t y' h he' hy' ht =>
          obtain ⟨_, rfl⟩ := First.unique hs h
          obtain ⟨_, rfl⟩ := First.unique hk hy'
          exact ⟨t, ht⟩
        | global h _ => exact absurd hs.2.1 (h s hs.mem)
  next h1 =>
    have hno := (firstFrom_none_iff hp).1 h1
    rw [findGlobal_iff hn]
    constructor
    · exact .global hno
    · intro h
      cases h with
      | plain h _ => exact absurd h.2.1 (hno _ h.mem)
      | address h _ _ _ => exact absurd h.2.1 (hno _ h.mem)
      | global _ h => exact h

theorem First.lt {α : Type} {l : List α} {P : α → Prop} {i : Nat} {a : α} (h : First l P i a) : i < l.length := by
  have := h.1
  rw [List.getElem?_eq_some_iff] at this
  exact this.1

theorem containing_lt {secs : List Sect} {v : Int} {f j : Nat} (h : containing secs v f = some j) :
    j < secs.length := by
  obtain ⟨_, a, ha⟩ := firstFrom_some h
  simpa using ha.lt

theorem findGlobal_lt {secs : List Sect} {name : Bytes} {j : Nat} (h : findGlobal secs name = some j) :
    j < secs.length := by
  unfold findGlobal at h
  simp only [Option.bind_eq_bind, Option.bind_eq_some_iff] at h
  obtain ⟨i, h1, s, h2, y, h3, h4⟩ := h
  split at h4
  · exact containing_lt h4
  · obtain rfl := Option.some.inj h4
    rw [List.getElem?_eq_some_iff] at h2
    exact h2.1

theorem findLocal_lt {secs : List Sect} {name : Bytes} {f j : Nat} (h : findLocal secs name f = some j) :
    j < secs.length := by
  unfold findLocal at h
  split at h
  · simp only [Option.bind_eq_bind, Option.bind_eq_some_iff] at h
    obtain ⟨s, h2, y, h3, h4⟩ := h
    split at h4
    · exact containing_lt h4
    · obtain rfl := Option.some.inj h4
      rw [List.getElem?_eq_some_iff] at h2
      exact h2.1
  · exact findGlobal_lt h

/-- Only sections of the list are needed. -/
def NeedsOk (secs : List Sect) (ns : List Need) : Prop := ∀ j, Need.section j ∈ ns → j < secs.length

theorem need_ok (secs : List Sect) (s : Sect) : NeedsOk secs (s.symbols.map (need secs s)) := by
  intro j hj
  obtain ⟨y, _, hy⟩ := List.mem_map.1 hj
  unfold need at hy
  split at hy
  · split at hy
    · injection hy with hy; subst hy; exact findLocal_lt ‹_›
    · cases hy
  · split at hy
    · injection hy with hy; subst hy; exact findGlobal_lt ‹_›
    · cases hy
  · cases hy

/-! ### Marking -/

/-- The number of sections that are not marked. -/
def unmarked (secs : List Sect) (m : Marks) : Nat := ((List.range secs.length).filter (fun i => i ∉ m)).length

theorem unmarked_mono {secs : List Sect} {m m' : Marks} (h : ∀ i ∈ m, i ∈ m') :
    unmarked secs m' ≤ unmarked secs m := by
  unfold unmarked
  have key : ∀ l : List Nat, (l.filter (fun i => i ∉ m')).length ≤ (l.filter (fun i => i ∉ m)).length := by
    intro l
    induction l with
    | nil => exact Nat.le_refl _
    | cons a l ih =>
      simp only [List.filter_cons]
      by_cases h1 : a ∈ m
      · have h2 := h a h1
        simp only [h1, h2, not_true_eq_false, decide_false, Bool.false_eq_true, if_false]
        exact ih
      · by_cases h2 : a ∈ m'
        · simp only [h1, h2, not_true_eq_false, decide_false, Bool.false_eq_true, if_false, not_false_eq_true,
            decide_true, if_true, List.length_cons]
          omega
        · simp only [h1, h2, not_false_eq_true, decide_true, if_true, List.length_cons]
          omega
  exact key _

theorem unmarked_lt {secs : List Sect} {m : Marks} {j : Nat} (hj : j < secs.length) (hm : j ∉ m) :
    unmarked secs (j :: m) < unmarked secs m := by
  unfold unmarked
  have key : ∀ l : List Nat, j ∈ l →
      (l.filter (fun i => i ∉ j :: m)).length < (l.filter (fun i => i ∉ m)).length := by
    intro l
    induction l with
    | nil => intro h; simp at h
    | cons a l ih =>
      intro h
      have hle : (l.filter (fun i => i ∉ j :: m)).length ≤ (l.filter (fun i => i ∉ m)).length := by
        clear ih h
        induction l with
        | nil => exact Nat.le_refl _
        | cons b l ih =>
          simp only [List.filter_cons]
          by_cases h1 : b ∈ m
          · have h2 : b ∈ j :: m := by simp [h1]
            simp only [h1, h2, not_true_eq_false, decide_false, Bool.false_eq_true, if_false]
            exact ih
          · by_cases h2 : b ∈ j :: m
            · simp only [h1, h2, not_true_eq_false, decide_false, Bool.false_eq_true, if_false, not_false_eq_true,
                decide_true, if_true, List.length_cons]
              omega
            · simp only [h1, h2, not_false_eq_true, decide_true, if_true, List.length_cons]
              omega
      simp only [List.filter_cons]
      by_cases haj : a = j
      · subst haj
        simp only [List.mem_cons, true_or, not_true_eq_false, decide_false, Bool.false_eq_true, if_false, hm,
          not_false_eq_true, decide_true, if_true, List.length_cons]
        simp only [List.mem_cons] at hle
        omega
      · have hl : j ∈ l := by
          rcases List.mem_cons.1 h with h | h
          · exact absurd h.symm haj
          · exact h
        have := ih hl
        by_cases h1 : a ∈ m
        · have h2 : a ∈ j :: m := by simp [h1]
          simp only [h1, h2, not_true_eq_false, decide_false, Bool.false_eq_true, if_false]
          exact this
        · have h2 : a ∉ j :: m := by simp [h1, haj]
          simp only [h1, h2, not_false_eq_true, decide_true, if_true, List.length_cons]
          omega
  exact key _ (List.mem_range.2 hj)

theorem unmarked_le (secs : List Sect) (m : Marks) : unmarked secs m ≤ secs.length := by
  unfold unmarked
  refine Nat.le_trans (List.length_filter_le _ _) ?_
  simp

theorem markAll_eq (secs : List Sect) (fuel : Nat) (m : Marks) (ns : List Need) : markAll secs fuel m ns =
    match ns with
    | [] => .ok m
    | .nothing :: ns => markAll secs fuel m ns
    | .missing :: _ => .fail
    | .section j :: ns =>
      if j ∈ m then markAll secs fuel m ns
      else
        match mark secs fuel m j with
        | .ok m => markAll secs fuel m ns
        | .fail => .fail
        | .ub => .ub := by
  cases ns with
  | nil => rfl
  | cons n ns => cases n <;> rfl

/-- What marking does. `X`: the property of being reachable. -/
structure Marked (secs : List Sect) (m m' : Marks) : Prop where
  sub : ∀ i ∈ m, i ∈ m'
  closed : ∀ i ∈ m', i ∉ m → ∃ s, secs[i]? = some s ∧ ∀ n ∈ s.symbols.map (need secs s),
    n ≠ .missing ∧ ∀ j, n = .section j → j ∈ m'

theorem Marked.refl (secs : List Sect) (m : Marks) : Marked secs m m :=
  ⟨fun _ h => h, fun _ h hn => absurd h hn⟩

theorem Marked.trans {secs : List Sect} {m1 m2 m3 : Marks} (h1 : Marked secs m1 m2) (h2 : Marked secs m2 m3) :
    Marked secs m1 m3 := by
  refine ⟨fun i h => h2.sub i (h1.sub i h), ?_⟩
  intro i hi hn
  by_cases h : i ∈ m2
  · obtain ⟨s, hs, hc⟩ := h1.closed i h hn
    exact ⟨s, hs, fun n hn' => ⟨(hc n hn').1, fun j hj => h2.sub j ((hc n hn').2 j hj)⟩⟩
  · exact h2.closed i hi h

/-- A property that a marking preserves: it holds of everything marked if it holds of the start. -/
def Through (secs : List Sect) (X : Nat → Prop) : Prop :=
  ∀ i s, X i → secs[i]? = some s → ∀ j, Need.section j ∈ s.symbols.map (need secs s) → X j

theorem mark_ok {secs : List Sect} : ∀ (fuel : Nat),
    (∀ m i m', mark secs fuel m i = .ok m' → Marked secs m m' ∧ i ∈ m' ∧
      (∃ s, secs[i]? = some s ∧ ∀ n ∈ s.symbols.map (need secs s), n ≠ .missing ∧ ∀ j, n = .section j → j ∈ m') ∧
      (∀ X, Through secs X → X i → ∀ k ∈ m', k ∉ m → X k)) ∧
    (∀ ns m m', markAll secs fuel m ns = .ok m' → Marked secs m m' ∧
      (∀ n ∈ ns, n ≠ .missing ∧ ∀ j, n = .section j → j ∈ m') ∧
      (∀ X, Through secs X → (∀ j, Need.section j ∈ ns → X j) → ∀ k ∈ m', k ∉ m → X k)) := by
  intro fuel
  induction fuel with
  | zero =>
    have h0 : ∀ m i m', mark secs 0 m i = .ok m' → False := by
      intro m i m' h; unfold mark at h; cases h
    refine ⟨fun m i m' h => (h0 m i m' h).elim, ?_⟩
    intro ns
    induction ns with
    | nil =>
      intro m m' h
      rw [markAll_eq] at h
      injection h with h; subst h
      exact ⟨.refl _ _, by simp, fun X _ _ k hk hn => absurd hk hn⟩
    | cons n ns ih =>
      intro m m' h
      rw [markAll_eq] at h
      cases n with
      | nothing =>
        simp only at h
        obtain ⟨h1, h2, h3⟩ := ih m m' h
        exact ⟨h1, by simpa using h2, fun X hX hj => h3 X hX (fun j hj' => hj j (by simp [hj']))⟩
      | missing => cases h
      | «section» j =>
        simp only at h
        split at h
        next hjm =>
          obtain ⟨h1, h2, h3⟩ := ih m m' h
          refine ⟨h1, ?_, fun X hX hj => h3 X hX (fun j hj' => hj j (by simp [hj']))⟩
          intro n hn
          rcases List.mem_cons.1 hn with rfl | hn
          · exact ⟨by simp, fun k hk => by cases hk; exact h1.sub j hjm⟩
          · exact h2 n hn
        · split at h
          next h' => exact (h0 _ _ _ h').elim
          · cases h
          · cases h
  | succ fuel ihf =>
    have hmark : ∀ m i m', mark secs (fuel + 1) m i = .ok m' → Marked secs m m' ∧ i ∈ m' ∧
        (∃ s, secs[i]? = some s ∧ ∀ n ∈ s.symbols.map (need secs s), n ≠ .missing ∧ ∀ j, n = .section j → j ∈ m') ∧
        (∀ X, Through secs X → X i → ∀ k ∈ m', k ∉ m → X k) := by
      intro m i m' h
      unfold mark at h
      split at h
      · cases h
      next s hs =>
      obtain ⟨h1, h2, h3⟩ := ihf.2 _ _ _ h
      refine ⟨⟨fun k hk => h1.sub k (by simp [hk]), ?_⟩, h1.sub i (by simp), ⟨s, hs, h2⟩, ?_⟩
      · intro k hk hn
        by_cases hki : k = i
        · subst hki; exact ⟨s, hs, h2⟩
        · exact h1.closed k hk (by simp [hki, hn])
      · intro X hX hi k hk hn
        by_cases hki : k = i
        · subst hki; exact hi
        · exact h3 X hX (fun j hj => hX i s hi hs j hj) k hk (by simp [hki, hn])
    refine ⟨hmark, ?_⟩
    intro ns
    induction ns with
    | nil =>
      intro m m' h
      rw [markAll_eq] at h
      injection h with h; subst h
      exact ⟨.refl _ _, by simp, fun X _ _ k hk hn => absurd hk hn⟩
    | cons n ns ih =>
      intro m m' h
      rw [markAll_eq] at h
      cases n with
      | nothing =>
        simp only at h
        obtain ⟨h1, h2, h3⟩ := ih m m' h
        exact ⟨h1, by simpa using h2, fun X hX hj => h3 X hX (fun j hj' => hj j (by simp [hj']))⟩
      | missing => cases h
      | «section» j =>
        simp only at h
        split at h
        next hjm =>
          obtain ⟨h1, h2, h3⟩ := ih m m' h
          refine ⟨h1, ?_, fun X hX hj => h3 X hX (fun j hj' => hj j (by simp [hj']))⟩
          intro n hn
          rcases List.mem_cons.1 hn with rfl | hn
          · exact ⟨by simp, fun k hk => by cases hk; exact h1.sub j hjm⟩
          · exact h2 n hn
        · split at h
          next m1 h' =>
            obtain ⟨a1, a2, a3, a4⟩ := hmark _ _ _ h'
            obtain ⟨h1, h2, h3⟩ := ih m1 m' h
            refine ⟨a1.trans h1, ?_, ?_⟩
            · intro n hn
              rcases List.mem_cons.1 hn with rfl | hn
              · exact ⟨by simp, fun k hk => by cases hk; exact h1.sub j a2⟩
              · exact h2 n hn
            · intro X hX hj k hk hn
              by_cases hk1 : k ∈ m1
              · exact a4 X hX (hj j (by simp)) k hk1 hn
              · exact h3 X hX (fun j hj' => hj j (by simp [hj'])) k hk hk1
          · cases h
          · cases h

/-- Marking never runs out of fuel. -/
theorem mark_total {secs : List Sect} : ∀ (fuel : Nat),
    (∀ m i, i < secs.length → unmarked secs (i :: m) < fuel → mark secs fuel m i ≠ .ub) ∧
    (∀ ns m, NeedsOk secs ns → unmarked secs m ≤ fuel → markAll secs fuel m ns ≠ .ub) := by
  intro fuel
  induction fuel with
  | zero =>
    refine ⟨fun m i _ h => absurd h (Nat.not_lt_zero _), ?_⟩
    intro ns
    induction ns with
    | nil => intro m _ _; rw [markAll_eq]; simp
    | cons n ns ih =>
      intro m hns hm
      have hns' : NeedsOk secs ns := fun j hj => hns j (by simp [hj])
      rw [markAll_eq]
      cases n with
      | nothing => exact ih m hns' hm
      | missing => simp
      | «section» j =>
        simp only
        split
        · exact ih m hns' hm
        next hj =>
          have := unmarked_lt (hns j (by simp)) hj
          omega
  | succ fuel ihf =>
    have hmark : ∀ m i, i < secs.length → unmarked secs (i :: m) < fuel + 1 → mark secs (fuel + 1) m i ≠ .ub := by
      intro m i hi hm
      unfold mark
      rw [List.getElem?_eq_getElem hi]
      exact ihf.2 _ _ (need_ok secs _) (by omega)
    refine ⟨hmark, ?_⟩
    intro ns
    induction ns with
    | nil => intro m _ _; rw [markAll_eq]; simp
    | cons n ns ih =>
      intro m hns hm
      have hns' : NeedsOk secs ns := fun j hj => hns j (by simp [hj])
      rw [markAll_eq]
      cases n with
      | nothing => exact ih m hns' hm
      | missing => simp
      | «section» j =>
        simp only
        split
        · exact ih m hns' hm
        next hj =>
          have := unmarked_lt (hns j (by simp)) hj
          have hmk := hmark m j (hns j (by simp)) (by omega)
          split
          next m1 h1 =>
            obtain ⟨a1, _⟩ := (mark_ok (fuel + 1)).1 _ _ _ h1
            have := unmarked_mono (secs := secs) a1.sub
            exact ih m1 hns' (by omega)
          · simp
          next h => exact absurd h hmk

/-- If marking fails, something that had to be marked lacks a definition. -/
theorem mark_fail {secs : List Sect} (X : Nat → Prop) (hX : Through secs X) : ∀ (fuel : Nat),
    (∀ m i, X i → mark secs fuel m i = .fail →
      ∃ k s, X k ∧ secs[k]? = some s ∧ Need.missing ∈ s.symbols.map (need secs s)) ∧
    (∀ ns m, (∀ j, Need.section j ∈ ns → X j) → markAll secs fuel m ns = .fail → Need.missing ∈ ns ∨
      ∃ k s, X k ∧ secs[k]? = some s ∧ Need.missing ∈ s.symbols.map (need secs s)) := by
  intro fuel
  have hall : ∀ fuel, (∀ m i, X i → mark secs fuel m i = .fail →
      ∃ k s, X k ∧ secs[k]? = some s ∧ Need.missing ∈ s.symbols.map (need secs s)) →
      ∀ ns m, (∀ j, Need.section j ∈ ns → X j) → markAll secs fuel m ns = .fail → Need.missing ∈ ns ∨
      ∃ k s, X k ∧ secs[k]? = some s ∧ Need.missing ∈ s.symbols.map (need secs s) := by
    intro fuel hmark ns
    induction ns with
    | nil => intro m _ h; rw [markAll_eq] at h; cases h
    | cons n ns ih =>
      intro m hns h
      have hns' : ∀ j, Need.section j ∈ ns → X j := fun j hj => hns j (by simp [hj])
      have wrap : (Need.missing ∈ ns ∨ ∃ k s, X k ∧ secs[k]? = some s ∧ Need.missing ∈ s.symbols.map (need secs s)) →
          Need.missing ∈ n :: ns ∨
          ∃ k s, X k ∧ secs[k]? = some s ∧ Need.missing ∈ s.symbols.map (need secs s) := by
        rintro (h | h)
        · exact .inl (by simp [h])
        · exact .inr h
      rw [markAll_eq] at h
      cases n with
      | nothing => exact wrap (ih m hns' h)
      | missing => exact .inl (by simp)
      | «section» j =>
        simp only at h
        split at h
        · exact wrap (ih m hns' h)
        · split at h
          · exact wrap (ih _ hns' h)
          next hf => exact .inr (hmark m j (hns j (by simp)) hf)
          · cases h
  induction fuel with
  | zero =>
    have h0 : ∀ m i, X i → mark secs 0 m i = .fail →
        ∃ k s, X k ∧ secs[k]? = some s ∧ Need.missing ∈ s.symbols.map (need secs s) := by
      intro m i _ h; unfold mark at h; cases h
    exact ⟨h0, hall 0 h0⟩
  | succ fuel ihf =>
    have h1 : ∀ m i, X i → mark secs (fuel + 1) m i = .fail →
        ∃ k s, X k ∧ secs[k]? = some s ∧ Need.missing ∈ s.symbols.map (need secs s) := by
      intro m i hi h
      unfold mark at h
      split at h
      · cases h
      next s hs =>
      rcases ihf.2 _ _ (fun j hj => hX i s hi hs j hj) h with h | h
      · exact ⟨i, s, hi, hs, h⟩
      · exact h
    exact ⟨h1, hall _ h1⟩

/-! ### Roots -/

theorem roots_mem : ∀ {secs : List Sect} {n i : Nat}, i ∈ roots n secs ↔
    n ≤ i ∧ ∃ s, secs[i - n]? = some s ∧ s.root = true := by
  intro secs
  induction secs with
  | nil => intro n i; simp [roots]
  | cons s secs ih =>
    intro n i
    have key : (n + 1 ≤ i ∧ ∃ t, secs[i - (n + 1)]? = some t ∧ t.root = true) ↔
        (n < i ∧ ∃ t, (s :: secs)[i - n]? = some t ∧ t.root = true) := by
      constructor
      · rintro ⟨h1, t, h2⟩
        refine ⟨h1, t, ?_⟩
        have e : i - n = (i - (n + 1)) + 1 := by omega
        rw [e]; simpa using h2
      · rintro ⟨h1, t, h2⟩
        refine ⟨h1, t, ?_⟩
        have e : i - n = (i - (n + 1)) + 1 := by omega
        rw [e] at h2; simpa using h2
    unfold roots
    split
    next hr =>
      rw [List.mem_cons, ih, key]
      constructor
      · rintro (rfl | ⟨h1, h2⟩)
        · exact ⟨Nat.le_refl _, s, by simp, hr⟩
        · exact ⟨by omega, h2⟩
      · rintro ⟨h1, h2⟩
        by_cases h : i = n
        · exact .inl h
        · exact .inr ⟨by omega, h2⟩
    next hr =>
      rw [ih, key]
      constructor
      · rintro ⟨h1, h2⟩
        exact ⟨by omega, h2⟩
      · rintro ⟨h1, h2⟩
        refine ⟨?_, h2⟩
        rcases Nat.lt_or_ge n i with h | h
        · exact h
        · have : i = n := by omega
          subst this
          obtain ⟨t, ht, hrt⟩ := h2
          simp at ht; subst ht
          exact absurd hrt hr

theorem markRoots_ok {secs : List Sect} {fuel : Nat} : ∀ {is m m'}, markRoots secs fuel m is = .ok m' →
    Marked secs m m' ∧
    (∀ i ∈ is, i ∈ m' ∧ ∃ s, secs[i]? = some s ∧ ∀ n ∈ s.symbols.map (need secs s),
      n ≠ .missing ∧ ∀ j, n = .section j → j ∈ m') ∧
    (∀ X, Through secs X → (∀ i ∈ is, X i) → ∀ k ∈ m', k ∉ m → X k) := by
  intro is
  induction is with
  | nil =>
    intro m m' h
    unfold markRoots at h
    injection h with h; subst h
    exact ⟨.refl _ _, by simp, fun X _ _ k hk hn => absurd hk hn⟩
  | cons i is ih =>
    intro m m' h
    unfold markRoots at h
    split at h
    next m1 h1 =>
      obtain ⟨a1, a2, ⟨s, a3, a4⟩, a5⟩ := (mark_ok fuel).1 _ _ _ h1
      obtain ⟨b1, b2, b3⟩ := ih h
      refine ⟨a1.trans b1, ?_, ?_⟩
      · intro k hk
        rcases List.mem_cons.1 hk with rfl | hk
        · exact ⟨b1.sub _ a2, s, a3, fun n hn => ⟨(a4 n hn).1, fun j hj => b1.sub j ((a4 n hn).2 j hj)⟩⟩
        · exact b2 k hk
      · intro X hX hi k hk hn
        by_cases hk1 : k ∈ m1
        · exact a5 X hX (hi i (by simp)) k hk1 hn
        · exact b3 X hX (fun j hj => hi j (by simp [hj])) k hk hk1
    · cases h
    · cases h

end Verif.Smart
