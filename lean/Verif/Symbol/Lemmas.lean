import Verif.Symbol.Spec
/-! # Finding symbols by their path -/
namespace Verif.Symbol
open Spec (Path Entry Def World)

/-- The scope that a path stands for. -/
def scopeAt : Path → State → Option (Option Nat)
  | [], _ => some none
  | n :: p, s => (scopeAt p s).bind fun sc => (getSymbol n sc s).map fun x => some x.id

/-- The symbol that a path stands for. -/
def find : Path → State → Option Symbol
  | [], _ => none
  | n :: p, s => (scopeAt p s).bind fun sc => getSymbol n sc s

/-- What a symbol stands for. -/
def defOf (x : Symbol) : Def :=
  match x.type with
  | .label => .label x.sect x.integer
  | .equ => .constant x.integer
  | .set => .variable x.integer
  | .equs => .text x.text
  | .macro => .macro x.text
  | .import => .imported
  | .group => .group x.bss
  | .global => .shared
  | .structure => .struct x.integer
  | .undefined => .unknown

def entryOf (x : Symbol) : Entry := { d := defOf x, exported := x.flags.export_, builtin := x.internal }

/-- The flags that symbols of a type have. -/
def flagsOf (t : SymType) (e : Bool) : Flags :=
  { defaultFlags (if t = .group then .undefined else t) with export_ := e }

structure Inv (s : State) : Prop where
  ids : ∀ x ∈ s.table, ∀ y ∈ s.table, x.id = y.id → x = y
  names : ∀ x ∈ s.table, ∀ y ∈ s.table, x.scope = y.scope → x.name = y.name → x = y
  bound : ∀ x ∈ s.table, x.id < s.next
  scopes : ∀ x ∈ s.table, ∀ i, x.scope = some i → i < s.next
  flags : ∀ x ∈ s.table, x.flags = flagsOf x.type x.flags.export_

theorem getSymbol_mem {n : String} {sc : Option Nat} {s : State} {x : Symbol} (h : getSymbol n sc s = some x) :
    x ∈ s.table ∧ x.scope = sc ∧ x.name = n := by
  have h1 := List.mem_of_find?_eq_some h
  have h2 := List.find?_some h
  simp only [Bool.and_eq_true, beq_iff_eq] at h2
  exact ⟨h1, h2.1, h2.2⟩

theorem getSymbol_none {n : String} {sc : Option Nat} {s : State} (h : getSymbol n sc s = none) :
    ∀ x ∈ s.table, x.scope = sc → x.name ≠ n := by
  intro x hx h1 h2
  have := List.find?_eq_none.mp h x hx
  simp [h1, h2] at this

theorem getSymbol_eq {n : String} {sc : Option Nat} {s : State} (hi : Inv s) {x : Symbol} (hx : x ∈ s.table)
    (h1 : x.scope = sc) (h2 : x.name = n) : getSymbol n sc s = some x := by
  cases h : getSymbol n sc s with
  | none => exact absurd h2 (getSymbol_none h x hx h1)
  | some y =>
    obtain ⟨a, b, c⟩ := getSymbol_mem h
    rw [hi.names y a x hx (b.trans h1.symm) (c.trans h2.symm)]

theorem scopeAt_cons (n : String) (p : Path) (s : State) : scopeAt (n :: p) s = (find (n :: p) s).map fun x => some x.id := by
  simp only [scopeAt, find]
  cases scopeAt p s <;> rfl

theorem find_cons {n : String} {p : Path} {s : State} {sc : Option Nat} (h : scopeAt p s = some sc) :
    find (n :: p) s = getSymbol n sc s := by
  simp only [find, h, Option.bind_some]

theorem find_mem {p : Path} {s : State} {x : Symbol} (h : find p s = some x) : x ∈ s.table := by
  cases p with
  | nil => cases h
  | cons n p =>
    simp only [find, Option.bind_eq_some_iff] at h
    obtain ⟨sc, _, h⟩ := h
    exact (getSymbol_mem h).1

theorem scopeAt_inj {s : State} (hi : Inv s) : ∀ {p q : Path} {sc : Option Nat}, scopeAt p s = some sc → scopeAt q s = some sc →
    p = q := by
  intro p
  induction p with
  | nil =>
    intro q sc hp hq
    cases q with
    | nil => rfl
    | cons n q =>
      simp only [scopeAt, Option.some.injEq] at hp
      subst hp
      simp only [scopeAt, Option.bind_eq_some_iff, Option.map_eq_some_iff] at hq
      obtain ⟨_, _, _, _, h⟩ := hq
      cases h
  | cons m p ih =>
    intro q sc hp hq
    simp only [scopeAt, Option.bind_eq_some_iff, Option.map_eq_some_iff] at hp
    obtain ⟨a, ha, x, hx, h1⟩ := hp
    cases q with
    | nil =>
      simp only [scopeAt, Option.some.injEq] at hq
      subst hq
      cases h1
    | cons n q =>
      simp only [scopeAt, Option.bind_eq_some_iff, Option.map_eq_some_iff] at hq
      obtain ⟨b, hb, y, hy, h2⟩ := hq
      have he : x.id = y.id := by
        rw [← h2] at h1
        exact Option.some.inj h1
      obtain ⟨mx, sx, nx⟩ := getSymbol_mem hx
      obtain ⟨my, sy, ny⟩ := getSymbol_mem hy
      have hxy := hi.ids x mx y my he
      subst hxy
      rw [← nx, ← ny]
      rw [sx] at sy
      subst sy
      rw [ih ha hb]

theorem find_inj {s : State} (hi : Inv s) {p q : Path} {x y : Symbol} (hp : find p s = some x) (hq : find q s = some y)
    (h : x.id = y.id) : p = q := by
  cases p with
  | nil => cases hp
  | cons m p =>
    cases q with
    | nil => cases hq
    | cons n q =>
      apply scopeAt_inj hi (sc := some x.id)
      · rw [scopeAt_cons, hp]
        rfl
      · rw [scopeAt_cons, hq, h]
        rfl

theorem scopeAt_find {s : State} {p : Path} {id : Nat} (h : scopeAt p s = some (some id)) : ∃ x, find p s = some x ∧ x.id = id := by
  cases p with
  | nil => cases h
  | cons n p =>
    rw [scopeAt_cons, Option.map_eq_some_iff] at h
    obtain ⟨x, h1, h2⟩ := h
    exact ⟨x, h1, Option.some.inj h2⟩

theorem find_scopeAt {s : State} {p : Path} {x : Symbol} (h : find p s = some x) : scopeAt p s = some (some x.id) := by
  cases p with
  | nil => cases h
  | cons n p => rw [scopeAt_cons, h]; rfl

theorem scopeAt_none {s : State} {p : Path} (h : scopeAt p s = some none) : p = [] := by
  cases p with
  | nil => rfl
  | cons n p =>
    rw [scopeAt_cons, Option.map_eq_some_iff] at h
    obtain ⟨_, _, h⟩ := h
    cases h

/-! ## Changing a symbol -/

theorem find?_congr {α : Type} {p q : α → Bool} : ∀ {l : List α}, (∀ x ∈ l, p x = q x) → l.find? p = l.find? q
  | [], _ => rfl
  | a :: l, h => by
    simp only [List.find?_cons]
    rw [h a List.mem_cons_self, find?_congr fun x hx => h x (List.mem_cons_of_mem a hx)]

def upd (x y : Symbol) : Symbol := if y.id = x.id then x else y

theorem getSymbol_put {s : State} {x x' : Symbol} (hi : Inv s) (hx : x ∈ s.table) (hid : x'.id = x.id) (hn : x'.name = x.name)
    (hs : x'.scope = x.scope) (n : String) (sc : Option Nat) :
    getSymbol n sc (s.put x') = (getSymbol n sc s).map (upd x') := by
  simp only [getSymbol, State.put, List.find?_map]
  rw [find?_congr (q := fun x => x.scope == sc && x.name == n)]
  · rfl
  · intro y hy
    simp only [Function.comp]
    split
    · rename_i h
      rw [hid] at h
      have := hi.ids y hy x hx h
      subst this
      rw [hn, hs]
    · rfl

theorem scopeAt_put {s : State} {x x' : Symbol} (hi : Inv s) (hx : x ∈ s.table) (hid : x'.id = x.id) (hn : x'.name = x.name)
    (hs : x'.scope = x.scope) (p : Path) : scopeAt p (s.put x') = scopeAt p s := by
  induction p with
  | nil => rfl
  | cons n p ih =>
    simp only [scopeAt, ih]
    congr 1
    funext sc
    rw [getSymbol_put hi hx hid hn hs, Option.map_map]
    congr 1
    funext y
    simp only [Function.comp, upd]
    split
    · rename_i h; rw [h]
    · rfl

theorem find_put {s : State} {x x' : Symbol} (hi : Inv s) (hx : x ∈ s.table) (hid : x'.id = x.id) (hn : x'.name = x.name)
    (hs : x'.scope = x.scope) (p : Path) : find p (s.put x') = (find p s).map (upd x') := by
  cases p with
  | nil => rfl
  | cons n p =>
    simp only [find, scopeAt_put hi hx hid hn hs]
    cases scopeAt p s with
    | none => rfl
    | some sc => exact getSymbol_put hi hx hid hn hs n sc

theorem upd_self {x x' : Symbol} (hid : x'.id = x.id) : upd x' x = x' := by
  simp [upd, hid]

theorem mem_put {s : State} {x' y : Symbol} (h : y ∈ (s.put x').table) : ∃ z ∈ s.table, y = upd x' z := by
  simp only [State.put, List.mem_map] at h
  obtain ⟨z, hz, h⟩ := h
  exact ⟨z, hz, h.symm⟩

theorem Inv.put {s : State} {x x' : Symbol} (hi : Inv s) (hx : x ∈ s.table) (hid : x'.id = x.id) (hn : x'.name = x.name)
    (hs : x'.scope = x.scope) (hf : x'.flags = flagsOf x'.type x'.flags.export_) : Inv (s.put x') := by
  have key : ∀ z ∈ s.table, (upd x' z).id = z.id ∧ (upd x' z).name = z.name ∧ (upd x' z).scope = z.scope := by
    intro z hz
    simp only [upd]
    split
    · rename_i h
      have := hi.ids z hz x hx (h.trans hid)
      subst this
      exact ⟨hid, hn, hs⟩
    · exact ⟨rfl, rfl, rfl⟩
  constructor
  · intro a ha b hb h
    obtain ⟨a, hza, rfl⟩ := mem_put ha
    obtain ⟨b, hzb, rfl⟩ := mem_put hb
    rw [(key a hza).1, (key b hzb).1] at h
    rw [hi.ids a hza b hzb h]
  · intro a ha b hb h1 h2
    obtain ⟨a, hza, rfl⟩ := mem_put ha
    obtain ⟨b, hzb, rfl⟩ := mem_put hb
    rw [(key a hza).2.2, (key b hzb).2.2] at h1
    rw [(key a hza).2.1, (key b hzb).2.1] at h2
    rw [hi.names a hza b hzb h1 h2]
  · intro a ha
    obtain ⟨a, hza, rfl⟩ := mem_put ha
    rw [(key a hza).1]
    exact hi.bound a hza
  · intro a ha i h
    obtain ⟨a, hza, rfl⟩ := mem_put ha
    rw [(key a hza).2.2] at h
    exact hi.scopes a hza i h
  · intro a ha
    obtain ⟨a, hza, rfl⟩ := mem_put ha
    simp only [upd]
    split
    · exact hf
    · exact hi.flags a hza

/-! ## New symbols -/

theorem getSymbol_create {s : State} (n m : String) (sc sc' : Option Nat) :
    getSymbol m sc' (createSymbol n sc s).2 = if sc = sc' ∧ n = m then some (createSymbol n sc s).1 else getSymbol m sc' s := by
  simp only [getSymbol, createSymbol, List.find?_cons, setType]
  by_cases h : sc = sc' ∧ n = m
  · obtain ⟨rfl, rfl⟩ := h
    simp
  · rw [if_neg h]
    have : (sc == sc' && n == m) = false := by
      rw [Bool.eq_false_iff]
      intro h1
      simp only [Bool.and_eq_true, beq_iff_eq] at h1
      exact h h1
    rw [this]

theorem create_id (n : String) (sc : Option Nat) (s : State) : (createSymbol n sc s).1.id = s.next := rfl

theorem scopeAt_create {s : State} (hi : Inv s) {n : String} {sc : Option Nat} {p : Path} (hp : scopeAt p s = some sc)
    (hn : getSymbol n sc s = none) (q : Path) :
    scopeAt q (createSymbol n sc s).2 = if q = n :: p then some (some s.next) else scopeAt q s := by
  induction q with
  | nil => rfl
  | cons m r ih =>
    simp only [scopeAt, ih]
    have hsc : ∀ i, sc = some i → i < s.next := by
      intro i hi'
      rw [hi'] at hp
      obtain ⟨x, h1, h2⟩ := scopeAt_find hp
      rw [← h2]
      exact hi.bound x (find_mem h1)
    by_cases hr : r = n :: p
    · rw [if_pos hr, if_neg (by rw [hr]; intro h; injection h with _ h; have := congrArg List.length h; simp at this)]
      have h1 : scopeAt r s = none := by
        rw [hr, scopeAt_cons, find_cons hp, hn]
        rfl
      rw [h1]
      simp only [Option.bind_some, Option.bind_none, Option.map_eq_none_iff]
      rw [getSymbol_create, if_neg]
      · rw [getSymbol, List.find?_eq_none]
        intro x hx h
        simp only [Bool.and_eq_true, beq_iff_eq] at h
        exact Nat.lt_irrefl _ (hi.scopes x hx _ h.1)
      · rintro ⟨h, _⟩
        exact Nat.lt_irrefl _ (hsc _ h)
    · rw [if_neg hr]
      cases hs : scopeAt r s with
      | none =>
        simp only [Option.bind_none]
        rw [if_neg]
        intro h
        injection h with _ h
        rw [h, hp] at hs
        cases hs
      | some sc' =>
        simp only [Option.bind_some]
        rw [getSymbol_create]
        by_cases h : sc = sc' ∧ n = m
        · obtain ⟨rfl, rfl⟩ := h
          rw [if_pos ⟨rfl, rfl⟩, if_pos (by rw [scopeAt_inj hi hp hs])]
          rfl
        · rw [if_neg h, if_neg]
          intro h'
          injection h' with h1 h2
          rw [h2, hp] at hs
          exact h ⟨Option.some.inj hs, h1.symm⟩

theorem find_create {s : State} (hi : Inv s) {n : String} {sc : Option Nat} {p : Path} (hp : scopeAt p s = some sc)
    (hn : getSymbol n sc s = none) (q : Path) :
    find q (createSymbol n sc s).2 = if q = n :: p then some (createSymbol n sc s).1 else find q s := by
  cases q with
  | nil => rfl
  | cons m r =>
    simp only [find, scopeAt_create hi hp hn]
    by_cases hr : r = n :: p
    · have h := scopeAt_create hi hp hn (m :: r)
      simp only [scopeAt, scopeAt_create hi hp hn, if_pos hr, Option.bind_some] at h ⊢
      have hne : m :: r ≠ n :: p := by
        rw [hr]; intro h; injection h with _ h; have := congrArg List.length h; simp at this
      rw [if_neg hne] at h ⊢
      have h1 : scopeAt r s = none := by
        rw [hr, scopeAt_cons, find_cons hp, hn]
        rfl
      rw [h1] at h ⊢
      simpa using h
    · rw [if_neg hr]
      cases hs : scopeAt r s with
      | none =>
        simp only [Option.bind_none]
        rw [if_neg]
        intro h
        injection h with _ h
        rw [h, hp] at hs
        cases hs
      | some sc' =>
        simp only [Option.bind_some]
        rw [getSymbol_create]
        by_cases h : sc = sc' ∧ n = m
        · obtain ⟨rfl, rfl⟩ := h
          rw [if_pos ⟨rfl, rfl⟩, if_pos (by rw [scopeAt_inj hi hp hs])]
        · rw [if_neg h, if_neg]
          intro h'
          injection h' with h1 h2
          rw [h2, hp] at hs
          exact h ⟨Option.some.inj hs, h1.symm⟩

theorem Inv.create {s : State} (hi : Inv s) {n : String} {sc : Option Nat} (hsc : ∀ i, sc = some i → i < s.next)
    (hn : getSymbol n sc s = none) : Inv (createSymbol n sc s).2 := by
  have hnone := getSymbol_none hn
  have hmem : ∀ x, x ∈ (createSymbol n sc s).2.table ↔ x = (createSymbol n sc s).1 ∨ x ∈ s.table := by
    intro x
    simp [createSymbol]
  have hscope : (createSymbol n sc s).1.scope = sc := rfl
  have hname : (createSymbol n sc s).1.name = n := rfl
  have hid := create_id n sc s
  have hnext : (createSymbol n sc s).2.next = s.next + 1 := rfl
  constructor
  · intro x hx y hy h
    rw [hmem] at hx hy
    rcases hx with rfl | hx <;> rcases hy with rfl | hy
    · rfl
    · have := hi.bound y hy
      rw [hid] at h
      omega
    · have := hi.bound x hx
      rw [hid] at h
      omega
    · exact hi.ids x hx y hy h
  · intro x hx y hy h1 h2
    rw [hmem] at hx hy
    rcases hx with rfl | hx <;> rcases hy with rfl | hy
    · rfl
    · exact absurd h2.symm (hnone y hy h1.symm)
    · exact absurd h2 (hnone x hx h1)
    · exact hi.names x hx y hy h1 h2
  · intro x hx
    rw [hmem] at hx
    rw [hnext]
    rcases hx with rfl | hx
    · rw [hid]; omega
    · exact Nat.lt_succ_of_lt (hi.bound x hx)
  · intro x hx i h
    rw [hmem] at hx
    rw [hnext]
    rcases hx with rfl | hx
    · exact Nat.lt_succ_of_lt (hsc i h)
    · exact Nat.lt_succ_of_lt (hi.scopes x hx i h)
  · intro x hx
    rw [hmem] at hx
    rcases hx with rfl | hx
    · rfl
    · exact hi.flags x hx

/-! ## Removing a symbol -/

theorem getSymbol_remove {s : State} (hi : Inv s) {x : Symbol} (hx : x ∈ s.table) (n : String) (sc : Option Nat) :
    getSymbol n sc { s with table := s.table.filter fun y => y.id ≠ x.id } =
      (getSymbol n sc s).bind fun y => if y.id = x.id then none else some y := by
  have hi' : Inv { s with table := s.table.filter fun y => y.id ≠ x.id } := by
    constructor
    · intro a ha b hb
      exact hi.ids a (List.mem_filter.mp ha).1 b (List.mem_filter.mp hb).1
    · intro a ha b hb
      exact hi.names a (List.mem_filter.mp ha).1 b (List.mem_filter.mp hb).1
    · intro a ha
      exact hi.bound a (List.mem_filter.mp ha).1
    · intro a ha
      exact hi.scopes a (List.mem_filter.mp ha).1
    · intro a ha
      exact hi.flags a (List.mem_filter.mp ha).1
  cases h : getSymbol n sc s with
  | none =>
    rw [Option.bind_none, getSymbol, List.find?_eq_none]
    intro y hy
    exact List.find?_eq_none.mp h y (List.mem_filter.mp hy).1
  | some y =>
    obtain ⟨hm, h1, h2⟩ := getSymbol_mem h
    simp only [Option.bind_some]
    split
    · rename_i he
      have := hi.ids y hm x hx he
      subst this
      rw [getSymbol, List.find?_eq_none]
      intro z hz hz'
      simp only [Bool.and_eq_true, beq_iff_eq] at hz'
      obtain ⟨hz1, hz2⟩ := List.mem_filter.mp hz
      simp only [ne_eq, decide_eq_true_eq] at hz2
      exact hz2 (by rw [hi.names z hz1 y hm (hz'.1.trans h1.symm) (hz'.2.trans h2.symm)])
    · rename_i he
      exact getSymbol_eq hi' (List.mem_filter.mpr ⟨hm, by simpa using he⟩) h1 h2

theorem Inv.remove {s : State} (hi : Inv s) (f : Symbol → Bool) : Inv { s with table := s.table.filter f } := by
  constructor
  · intro a ha b hb
    exact hi.ids a (List.mem_filter.mp ha).1 b (List.mem_filter.mp hb).1
  · intro a ha b hb
    exact hi.names a (List.mem_filter.mp ha).1 b (List.mem_filter.mp hb).1
  · intro a ha
    exact hi.bound a (List.mem_filter.mp ha).1
  · intro a ha
    exact hi.scopes a (List.mem_filter.mp ha).1
  · intro a ha
    exact hi.flags a (List.mem_filter.mp ha).1

/-- Removing a symbol that has no local symbols. -/
theorem find_remove {s : State} (hi : Inv s) {x : Symbol} {p : Path} (hx : find p s = some x)
    (hl : ∀ n, find (n :: p) s = none) :
    ∀ q, find q { s with table := s.table.filter fun y => y.id ≠ x.id } = if q = p then none else find q s := by
  have hm := find_mem hx
  have key : ∀ q, scopeAt q { s with table := s.table.filter fun y => y.id ≠ x.id } = if q = p then none else scopeAt q s := by
    intro q
    induction q with
    | nil =>
      rw [if_neg]
      · rfl
      · rintro rfl
        cases hx
    | cons m r ih =>
      simp only [scopeAt, ih]
      by_cases hr : r = p
      · subst hr
        rw [if_pos rfl, if_neg (by intro h; have := congrArg List.length h; simp at this), ← scopeAt, scopeAt_cons, hl]
        rfl
      · rw [if_neg hr]
        cases hs : scopeAt r s with
        | none =>
          simp only [Option.bind_none]
          split <;> rfl
        | some sc =>
          simp only [Option.bind_some, getSymbol_remove hi hm]
          have hf := find_cons (n := m) hs
          cases hg : getSymbol m sc s with
          | none => simp
          | some y =>
            rw [hg] at hf
            simp only [Option.bind_some, Option.map_some]
            by_cases he : y.id = x.id
            · rw [if_pos he, if_pos (find_inj hi hf hx he)]
              rfl
            · rw [if_neg he, if_neg]
              · rfl
              · rintro rfl
                rw [hx] at hf
                exact he (by rw [Option.some.inj hf])
  intro q
  cases q with
  | nil =>
    rw [if_neg]
    · rfl
    · rintro rfl
      cases hx
  | cons m r =>
    simp only [find, key]
    by_cases hr : r = p
    · subst hr
      rw [if_pos rfl, if_neg (by intro h; have := congrArg List.length h; simp at this), ← find, hl]
      rfl
    · rw [if_neg hr]
      cases hs : scopeAt r s with
      | none =>
        simp only [Option.bind_none]
        split <;> rfl
      | some sc =>
        simp only [Option.bind_some, getSymbol_remove hi hm]
        have hf := find_cons (n := m) hs
        cases hg : getSymbol m sc s with
        | none => simp
        | some y =>
          rw [hg] at hf
          simp only [Option.bind_some]
          by_cases he : y.id = x.id
          · rw [if_pos he, if_pos (find_inj hi hf hx he)]
          · rw [if_neg he, if_neg]
            rintro rfl
            rw [hx] at hf
            exact he (by rw [Option.some.inj hf])

theorem deref_eq {s : State} (hi : Inv s) {x : Symbol} (hx : x ∈ s.table) : s.deref x.id = .ok x := by
  unfold State.deref
  cases h : s.table.find? fun y => y.id == x.id with
  | none =>
    have := List.find?_eq_none.mp h x hx
    simp at this
  | some y =>
    have h1 := List.mem_of_find?_eq_some h
    have h2 := List.find?_some h
    simp only [beq_iff_eq] at h2
    rw [hi.ids y h1 x hx h2]

end Verif.Symbol
