import Verif.Symbol.Lemmas
/-! # The symbol table is a dictionary -/
namespace Verif.Symbol
open Spec (Path Entry Def World Result)

/-! ## Dictionaries -/

theorem world_get_put (p q : Path) (e : Entry) (w : World) : (w.put p e).get q = if q = p then some e else w.get q := by
  simp only [World.get, World.put, List.find?_cons]
  by_cases h : q = p
  · subst h
    simp
  · rw [if_neg h]
    have : (p == q) = false := by
      rw [beq_eq_false_iff_ne]
      exact fun h' => h h'.symm
    simp only [this]
    rw [List.find?_filter]
    congr 1
    apply find?_congr
    intro x _
    by_cases hx : x.1 = q
    · simp [hx, h]
    · simp [hx]

theorem world_get_erase (p q : Path) (w : World) : (w.erase p).get q = if q = p then none else w.get q := by
  simp only [World.get, World.erase]
  rw [List.find?_filter]
  by_cases h : q = p
  · subst h
    rw [if_pos rfl, Option.map_eq_none_iff, List.find?_eq_none]
    intro x _
    simp
  · rw [if_neg h]
    congr 1
    apply find?_congr
    intro x _
    by_cases hx : x.1 = q
    · simp [hx, h]
    · simp [hx]

theorem world_get_touch (p q : Path) (w : World) : (w.touch p).get q = if q = p then some (w.entry p) else w.get q :=
  world_get_put p q _ w

theorem world_entry_put (p : Path) (e : Entry) (w : World) : (w.put p e).entry p = e := by
  simp [World.entry, world_get_put]

/-! ## The relation -/

structure Rel (s : State) (w : World) : Prop where
  inv : Inv s
  get : ∀ p, w.get p = (find p s).map entryOf
  cur : scopeAt w.cur s = some s.scope
  stack : w.stack.map (scopeAt · s) = s.stack.map some
  rs : w.rs = s.rs.isSome
  counter : ∀ id, s.rs = some id → ∃ x, find ["__RS"] s = some x ∧ x.id = id
  early : w.early = s.internal
  errors : w.errors = s.errors

theorem Rel.congr {s : State} {w w' : World} (h : Rel s w) (hg : ∀ p, w'.get p = w.get p) (h1 : w'.cur = w.cur)
    (h2 : w'.stack = w.stack) (h3 : w'.rs = w.rs) (h4 : w'.early = w.early) (h5 : w'.errors = w.errors) : Rel s w' where
  inv := h.inv
  get := fun p => (hg p).trans (h.get p)
  cur := by rw [h1]; exact h.cur
  stack := by rw [h2]; exact h.stack
  rs := by rw [h3]; exact h.rs
  counter := h.counter
  early := by rw [h4]; exact h.early
  errors := by rw [h5]; exact h.errors

theorem Rel.touched {s : State} {w : World} {p : Path} (h : Rel s (w.touch p)) (hp : w.get p ≠ none) : Rel s w := by
  refine h.congr ?_ rfl rfl rfl rfl rfl
  intro q
  rw [world_get_touch]
  split
  · rename_i h
    subst h
    unfold World.entry
    cases hq : w.get q with
    | none => exact absurd hq hp
    | some e => rfl
  · rfl

theorem Rel.put_touch {s : State} {w : World} {p : Path} {e : Entry} (h : Rel s ((w.touch p).put p e)) : Rel s (w.put p e) := by
  refine h.congr ?_ rfl rfl rfl rfl rfl
  intro q
  simp only [world_get_put, world_get_touch]
  split <;> rfl

/-- Finding symbols depends on the table only. -/
theorem scopeAt_congr {s s' : State} (h : s'.table = s.table) (p : Path) : scopeAt p s' = scopeAt p s := by
  induction p with
  | nil => rfl
  | cons n p ih => simp only [scopeAt, ih, getSymbol, h]

theorem find_congr {s s' : State} (h : s'.table = s.table) (p : Path) : find p s' = find p s := by
  cases p with
  | nil => rfl
  | cons n p => simp only [find, scopeAt_congr h, getSymbol, h]

/-- The table stays as it is. -/
theorem Rel.same {s s' : State} {w w' : World} (h : Rel s w) (ht : s'.table = s.table) (hn : s'.next = s.next)
    (hg : w'.entries = w.entries) (hc : scopeAt w'.cur s = some s'.scope)
    (hst : w'.stack.map (scopeAt · s) = s'.stack.map some) (hr : w'.rs = s'.rs.isSome)
    (hrs : ∀ id, s'.rs = some id → ∃ x, find ["__RS"] s = some x ∧ x.id = id) (he : w'.early = s'.internal)
    (her : w'.errors = s'.errors) : Rel s' w' where
  inv := by
    constructor
    · rw [ht]; exact h.inv.ids
    · rw [ht]; exact h.inv.names
    · rw [ht, hn]; exact h.inv.bound
    · rw [ht, hn]; exact h.inv.scopes
    · rw [ht]; exact h.inv.flags
  get := by
    intro p
    rw [find_congr ht, ← h.get p]
    simp only [World.get, hg]
  cur := by rw [scopeAt_congr ht]; exact hc
  stack := by
    refine Eq.trans (congrArg (fun f => List.map f w'.stack) ?_) hst
    funext p
    exact scopeAt_congr ht p
  rs := hr
  counter := by
    intro id hid
    obtain ⟨x, h1, h2⟩ := hrs id hid
    exact ⟨x, by rw [find_congr ht]; exact h1, h2⟩
  early := he
  errors := her

theorem Rel.fail {s : State} {w : World} (h : Rel s w) : Rel s.error w.fail := by
  refine h.same rfl rfl rfl h.cur h.stack h.rs h.counter h.early ?_
  show w.errors + 1 = s.errors + 1
  rw [h.errors]

theorem Rel.put {s : State} {w : World} {p : Path} {x x' : Symbol} (h : Rel s w) (hx : find p s = some x)
    (hid : x'.id = x.id) (hn : x'.name = x.name) (hs : x'.scope = x.scope)
    (hf : x'.flags = flagsOf x'.type x'.flags.export_) : Rel (s.put x') (w.put p (entryOf x')) := by
  have hm := find_mem hx
  have hsc := scopeAt_put h.inv hm hid hn hs
  constructor
  · exact h.inv.put hm hid hn hs hf
  · intro q
    rw [world_get_put, find_put h.inv hm hid hn hs, Option.map_map]
    split
    · rename_i hq
      subst hq
      rw [hx]
      simp only [Option.map_some, Function.comp, upd_self hid]
    · rename_i hq
      rw [h.get q]
      cases hf : find q s with
      | none => rfl
      | some y =>
        simp only [Option.map_some, Function.comp, upd]
        rw [if_neg]
        intro he
        exact hq (find_inj h.inv hf hx (he.trans hid))
  · exact (hsc _).trans h.cur
  · refine Eq.trans (congrArg (fun f => List.map f w.stack) ?_) h.stack
    funext p
    exact hsc p
  · exact h.rs
  · intro id hr
    obtain ⟨y, h1, h2⟩ := h.counter id hr
    refine ⟨upd x' y, ?_, ?_⟩
    · rw [find_put h.inv hm hid hn hs, h1]
      rfl
    · simp only [upd]
      split
      · rename_i he
        rw [← he]
        exact h2
      · exact h2
  · exact h.early
  · exact h.errors

theorem Rel.create {s : State} {w : World} {p : Path} {n : String} {sc : Option Nat} (h : Rel s w) (hp : scopeAt p s = some sc)
    (hn : getSymbol n sc s = none) :
    Rel (createSymbol n sc s).2 (w.touch (n :: p)) ∧ find (n :: p) (createSymbol n sc s).2 = some (createSymbol n sc s).1 ∧
      w.entry (n :: p) = entryOf (createSymbol n sc s).1 := by
  have hsc : ∀ i, sc = some i → i < s.next := by
    intro i hi'
    rw [hi'] at hp
    obtain ⟨x, h1, h2⟩ := scopeAt_find hp
    rw [← h2]
    exact h.inv.bound x (find_mem h1)
  have hnone : find (n :: p) s = none := by rw [find_cons hp, hn]
  have hkeep : ∀ q a, scopeAt q s = some a → scopeAt q (createSymbol n sc s).2 = some a := by
    intro q a ha
    rw [scopeAt_create h.inv hp hn, if_neg]
    · exact ha
    · rintro rfl
      rw [scopeAt_cons, hnone] at ha
      cases ha
  have he : w.entry (n :: p) = entryOf (createSymbol n sc s).1 := by
    rw [World.entry, h.get, hnone]
    simp only [Option.map_none, Option.getD_none, World.fresh, h.early]
    rfl
  refine ⟨?_, ?_, he⟩
  · constructor
    · exact h.inv.create hsc hn
    · intro q
      rw [world_get_touch, find_create h.inv hp hn]
      split
      · rw [he]
        rfl
      · exact h.get q
    · exact hkeep _ _ h.cur
    · have hst : ∀ (l : List Path) (m : List (Option Nat)), l.map (scopeAt · s) = m.map some →
          l.map (scopeAt · (createSymbol n sc s).2) = m.map some := by
        intro l
        induction l with
        | nil => intro m hm; exact hm
        | cons q l ih =>
          intro m hm
          cases m with
          | nil => cases hm
          | cons a m =>
            simp only [List.map_cons, List.cons.injEq] at hm ⊢
            exact ⟨hkeep _ _ hm.1, ih m hm.2⟩
      exact hst _ _ h.stack
    · exact h.rs
    · intro id hr
      obtain ⟨y, h1, h2⟩ := h.counter id hr
      refine ⟨y, ?_, h2⟩
      rw [find_create h.inv hp hn, if_neg]
      · exact h1
      · intro hq
        rw [hq, hnone] at h1
        cases h1
    · exact h.early
    · exact h.errors
  · rw [find_create h.inv hp hn, if_pos rfl]

theorem Rel.findOrCreateIn {s : State} {w : World} {p : Path} {sc : Option Nat} (n : String) (h : Rel s w)
    (hp : scopeAt p s = some sc) :
    Rel (findOrCreateIn sc n s).2 (w.touch (n :: p)) ∧
      find (n :: p) (Symbol.findOrCreateIn sc n s).2 = some (Symbol.findOrCreateIn sc n s).1 ∧
      w.entry (n :: p) = entryOf (Symbol.findOrCreateIn sc n s).1 := by
  unfold Symbol.findOrCreateIn
  cases hn : getSymbol n sc s with
  | none => exact h.create hp hn
  | some x =>
    have hf : find (n :: p) s = some x := by rw [find_cons hp, hn]
    have hg : w.get (n :: p) = some (entryOf x) := by rw [h.get, hf]; rfl
    have he : w.entry (n :: p) = entryOf x := by rw [World.entry, hg]; rfl
    refine ⟨?_, hf, he⟩
    refine h.congr ?_ rfl rfl rfl rfl rfl
    intro q
    rw [world_get_touch]
    split
    · rename_i hq
      rw [hq, he, hg]
    · rfl

theorem isLocal_eq (name : String) : Spec.isLocal name = isLocalName name := by
  unfold Spec.isLocal isLocalName
  cases name.toList with
  | nil => rfl
  | cons c cs =>
    simp only [List.head?_cons]
    have hb : ∀ a b : Char, (some a == some b) = decide (a = b) := by
      intro a b
      by_cases h : a = b <;> simp [h]
    rw [hb, hb, Bool.or_comm (decide (c = '.')) (decide (c = '$'))]
    congr 1
    by_cases h : (c :: cs).getLast? = some '$' <;> simp [h]

theorem Rel.findOrCreate {s : State} {w : World} (n : String) (h : Rel s w) :
    Rel (findOrCreate n s).2 (w.touch (Spec.resolve n w)) ∧
      find (Spec.resolve n w) (Symbol.findOrCreate n s).2 = some (Symbol.findOrCreate n s).1 ∧
      w.entry (Spec.resolve n w) = entryOf (Symbol.findOrCreate n s).1 := by
  unfold Symbol.findOrCreate assumedScope Spec.resolve
  rw [isLocal_eq]
  cases isLocalName n with
  | true => exact h.findOrCreateIn n h.cur
  | false => exact h.findOrCreateIn n rfl

theorem findOrCreate_name (n : String) (s : State) : (findOrCreate n s).1.name = n := by
  unfold findOrCreate findOrCreateIn
  cases h : getSymbol n (assumedScope n s) s with
  | some x => exact (getSymbol_mem h).2.2
  | none => rfl

theorem Rel.enter {s : State} {w : World} {x : Symbol} (h : Rel s w) (hx : find (Spec.resolve x.name w) s = some x) :
    Rel (s.enter x) (Spec.enter x.name w) := by
  unfold State.enter Spec.enter
  rw [isLocal_eq]
  cases hl : isLocalName x.name with
  | true => exact h
  | false =>
    rw [Spec.resolve, isLocal_eq, hl] at hx
    simp only [Bool.false_eq_true, if_false] at hx ⊢
    exact h.same rfl rfl rfl (find_scopeAt hx) h.stack h.rs h.counter h.early h.errors

end Verif.Symbol
