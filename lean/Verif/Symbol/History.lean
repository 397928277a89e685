import Verif.Symbol.Counter
/-!
# Histories of operations, and what an operation can change
-/
namespace Verif.Symbol
open Spec (Path Entry Def World Result)
open Verif.Section (Label)

/-! ## Histories -/

/-- The names that are known at the start. -/
def Spec.start : World where
  entries := [(["__ASMOTOR"], ⟨.constant 0, false, true⟩), (["__TIME"], ⟨.text "", false, true⟩),
    (["__DATE"], ⟨.text "", false, true⟩), (["__LINE"], ⟨.constant 0, false, true⟩),
    (["__NARG"], ⟨.constant 0, false, true⟩), (["__RANDSEED"], ⟨.constant 0, false, true⟩)]
  cur := ["__ASMOTOR"]

theorem start_rel : ∃ s, init = .ok s ∧ Rel s Spec.start := by
  have h0 : Rel { internal := true } { early := true } := by
    refine ⟨⟨?_, ?_, ?_, ?_, ?_⟩, ?_, rfl, rfl, rfl, ?_, rfl, rfl⟩
    · intro x hx; cases hx
    · intro x hx; cases hx
    · intro x hx; cases hx
    · intro x hx; cases hx
    · intro x hx; cases hx
    · intro p
      cases p with
      | nil => rfl
      | cons n p =>
        have : find (n :: p) { internal := true } = none := by
          simp only [find, getSymbol, List.find?_nil]
          cases scopeAt p { internal := true } <;> rfl
        rw [this]
        rfl
    · intro id hid; cases hid
  have h := run_refines [.equ "__RANDSEED" 0, .equ "__NARG" 0, .equ "__LINE" 0, .equs "__DATE" "", .equs "__TIME" "",
    .equ "__ASMOTOR" 0] h0
  have hr : Spec.run [.equ "__RANDSEED" 0, .equ "__NARG" 0, .equ "__LINE" 0, .equs "__DATE" "", .equs "__TIME" "",
    .equ "__ASMOTOR" 0] { early := true } = .good { Spec.start with early := true } := by decide +kernel
  rw [hr] at h
  obtain ⟨s, h1, h2⟩ := h
  refine ⟨_, by rw [init, h1]; rfl, ?_⟩
  exact h2.same rfl rfl rfl h2.cur h2.stack h2.rs h2.counter rfl h2.errors

/-- What the program knows about a name: its meaning is found by its path, by its name in the current scope, and `DEF` tells
whether it has one. -/
structure Holds (s : State) (w : World) : Prop where
  paths : ∀ p, (find p s).map entryOf = w.get p
  names : ∀ n, (getSymbol n (assumedScope n s) s).map entryOf = w.get (Spec.resolve n w)
  defined : ∀ n, isDefined n s = true ↔ (w.entry (Spec.resolve n w)).d ≠ .unknown
  errors : s.errors = w.errors

theorem holds {s : State} {w : World} (h : Rel s w) : Holds s w := by
  have hn : ∀ n, (getSymbol n (assumedScope n s) s).map entryOf = w.get (Spec.resolve n w) := by
    intro n
    rw [h.get]
    congr 1
    unfold assumedScope Spec.resolve
    rw [isLocal_eq]
    cases isLocalName n with
    | true => exact (find_cons h.cur).symm
    | false => exact (find_cons (p := []) (sc := none) rfl).symm
  refine ⟨fun p => (h.get p).symm, hn, ?_, h.errors.symm⟩
  intro n
  unfold isDefined World.entry
  rw [← hn n]
  cases getSymbol n (assumedScope n s) s with
  | none => simp [World.fresh]
  | some x =>
    simp only [Option.map_some, Option.getD_some, entryOf, defOf]
    cases x.type <;> simp

/-- Whatever is done to the symbol table, every name means what it means in a dictionary in which names that are not local
are known by themselves and local ones by the scope they belong to, and the mistakes that are reported are those in it. -/
theorem C27_history {ops : List Op} {w : World} (h : Spec.run ops Spec.start = .good w) :
    ∃ s0 s, init = .ok s0 ∧ run ops s0 = .ok s ∧ Holds s w := by
  obtain ⟨s0, h0, hr⟩ := start_rel
  have := run_refines ops hr
  rw [h] at this
  obtain ⟨s, h1, h2⟩ := this
  exact ⟨s0, s, h0, h1, holds h2⟩

theorem spec_run_append : ∀ (a b : List Op) (w : World), Spec.run (a ++ b) w = (Spec.run a w).bind fun w => Spec.run b w
  | [], _, _ => rfl
  | op :: a, b, w => by
    simp only [List.cons_append, Spec.run]
    cases Spec.step op w with
    | good w1 => exact spec_run_append a b w1
    | outside => rfl

/-! ## What an operation can change -/

theorem entry_put (p q : Path) (e : Entry) (w : World) : (w.put p e).entry q = if q = p then e else w.entry q := by
  simp only [World.entry, world_get_put]
  split <;> rfl

theorem get_define (p q : Path) (d : Def) (w : World) (h : q ≠ p) : (Spec.define p d w).get q = w.get q := by
  simp only [Spec.define, world_get_put, if_neg h]

theorem entry_define (p q : Path) (d : Def) (w : World) : ((Spec.define p d w).entry q).d = if q = p then d else (w.entry q).d := by
  simp only [Spec.define, entry_put]
  split <;> rfl

theorem enter_entries (n : String) (w : World) : (Spec.enter n w).entries = w.entries := by
  unfold Spec.enter
  split <;> rfl

theorem get_enter (n : String) (p : Path) (w : World) : (Spec.enter n w).get p = w.get p := by
  simp only [World.get, enter_entries]

/-- The names that an operation can change. -/
def Spec.changes (op : Op) (w : World) : List Path :=
  match op with
  | .equ n _ | .set n _ | .equs n _ | .macro n _ | .label n _ | .export_ n | .import_ n | .global n | .purge n =>
    [Spec.resolve n w]
  | .group n _ => [[n]]
  | .rsset _ | .rsskip _ _ => [["__RS"]]
  | .rsbegin n _ => [["__RS"], [n], n :: w.cur, [n, "__RS"]]
  | .rsfield n _ _ => [["__RS"], [n], n :: w.cur, [n, "__RS"], w.cur]
  | .rsend => [w.cur]
  | .push | .pop | .mention _ _ => []

theorem resolve_mem (n : String) (w : World) : Spec.resolve n w = [n] ∨ Spec.resolve n w = n :: w.cur := by
  unfold Spec.resolve
  split
  · exact Or.inr rfl
  · exact Or.inl rfl

theorem set_get {n : String} {v : Int} {w : World} {q : Path} (h : q ≠ Spec.resolve n w) : (Spec.set n v w).get q = w.get q := by
  unfold Spec.set
  split <;> first | rfl | (rw [get_enter]; exact get_define _ _ _ _ h)

theorem struct_get {n : String} {v : Int} {w : World} {q : Path} (h : q ≠ Spec.resolve n w) :
    (Spec.struct n v w).get q = w.get q := by
  unfold Spec.struct
  split <;> first | rfl | (rw [get_enter]; exact get_define _ _ _ _ h)

theorem counter_get {w w' : World} {v : Int} (h : Spec.counter w = some (v, w')) {q : Path} (hq : q ≠ ["__RS"]) :
    w'.get q = w.get q ∧ (w'.cur = w.cur ∨ w'.cur = ["__RS"]) ∧ w'.rs = true ∧ w'.errors = w.errors ∧
      (w'.entry ["__RS"]).d = .variable v ∧ w'.early = w.early := by
  have hl : Spec.isLocal "__RS" = false := by decide +kernel
  unfold Spec.counter at h
  split at h
  · rename_i hr
    split at h
    · rename_i u hu
      simp only [Option.some.injEq, Prod.mk.injEq] at h
      obtain ⟨rfl, rfl⟩ := h
      exact ⟨rfl, Or.inl rfl, hr, rfl, hu, rfl⟩
    · cases h
  · split at h
    case h_3 => cases h
    all_goals
      simp only [Option.some.injEq, Prod.mk.injEq] at h
      obtain ⟨rfl, rfl⟩ := h
      refine ⟨?_, Or.inr ?_, rfl, ?_, ?_, ?_⟩
      · show (Spec.enter "__RS" (Spec.define ["__RS"] (.variable 0) w)).get q = w.get q
        rw [get_enter, get_define _ _ _ _ hq]
      · simp [Spec.enter, hl]
      · simp [Spec.enter, hl, Spec.define, World.put]
      · have : ∀ w : World, (World.entry ["__RS"] { Spec.enter "__RS" w with rs := true }).d = (w.entry ["__RS"]).d := by
          intro w
          simp [Spec.enter, hl, World.entry, World.get, World.fresh]
        rw [this, entry_define, if_pos rfl]
      · simp [Spec.enter, hl, Spec.define, World.put]

theorem advance_get {w w' : World} {size v : Int} (h : Spec.advance size w = some (v, w')) {q : Path} (hq : q ≠ ["__RS"]) :
    w'.get q = w.get q ∧ (w'.cur = w.cur ∨ w'.cur = ["__RS"]) := by
  unfold Spec.advance at h
  split at h
  · rename_i u w1 hc
    split at h
    · simp only [Option.some.injEq, Prod.mk.injEq] at h
      obtain ⟨rfl, rfl⟩ := h
      obtain ⟨h1, h2, _⟩ := counter_get hc hq
      exact ⟨by rw [get_define _ _ _ _ hq, h1], h2⟩
    · cases h
  · cases h

theorem mention_get : ∀ (ns : List String) (p q : Path) (w : World) (e : Entry), w.get q = some e →
    (Spec.mention ns p w).get q = some e
  | [], p, q, w, e, h => by
    unfold Spec.mention
    rw [world_get_touch]
    split
    · rename_i hq
      subst hq
      rw [World.entry, h]
      rfl
    · exact h
  | n :: ns, p, q, w, e, h => by
    unfold Spec.mention
    apply mention_get ns
    rw [world_get_touch]
    split
    · rename_i hq
      subst hq
      rw [World.entry, h]
      rfl
    · exact h

/-- An operation leaves names alone that are not its business. -/
theorem frame {op : Op} {w w' : World} (h : Spec.step op w = .good w') {q : Path} {e : Entry} (hq : q ∉ Spec.changes op w)
    (he : w.get q = some e) : w'.get q = some e := by
  cases op with
  | equ n v =>
    simp only [Spec.changes, List.mem_singleton] at hq
    simp only [Spec.step, Spec.constant, Spec.refuse] at h
    split at h <;> first
      | (cases h; rw [get_enter, get_define _ _ _ _ hq]; exact he)
      | (split at h <;> cases h; exact he)
  | set n v =>
    simp only [Spec.changes, List.mem_singleton] at hq
    cases h
    rw [set_get hq]
    exact he
  | equs n t =>
    simp only [Spec.changes, List.mem_singleton] at hq
    simp only [Spec.step, Spec.textual, Result.good.injEq] at h
    split at h <;> subst h
    · rw [get_define _ _ _ _ hq]; exact he
    · exact he
  | «macro» n t =>
    simp only [Spec.changes, List.mem_singleton] at hq
    simp only [Spec.step, Spec.textual, Result.good.injEq] at h
    split at h <;> subst h
    · rw [get_define _ _ _ _ hq]; exact he
    · exact he
  | label n l =>
    simp only [Spec.changes, List.mem_singleton] at hq
    simp only [Spec.step, Spec.label] at h
    split at h <;> try cases h
    · show (World.touch _ w).get q = some e
      rw [world_get_touch, if_neg hq]
      exact he
    · rw [get_enter, get_define _ _ _ _ hq]; exact he
    · rw [get_enter, get_define _ _ _ _ hq]; exact he
    · exact he
  | group n b =>
    simp only [Spec.changes, List.mem_singleton] at hq
    simp only [Spec.step, Spec.group, Result.good.injEq] at h
    split at h
    · subst h
      rw [get_define _ _ _ _ hq]; exact he
    · split at h <;> subst h <;> exact he
  | export_ n =>
    simp only [Spec.changes, List.mem_singleton] at hq
    simp only [Spec.step, Spec.exports, Spec.refuse] at h
    split at h <;> first
      | (cases h; rw [Spec.mark, world_get_put, if_neg hq]; exact he)
      | (split at h <;> cases h; exact he)
  | import_ n =>
    simp only [Spec.changes, List.mem_singleton] at hq
    simp only [Spec.step, Spec.imports, Result.good.injEq] at h
    split at h <;> subst h
    · rw [get_define _ _ _ _ hq]; exact he
    · exact he
  | global n =>
    simp only [Spec.changes, List.mem_singleton] at hq
    simp only [Spec.step, Spec.global, Spec.refuse] at h
    split at h <;> first
      | (cases h; rw [Spec.mark, world_get_put, if_neg hq]; exact he)
      | (cases h; rw [get_define _ _ _ _ hq]; exact he)
      | (split at h <;> cases h; exact he)
  | purge n =>
    simp only [Spec.changes, List.mem_singleton] at hq
    simp only [Spec.step, Spec.purge] at h
    split at h
    · cases h; exact he
    · split at h
      · cases h
      · cases h
        rw [world_get_erase, if_neg hq]
        exact he
  | rsset v =>
    simp only [Spec.changes, List.mem_singleton] at hq
    simp only [Spec.step, Spec.setCounter] at h
    split at h
    · rename_i u w1 hc
      cases h
      rw [get_define _ _ _ _ hq, (counter_get hc hq).1]
      exact he
    · cases h
  | rsskip m c =>
    simp only [Spec.changes, List.mem_singleton] at hq
    simp only [Spec.step] at h
    split at h
    · split at h
      · rename_i u w1 ha
        cases h
        rw [(advance_get ha hq).1]
        exact he
      · cases h
    · cases h
  | rsbegin n v =>
    simp only [Spec.changes, List.mem_cons, List.not_mem_nil, or_false, not_or] at hq
    obtain ⟨hq1, hq2, hq3, hq4⟩ := hq
    simp only [Spec.step, Spec.begin_, Spec.setCounter] at h
    cases hc : Spec.counter w with
    | none => rw [hc] at h; cases h
    | some r =>
      obtain ⟨u, w1⟩ := r
      rw [hc] at h
      simp only [Result.bind, Result.good.injEq] at h
      obtain ⟨h1, h2, _⟩ := counter_get hc hq1
      have hr : q ≠ Spec.resolve n (Spec.define ["__RS"] (.variable v) w1) := by
        rcases resolve_mem n (Spec.define ["__RS"] (.variable v) w1) with hr | hr <;> rw [hr]
        · exact hq2
        · show q ≠ n :: w1.cur
          rcases h2 with h2 | h2 <;> rw [h2]
          · exact hq3
          · exact hq4
      split at h <;> subst h
      · rw [set_get hr, get_define _ _ _ _ hq1, h1]
        exact he
      · rw [struct_get hr, get_define _ _ _ _ hq1, h1]
        exact he
  | rsfield n m c =>
    simp only [Spec.changes, List.mem_cons, List.not_mem_nil, or_false, not_or] at hq
    obtain ⟨hq1, hq2, hq3, hq4, hq5⟩ := hq
    simp only [Spec.step, Spec.field] at h
    split at h
    · have key : ∀ v w1, Spec.advance (m * c) w = some (v, w1) → (Spec.set n v w1).get q = some e := by
        intro v w1 ha
        obtain ⟨h1, h2⟩ := advance_get ha hq1
        rw [set_get, h1]
        · exact he
        · rcases resolve_mem n w1 with hr | hr <;> rw [hr]
          · exact hq2
          · rcases h2 with h2 | h2 <;> rw [h2]
            · exact hq3
            · exact hq4
      split at h
      · rename_i hdot
        split at h
        · split at h
          · rename_i v w1 ha
            have hset : (Spec.set n v w1).cur = w1.cur := by
              have hloc : Spec.isLocal n = true := by
                unfold Spec.isLocal
                cases hn : n.toList with
                | nil => rw [hn] at hdot; cases hdot
                | cons a l => rw [hn] at hdot; simp at hdot; simp [hdot]
              unfold Spec.set
              split <;> simp [Spec.enter, hloc, Spec.define, World.put, World.fail]
            split at h
            · split at h
              · cases h
                rw [get_define]
                · exact key v w1 ha
                · rw [hset]
                  rcases (advance_get ha hq1).2 with h2 | h2 <;> rw [h2]
                  · exact hq5
                  · exact hq1
              · cases h
            · cases h
          · cases h
        · cases h; exact he
      · split at h
        · rename_i v w1 ha
          cases h
          exact key v w1 ha
        · cases h
    · cases h
  | rsend =>
    simp only [Spec.changes, List.mem_singleton] at hq
    simp only [Spec.step, Spec.end_] at h
    split at h
    · split at h
      · split at h
        · cases h
          show (Spec.define w.cur _ w).get q = some e
          rw [get_define _ _ _ _ hq]
          exact he
        · cases h
      · cases h; exact he
    · cases h; exact he
  | push => cases h; exact he
  | pop =>
    simp only [Spec.step] at h
    split at h <;> cases h <;> exact he
  | mention n more =>
    cases h
    exact mention_get more _ q w e he

end Verif.Symbol
