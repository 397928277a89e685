import Verif.Symbol.History
/-!
# Symbols keep their meaning (C27), local symbols are private (C28)
-/
namespace Verif.Symbol
open Spec (Path Entry Def World Result)
open Verif.Section (Label)

/-! ## Meanings that do not change -/

/-- Constants, labels, string symbols, macros, imports and groups. -/
def Spec.Def.fixed : Def → Bool
  | .label _ _ | .constant _ | .text _ | .macro _ | .imported | .group _ => true
  | .unknown | .variable _ | .shared | .struct _ => false

/-- Names with a fixed meaning keep it. -/
def Keeps (w w' : World) : Prop :=
  ∀ p e, w.get p = some e → e.d.fixed = true → ∃ e', w'.get p = some e' ∧ e'.d = e.d

theorem Keeps.refl (w : World) : Keeps w w := fun _ e h _ => ⟨e, h, rfl⟩

theorem Keeps.trans {a b c : World} (h1 : Keeps a b) (h2 : Keeps b c) : Keeps a c := by
  intro p e he hf
  obtain ⟨e1, g1, d1⟩ := h1 p e he hf
  obtain ⟨e2, g2, d2⟩ := h2 p e1 g1 (by rw [d1]; exact hf)
  exact ⟨e2, g2, d2.trans d1⟩

theorem Keeps.same {w w' : World} (h : w'.entries = w.entries) : Keeps w w' := by
  intro p e he _
  exact ⟨e, by rw [← he]; simp only [World.get, h], rfl⟩

theorem keeps_put {w : World} {p : Path} {e : Entry} (h : (w.entry p).d.fixed = false ∨ e.d = (w.entry p).d) :
    Keeps w (w.put p e) := by
  intro q e' he hf
  rw [world_get_put]
  split
  · rename_i hq
    subst hq
    rw [World.entry, he] at h
    simp only [Option.getD_some] at h
    rcases h with h | h
    · rw [hf] at h; cases h
    · exact ⟨e, rfl, h⟩
  · exact ⟨e', he, rfl⟩

theorem keeps_define {w : World} {p : Path} (d : Def) (h : (w.entry p).d.fixed = false) : Keeps w (Spec.define p d w) :=
  keeps_put (Or.inl h)

theorem keeps_define_enter {w : World} {p : Path} (n : String) (d : Def) (h : (w.entry p).d.fixed = false) :
    Keeps w (Spec.enter n (Spec.define p d w)) :=
  (keeps_define d h).trans (Keeps.same (enter_entries _ _))

theorem keeps_fail (w : World) : Keeps w w.fail := Keeps.same rfl

theorem keeps_mark (p : Path) (w : World) : Keeps w (Spec.mark p w) := keeps_put (Or.inr rfl)

theorem keeps_touch (p : Path) (w : World) : Keeps w (w.touch p) := keeps_put (Or.inr rfl)

theorem keeps_set (n : String) (v : Int) (w : World) : Keeps w (Spec.set n v w) := by
  unfold Spec.set
  split
  · rename_i h
    exact keeps_define_enter _ _ (by rw [h]; rfl)
  · rename_i h
    exact keeps_define_enter _ _ (by rw [h]; rfl)
  · exact keeps_fail w

theorem keeps_struct (n : String) (v : Int) (w : World) : Keeps w (Spec.struct n v w) := by
  unfold Spec.struct
  split
  · rename_i h
    exact keeps_define_enter _ _ (by rw [h]; rfl)
  · exact keeps_fail w

theorem keeps_textual (n : String) (d : Def) (w : World) : Keeps w (Spec.textual n d w) := by
  unfold Spec.textual
  split
  · rename_i h
    exact keeps_define _ (by rw [h]; rfl)
  · exact keeps_fail w

theorem keeps_counter {w w' : World} {v : Int} (h : Spec.counter w = some (v, w')) : Keeps w w' := by
  unfold Spec.counter at h
  split at h
  · split at h
    · cases h; exact Keeps.refl w
    · cases h
  · split at h
    · rename_i hd
      cases h
      exact (keeps_define_enter "__RS" (.variable 0) (by rw [hd]; rfl)).trans (Keeps.same rfl)
    · rename_i hd
      cases h
      exact (keeps_define_enter "__RS" (.variable 0) (by rw [hd]; rfl)).trans (Keeps.same rfl)
    · cases h

theorem counter_variable {w w' : World} {v : Int} (h : Spec.counter w = some (v, w')) :
    (w'.entry ["__RS"]).d = .variable v := (counter_get h (q := []) (by decide)).2.2.2.2.1

theorem keeps_advance {w w' : World} {size v : Int} (h : Spec.advance size w = some (v, w')) : Keeps w w' := by
  unfold Spec.advance at h
  split at h
  · rename_i u w1 hc
    split at h
    · cases h
      exact (keeps_counter hc).trans (keeps_define _ (by rw [counter_variable hc]; rfl))
    · cases h
  · cases h

theorem keeps_setCounter {w w' : World} {v : Int} (h : Spec.setCounter v w = .good w') : Keeps w w' := by
  unfold Spec.setCounter at h
  split at h
  · rename_i u w1 hc
    cases h
    exact (keeps_counter hc).trans (keeps_define _ (by rw [counter_variable hc]; rfl))
  · cases h

theorem keeps_mention : ∀ (ns : List String) (p : Path) (w : World), Keeps w (Spec.mention ns p w)
  | [], p, w => keeps_touch p w
  | n :: ns, p, w => (keeps_touch p w).trans (keeps_mention ns (n :: p) (w.touch p))

theorem keeps_refuse {p : Path} {w w' : World} (h : Spec.refuse p w = .good w') : Keeps w w' := by
  unfold Spec.refuse at h
  split at h
  · cases h
  · cases h; exact keeps_fail w

theorem keeps_step {op : Op} {w w' : World} (h : Spec.step op w = .good w') (hp : ∀ n, op ≠ .purge n) : Keeps w w' := by
  cases op with
  | equ n v =>
    simp only [Spec.step, Spec.constant] at h
    split at h
    · rename_i hd; cases h; exact keeps_define_enter _ _ (by rw [hd]; rfl)
    · rename_i hd; cases h; exact keeps_define_enter _ _ (by rw [hd]; rfl)
    · exact keeps_refuse h
  | set n v => cases h; exact keeps_set n v w
  | equs n t => cases h; exact keeps_textual n _ w
  | «macro» n t => cases h; exact keeps_textual n _ w
  | label n l =>
    simp only [Spec.step, Spec.label] at h
    split at h
    · cases h; exact (keeps_touch _ w).trans (keeps_fail _)
    · cases h
    · rename_i hd; cases h; exact keeps_define_enter _ _ (by rw [hd]; rfl)
    · rename_i hd; cases h; exact keeps_define_enter _ _ (by rw [hd]; rfl)
    · cases h; exact keeps_fail w
  | group n b =>
    simp only [Spec.step, Spec.group, Result.good.injEq] at h
    split at h
    · rename_i hd
      subst h
      exact keeps_define _ (by rw [World.entry, hd]; rfl)
    · split at h <;> subst h
      · exact Keeps.refl w
      · exact keeps_fail w
  | export_ n =>
    simp only [Spec.step, Spec.exports] at h
    split at h <;> first
      | (cases h; exact keeps_mark _ w)
      | exact keeps_refuse h
  | import_ n =>
    simp only [Spec.step, Spec.imports, Result.good.injEq] at h
    split at h
    · rename_i hd; subst h; exact keeps_define _ (by rw [hd]; rfl)
    · subst h; exact keeps_fail w
  | global n =>
    simp only [Spec.step, Spec.global] at h
    split at h
    · rename_i hd; cases h; exact keeps_define _ (by rw [hd]; rfl)
    all_goals first
      | (cases h; exact keeps_mark _ w)
      | exact keeps_refuse h
  | purge n => exact absurd rfl (hp n)
  | rsset v => exact keeps_setCounter h
  | rsskip m c =>
    simp only [Spec.step] at h
    split at h
    · split at h
      · rename_i ha; cases h; exact keeps_advance ha
      · cases h
    · cases h
  | rsbegin n v =>
    simp only [Spec.step, Spec.begin_] at h
    cases hc : Spec.setCounter v w with
    | outside => rw [hc] at h; cases h
    | good w1 =>
      rw [hc] at h
      simp only [Result.bind, Result.good.injEq] at h
      refine (keeps_setCounter hc).trans ?_
      split at h <;> subst h
      · exact keeps_set n v w1
      · exact keeps_struct n v w1
  | rsfield n m c =>
    simp only [Spec.step, Spec.field] at h
    split at h
    · split at h
      · split at h
        · split at h
          · rename_i v w1 ha
            refine (keeps_advance ha).trans ((keeps_set n v w1).trans ?_)
            split at h
            · rename_i hd
              split at h
              · cases h; exact keeps_define _ (by rw [hd]; rfl)
              · cases h
            · cases h
          · cases h
        · cases h; exact keeps_fail w
      · split at h
        · rename_i v w1 ha
          cases h
          exact (keeps_advance ha).trans (keeps_set n v w1)
        · cases h
    · cases h
  | rsend =>
    simp only [Spec.step, Spec.end_] at h
    split at h
    · rename_i hd
      split at h
      · split at h
        · cases h
          exact (keeps_define _ (by rw [hd]; rfl)).trans (Keeps.same rfl)
        · cases h
      · cases h; exact Keeps.same rfl
    · cases h; exact keeps_fail w
  | push => cases h; exact Keeps.same rfl
  | pop =>
    simp only [Spec.step] at h
    split at h <;> cases h <;> exact Keeps.same rfl
  | mention n more => cases h; exact keeps_mention more _ w

/-- A name is not removed by `PURGE`. -/
def Spec.spared (p : Path) : List Op → World → Prop
  | [], _ => True
  | op :: ops, w => (∀ n, op = .purge n → Spec.resolve n w ≠ p) ∧ ∀ w', Spec.step op w = .good w' → Spec.spared p ops w'

theorem keeps_run {p : Path} : ∀ (ops : List Op) {w w' : World}, Spec.run ops w = .good w' → Spec.spared p ops w →
    ∀ e, w.get p = some e → e.d.fixed = true → ∃ e', w'.get p = some e' ∧ e'.d = e.d
  | [], w, w', h, _, e, he, _ => by
    cases h
    exact ⟨e, he, rfl⟩
  | op :: ops, w, w', h, hs, e, he, hf => by
    simp only [Spec.run] at h
    cases h1 : Spec.step op w with
    | outside => rw [h1] at h; cases h
    | good w1 =>
      rw [h1] at h
      have : ∃ e', w1.get p = some e' ∧ e'.d = e.d := by
        by_cases hp : ∃ n, op = .purge n
        · obtain ⟨n, rfl⟩ := hp
          refine ⟨e, frame h1 ?_ he, rfl⟩
          simp only [Spec.changes, List.mem_singleton]
          exact fun h => hs.1 n rfl h.symm
        · exact keeps_step h1 (fun n hn => hp ⟨n, hn⟩) p e he hf
      obtain ⟨e1, g1, d1⟩ := this
      obtain ⟨e2, g2, d2⟩ := keeps_run ops h (hs.2 w1 h1) e1 g1 (by rw [d1]; exact hf)
      exact ⟨e2, g2, d2.trans d1⟩

theorem history_rel {ops : List Op} {w : World} (h : Spec.run ops Spec.start = .good w) :
    ∃ s0 s, init = .ok s0 ∧ run ops s0 = .ok s ∧ Rel s w := by
  obtain ⟨s0, h0, hr⟩ := start_rel
  have := run_refines ops hr
  rw [h] at this
  obtain ⟨s, h1, h2⟩ := this
  exact ⟨s0, s, h0, h1, h2⟩

/-- A constant, label, string symbol, macro, import or group keeps its meaning through any history in which it is not purged,
whatever is attempted. -/
theorem C27_single {a b : List Op} {w w' : World} (ha : Spec.run a Spec.start = .good w) (hb : Spec.run b w = .good w') :
    ∃ s0 s s', init = .ok s0 ∧ run a s0 = .ok s ∧ run b s = .ok s' ∧
      ∀ p x, find p s = some x → (defOf x).fixed = true → Spec.spared p b w →
        ∃ x', find p s' = some x' ∧ defOf x' = defOf x := by
  obtain ⟨s0, s, h0, h1, hR⟩ := history_rel ha
  have := run_refines b hR
  rw [hb] at this
  obtain ⟨s', h2, hR'⟩ := this
  refine ⟨s0, s, s', h0, h1, h2, ?_⟩
  intro p x hx hf hs
  obtain ⟨e', g, d⟩ := keeps_run b hb hs (entryOf x) (by rw [hR.get, hx]; rfl) hf
  rw [hR'.get, Option.map_eq_some_iff] at g
  obtain ⟨x', hx', rfl⟩ := g
  exact ⟨x', hx', d⟩

/-- The name that a directive gives a meaning to, and the meaning. -/
def Spec.gives : Op → Option (String × Def)
  | .equ n v => some (n, .constant v)
  | .set n v => some (n, .variable v)
  | .equs n t => some (n, .text t)
  | .macro n t => some (n, .macro t)
  | .label n (some (.constant v)) => some (n, .constant (if v < 2 ^ 31 then v else v - 2 ^ 32))
  | .label n (some (.inside i o)) => some (n, .label (some i) o)
  | .import_ n => some (n, .imported)
  | _ => none

theorem gives_fixed {op : Op} {n : String} {d : Def} (h : Spec.gives op = some (n, d)) {w : World}
    (hf : (w.entry (Spec.resolve n w)).d.fixed = true) (hb : (w.entry (Spec.resolve n w)).builtin = false) :
    Spec.step op w = .good w.fail := by
  have key : ∀ n', n' = n → (w.entry (Spec.resolve n' w)).d.fixed = true ∧ (w.entry (Spec.resolve n' w)).builtin = false := by
    rintro _ rfl
    exact ⟨hf, hb⟩
  clear hf hb
  cases op <;> try cases h
  case equ v =>
    obtain ⟨hf, hb⟩ := key _ rfl
    simp only [Spec.step, Spec.constant, Spec.refuse, hb, Bool.false_eq_true, if_false]
    split
    · rename_i hd; rw [hd] at hf; cases hf
    · rename_i hd; rw [hd] at hf; cases hf
    · rfl
  case set v =>
    obtain ⟨hf, hb⟩ := key _ rfl
    simp only [Spec.step, Spec.set]
    split
    · rename_i hd; rw [hd] at hf; cases hf
    · rename_i hd; rw [hd] at hf; cases hf
    · rfl
  case equs t =>
    obtain ⟨hf, hb⟩ := key _ rfl
    simp only [Spec.step, Spec.textual]
    split
    · rename_i hd; rw [hd] at hf; cases hf
    · rfl
  case «macro» t =>
    obtain ⟨hf, hb⟩ := key _ rfl
    simp only [Spec.step, Spec.textual]
    split
    · rename_i hd; rw [hd] at hf; cases hf
    · rfl
  case import_ =>
    obtain ⟨hf, hb⟩ := key _ rfl
    simp only [Spec.step, Spec.imports]
    split
    · rename_i hd; rw [hd] at hf; cases hf
    · rfl
  case label n' l =>
    have hn : n' = n := by
      cases l with
      | none => cases h
      | some l =>
        cases l <;> simp only [Spec.gives, Option.some.injEq, Prod.mk.injEq] at h <;> exact h.1
    obtain ⟨hf, hb⟩ := key n' hn
    simp only [Spec.step, Spec.label]
    split
    · rename_i hd; rw [hd] at hf; cases hf
    · rename_i hd; rw [hd] at hf; cases hf
    · rename_i hd; rw [hd] at hf; cases hf
    · rename_i hd; rw [hd] at hf; cases hf
    · rfl

/-- Giving a second meaning to such a name is reported and changes nothing: all names mean what they did. -/
theorem C27_refused {ops : List Op} {w : World} (h : Spec.run ops Spec.start = .good w) {op : Op} {n : String} {d : Def}
    (hg : Spec.gives op = some (n, d)) (hf : (w.entry (Spec.resolve n w)).d.fixed = true)
    (hb : (w.entry (Spec.resolve n w)).builtin = false) :
    ∃ s0 s s', init = .ok s0 ∧ run ops s0 = .ok s ∧ step op s = .ok s' ∧ s'.errors = s.errors + 1 ∧
      (∀ p, (find p s').map entryOf = (find p s).map entryOf) ∧
      ∀ m, (getSymbol m (assumedScope m s') s').map entryOf = (getSymbol m (assumedScope m s) s).map entryOf := by
  obtain ⟨s0, s, h0, h1, hR⟩ := history_rel h
  have := step_refines op hR
  rw [gives_fixed hg hf hb] at this
  obtain ⟨s', h2, hR'⟩ := this
  refine ⟨s0, s, s', h0, h1, h2, ?_, ?_, ?_⟩
  · rw [← hR'.errors, ← hR.errors]
    rfl
  · intro p
    rw [← hR'.get, ← hR.get]
    rfl
  · intro m
    rw [(holds hR').names, (holds hR).names]
    rfl

theorem gives_new {op : Op} {n : String} {d : Def} (h : Spec.gives op = some (n, d)) {w : World}
    (hd : (w.entry (Spec.resolve n w)).d = .unknown) :
    ∃ w', Spec.step op w = .good w' ∧ w'.entry (Spec.resolve n w) = { w.entry (Spec.resolve n w) with d := d } ∧
      w'.errors = w.errors := by
  have hen : ∀ n (w : World) p, (Spec.enter n w).entry p = w.entry p := by
    intro n w p
    unfold Spec.enter
    split <;> rfl
  have her : ∀ n (w : World), (Spec.enter n w).errors = w.errors := by
    intro n w
    unfold Spec.enter
    split <;> rfl
  have hdef : ∀ d, (Spec.define (Spec.resolve n w) d w).entry (Spec.resolve n w) =
      { w.entry (Spec.resolve n w) with d := d } := by
    intro d
    simp only [Spec.define, entry_put, if_true, hd]
    simp
  cases op <;> try cases h
  case equ v =>
    refine ⟨Spec.enter n (Spec.define (Spec.resolve n w) (.constant v) w), ?_, by rw [hen, hdef], by rw [her]; rfl⟩
    simp only [Spec.step, Spec.constant, hd]
  case set v =>
    refine ⟨Spec.enter n (Spec.define (Spec.resolve n w) (.variable v) w), ?_, by rw [hen, hdef], by rw [her]; rfl⟩
    simp only [Spec.step, Spec.set, hd]
  case equs t =>
    refine ⟨Spec.define (Spec.resolve n w) (.text t) w, ?_, hdef _, rfl⟩
    simp only [Spec.step, Spec.textual, hd]
  case «macro» t =>
    refine ⟨Spec.define (Spec.resolve n w) (.macro t) w, ?_, hdef _, rfl⟩
    simp only [Spec.step, Spec.textual, hd]
  case import_ =>
    refine ⟨Spec.define (Spec.resolve n w) .imported w, ?_, hdef _, rfl⟩
    simp only [Spec.step, Spec.imports, hd]
  case label n' l =>
    cases l with
    | none => cases h
    | some l =>
      cases l with
      | constant v =>
        simp only [Spec.gives, Option.some.injEq, Prod.mk.injEq] at h
        obtain ⟨rfl, rfl⟩ := h
        refine ⟨_, by simp only [Spec.step, Spec.label, hd]; rfl, by rw [hen, hdef], by rw [her]; rfl⟩
      | inside i o =>
        simp only [Spec.gives, Option.some.injEq, Prod.mk.injEq] at h
        obtain ⟨rfl, rfl⟩ := h
        refine ⟨_, by simp only [Spec.step, Spec.label, hd]; rfl, by rw [hen, hdef], by rw [her]; rfl⟩

/-- A name without a meaning gets the one that is asked for, without an error. -/
theorem C27_defined {ops : List Op} {w : World} (h : Spec.run ops Spec.start = .good w) {op : Op} {n : String} {d : Def}
    (hg : Spec.gives op = some (n, d)) (hd : (w.entry (Spec.resolve n w)).d = .unknown) :
    ∃ s0 s s' x, init = .ok s0 ∧ run ops s0 = .ok s ∧ step op s = .ok s' ∧ s'.errors = s.errors ∧
      find (Spec.resolve n w) s' = some x ∧ defOf x = d ∧ x.flags.export_ = (w.entry (Spec.resolve n w)).exported := by
  obtain ⟨s0, s, h0, h1, hR⟩ := history_rel h
  obtain ⟨w', h2, h3, h4⟩ := gives_new hg hd
  have := step_refines op hR
  rw [h2] at this
  obtain ⟨s', h5, hR'⟩ := this
  have hne : w'.get (Spec.resolve n w) ≠ none := by
    intro hn
    rw [World.entry, hn] at h3
    have : d = .unknown := by
      have := congrArg Entry.d h3
      exact this.symm
    subst this
    cases op <;> try cases hg
    rename_i l
    cases l with
    | none => cases hg
    | some l => cases l <;> simp [Spec.gives] at hg
  rw [hR'.get] at hne
  cases hx : find (Spec.resolve n w) s' with
  | none => rw [hx] at hne; exact absurd rfl hne
  | some x =>
    have he : w'.entry (Spec.resolve n w) = entryOf x := by rw [World.entry, hR'.get, hx]; rfl
    rw [h3] at he
    refine ⟨s0, s, s', x, h0, h1, h5, ?_, hx, ?_, ?_⟩
    · rw [← hR'.errors, ← hR.errors, h4]
    · exact (congrArg Entry.d he).symm
    · exact (congrArg Entry.exported he).symm

/-! ## Mistakes -/

/-- What the program knows about a name. -/
def meaning (p : Path) (s : State) : Def :=
  match find p s with
  | some x => defOf x
  | none => .unknown

theorem meaning_eq {s : State} {w : World} (h : Rel s w) (p : Path) : meaning p s = (w.entry p).d := by
  unfold meaning
  rw [World.entry, h.get]
  cases find p s <;> rfl

/-- Every other operation leaves all names as they were if it is a mistake. -/
def Op.reserves : Op → Bool
  | .rsbegin _ _ | .rsfield _ _ _ => true
  | _ => false

theorem counter_errors {w w' : World} {v : Int} (h : Spec.counter w = some (v, w')) : w'.errors = w.errors :=
  (counter_get h (q := []) (by decide)).2.2.2.1

theorem advance_errors {w w' : World} {size v : Int} (h : Spec.advance size w = some (v, w')) : w'.errors = w.errors := by
  unfold Spec.advance at h
  split at h
  · rename_i u w1 hc
    split at h
    · cases h
      show w1.errors = w.errors
      exact counter_errors hc
    · cases h
  · cases h

theorem enter_errors (n : String) (w : World) : (Spec.enter n w).errors = w.errors := by
  unfold Spec.enter
  split <;> rfl

theorem mention_errors : ∀ (ns : List String) (p : Path) (w : World), (Spec.mention ns p w).errors = w.errors
  | [], _, _ => rfl
  | _ :: ns, _, _ => (mention_errors ns _ _).trans rfl

theorem error_step {op : Op} {w w' : World} (h : Spec.step op w = .good w') (hr : op.reserves = false)
    (he : w'.errors ≠ w.errors) : w'.errors = w.errors + 1 ∧ w'.cur = w.cur ∧ ∀ p, w'.entry p = w.entry p := by
  have hf : w.fail.errors = w.errors + 1 ∧ w.fail.cur = w.cur ∧ ∀ p, w.fail.entry p = w.entry p := ⟨rfl, rfl, fun _ => rfl⟩
  have hrefuse : ∀ {p : Path}, Spec.refuse p w = .good w' → w' = w.fail := by
    intro p h
    unfold Spec.refuse at h
    split at h <;> cases h
    rfl
  cases op with
  | equ n v =>
    simp only [Spec.step, Spec.constant] at h
    split at h
    · cases h; rw [enter_errors] at he; exact absurd rfl he
    · cases h; rw [enter_errors] at he; exact absurd rfl he
    · rw [hrefuse h]; exact hf
  | set n v =>
    simp only [Spec.step, Spec.set, Result.good.injEq] at h
    split at h <;> subst h
    · rw [enter_errors] at he; exact absurd rfl he
    · rw [enter_errors] at he; exact absurd rfl he
    · exact hf
  | equs n t =>
    simp only [Spec.step, Spec.textual, Result.good.injEq] at h
    split at h <;> subst h
    · exact absurd rfl he
    · exact hf
  | «macro» n t =>
    simp only [Spec.step, Spec.textual, Result.good.injEq] at h
    split at h <;> subst h
    · exact absurd rfl he
    · exact hf
  | label n l =>
    simp only [Spec.step, Spec.label] at h
    split at h <;> try cases h
    · refine ⟨rfl, rfl, ?_⟩
      intro p
      show (World.touch _ w).entry p = w.entry p
      rw [World.touch, entry_put]
      split
      · rename_i hp; rw [hp]
      · rfl
    · rw [enter_errors] at he; exact absurd rfl he
    · rw [enter_errors] at he; exact absurd rfl he
    · exact hf
  | group n b =>
    simp only [Spec.step, Spec.group, Result.good.injEq] at h
    split at h
    · subst h; exact absurd rfl he
    · split at h <;> subst h
      · exact absurd rfl he
      · exact hf
  | export_ n =>
    simp only [Spec.step, Spec.exports] at h
    split at h <;> first
      | (cases h; exact absurd rfl he)
      | (rw [hrefuse h]; exact hf)
  | import_ n =>
    simp only [Spec.step, Spec.imports, Result.good.injEq] at h
    split at h <;> subst h
    · exact absurd rfl he
    · exact hf
  | global n =>
    simp only [Spec.step, Spec.global] at h
    split at h <;> first
      | (cases h; exact absurd rfl he)
      | (rw [hrefuse h]; exact hf)
  | purge n =>
    simp only [Spec.step, Spec.purge] at h
    split at h
    · cases h; exact absurd rfl he
    · split at h
      · cases h
      · cases h; exact absurd rfl he
  | rsset v =>
    simp only [Spec.step, Spec.setCounter] at h
    split at h
    · rename_i hc
      cases h
      exact absurd (counter_errors hc) he
    · cases h
  | rsskip m c =>
    simp only [Spec.step] at h
    split at h
    · split at h
      · rename_i ha; cases h; exact absurd (advance_errors ha) he
      · cases h
    · cases h
  | rsbegin n v => cases hr
  | rsfield n m c => cases hr
  | rsend =>
    simp only [Spec.step, Spec.end_] at h
    split at h
    · split at h
      · split at h
        · cases h; exact absurd rfl he
        · cases h
      · cases h; exact absurd rfl he
    · cases h; exact hf
  | push => cases h; exact absurd rfl he
  | pop =>
    simp only [Spec.step] at h
    split at h <;> cases h
    · exact absurd rfl he
    · exact hf
  | mention n more => cases h; exact absurd (mention_errors more _ w) he

/-- A mistake leaves the meaning of every name as it was, and the scope. -/
theorem C27_error {ops : List Op} {w : World} (h : Spec.run ops Spec.start = .good w) {op : Op} {w' : World}
    (ho : Spec.step op w = .good w') (hr : op.reserves = false) :
    ∃ s0 s s', init = .ok s0 ∧ run ops s0 = .ok s ∧ step op s = .ok s' ∧
      (s'.errors ≠ s.errors → s'.errors = s.errors + 1 ∧
        (∃ q, scopeAt q s = some s.scope ∧ scopeAt q s' = some s'.scope) ∧ ∀ p, meaning p s' = meaning p s) := by
  obtain ⟨s0, s, h0, h1, hR⟩ := history_rel h
  have := step_refines op hR
  rw [ho] at this
  obtain ⟨s', h2, hR'⟩ := this
  refine ⟨s0, s, s', h0, h1, h2, ?_⟩
  intro he
  rw [← hR'.errors, ← hR.errors] at he ⊢
  obtain ⟨e1, e2, e3⟩ := error_step ho hr he
  refine ⟨e1, ⟨w.cur, hR.cur, ?_⟩, ?_⟩
  · rw [← e2]
    exact hR'.cur
  · intro p
    rw [meaning_eq hR', meaning_eq hR, e3]

/-! ## Variables -/

/-- Nothing that is done concerns the name. -/
def Spec.untouched (p : Path) : List Op → World → Prop
  | [], _ => True
  | op :: ops, w => p ∉ Spec.changes op w ∧ ∀ w', Spec.step op w = .good w' → Spec.untouched p ops w'

theorem frame_run {p : Path} {e : Entry} : ∀ (ops : List Op) {w w' : World}, Spec.run ops w = .good w' →
    Spec.untouched p ops w → w.get p = some e → w'.get p = some e
  | [], w, w', h, _, he => by
    cases h
    exact he
  | op :: ops, w, w', h, hu, he => by
    simp only [Spec.run] at h
    cases h1 : Spec.step op w with
    | outside => rw [h1] at h; cases h
    | good w1 =>
      rw [h1] at h
      exact frame_run ops h (hu.2 w1 h1) (frame h1 hu.1 he)

/-- A variable has the value of the last `SET`: the value it is given stays until an operation that names it. -/
theorem C27_variable {a b : List Op} {w w1 w' : World} (ha : Spec.run a Spec.start = .good w) {n : String} (v : Int)
    (hd : (w.entry (Spec.resolve n w)).d = .unknown ∨ ∃ u, (w.entry (Spec.resolve n w)).d = .variable u)
    (h1 : Spec.step (.set n v) w = .good w1) (hb : Spec.run b w1 = .good w')
    (hu : Spec.untouched (Spec.resolve n w) b w1) :
    ∃ s0 s x, init = .ok s0 ∧ run (a ++ .set n v :: b) s0 = .ok s ∧ find (Spec.resolve n w) s = some x ∧
      x.type = .set ∧ x.integer = v := by
  have hrun : Spec.run (a ++ .set n v :: b) Spec.start = .good w' := by
    rw [spec_run_append, ha]
    simp only [Result.bind, Spec.run, h1, hb]
  obtain ⟨s0, s, h0, h2, hR⟩ := history_rel hrun
  have hw1 : ∃ e, w1.get (Spec.resolve n w) = some e ∧ e.d = .variable v := by
    simp only [Spec.step, Result.good.injEq] at h1
    subst h1
    have : Spec.set n v w = Spec.enter n (Spec.define (Spec.resolve n w) (.variable v) w) := by
      unfold Spec.set
      rcases hd with hd | ⟨u, hd⟩ <;> rw [hd]
    rw [this, get_enter, Spec.define, world_get_put, if_pos rfl]
    exact ⟨_, rfl, rfl⟩
  obtain ⟨e, he, hde⟩ := hw1
  have he' := frame_run b hb hu he
  rw [hR.get, Option.map_eq_some_iff] at he'
  obtain ⟨x, hx, rfl⟩ := he'
  obtain ⟨h3, h4⟩ := variable_type hde
  exact ⟨s0, s, x, h0, h2, hx, h3, h4⟩

/-! ## Local symbols -/

/-- Scopes are not nested. -/
def Shallow (w : World) : Prop := w.cur.length ≤ 1 ∧ ∀ p ∈ w.stack, p.length ≤ 1

theorem Shallow.same {w w' : World} (h : Shallow w) (h1 : w'.cur = w.cur) (h2 : w'.stack = w.stack) : Shallow w' := by
  unfold Shallow
  rw [h1, h2]
  exact h

theorem Shallow.enter {w : World} (h : Shallow w) (n : String) : Shallow (Spec.enter n w) := by
  unfold Spec.enter
  split
  · exact h
  · exact ⟨by simp, h.2⟩

theorem shallow_set {w : World} (h : Shallow w) (n : String) (v : Int) : Shallow (Spec.set n v w) := by
  unfold Spec.set
  split
  · exact (h.same rfl rfl : Shallow (Spec.define _ _ w)).enter n
  · exact (h.same rfl rfl : Shallow (Spec.define _ _ w)).enter n
  · exact h.same rfl rfl

theorem shallow_struct {w : World} (h : Shallow w) (n : String) (v : Int) : Shallow (Spec.struct n v w) := by
  unfold Spec.struct
  split
  · exact (h.same rfl rfl : Shallow (Spec.define _ _ w)).enter n
  · exact h.same rfl rfl

theorem shallow_counter {w w' : World} {v : Int} (h : Shallow w) (hc : Spec.counter w = some (v, w')) : Shallow w' := by
  unfold Spec.counter at hc
  split at hc
  · split at hc
    · cases hc; exact h
    · cases hc
  · split at hc
    case h_3 => cases hc
    all_goals
      cases hc
      exact ((h.same rfl rfl : Shallow (Spec.define ["__RS"] (.variable 0) w)).enter "__RS").same rfl rfl

theorem shallow_advance {w w' : World} {size v : Int} (h : Shallow w) (ha : Spec.advance size w = some (v, w')) : Shallow w' := by
  unfold Spec.advance at ha
  split at ha
  · rename_i hc
    split at ha
    · cases ha; exact (shallow_counter h hc).same rfl rfl
    · cases ha
  · cases ha

theorem shallow_setCounter {w w' : World} {v : Int} (h : Shallow w) (hc : Spec.setCounter v w = .good w') : Shallow w' := by
  unfold Spec.setCounter at hc
  split at hc
  · rename_i hc'
    cases hc; exact (shallow_counter h hc').same rfl rfl
  · cases hc

theorem shallow_mention : ∀ (ns : List String) (p : Path) {w : World}, Shallow w → Shallow (Spec.mention ns p w)
  | [], _, _, h => h.same rfl rfl
  | _ :: ns, _, _, h => shallow_mention ns _ (h.same rfl rfl)

theorem shallow_step {op : Op} {w w' : World} (h : Spec.step op w = .good w') (hs : Shallow w) : Shallow w' := by
  have hr : ∀ {p : Path}, Spec.refuse p w = .good w' → Shallow w' := by
    intro p h
    unfold Spec.refuse at h
    split at h <;> cases h
    exact hs.same rfl rfl
  cases op with
  | equ n v =>
    simp only [Spec.step, Spec.constant] at h
    split at h
    · cases h; exact (hs.same rfl rfl : Shallow (Spec.define _ _ w)).enter n
    · cases h; exact (hs.same rfl rfl : Shallow (Spec.define _ _ w)).enter n
    · exact hr h
  | set n v => cases h; exact shallow_set hs n v
  | equs n t =>
    simp only [Spec.step, Spec.textual, Result.good.injEq] at h
    split at h <;> subst h <;> exact hs.same rfl rfl
  | «macro» n t =>
    simp only [Spec.step, Spec.textual, Result.good.injEq] at h
    split at h <;> subst h <;> exact hs.same rfl rfl
  | label n l =>
    simp only [Spec.step, Spec.label] at h
    split at h <;> try cases h
    · exact hs.same rfl rfl
    · exact (hs.same rfl rfl : Shallow (Spec.define _ _ w)).enter n
    · exact (hs.same rfl rfl : Shallow (Spec.define _ _ w)).enter n
    · exact hs.same rfl rfl
  | group n b =>
    simp only [Spec.step, Spec.group, Result.good.injEq] at h
    split at h
    · subst h; exact hs.same rfl rfl
    · split at h <;> subst h <;> exact hs.same rfl rfl
  | export_ n =>
    simp only [Spec.step, Spec.exports] at h
    split at h <;> first
      | (cases h; exact hs.same rfl rfl)
      | exact hr h
  | import_ n =>
    simp only [Spec.step, Spec.imports, Result.good.injEq] at h
    split at h <;> subst h <;> exact hs.same rfl rfl
  | global n =>
    simp only [Spec.step, Spec.global] at h
    split at h <;> first
      | (cases h; exact hs.same rfl rfl)
      | exact hr h
  | purge n =>
    simp only [Spec.step, Spec.purge] at h
    split at h
    · cases h; exact hs
    · split at h
      · cases h
      · cases h; exact hs.same rfl rfl
  | rsset v => exact shallow_setCounter hs h
  | rsskip m c =>
    simp only [Spec.step] at h
    split at h
    · split at h
      · rename_i ha; cases h; exact shallow_advance hs ha
      · cases h
    · cases h
  | rsbegin n v =>
    simp only [Spec.step, Spec.begin_] at h
    cases hc : Spec.setCounter v w with
    | outside => rw [hc] at h; cases h
    | good w1 =>
      rw [hc] at h
      simp only [Result.bind, Result.good.injEq] at h
      have h1 := shallow_setCounter hs hc
      split at h <;> subst h
      · exact shallow_set h1 n v
      · exact shallow_struct h1 n v
  | rsfield n m c =>
    simp only [Spec.step, Spec.field] at h
    split at h
    · split at h
      · split at h
        · split at h
          · rename_i v w1 ha
            have h1 := shallow_set (shallow_advance hs ha) n v
            split at h
            · split at h
              · cases h; exact h1.same rfl rfl
              · cases h
            · cases h
          · cases h
        · cases h; exact hs.same rfl rfl
      · split at h
        · rename_i v w1 ha
          cases h
          exact shallow_set (shallow_advance hs ha) n v
        · cases h
    · cases h
  | rsend =>
    simp only [Spec.step, Spec.end_] at h
    split at h
    · split at h
      · split at h
        · cases h; exact ⟨by simp, hs.2⟩
        · cases h
      · cases h; exact ⟨by simp, hs.2⟩
    · cases h; exact hs.same rfl rfl
  | push =>
    cases h
    refine ⟨hs.1, ?_⟩
    intro p hp
    simp only [List.mem_cons] at hp
    rcases hp with rfl | hp
    · exact hs.1
    · exact hs.2 p hp
  | pop =>
    simp only [Spec.step] at h
    split at h
    · rename_i p ps hst
      cases h
      refine ⟨hs.2 p (by rw [hst]; simp), ?_⟩
      intro q hq
      exact hs.2 q (by rw [hst]; exact List.mem_cons_of_mem _ hq)
    · cases h; exact hs.same rfl rfl
  | mention n more => cases h; exact shallow_mention more _ hs

theorem shallow_run : ∀ {ops : List Op} {w w' : World}, Spec.run ops w = .good w' → Shallow w → Shallow w'
  | [], _, _, h, hs => by cases h; exact hs
  | op :: ops, w, w', h, hs => by
    simp only [Spec.run] at h
    cases h1 : Spec.step op w with
    | outside => rw [h1] at h; cases h
    | good w1 =>
      rw [h1] at h
      exact shallow_run h (shallow_step h1 hs)

/-- Local symbols of other scopes are out of reach: they are neither changed nor removed, whatever names are used. -/
theorem C28_private {ops : List Op} {w : World} (h : Spec.run ops Spec.start = .good w) {op : Op} {w' : World}
    (ho : Spec.step op w = .good w') {n m : String} {q : Path} (hc : m :: q ≠ w.cur) (hrs : m :: q ≠ ["__RS"]) :
    ∃ s0 s s', init = .ok s0 ∧ run ops s0 = .ok s ∧ step op s = .ok s' ∧
      ∀ x, find (n :: m :: q) s = some x → ∃ x', find (n :: m :: q) s' = some x' ∧ entryOf x' = entryOf x := by
  obtain ⟨s0, s, h0, h1, hR⟩ := history_rel h
  have := step_refines op hR
  rw [ho] at this
  obtain ⟨s', h2, hR'⟩ := this
  refine ⟨s0, s, s', h0, h1, h2, ?_⟩
  intro x hx
  have hsh : Shallow w := shallow_run h ⟨by decide, by intro p hp; cases hp⟩
  have hne1 : ∀ a, n :: m :: q ≠ [a] := by intro a ha; cases ha
  have hne2 : ∀ a, n :: m :: q ≠ a :: w.cur := by
    intro a ha
    injection ha with _ ha
    exact hc ha
  have hne3 : ∀ a, n :: m :: q ≠ [a, "__RS"] := by
    intro a ha
    injection ha with _ ha
    exact hrs ha
  have hne4 : n :: m :: q ≠ w.cur := by
    intro ha
    have := hsh.1
    rw [← ha] at this
    simp at this
  have hres : ∀ a, n :: m :: q ≠ Spec.resolve a w := by
    intro a
    rcases resolve_mem a w with ha | ha <;> rw [ha]
    · exact hne1 a
    · exact hne2 a
  have hmem : n :: m :: q ∉ Spec.changes op w := by
    cases op <;> simp only [Spec.changes, List.mem_cons, List.not_mem_nil, or_false, not_or, not_false_eq_true] <;>
      simp only [hres, hne1, hne2, hne3, hne4, not_false_eq_true, and_self]
  have he := frame ho hmem (e := entryOf x) (by rw [hR.get, hx]; rfl)
  rw [hR'.get, Option.map_eq_some_iff] at he
  obtain ⟨x', hx', he⟩ := he
  exact ⟨x', hx', he⟩

/-- Each scope has its own local symbols: a label that is not known in the current scope can be defined there, whatever other
scopes have by that name. -/
theorem C28_own {ops : List Op} {w : World} (h : Spec.run ops Spec.start = .good w) {n : String} (hn : Spec.isLocal n = true)
    (hd : w.get (n :: w.cur) = none) (l : Label) :
    ∃ s0 s s' x, init = .ok s0 ∧ run ops s0 = .ok s ∧ step (.label n (some l)) s = .ok s' ∧ s'.errors = s.errors ∧
      s'.scope = s.scope ∧ find (n :: w.cur) s' = some x ∧ x.scope = s.scope ∧
      getSymbol n (assumedScope n s') s' = some x ∧
      defOf x = match l with
        | .constant v => .constant (if v < 2 ^ 31 then v else v - 2 ^ 32)
        | .inside i o => .label (some i) o := by
  have hr : Spec.resolve n w = n :: w.cur := by simp [Spec.resolve, hn]
  have hu : (w.entry (Spec.resolve n w)).d = .unknown := by
    rw [hr, World.entry, hd]
    rfl
  have hg : Spec.gives (.label n (some l)) = some (n, match l with
        | .constant v => .constant (if v < 2 ^ 31 then v else v - 2 ^ 32)
        | .inside i o => .label (some i) o) := by
    cases l <;> rfl
  obtain ⟨s0, s, s', x, h0, h1, h2, h3, h4, h5, _⟩ := C27_defined h hg hu
  obtain ⟨t0, t, h0', h1', hR⟩ := history_rel h
  have e0 : s0 = t0 := by rw [h0] at h0'; cases h0'; rfl
  subst e0
  have e1 : s = t := by rw [h1] at h1'; cases h1'; rfl
  subst e1
  have hsc : s'.scope = s.scope := by
    have hl := hn
    rw [isLocal_eq] at hl
    have hx1 := findOrCreate_name n s
    have hsc1 : (findOrCreate n s).2.scope = s.scope := by
      unfold findOrCreate findOrCreateIn
      split <;> rfl
    have : s' = createLabel n (some l) s := by
      simp only [step] at h2
      injection h2 with h2
      exact h2.symm
    rw [this]
    unfold createLabel
    simp only
    split
    · cases l <;> simp only [State.enter, hx1, hl, if_true] <;> exact hsc1
    · exact hsc1
  have hf := h4
  rw [hr] at hf
  have hcur' : scopeAt w.cur s' = some s.scope := by
    have := step_refines (.label n (some l)) hR
    obtain ⟨w', hw', _, _⟩ := gives_new hg hu
    rw [hw'] at this
    obtain ⟨s2, e2, hR2⟩ := this
    rw [h2] at e2
    cases e2
    have := hR2.cur
    have hcw : w'.cur = w.cur := by
      simp only [Spec.step, Spec.label, hu, Result.good.injEq] at hw'
      subst hw'
      simp [Spec.enter, hn, Spec.define, World.put]
    rw [hcw, hsc] at this
    exact this
  refine ⟨s0, s, s', x, h0, h1, h2, h3, hsc, hf, ?_, ?_, h5⟩
  · rw [find_cons hcur'] at hf
    exact (getSymbol_mem hf).2.1
  · have hl := hn
    rw [isLocal_eq] at hl
    rw [assumedScope, hl, if_pos rfl, hsc, ← find_cons hcur']
    exact hf

/-- `Scope.local` stands for the local symbol of that scope wherever it is used, and using it does not change a meaning. -/
theorem C28_qualified {ops : List Op} {w : World} (h : Spec.run ops Spec.start = .good w) (n : String) (more : List String) :
    ∃ s0 s x, init = .ok s0 ∧ run ops s0 = .ok s ∧
      find (more.reverse ++ Spec.resolve n w) (mention n more s).2 = some x ∧ x.id = (mention n more s).1 ∧
      (mention n more s).2.errors = s.errors ∧
      ∀ p y, find p s = some y → ∃ y', find p (mention n more s).2 = some y' ∧ entryOf y' = entryOf y := by
  obtain ⟨s0, s, h0, h1, hR⟩ := history_rel h
  obtain ⟨hR', x, h2, h3⟩ := mention_rel hR n more
  refine ⟨s0, s, x, h0, h1, h2, h3, ?_, ?_⟩
  · rw [← hR'.errors, ← hR.errors]
    generalize Spec.resolve n w = p
    clear hR' h2 h3 hR h1 h
    induction more generalizing p w with
    | nil => rfl
    | cons a more ih =>
      unfold Spec.mention
      rw [ih]
      rfl
  · intro p y hy
    have := mention_get more (Spec.resolve n w) p w (entryOf y) (by rw [hR.get, hy]; rfl)
    rw [hR'.get, Option.map_eq_some_iff] at this
    exact this

end Verif.Symbol
