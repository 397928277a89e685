import Verif.Symbol.Step
/-! # The counter, structures, removal; histories -/
namespace Verif.Symbol
open Spec (Path Entry Def World Result)

theorem ok_bind {β γ : Type} (b : β) (f : β → Outcome γ) : (Outcome.ok b).bind f = f b := rfl

theorem Rel.touch {s : State} {w : World} {p : Path} {x : Symbol} (h : Rel s w) (hx : find p s = some x) :
    Rel s (w.touch p) ∧ w.entry p = entryOf x := by
  have hg : w.get p = some (entryOf x) := by rw [h.get, hx]; rfl
  have he : w.entry p = entryOf x := by rw [World.entry, hg]; rfl
  refine ⟨?_, he⟩
  refine h.congr ?_ rfl rfl rfl rfl rfl
  intro q
  rw [world_get_touch]
  split
  · rename_i hq
    rw [hq, he, hg]
  · rfl

/-! ## Removal -/

theorem purge_rel {s : State} {w : World} (h : Rel s w) (n : String) : Refines (.ok (purge n s)) (Spec.purge n w) := by
  have hg : getSymbol n (assumedScope n s) s = find (Spec.resolve n w) s := by
    unfold assumedScope Spec.resolve
    rw [isLocal_eq]
    cases isLocalName n with
    | true => exact (find_cons h.cur).symm
    | false => exact (find_cons (p := []) (sc := none) rfl).symm
  unfold purge Spec.purge
  simp only
  rw [hg, h.get]
  cases hx : find (Spec.resolve n w) s with
  | none => exact ⟨_, rfl, h⟩
  | some x =>
    simp only [Option.map_some]
    split
    · trivial
    · rename_i hc
      generalize hp : Spec.resolve n w = p at hx hc ⊢
      refine ⟨_, rfl, ?_⟩
      have hl : ∀ n, find (n :: p) s = none := by
        intro m
        cases hf : find (m :: p) s with
        | none => rfl
        | some y =>
          have hgy : w.get (m :: p) = some (entryOf y) := by rw [h.get, hf]; rfl
          refine absurd (Or.inl ?_) hc
          unfold Spec.hasLocals
          simp only [World.get, Option.map_eq_some_iff] at hgy
          obtain ⟨e, h1, _⟩ := hgy
          have h2 := List.find?_some h1
          simp only [beq_iff_eq] at h2
          rw [List.any_eq_true]
          refine ⟨e, List.mem_of_find?_eq_some h1, ?_⟩
          rw [h2]
          simp
      have hfind := find_remove h.inv hx hl
      have hscope : ∀ q, q ≠ p → scopeAt q { s with table := s.table.filter fun y => y.id ≠ x.id } = scopeAt q s := by
        intro q hq
        cases q with
        | nil => rfl
        | cons m r => rw [scopeAt_cons, scopeAt_cons, hfind, if_neg hq]
      constructor
      · exact h.inv.remove _
      · intro q
        rw [world_get_erase, hfind]
        split
        · rfl
        · exact h.get q
      · exact (hscope _ (fun e => hc (Or.inr (Or.inl e.symm)))).trans h.cur
      · refine Eq.trans ?_ h.stack
        apply List.map_congr_left
        intro q hq
        exact hscope q fun e => hc (Or.inr (Or.inr (Or.inl (e ▸ hq))))
      · exact h.rs
      · intro id hid
        obtain ⟨y, h1, h2⟩ := h.counter id hid
        refine ⟨y, ?_, h2⟩
        rw [hfind, if_neg]
        · exact h1
        · intro e
          refine hc (Or.inr (Or.inr (Or.inr ⟨?_, e.symm⟩)))
          have hid : s.rs = some id := hid
          rw [h.rs, hid]
          rfl
      · exact h.early
      · exact h.errors

/-! ## The counter -/

theorem resolve_counter (w : World) : Spec.resolve "__RS" w = ["__RS"] := by
  have : Spec.isLocal "__RS" = false := by decide +kernel
  simp [Spec.resolve, this]

theorem variable_type {x : Symbol} {v : Int} (h : defOf x = .variable v) : x.type = .set ∧ x.integer = v := by
  unfold defOf at h
  cases ht : x.type <;> simp only [ht, reduceCtorEq] at h
  injection h with h
  exact ⟨rfl, h⟩

theorem struct_type {x : Symbol} {v : Int} (h : defOf x = .struct v) : x.type = .structure ∧ x.integer = v := by
  unfold defOf at h
  cases ht : x.type <;> simp only [ht, reduceCtorEq] at h
  injection h with h
  exact ⟨rfl, h⟩

theorem counter_rel {s : State} {w w' : World} (h : Rel s w) {v : Int} (hc : Spec.counter w = some (v, w')) :
    ∃ x s', rsCounter s = .ok (x, s') ∧ Rel s' w' ∧ find ["__RS"] s' = some x ∧ x.type = .set ∧ x.integer = v := by
  unfold Spec.counter at hc
  unfold rsCounter
  cases hr : s.rs with
  | some id =>
    rw [h.rs, hr] at hc
    simp only [Option.isSome_some, if_true] at hc
    obtain ⟨x, hx, hid⟩ := h.counter id hr
    obtain ⟨_, he⟩ := h.touch hx
    rw [he] at hc
    simp only [entryOf] at hc
    split at hc
    · rename_i u hd
      simp only [Option.some.injEq, Prod.mk.injEq] at hc
      obtain ⟨rfl, rfl⟩ := hc
      obtain ⟨h1, h2⟩ := variable_type hd
      refine ⟨x, s, ?_, h, hx, h1, h2⟩
      simp only
      rw [← hid, deref_eq h.inv (find_mem hx)]
      rfl
    · cases hc
  | none =>
    rw [h.rs, hr] at hc
    simp only [Option.isSome_none, Bool.false_eq_true, if_false] at hc
    obtain ⟨hR, hf, he⟩ := h.findOrCreate "__RS"
    rw [resolve_counter] at hR hf he
    have hs := set_rel h "__RS" 0
    rw [Spec.set, resolve_counter] at hs
    rw [he] at hc hs
    have hm := modifiable_eq hR.inv (find_mem hf)
    have key : ∀ good, (findOrCreate "__RS" s).1.type = .set ∨ (findOrCreate "__RS" s).1.type = .undefined →
        Rel (createSet "__RS" 0 s) good → Spec.enter "__RS" (Spec.define ["__RS"] (.variable 0) w) = good →
        ∃ x s', (if ((findOrCreate "__RS" s).1.flags.modifiable && canBeType (findOrCreate "__RS" s).1 .set) = true then
            ((createSet "__RS" 0 s).deref (findOrCreate "__RS" s).1.id).bind fun x =>
              .ok (x, { createSet "__RS" 0 s with rs := some (findOrCreate "__RS" s).1.id })
            else .ub) = .ok (x, s') ∧ Rel s' { good with rs := true } ∧ find ["__RS"] s' = some x ∧ x.type = .set ∧
          x.integer = 0 := by
      intro good ht hg _
      have hcond : ((findOrCreate "__RS" s).1.flags.modifiable && canBeType (findOrCreate "__RS" s).1 .set) = true := by
        rw [hm]
        rcases ht with ht | ht <;> simp [ht, canBeType]
      rw [if_pos hcond]
      have hcs : createSet "__RS" 0 s = ((findOrCreate "__RS" s).2.put
          { setType .set (findOrCreate "__RS" s).1 with integer := 0 }).enter (findOrCreate "__RS" s).1 := by
        unfold createSet createOfType
        simp only [hcond, if_true]
      have hfx : find ["__RS"] (createSet "__RS" 0 s) =
          some { setType .set (findOrCreate "__RS" s).1 with integer := 0 } := by
        have ht : (((findOrCreate "__RS" s).2.put
          { setType .set (findOrCreate "__RS" s).1 with integer := 0 }).enter (findOrCreate "__RS" s).1).table = ((findOrCreate "__RS" s).2.put
          { setType .set (findOrCreate "__RS" s).1 with integer := 0 }).table := by
          unfold State.enter
          split <;> rfl
        rw [hcs, find_congr ht, find_put hR.inv (find_mem hf) (x' := { setType .set (findOrCreate "__RS" s).1 with integer := 0 }) rfl rfl rfl, hf,
          Option.map_some]
        exact congrArg some (upd_self rfl)
      refine ⟨{ setType .set (findOrCreate "__RS" s).1 with integer := 0 },
        { createSet "__RS" 0 s with rs := some (findOrCreate "__RS" s).1.id }, ?_, ?_, ?_, rfl, rfl⟩
      · have := deref_eq hg.inv (find_mem hfx)
        have hid : ({ setType .set (findOrCreate "__RS" s).1 with integer := 0 } : Symbol).id = (findOrCreate "__RS" s).1.id := rfl
        rw [hid] at this
        rw [this]
        rfl
      · refine hg.same rfl rfl rfl hg.cur hg.stack rfl ?_ hg.early hg.errors
        intro id hid
        have hid : some (findOrCreate "__RS" s).1.id = some id := hid
        exact ⟨_, hfx, Option.some.inj hid⟩
      · rw [find_congr (s := createSet "__RS" 0 s)]
        · exact hfx
        · rfl
    simp only [entryOf, defOf] at hc hs
    cases ht : (findOrCreate "__RS" s).1.type <;> simp only [ht, Option.some.injEq, Prod.mk.injEq, reduceCtorEq] at hc hs
    all_goals
      obtain ⟨rfl, rfl⟩ := hc
      exact key _ (by simp [ht]) hs rfl

theorem int32_fits {v : Int} (h : Spec.fits v) : int32 v = .ok v := if_pos h

/-- Storing a new value. -/
theorem assign_rel {s : State} {w : World} (h : Rel s w) {p : Path} {x : Symbol} (hx : find p s = some x) {d : Def}
    (v : Int) (hd : (x.type = .set ∧ d = .variable v) ∨ (x.type = .structure ∧ d = .struct v)) :
    Rel (s.put { x with integer := v }) (Spec.define p d w) := by
  obtain ⟨ht, he⟩ := h.touch hx
  refine ht.define hx he rfl rfl rfl (h.inv.flags x (find_mem hx)) ?_
  rcases hd with ⟨hd, rfl⟩ | ⟨hd, rfl⟩ <;> simp [entryOf, defOf, hd]

theorem setRs_rel {s : State} {w : World} (h : Rel s w) (v : Int) : Refines (setRs v s) (Spec.setCounter v w) := by
  unfold setRs Spec.setCounter
  cases hc : Spec.counter w with
  | none => trivial
  | some r =>
    obtain ⟨u, w'⟩ := r
    obtain ⟨x, s', h1, h2, h3, h4, _⟩ := counter_rel h hc
    rw [h1]
    exact ⟨_, rfl, assign_rel h2 h3 v (Or.inl ⟨h4, rfl⟩)⟩

theorem incrementRs_rel {s : State} {w w' : World} (h : Rel s w) {size v : Int} (ha : Spec.advance size w = some (v, w')) :
    ∃ s', incrementRs size s = .ok (v, s') ∧ Rel s' w' := by
  unfold Spec.advance at ha
  unfold incrementRs
  cases hc : Spec.counter w with
  | none => rw [hc] at ha; cases ha
  | some r =>
    obtain ⟨u, w1⟩ := r
    rw [hc] at ha
    simp only at ha
    split at ha
    · rename_i hf
      simp only [Option.some.injEq, Prod.mk.injEq] at ha
      obtain ⟨rfl, rfl⟩ := ha
      obtain ⟨x, s', h1, h2, h3, h4, h5⟩ := counter_rel h hc
      rw [h1]
      simp only [ok_bind, h5]
      rw [int32_fits hf]
      exact ⟨_, rfl, assign_rel h2 h3 _ (Or.inl ⟨h4, rfl⟩)⟩
    · cases ha

theorem dotLocal_eq (n : String) : (n.toList.head? = some '.') ↔ isDotLocal n = true := by
  unfold isDotLocal
  simp

/-- The scope of the program and that of the dictionary. -/
theorem cur_find {s : State} {w : World} (h : Rel s w) :
    (s.scope = none ∧ w.cur = [] ∧ (w.entry w.cur).d = .unknown) ∨
    ∃ x, s.scope = some x.id ∧ find w.cur s = some x ∧ s.deref x.id = .ok x ∧ w.entry w.cur = entryOf x := by
  cases hs : s.scope with
  | none =>
    left
    have := h.cur
    rw [hs] at this
    have hc := scopeAt_none this
    refine ⟨rfl, hc, ?_⟩
    rw [World.entry, h.get, hc]
    rfl
  | some id =>
    right
    have := h.cur
    rw [hs] at this
    obtain ⟨x, hx, hid⟩ := scopeAt_find this
    exact ⟨x, by rw [hid], hx, deref_eq h.inv (find_mem hx), (h.touch hx).2⟩

theorem field_rel {s : State} {w : World} (h : Rel s w) (n : String) (m : Nat) (c : Int) :
    Refines (rsSymbol n m c s) (Spec.field n m c w) := by
  unfold rsSymbol Spec.field
  by_cases hfit : Spec.fits (m * c)
  · rw [if_pos hfit]
    rw [int32_fits hfit]
    simp only [ok_bind]
    by_cases hd : n.toList.head? = some '.'
    · rw [if_pos hd, if_pos ((dotLocal_eq n).mp hd)]
      rcases cur_find h with ⟨h1, h2, h3⟩ | ⟨x, h1, h2, h3, h4⟩
      · rw [h1, h3]
        exact ⟨_, rfl, h.fail⟩
      · rw [h1, h4]
        simp only [h3, ok_bind]
        by_cases ht : x.type = .structure
        · rw [if_pos ht]
          have hdx : (entryOf x).d = .struct x.integer := by simp [entryOf, defOf, ht]
          rw [hdx]
          simp only
          cases ha : Spec.advance (m * c) w with
          | none => trivial
          | some r =>
            obtain ⟨v, w1⟩ := r
            obtain ⟨s1, h5, h6⟩ := incrementRs_rel h ha
            rw [h5]
            simp only [ok_bind]
            have h7 := set_rel h6 n v
            generalize createSet n v s1 = s2 at h7 ⊢
            generalize Spec.set n v w1 = w2 at h7 ⊢
            rcases cur_find h7 with ⟨h8, h9, h10⟩ | ⟨y, h8, h9, h10, h11⟩
            · rw [h10]
              trivial
            · rw [h8, h11]
              simp only [h10, ok_bind, entryOf]
              split
              · rename_i u hdy
                obtain ⟨hy1, hy2⟩ := struct_type hdy
                split
                · rename_i hf2
                  rw [hy2, int32_fits hf2]
                  exact ⟨_, rfl, assign_rel h7 h9 _ (Or.inr ⟨hy1, rfl⟩)⟩
                · trivial
              · trivial
        · rw [if_neg ht]
          have : ∀ v, (entryOf x).d ≠ .struct v := by
            intro v hv
            exact ht (struct_type hv).1
          split
          · rename_i u hu
            exact absurd hu (this u)
          · exact ⟨_, rfl, h.fail⟩
    · rw [if_neg hd, if_neg (fun h => hd ((dotLocal_eq n).mpr h))]
      cases ha : Spec.advance (m * c) w with
      | none => trivial
      | some r =>
        obtain ⟨v, w1⟩ := r
        obtain ⟨s1, h5, h6⟩ := incrementRs_rel h ha
        rw [h5]
        exact ⟨_, rfl, set_rel h6 n v⟩
  · rw [if_neg hfit]
    trivial

theorem begin_rel {s : State} {w : World} (h : Rel s w) (n : String) (v : Int) :
    Refines (rsSetSymbol n v s) (Spec.begin_ n v w) := by
  unfold rsSetSymbol Spec.begin_
  apply (setRs_rel h v).bind
  intro s1 w1 h1
  refine ⟨_, rfl, ?_⟩
  by_cases hd : n.toList.head? = some '.'
  · rw [if_pos hd, if_pos ((dotLocal_eq n).mp hd)]
    exact set_rel h1 n v
  · rw [if_neg hd, if_neg (fun h => hd ((dotLocal_eq n).mpr h))]
    exact struct_rel h1 n v

theorem end_rel {s : State} {w : World} (h : Rel s w) : Refines (endStructure s) (Spec.end_ w) := by
  unfold endStructure Spec.end_
  rcases cur_find h with ⟨h1, h2, h3⟩ | ⟨x, h1, h2, h3, h4⟩
  · rw [h1, h3]
    exact ⟨_, rfl, h.fail⟩
  · rw [h1, h4]
    simp only [h3, ok_bind]
    by_cases ht : x.type = .structure
    · have hdx : (entryOf x).d = .struct x.integer := by simp [entryOf, defOf, ht]
      rw [if_pos ht, hdx]
      simp only
      cases hr : s.rs with
      | none =>
        rw [h.rs, hr]
        simp only [Option.isSome_none, Bool.false_eq_true, if_false]
        refine ⟨_, rfl, h.same rfl rfl rfl rfl h.stack ?_ ?_ h.early h.errors⟩
        · rfl
        · intro id hid
          cases hid
      | some id =>
        rw [h.rs, hr]
        simp only [Option.isSome_some, if_true]
        obtain ⟨y, hy1, hy2⟩ := h.counter id hr
        obtain ⟨_, hey⟩ := h.touch hy1
        rw [hey, ← hy2]
        simp only [deref_eq h.inv (find_mem hy1), ok_bind, entryOf]
        split
        · rename_i v hv
          obtain ⟨_, hv2⟩ := variable_type hv
          have ha := assign_rel h h2 v (Or.inr ⟨ht, rfl⟩)
          rw [hv2]
          refine ⟨_, rfl, ha.same rfl rfl rfl rfl ha.stack ha.rs ha.counter ha.early ha.errors⟩
        · trivial
    · rw [if_neg ht]
      have : ∀ v, (entryOf x).d ≠ .struct v := by
        intro v hv
        exact ht (struct_type hv).1
      split
      · rename_i u hu
        exact absurd hu (this u)
      · exact ⟨_, rfl, h.fail⟩

theorem mentionIn_rel : ∀ (ns : List String) {s : State} {w : World} {p : Path} {x : Symbol}, Rel s (w.touch p) →
    find p s = some x → Rel (mentionIn ns x.id s).2 (Spec.mention ns p w) ∧
      ∃ y, find (ns.reverse ++ p) (mentionIn ns x.id s).2 = some y ∧ y.id = (mentionIn ns x.id s).1
  | [], _, _, _, x, h, hx => ⟨h, x, hx, rfl⟩
  | n :: ns, s, w, p, x, h, hx => by
    unfold mentionIn Spec.mention
    obtain ⟨h1, h2, _⟩ := h.findOrCreateIn n (find_scopeAt hx)
    have := mentionIn_rel ns h1 h2
    simp only [List.reverse_cons, List.append_assoc, List.cons_append, List.nil_append]
    exact this

theorem mention_rel {s : State} {w : World} (h : Rel s w) (n : String) (more : List String) :
    Rel (mention n more s).2 (Spec.mention more (Spec.resolve n w) w) ∧
      ∃ y, find (more.reverse ++ Spec.resolve n w) (mention n more s).2 = some y ∧ y.id = (mention n more s).1 := by
  unfold mention
  obtain ⟨h1, h2, _⟩ := h.findOrCreate n
  exact mentionIn_rel more h1 h2

/-! ## Histories -/

theorem step_refines (op : Op) {s : State} {w : World} (h : Rel s w) : Refines (step op s) (Spec.step op w) := by
  cases op with
  | equ n v => exact equ_rel h n v
  | set n v => exact ⟨_, rfl, set_rel h n v⟩
  | equs n t => exact ⟨_, rfl, equs_rel h n t⟩
  | «macro» n t => exact ⟨_, rfl, macro_rel h n t⟩
  | label n l => exact label_rel h n l
  | group n b => exact ⟨_, rfl, group_rel h n b⟩
  | export_ n => exact export_rel h n
  | import_ n => exact ⟨_, rfl, import_rel h n⟩
  | global n => exact global_rel h n
  | purge n => exact purge_rel h n
  | rsset v => exact setRs_rel h v
  | rsskip m c =>
    simp only [step, Spec.step]
    split
    · rename_i hf
      rw [int32_fits hf]
      simp only [ok_bind]
      cases ha : Spec.advance (c * m) w with
      | none => trivial
      | some r =>
        obtain ⟨v, w1⟩ := r
        obtain ⟨s1, h5, h6⟩ := incrementRs_rel h ha
        rw [h5]
        exact ⟨_, rfl, h6⟩
    · trivial
  | rsbegin n v => exact begin_rel h n v
  | rsfield n m c => exact field_rel h n m c
  | rsend => exact end_rel h
  | push =>
    refine ⟨_, rfl, h.same rfl rfl rfl h.cur ?_ h.rs h.counter h.early h.errors⟩
    simp only [List.map_cons, h.cur, h.stack]
  | pop =>
    simp only [step, Spec.step]
    have hst := h.stack
    cases hs : s.stack with
    | nil =>
      rw [hs] at hst
      simp only [List.map_nil, List.map_eq_nil_iff] at hst
      rw [hst]
      exact ⟨_, rfl, h.fail⟩
    | cons a st =>
      rw [hs] at hst
      cases hw : w.stack with
      | nil => rw [hw] at hst; cases hst
      | cons p ps =>
        rw [hw] at hst
        simp only [List.map_cons, List.cons.injEq] at hst
        exact ⟨_, rfl, h.same rfl rfl rfl hst.1 hst.2 h.rs h.counter h.early h.errors⟩
  | mention n more => exact ⟨_, rfl, (mention_rel h n more).1⟩

theorem run_refines : ∀ (ops : List Op) {s : State} {w : World}, Rel s w → Refines (run ops s) (Spec.run ops w)
  | [], _, _, h => ⟨_, rfl, h⟩
  | op :: ops, _, _, h => (step_refines op h).bind fun _ _ h => run_refines ops h

end Verif.Symbol
