import Verif.Section.Refine
/-!
# What directives leave alone
-/
namespace Verif.Section
open Spec (Cell Area World limit)

variable {α : Type}

/-- Only the current section may differ. -/
structure Frame (s t : State α) : Prop where
  current : t.current = s.current
  length : t.sections.length = s.sections.length
  others : ∀ i : Nat, s.current ≠ some i → t.sections[i]? = s.sections[i]?
  stack : t.stack = s.stack
  scope : t.scope = s.scope

theorem Frame.refl (s : State α) : Frame s s := ⟨rfl, rfl, fun _ _ => rfl, rfl, rfl⟩

theorem Frame.trans {s t u : State α} (h : Frame s t) (k : Frame t u) : Frame s u :=
  ⟨k.current.trans h.current, k.length.trans h.length,
    fun i hi => (k.others i (by rw [h.current]; exact hi)).trans (h.others i hi), k.stack.trans h.stack,
    k.scope.trans h.scope⟩

theorem Frame.error (s : State α) : Frame s s.error := ⟨rfl, rfl, fun _ _ => rfl, rfl, rfl⟩

theorem Frame.set (s : State α) (x : Sect α) : Frame s (s.set x) := by
  unfold State.set
  cases hc : s.current with
  | none => exact Frame.refl s
  | some i =>
    refine ⟨hc.symm, by simp, ?_, rfl, rfl⟩
    intro j hj
    have : i ≠ j := by
      intro e
      apply hj
      rw [hc, e]
    simp [this]

theorem checkSpace_frame {cfg : Config} {n : Nat} {s : State α} {r : Bool × State α} (h : checkSpace cfg n s = .ok r) :
    Frame s r.2 := by
  unfold checkSpace at h
  split at h
  · cases h
    exact Frame.refl s
  · split at h
    · split at h
      · cases h
        exact Frame.error s
      · split at h
        · cases h
          exact Frame.refl s
        · obtain ⟨x, -, hx⟩ := bind_ok h
          cases hx
          exact Frame.set s _
    · cases h

theorem outputConst_frame {cfg : Config} {env : Env} {size : Size} {v : Nat} {s s' : State α}
    (h : outputConst cfg env size v s = .ok s') : Frame s s' := by
  unfold outputConst at h
  split at h
  · obtain ⟨r, hr, h⟩ := bind_ok h
    have hc := checkSpace_frame hr
    split at h
    · split at h
      · cases h
      · split at h
        · cases h
          exact hc.trans (Frame.error _)
        · obtain ⟨x, -, h⟩ := bind_ok h
          cases h
          exact hc.trans (Frame.set _ _)
    · cases h
      exact hc
  · cases h

theorem fill_frame {cfg : Config} {env : Env} : ∀ (n : Nat) {s s' : State α}, fill cfg env n s = .ok s' → Frame s s'
  | 0, s, s', h => by
    cases h
    exact Frame.refl _
  | 1, s, s', h => outputConst_frame h
  | n + 2, s, s', h => by
    rw [fill] at h
    obtain ⟨t, ht, h⟩ := bind_ok h
    exact (outputConst_frame ht).trans (fill_frame n h)

theorem skipBytes_frame {cfg : Config} {env : Env} {n : Nat} {s s' : State α}
    (h : skipBytes cfg env n s = .ok s') : Frame s s' := by
  unfold skipBytes at h
  split at h
  · cases h
    exact Frame.refl _
  · split at h
    · obtain ⟨r, hr, h⟩ := bind_ok h
      have hc := checkSpace_frame hr
      split at h
      · split at h
        · cases h
        · simp only at h
          split at h
          · cases h
            exact (hc.trans (Frame.set _ _)).trans (Frame.set _ _)
          · exact (hc.trans (Frame.set _ _)).trans (fill_frame _ h)
      · cases h
        exact hc
    · cases h

theorem outputReloc_frame {cfg : Config} {env : Env} {size : Size} {e : α} {s s' : State α}
    (h : outputReloc cfg env size e s = .ok s') : Frame s s' := by
  unfold outputReloc at h
  split at h
  · obtain ⟨r, hr, h⟩ := bind_ok h
    have hc := checkSpace_frame hr
    split at h
    · split at h
      · cases h
      · split at h
        · exact (hc.trans (Frame.error _)).trans (skipBytes_frame h)
        · obtain ⟨x, -, h⟩ := bind_ok h
          cases h
          exact hc.trans (Frame.set _ _)
    · cases h
      exact hc
  · cases h

theorem outputBinary_frame {cfg : Config} {env : Env} {bs : Bytes} {s s' : State α}
    (h : outputBinary cfg env bs s = .ok s') : Frame s s' := by
  unfold outputBinary at h
  obtain ⟨r, hr, h⟩ := bind_ok h
  have hc := checkSpace_frame hr
  split at h
  · split at h
    · cases h
    · split at h
      · cases h
        exact hc.trans (Frame.error _)
      · simp only at h
        split at h
        · cases h
          exact hc.trans (Frame.set _ _)
        · cases h
  · cases h
    exact hc

theorem switchTo_prefix (name : String) (g : Group) (s : State α) : s.sections <+: (switchTo name g s).sections := by
  unfold switchTo
  split
  · exact List.prefix_rfl
  · unfold create
    simp only
    split <;> exact List.prefix_append _ _

theorem switchKind_prefix {cfg : Config} {name : String} {g : Group} {k : Kind} {s s' : State α}
    (h : switchKind cfg name g k s = .ok s') : s.sections <+: s'.sections := by
  unfold switchKind at h
  split at h
  · cases h
  · split at h
    · split at h
      · cases h
      · split at h <;> cases h <;> exact List.prefix_rfl
    · simp only at h
      cases h
      unfold create
      simp only
      split <;> exact List.prefix_append _ _

theorem prefix_get {β : Type} {l m : List β} (h : l <+: m) {i : Nat} (hi : i < l.length) : m[i]? = l[i]? := by
  obtain ⟨t, rfl⟩ := h
  rw [List.getElem?_append_left hi]

/-- A directive changes at most the section that is selected, whatever the state is. -/
theorem step_others {cfg : Config} {env : Env} {op : Op α} {s s' : State α} (h : step cfg env op s = .ok s') :
    ∀ i : Nat, i < s.sections.length → s.current ≠ some i → s'.sections[i]? = s.sections[i]? := by
  intro i hi hne
  cases op with
  | const size v => exact (outputConst_frame h).others i hne
  | expr size e =>
    simp only [step, outputExpr] at h
    split at h
    · cases e with
      | missing =>
        cases h
        rfl
      | known v => exact (outputConst_frame h).others i hne
      | later e => exact (outputReloc_frame h).others i hne
    · cases h
  | skip n => exact (skipBytes_frame h).others i hne
  | align n =>
    simp only [step, alignBytes] at h
    split at h
    · split at h
      · cases h
      · obtain ⟨t, -, h⟩ := bind_ok h
        exact (skipBytes_frame h).others i hne
    · cases h
  | binary bs => exact (outputBinary_frame h).others i hne
  | «section» name g k =>
    cases k with
    | none =>
      cases h
      exact prefix_get (switchTo_prefix _ _ _) hi
    | some k => exact prefix_get (switchKind_prefix h) hi
  | named name =>
    cases h
    unfold switchName
    split <;> rfl
  | org v =>
    cases h
    unfold setOrigin
    split
    · rfl
    · exact (Frame.set _ _).others i hne
  | scope v =>
    cases h
    rfl
  | push =>
    cases h
    rfl
  | pop =>
    cases h
    unfold pop
    split <;> rfl

/-! ## Areas only grow -/

/-- An area that is the continuation of another. -/
structure Continues (y y' : Area α) : Prop where
  name : y'.name = y.name
  group : y'.group = y.group
  attributes : y'.attributes = y.attributes
  cells : y.cells <+: y'.cells
  holes : y.holes <+: y'.holes
  behind : ∀ p ∈ y'.holes, p ∈ y.holes ∨ y.cells.length ≤ p.offset

theorem Continues.refl (y : Area α) : Continues y y := ⟨rfl, rfl, rfl, List.prefix_rfl, List.prefix_rfl, fun _ h => .inl h⟩

theorem Continues.trans {x y z : Area α} (h : Continues x y) (k : Continues y z) : Continues x z :=
  ⟨k.name.trans h.name, k.group.trans h.group, k.attributes.trans h.attributes, h.cells.trans k.cells,
    h.holes.trans k.holes, fun p hp => (k.behind p hp).elim (h.behind p) fun hp => .inr (Nat.le_trans h.cells.length_le hp)⟩

/-- Every area of a world is continued by the one at the same place. -/
def Extends (w w' : World α) : Prop :=
  ∀ (i : Nat) (y : Area α), w.areas[i]? = some y → ∃ y', w'.areas[i]? = some y' ∧ Continues y y'

theorem Extends.refl (w : World α) : Extends w w := fun _ y h => ⟨y, h, Continues.refl y⟩

theorem Extends.trans {u v w : World α} (h : Extends u v) (k : Extends v w) : Extends u w := by
  intro i y hy
  obtain ⟨y1, h1, c1⟩ := h i y hy
  obtain ⟨y2, h2, c2⟩ := k i y1 h1
  exact ⟨y2, h2, c1.trans c2⟩

theorem extends_put {w : World α} {y y' : Area α} (hy : w.area = some y) (h : Continues y y') : Extends w (w.put y') := by
  obtain ⟨i, hc, hi, hyi⟩ := area_current hy
  intro j z hz
  unfold World.put
  simp only [hc, List.getElem?_set]
  by_cases hij : i = j
  · subst hij
    rw [hyi] at hz
    cases hz
    exact ⟨y', by simp [hi], h⟩
  · rw [if_neg hij]
    exact ⟨z, hz, Continues.refl z⟩

theorem extends_areas {w w' : World α} (h : w.areas <+: w'.areas) : Extends w w' := by
  intro i y hy
  refine ⟨y, ?_, Continues.refl y⟩
  rw [prefix_get h, hy]
  rw [List.getElem?_eq_some_iff] at hy
  exact hy.1

theorem emit_extends {pos : Pos} {bs : Bytes} {hs : List (Patch α)} {w w' : World α}
    (hh : ∀ y, w.area = some y → ∀ p ∈ hs, y.cells.length ≤ p.offset) (h : Spec.emit pos bs hs w = .good w') : Extends w w' := by
  unfold Spec.emit at h
  cases hy : w.area with
  | none => simp [hy] at h
  | some y =>
    rw [hy] at h
    simp only at h
    split at h
    · cases h
    · split at h
      · cases h
        exact extends_put hy ⟨rfl, rfl, rfl, List.prefix_append _ _, List.prefix_append _ _,
          fun p hp => (List.mem_append.1 hp).imp id (hh y hy p)⟩
      · cases h

theorem space_extends {env : Env} {n : Nat} {w w' : World α} (h : Spec.space env n w = .good w') : Extends w w' := by
  unfold Spec.space at h
  split at h
  · cases h
    exact Extends.refl _
  · cases hy : w.area with
    | none => simp [hy] at h
    | some y =>
      rw [hy] at h
      simp only at h
      split at h
      · cases h
        exact extends_put hy ⟨rfl, rfl, rfl, List.prefix_append _ _, List.prefix_rfl, fun _ h => .inl h⟩
      · cases h

theorem select_extends {name : String} {g : Group} {k : Option Kind} {w w' : World α}
    (h : Spec.select name g k w = .good w') : Extends w w' := by
  unfold Spec.select at h
  split at h
  · cases h
    exact extends_areas (List.prefix_append _ _)
  · split at h
    · cases h
    · split at h
      · cases h
      · split at h
        · cases h
          exact extends_areas List.prefix_rfl
        · split at h
          · cases h
            exact extends_areas List.prefix_rfl
          · cases h

theorem spec_step_extends {cfg : Config} {env : Env} {op : Op α} {w w' : World α}
    (h : Spec.step cfg env op w = .good w') : Extends w w' := by
  cases op with
  | const size v =>
    simp only [Spec.step] at h
    split at h
    · exact emit_extends (by intro y _ p hp; cases hp) h
    · cases h
  | expr size e =>
    simp only [Spec.step] at h
    split at h
    · cases e with
      | missing => cases h
      | known v => exact emit_extends (by intro y _ p hp; cases hp) h
      | later e =>
        refine emit_extends ?_ h
        intro y hy p hp
        rw [hy, List.mem_singleton] at hp
        rw [hp]
        exact Nat.le_refl _
    · cases h
  | skip n =>
    simp only [Spec.step] at h
    split at h
    · exact space_extends h
    · cases h
  | align n =>
    simp only [Spec.step] at h
    split at h
    · cases h
    · split at h
      · exact space_extends h
      · cases h
  | binary bs =>
    simp only [Spec.step] at h
    split at h
    · exact emit_extends (by intro y _ p hp; cases hp) h
    · cases h
  | «section» name g k =>
    simp only [Spec.step] at h
    split at h
    · exact select_extends h
    · split at h
      · cases h
      · split at h
        · cases h
        · exact select_extends h
  | named name =>
    simp only [Spec.step] at h
    split at h
    · cases h
      exact extends_areas List.prefix_rfl
    · cases h
  | org v =>
    simp only [Spec.step] at h
    cases hy : w.area with
    | none => simp [hy] at h
    | some y =>
      rw [hy] at h
      cases h
      exact extends_put hy ⟨rfl, rfl, rfl, List.prefix_rfl, List.prefix_rfl, fun _ h => .inl h⟩
  | scope v =>
    cases h
    exact Extends.refl _
  | push =>
    cases h
    exact Extends.refl _
  | pop =>
    simp only [Spec.step] at h
    split at h
    · cases h
      exact extends_areas List.prefix_rfl
    · cases h

theorem spec_run_extends {cfg : Config} : ∀ {ops : List (Env × Op α)} {w w' : World α},
    Spec.run cfg ops w = .good w' → Extends w w'
  | [], w, w', h => by
    cases h
    exact Extends.refl _
  | (env, op) :: ops, w, w', h => by
    rw [Spec.run] at h
    cases hs : Spec.step cfg env op w with
    | good w1 =>
      rw [hs] at h
      exact (spec_step_extends hs).trans (spec_run_extends h)
    | bad =>
      rw [hs] at h
      cases h
    | outside =>
      rw [hs] at h
      cases h

/-! ## Holes -/

/-- Holes lie inside of the area, one behind the other. -/
structure Holes (y : Area α) : Prop where
  inside : ∀ p ∈ y.holes, p.offset + p.size.bytes ≤ y.cells.length
  apart : y.holes.Pairwise fun p q => p.offset + p.size.bytes ≤ q.offset

def HolesAll (w : World α) : Prop := ∀ y ∈ w.areas, Holes y

theorem holes_put {w : World α} {y : Area α} (h : HolesAll w) (hy : Holes y) : HolesAll (w.put y) := by
  unfold World.put
  split
  · intro z hz
    rcases List.mem_or_eq_of_mem_set hz with hz | rfl
    · exact h z hz
    · exact hy
  · exact h

theorem area_mem {w : World α} {y : Area α} (hy : w.area = some y) : y ∈ w.areas := by
  obtain ⟨i, -, -, h⟩ := area_current hy
  exact List.mem_of_getElem? h

theorem holes_step {cfg : Config} {env : Env} {op : Op α} {w w' : World α} (hw : HolesAll w)
    (h : Spec.step cfg env op w = .good w') : HolesAll w' := by
  have hemit : ∀ {bs : Bytes} {w' : World α}, Spec.emit env.pos bs [] w = .good w' → HolesAll w' := by
    intro bs w' h
    unfold Spec.emit at h
    cases hy : w.area with
    | none => simp [hy] at h
    | some y =>
      rw [hy] at h
      simp only at h
      split at h
      · cases h
      · split at h
        · cases h
          have hh := hw y (area_mem hy)
          refine holes_put hw ⟨?_, ?_⟩
          · intro p hp
            simp only [List.append_nil] at hp
            have := hh.inside p hp
            simp only [List.length_append]
            omega
          · simpa using hh.apart
        · cases h
  have hspace : ∀ {n : Nat} {w' : World α}, Spec.space env n w = .good w' → HolesAll w' := by
    intro n w' h
    unfold Spec.space at h
    split at h
    · cases h
      exact hw
    · cases hy : w.area with
      | none => simp [hy] at h
      | some y =>
        rw [hy] at h
        simp only at h
        split at h
        · cases h
          have hh := hw y (area_mem hy)
          refine holes_put hw ⟨?_, hh.apart⟩
          intro p hp
          have := hh.inside p hp
          simp only [List.length_append]
          omega
        · cases h
  have hselect : ∀ {name : String} {g : Group} {k : Option Kind} {w' : World α},
      Spec.select name g k w = .good w' → HolesAll w' := by
    intro name g k w' h
    unfold Spec.select at h
    split at h
    · cases h
      intro y hy
      rcases List.mem_append.1 hy with hy | hy
      · exact hw y hy
      · simp only [List.mem_singleton] at hy
        subst hy
        exact ⟨by simp, List.Pairwise.nil⟩
    · split at h
      · cases h
      · split at h
        · cases h
        · split at h
          · cases h
            exact hw
          · split at h
            · cases h
              exact hw
            · cases h
  cases op with
  | const size v =>
    simp only [Spec.step] at h
    split at h
    · exact hemit h
    · cases h
  | expr size e =>
    simp only [Spec.step] at h
    split at h
    · cases e with
      | missing => cases h
      | known v => exact hemit h
      | later e =>
        simp only at h
        unfold Spec.emit at h
        cases hy : w.area with
        | none => simp [hy] at h
        | some y =>
          rw [hy] at h
          simp only at h
          split at h
          · cases h
          · split at h
            · cases h
              have hh := hw y (area_mem hy)
              refine holes_put hw ⟨?_, ?_⟩
              · intro p hp
                simp only [List.length_append, List.length_map, List.length_replicate]
                rcases List.mem_append.1 hp with hp | hp
                · have := hh.inside p hp
                  omega
                · simp only [List.mem_singleton] at hp
                  subst hp
                  exact Nat.le_refl _
              · simp only
                rw [List.pairwise_append]
                refine ⟨hh.apart, by simp, ?_⟩
                intro p hp q hq
                simp only [List.mem_singleton] at hq
                subst hq
                exact hh.inside p hp
            · cases h
    · cases h
  | skip n =>
    simp only [Spec.step] at h
    split at h
    · exact hspace h
    · cases h
  | align n =>
    simp only [Spec.step] at h
    split at h
    · cases h
    · split at h
      · exact hspace h
      · cases h
  | binary bs =>
    simp only [Spec.step] at h
    split at h
    · exact hemit h
    · cases h
  | «section» name g k =>
    simp only [Spec.step] at h
    split at h
    · exact hselect h
    · split at h
      · cases h
      · split at h
        · cases h
        · exact hselect h
  | named name =>
    simp only [Spec.step] at h
    split at h
    · cases h
      exact hw
    · cases h
  | org v =>
    simp only [Spec.step] at h
    cases hy : w.area with
    | none => simp [hy] at h
    | some y =>
      rw [hy] at h
      cases h
      have hh := hw y (area_mem hy)
      exact holes_put hw ⟨hh.inside, hh.apart⟩
  | scope v =>
    cases h
    exact hw
  | push =>
    cases h
    exact hw
  | pop =>
    simp only [Spec.step] at h
    split at h
    · cases h
      exact hw
    · cases h

theorem holes_run {cfg : Config} : ∀ {ops : List (Env × Op α)} {w w' : World α}, HolesAll w →
    Spec.run cfg ops w = .good w' → HolesAll w'
  | [], w, w', hw, h => by
    cases h
    exact hw
  | (env, op) :: ops, w, w', hw, h => by
    rw [Spec.run] at h
    cases hs : Spec.step cfg env op w with
    | good w1 =>
      rw [hs] at h
      exact holes_run (holes_step hw hs) h
    | bad =>
      rw [hs] at h
      cases h
    | outside =>
      rw [hs] at h
      cases h

end Verif.Section
