import Verif.Smart.Lemmas
/-!
# Smart linking keeps exactly what is reachable (C10)
-/
namespace Verif.Smart

theorem need_section {secs : List Sect} (hn : NoPhantom secs) {i : Nat} {s : Sect} (hs : secs[i]? = some s) {j : Nat} :
    Need.section j ∈ s.symbols.map (need secs s) ↔ Refs secs i j := by
  rw [List.mem_map]
  constructor
  · rintro ⟨y, hy, h⟩
    refine ⟨s, y, hs, hy, ?_⟩
    unfold need at h
    split at h
    next ht =>
      split at h
      next k hk => injection h with h; subst h; exact .inr ⟨ht, (findLocal_iff hn).1 hk⟩
      · cases h
    next ht =>
      split at h
      next k hk => injection h with h; subst h; exact .inl ⟨ht, (findGlobal_iff hn).1 hk⟩
      · cases h
    · cases h
  · rintro ⟨s', y, hs', hy, h⟩
    rw [hs] at hs'
    obtain rfl := Option.some.inj hs'
    refine ⟨y, hy, ?_⟩
    rcases h with ⟨ht, h⟩ | ⟨ht, h⟩
    · simp only [need, ht, (findGlobal_iff hn).2 h]
    · simp only [need, ht, (findLocal_iff hn).2 h]

/-- Section `i` imports a name that nobody exports (or that is a constant which does not point into a section of the
file that exports it). -/
def Lacks (secs : List Sect) (i : Nat) : Prop :=
  ∃ s y, secs[i]? = some s ∧ y ∈ s.symbols ∧ y.type = .imported ∧ ∀ j, ¬ Provides secs y.name j

theorem need_missing {secs : List Sect} (hn : NoPhantom secs) {i : Nat} {s : Sect} (hs : secs[i]? = some s) :
    Need.missing ∈ s.symbols.map (need secs s) ↔ Lacks secs i := by
  rw [List.mem_map]
  constructor
  · rintro ⟨y, hy, h⟩
    unfold need at h
    split at h
    · split at h <;> cases h
    next ht =>
      split at h
      · cases h
      next hk =>
        refine ⟨s, y, hs, hy, ht, fun j hj => ?_⟩
        rw [(findGlobal_iff hn).2 hj] at hk
        cases hk
    · cases h
  · rintro ⟨s', y, hs', hy, ht, h⟩
    rw [hs] at hs'
    obtain rfl := Option.some.inj hs'
    refine ⟨y, hy, ?_⟩
    have : findGlobal secs y.name = none := by
      cases hk : findGlobal secs y.name with
      | none => rfl
      | some k => exact absurd ((findGlobal_iff hn).1 hk) (h k)
    simp only [need, ht, this]

theorem through_kept {secs : List Sect} (hn : NoPhantom secs) (used0 : Marks) (entry : Bytes) :
    Through secs (Kept secs used0 entry) := by
  intro i s hi hs j hj
  exact .ref hi ((need_section hn hs).1 hj)

/-- **C10**, the part that holds: if smart linking succeeds, the sections that are used are exactly those that were
used before (linker symbols), the entry section, the ROOT sections and what these refer to, directly or indirectly;
and none of them imports a name that nobody provides. Missing: programs with constants that look like addresses in
sections without fixed address (`NoPhantom`), see `C10_constant_keeps_unrelated_section`. -/
theorem C10_keeps_reachable_partial (secs : List Sect) (used0 : Marks) (entry : Bytes) (hn : NoPhantom secs)
    (h0 : NoRefs secs used0) (m : Marks) (h : process secs used0 (some entry) = .ok m) :
    (∀ i, i ∈ m ↔ Kept secs used0 entry i) ∧ ∀ i ∈ m, ¬ Lacks secs i := by
  unfold process at h
  simp only at h
  split at h
  next m1 h1 =>
    obtain ⟨a1, a2, a3⟩ := (mark_ok _).2 _ _ _ h1
    obtain ⟨b1, b2, b3⟩ := markRoots_ok h
    have hm := a1.trans b1
    -- everything that is used is closed
    have hclosed : ∀ i ∈ m, ∀ s, secs[i]? = some s → ∀ n ∈ s.symbols.map (need secs s),
        n ≠ .missing ∧ ∀ j, n = .section j → j ∈ m := by
      intro i hi s hs n hns
      by_cases hu : i ∈ used0
      · obtain ⟨y, hy, rfl⟩ := List.mem_map.1 hns
        obtain ⟨t1, t2⟩ := h0 i hu s hs y hy
        have : need secs s y = .nothing := by
          unfold need
          split
          · exact absurd ‹_› t2
          · exact absurd ‹_› t1
          · rfl
        rw [this]
        exact ⟨by simp, by simp⟩
      · obtain ⟨s', hs', hc⟩ := hm.closed i hi hu
        rw [hs] at hs'
        obtain rfl := Option.some.inj hs'
        exact hc n hns
    constructor
    · intro i
      constructor
      · intro hi
        by_cases hu : i ∈ used0
        · exact .before hu
        · by_cases hi1 : i ∈ m1
          · refine a3 _ (through_kept hn used0 entry) ?_ i hi1 hu
            intro j hj
            rw [List.mem_singleton] at hj
            split at hj
            next k hk => injection hj with hj; subst hj; exact .entry ((findGlobal_iff hn).1 hk)
            · cases hj
          · refine b3 _ (through_kept hn used0 entry) ?_ i hi hi1
            intro j hj
            obtain ⟨_, s, hs, hr⟩ := roots_mem.1 hj
            exact .root (by simpa using hs) hr
      · intro hk
        induction hk with
        | before h => exact hm.sub _ h
        | entry h =>
          have := (findGlobal_iff hn).2 h
          have hx := a2 _ (List.mem_singleton.2 rfl)
          rw [this] at hx
          exact b1.sub _ (hx.2 _ rfl)
        | @root i s h hr => exact (b2 i (roots_mem.2 ⟨Nat.zero_le _, s, by simpa using h, hr⟩)).1
        | @ref i j _ hr ih =>
          obtain ⟨s, y, hs, hrest⟩ := hr
          have hr : Refs secs i j := ⟨s, y, hs, hrest⟩
          have := (need_section hn hs).2 hr
          exact (hclosed i ih s hs _ this).2 j rfl
    · intro i hi hl
      obtain ⟨s, y, hs, hrest⟩ := hl
      have := (need_missing hn hs).2 ⟨s, y, hs, hrest⟩
      exact (hclosed i hi s hs _ this).1 rfl
  · cases h
  · cases h

/-- **C10**: marking terminates, however the sections refer to each other. -/
theorem C10_terminates (secs : List Sect) (used0 : Marks) (entry : Option Bytes) :
    process secs used0 entry ≠ .ub := by
  cases entry with
  | none => simp [process]
  | some name =>
    unfold process
    simp only
    have h1 : ∀ n : Need, NeedsOk secs [n] → markAll secs (secs.length + 1) used0 [n] ≠ .ub := by
      intro n hn
      exact (mark_total _).2 _ _ hn (Nat.le_trans (unmarked_le _ _) (by omega))
    have h2 : ∀ is m, (∀ i ∈ is, i < secs.length) → markRoots secs (secs.length + 1) m is ≠ .ub := by
      intro is
      induction is with
      | nil => intro m _; simp [markRoots]
      | cons i is ih =>
        intro m hi
        unfold markRoots
        have := (mark_total (secs.length + 1)).1 m i (hi i (by simp))
          (Nat.lt_succ_of_le (unmarked_le _ _))
        split
        · exact ih _ (fun j hj => hi j (by simp [hj]))
        · simp
        next h => exact absurd h this
    split
    · refine h2 _ _ ?_
      intro i hi
      obtain ⟨_, s, hs, _⟩ := roots_mem.1 hi
      rw [List.getElem?_eq_some_iff] at hs
      simpa using hs.1
    · simp
    next h =>
      refine absurd h (h1 _ ?_)
      intro j hj
      rw [List.mem_singleton] at hj
      split at hj
      next k hk => injection hj with hj; subst hj; exact findGlobal_lt hk
      · cases hj

/-- **C10**: smart linking fails only if the entry symbol or an import of a section that has to be kept is provided
by nobody. -/
theorem C10_fails_only_without_definition (secs : List Sect) (used0 : Marks) (entry : Bytes) (hn : NoPhantom secs)
    (h : process secs used0 (some entry) = .fail) :
    (∀ j, ¬ Provides secs entry j) ∨ ∃ i, Kept secs used0 entry i ∧ Lacks secs i := by
  unfold process at h
  simp only at h
  have hX := through_kept hn used0 entry
  split at h
  next m1 h1 =>
    right
    have key : ∀ is m, (∀ i ∈ is, Kept secs used0 entry i) → markRoots secs (secs.length + 1) m is = .fail →
        ∃ i, Kept secs used0 entry i ∧ Lacks secs i := by
      intro is
      induction is with
      | nil => intro m _ h; simp [markRoots] at h
      | cons i is ih =>
        intro m hi h
        unfold markRoots at h
        split at h
        · exact ih _ (fun j hj => hi j (by simp [hj])) h
        next hf =>
          obtain ⟨k, s, hk, hs, hm⟩ := (mark_fail _ hX _).1 _ _ (hi i (by simp)) hf
          exact ⟨k, hk, (need_missing hn hs).1 hm⟩
        · cases h
    refine key _ _ ?_ h
    intro i hi
    obtain ⟨_, s, hs, hr⟩ := roots_mem.1 hi
    exact .root (by simpa using hs) hr
  next hf =>
    have hstart : ∀ j, Need.section j ∈ [match findGlobal secs entry with | some i => Need.section i | none => .missing] →
        Kept secs used0 entry j := by
      intro j hj
      rw [List.mem_singleton] at hj
      split at hj
      next k hk => injection hj with hj; subst hj; exact .entry ((findGlobal_iff hn).1 hk)
      · cases hj
    rcases (mark_fail _ hX _).2 _ _ hstart hf with h | ⟨k, s, hk, hs, hm⟩
    · left
      intro j hj
      rw [(findGlobal_iff hn).2 hj] at h
      simp at h
    · exact .inr ⟨k, hk, (need_missing hn hs).1 hm⟩
  · cases h

/-- Without an entry symbol every section is used. -/
theorem C10_everything_without_entry (secs : List Sect) (used0 : Marks) :
    ∃ m, process secs used0 none = .ok m ∧ ∀ i, i ∈ m ↔ i < secs.length :=
  ⟨_, rfl, by simp⟩

/-! ### A concrete case -/

def nm (n : Nat) : Bytes := [byte (97 + n)]

/-- Section 0: the linker symbols. 1: constants of file 1. 2: main `a`, imports `b` and the constant `f`, which points
into section 4. 3: `b`, imports `a`. 4: at $100. 5: imported by nobody. 6: root, imports `g` of its own file, section 7. -/
def demo : List Sect := [
  ⟨0, true, false, 0, 0, [⟨nm 12, .linker, 0⟩]⟩,
  ⟨1, true, false, -1, 0, [⟨nm 5, .exported, 0x104⟩]⟩,
  ⟨1, false, false, -1, 10, [⟨nm 0, .exported, 0⟩, ⟨nm 1, .imported, 0⟩, ⟨nm 5, .imported, 0⟩, ⟨nm 12, .imported, 0⟩]⟩,
  ⟨2, false, false, -1, 10, [⟨nm 1, .exported, 4⟩, ⟨nm 0, .imported, 0⟩]⟩,
  ⟨1, false, false, 0x100, 8, []⟩,
  ⟨2, false, false, -1, 5, [⟨nm 3, .exported, 0⟩]⟩,
  ⟨3, false, true, -1, 5, [⟨nm 6, .localImport, 0⟩]⟩,
  ⟨3, false, false, -1, 5, [⟨nm 6, .localExport, 2⟩]⟩]

instance : Decidable (NoPhantom secs) := by unfold NoPhantom; infer_instance

example : process demo [0] (some (nm 0)) = .ok [7, 6, 4, 3, 2, 0] := by decide +kernel
example : NoPhantom demo := by decide +kernel
example : NoRefs demo [0] := by
  intro i hi s hs y hy
  rw [List.mem_singleton] at hi
  subst hi
  obtain rfl := Option.some.inj hs
  rw [List.mem_singleton] at hy
  subst hy
  decide

/-! ### Where the code does not do what is expected -/

/-- The code violates C10: a constant that is a small number is taken for an address in a section that has no address
yet (`cpuLocation` is -1), and that unrelated section is kept. Here the constant 5 keeps section 2. -/
theorem C10_constant_keeps_unrelated_section :
    ∃ (secs : List Sect) (entry : Bytes) (m : Marks) (i : Nat), process secs [] (some entry) = .ok m ∧ i ∈ m ∧
      ¬ Kept secs [] entry i := by
  refine ⟨[⟨1, false, false, -1, 4, [⟨nm 0, .exported, 0⟩, ⟨nm 1, .imported, 0⟩]⟩,
    ⟨2, true, false, -1, 0, [⟨nm 1, .exported, 5⟩]⟩,
    ⟨2, false, false, -1, 100, []⟩], nm 0, [2, 0], 2, by decide +kernel, by decide, ?_⟩
  have key : ∀ name j, Provides [⟨1, false, false, -1, 4, [⟨nm 0, .exported, 0⟩, ⟨nm 1, .imported, 0⟩]⟩,
    ⟨2, true, false, -1, 0, [⟨nm 1, .exported, 5⟩]⟩,
    ⟨2, false, false, -1, 100, []⟩] name j → j = 0 := by
    intro name j h
    have hfirst : ∀ {i s}, First [⟨1, false, false, -1, 4, [⟨nm 0, .exported, 0⟩, ⟨nm 1, .imported, 0⟩]⟩,
      ⟨2, true, false, -1, 0, [⟨nm 1, .exported, 5⟩]⟩, ⟨2, false, false, -1, 100, []⟩] (Exports name) i s →
      i < 2 ∧ (s.equ = true ↔ i = 1) ∧ (i = 1 → ∀ y ∈ s.symbols, y.type = .exported) := by
      rintro i s ⟨h1, ⟨y, hy, _⟩, _⟩
      match i, h1 with
      | 0, h1 => obtain rfl := Option.some.inj h1; simp
      | 1, h1 => obtain rfl := Option.some.inj h1; simp
      | 2, h1 => obtain rfl := Option.some.inj h1; simp at hy
      | i + 3, h1 => simp at h1
    cases h with
    | plain h he =>
      obtain ⟨h1, h2, _⟩ := hfirst h
      have : ¬ j = 1 := by rw [← h2, he]; simp
      omega
    | linker h he hl =>
      obtain ⟨h1, h2, h3⟩ := hfirst h
      obtain ⟨y, hy, ht, hname⟩ := h.2.1
      exact absurd ⟨h3 (h2.1 he) y hy, hname⟩ (hl y hy)
    | @address _ _ _ _ t _ h he hy ht =>
      have hm := ht.mem
      obtain ⟨_, h0, _⟩ := ht.2.1
      simp only [List.mem_cons, List.not_mem_nil, or_false] at hm
      rcases hm with rfl | rfl | rfl <;> simp at h0
  intro hk
  have hall : ∀ i, Kept [⟨1, false, false, -1, 4, [⟨nm 0, .exported, 0⟩, ⟨nm 1, .imported, 0⟩]⟩,
    ⟨2, true, false, -1, 0, [⟨nm 1, .exported, 5⟩]⟩,
    ⟨2, false, false, -1, 100, []⟩] [] (nm 0) i → i = 0 := by
    intro i hk
    induction hk with
    | before h => simp at h
    | entry h => exact key _ _ h
    | @root i s h hr =>
      match i, h with
      | 0, h => rfl
      | 1, h => obtain rfl := Option.some.inj h; simp at hr
      | 2, h => obtain rfl := Option.some.inj h; simp at hr
      | i + 3, h => simp at h
    | @ref i j _ hr ih =>
      subst ih
      obtain ⟨s, y, hs, hy, ⟨_, h⟩ | ⟨ht, _⟩⟩ := hr
      · exact key _ _ h
      · obtain rfl := Option.some.inj hs
        simp at hy
        rcases hy with rfl | rfl <;> simp at ht
  have := hall 2 hk
  omega

/-- The code violates what C10 promises for imports: a constant that is exported by a file and imported by another
one is reported as not found under smart linking, unless it happens to point into a section. Without smart linking
the program links (see `Verif.Resolve`). -/
theorem C10_imported_constant_refused :
    ∃ (secs : List Sect) (entry name : Bytes), (∃ s ∈ secs, Exports name s) ∧
      process secs [] (some entry) = .fail ∧
      (∀ s ∈ secs, ∀ y ∈ s.symbols, y.type = .imported → y.name = name) ∧ ∃ s ∈ secs, Exports entry s :=
  ⟨[⟨1, false, false, -1, 4, [⟨nm 0, .exported, 0⟩, ⟨nm 1, .imported, 0⟩]⟩,
    ⟨2, true, false, -1, 0, [⟨nm 1, .exported, 0x4000⟩]⟩], nm 0, nm 1,
    ⟨_, by simp; right; rfl, _, by simp; rfl, .inl rfl, rfl⟩, by decide +kernel, by decide +kernel,
    ⟨_, by simp; left; rfl, ⟨nm 0, .exported, 0⟩, by simp, .inl rfl, rfl⟩⟩

end Verif.Smart
