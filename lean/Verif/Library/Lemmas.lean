import Verif.Library.Spec
namespace Verif.Library

/-! ### Files -/

theorem readModules_write (lib : List Module) (h : ∀ m ∈ lib, m.Ok) (fuel : Nat) (hf : lib.length ≤ fuel) :
    readModules fuel (lib.flatMap writeModule) = some lib := by
  induction lib generalizing fuel with
  | nil => cases fuel <;> simp [readModules]
  | cons m ms ih =>
    obtain ⟨h0, h1, h2⟩ := h m (by simp)
    cases fuel with
    | zero => simp at hf
    | succ fuel =>
      have e : (m :: ms).flatMap writeModule
          = putSz m.name ++ (put32le m.data.length ++ (m.data ++ ms.flatMap writeModule)) := by
        simp [writeModule, List.append_assoc]
      have hne : (m :: ms).flatMap writeModule ≠ [] := by
        rw [e]; simp [putSz]
      rw [readModules]
      · rw [e, getSz_putSz h0]
        simp only
        rw [if_neg (by simp only [maxName]; omega), get32le_put32le h2]
        simp only
        rw [getN_append]
        simp only
        rw [ih (fun m hm => h m (by simp [hm])) fuel (by simpa using hf)]
      · exact hne

theorem length_flatMap_writeModule (lib : List Module) : lib.length ≤ (lib.flatMap writeModule).length := by
  induction lib with
  | nil => simp
  | cons m ms ih =>
    simp only [List.flatMap_cons, List.length_append, List.length_cons, writeModule, length_putSz]
    omega

theorem getN_magic (r : Bytes) : getN 4 (magic ++ r) = some (magic, r) := getN_append magic r

theorem libRead_libWrite {lib : List Module} (h : ∀ m ∈ lib, m.Ok) : libRead (libWrite lib) = some lib := by
  have e : libWrite lib = magic ++ (put32le lib.length ++ lib.flatMap writeModule) := by
    simp [libWrite, List.append_assoc]
  have h1 : get32le (put32le lib.length ++ lib.flatMap writeModule)
      = some (((byte lib.length).toNat + 256 * (byte (lib.length / 256)).toNat
          + 65536 * (byte (lib.length / 65536)).toNat + 16777216 * (byte (lib.length / 16777216)).toNat),
        lib.flatMap writeModule) := rfl
  unfold libRead
  rw [e, if_neg (by simp [magic]), getN_magic]
  simp only
  rw [if_pos trivial, if_neg (by simp [put32le]), h1]
  exact readModules_write lib h _ (length_flatMap_writeModule lib)

/-! ### Names -/

theorem truncateName_length (f : Bytes) : (truncateName f).length < 256 := by
  simp only [truncateName, maxName, List.length_take]; omega

theorem truncateName_ok {f : Bytes} (h : PathOk f) : (0 : UInt8) ∉ truncateName f := by
  intro hm
  apply h
  have := List.mem_of_mem_take hm
  rw [List.mem_reverse] at this
  have := List.takeWhile_subset _ this
  simpa using this

theorem nameOf_truncateName (f : Bytes) : NameOf f (truncateName f) := by
  refine ⟨(f.reverse.dropWhile (fun b => !isSlash b)).reverse,
    (f.reverse.takeWhile (fun b => !isSlash b)).reverse, ?_, ?_, ?_, rfl⟩
  · rw [← List.reverse_append, List.takeWhile_append_dropWhile, List.reverse_reverse]
  · intro b hb
    rw [List.mem_reverse] at hb
    have := List.all_takeWhile (l := f.reverse) (p := fun b => !isSlash b)
    rw [List.all_eq_true] at this
    simpa using this b hb
  · cases hd : f.reverse.dropWhile (fun b => !isSlash b) with
    | nil => left; rfl
    | cons s d =>
      right
      refine ⟨d.reverse, s, by simp, ?_⟩
      have := List.head?_dropWhile_not (fun b => !isSlash b) f.reverse
      rw [hd] at this
      simpa using this

theorem base_unique {dir base dir' base' : Bytes} (e : dir ++ base = dir' ++ base')
    (hb : ∀ b ∈ base, isSlash b = false) (hb' : ∀ b ∈ base', isSlash b = false)
    (hd : dir = [] ∨ ∃ d s, dir = d ++ [s] ∧ isSlash s = true)
    (hd' : dir' = [] ∨ ∃ d s, dir' = d ++ [s] ∧ isSlash s = true) : base = base' := by
  rcases List.append_eq_append_iff.1 e with ⟨a, h1, h2⟩ | ⟨a, h1, h2⟩
  · -- dir' = dir ++ a, base = a ++ base'
    rcases hd' with h | ⟨d, s, h, hs⟩
    · subst h; simp at h1; simp [h2, h1]
    · cases ha : a.reverse with
      | nil => have : a = [] := by simpa using ha
               simp [h2, this]
      | cons x xs =>
        have ha' : a = xs.reverse ++ [x] := by
          have := congrArg List.reverse ha; simpa using this
        rw [h, ha', ← List.append_assoc] at h1
        have := (List.append_inj' h1 rfl).2
        have hx : s = x := by simpa using this
        have := hb x (by rw [h2, ha']; simp)
        rw [← hx, hs] at this; simp at this
  · rcases hd with h | ⟨d, s, h, hs⟩
    · subst h; simp at h1; simp [h2, h1]
    · cases ha : a.reverse with
      | nil => have : a = [] := by simpa using ha
               simp [h2, this]
      | cons x xs =>
        have ha' : a = xs.reverse ++ [x] := by
          have := congrArg List.reverse ha; simpa using this
        rw [h, ha', ← List.append_assoc] at h1
        have := (List.append_inj' h1 rfl).2
        have hx : s = x := by simpa using this
        have := hb' x (by rw [h2, ha']; simp)
        rw [← hx, hs] at this; simp at this

theorem nameOf_iff (f k : Bytes) : NameOf f k ↔ k = truncateName f := by
  constructor
  · rintro ⟨dir, base, e, hb, hd, hk⟩
    obtain ⟨dir', base', e', hb', hd', hk'⟩ := nameOf_truncateName f
    rw [hk, hk', base_unique (e.symm.trans e') hb hb' hd hd']
  · rintro rfl
    exact nameOf_truncateName f

/-! ### Modules in memory -/

/-- The map a list of modules stands for (the first module of a name counts). -/
def denote (lib : List Module) : Store := fun k => (find k lib).map Module.data

theorem find_some {k : Bytes} {lib : List Module} {m : Module} (h : find k lib = some m) :
    m ∈ lib ∧ m.name = k := by
  induction lib with
  | nil => simp [find] at h
  | cons a as ih =>
    simp only [find] at h
    by_cases ha : a.name = k
    · rw [if_pos ha] at h
      cases h
      exact ⟨by simp, ha⟩
    · rw [if_neg ha] at h
      exact ⟨List.mem_cons_of_mem _ (ih h).1, (ih h).2⟩

theorem find_none {k : Bytes} {lib : List Module} : find k lib = none ↔ k ∉ lib.map Module.name := by
  induction lib with
  | nil => simp [find]
  | cons a as ih =>
    simp only [find]
    by_cases ha : a.name = k
    · simp [ha]
    · rw [if_neg ha, ih]
      have : ¬ k = a.name := fun e => ha e.symm
      simp [this]

theorem find_of_mem {lib : List Module} (hn : Distinct lib) {m : Module} (h : m ∈ lib) :
    find m.name lib = some m := by
  induction lib with
  | nil => simp at h
  | cons a as ih =>
    simp only [Distinct, List.map_cons, List.nodup_cons] at hn
    simp only [find]
    rcases List.mem_cons.1 h with rfl | h
    · simp
    · have : ¬ a.name = m.name := fun e => hn.1 (e ▸ List.mem_map_of_mem h)
      rw [if_neg this]
      exact ih hn.2 h

theorem denote_iff {lib : List Module} (hn : Distinct lib) (k v : Bytes) :
    (∃ m ∈ lib, m.name = k ∧ m.data = v) ↔ denote lib k = some v := by
  constructor
  · rintro ⟨m, hm, rfl, rfl⟩
    simp [denote, find_of_mem hn hm]
  · intro h
    simp only [denote, Option.map_eq_some_iff] at h
    obtain ⟨m, hm, hv⟩ := h
    exact ⟨m, (find_some hm).1, (find_some hm).2, hv⟩

theorem replace_names (k d : Bytes) (lib : List Module) :
    (replace k d lib).map Module.name = lib.map Module.name := by
  induction lib with
  | nil => rfl
  | cons a as ih =>
    simp only [replace]
    by_cases ha : a.name = k
    · rw [if_pos ha]; simp [ha]
    · rw [if_neg ha]; simp [ih]

theorem find_replace_self {k d : Bytes} {lib : List Module} (h : find k lib ≠ none) :
    find k (replace k d lib) = some ⟨k, d⟩ := by
  induction lib with
  | nil => simp [find] at h
  | cons a as ih =>
    simp only [find, replace] at h ⊢
    by_cases ha : a.name = k
    · simp [ha, find]
    · rw [if_neg ha] at h ⊢
      simp only [find, if_neg ha]
      exact ih h

theorem find_replace_other {k d k' : Bytes} (hk : k' ≠ k) (lib : List Module) :
    find k' (replace k d lib) = find k' lib := by
  induction lib with
  | nil => rfl
  | cons a as ih =>
    simp only [replace]
    by_cases ha : a.name = k
    · rw [if_pos ha]
      simp [find, ha, hk.symm]
    · rw [if_neg ha]
      simp [find, ih]

theorem addReplace_distinct {f : Bytes} {c : Option Bytes} {lib : List Module} (h : Distinct lib) :
    Distinct (addReplace f c lib) := by
  unfold addReplace
  cases c with
  | none => exact h
  | some d =>
    simp only
    split
    · rename_i hf
      simp only [Distinct, List.map_cons, List.nodup_cons]
      exact ⟨find_none.1 hf, h⟩
    · simp only [Distinct, replace_names]; exact h

theorem mem_replace {k d : Bytes} {lib : List Module} {m : Module} (h : m ∈ replace k d lib) :
    m ∈ lib ∨ m = ⟨k, d⟩ := by
  induction lib with
  | nil => simp [replace] at h
  | cons a as ih =>
    simp only [replace] at h
    by_cases ha : a.name = k
    · rw [if_pos ha] at h
      rcases List.mem_cons.1 h with rfl | h
      · exact Or.inr rfl
      · exact Or.inl (by simp [h])
    · rw [if_neg ha] at h
      rcases List.mem_cons.1 h with rfl | h
      · exact Or.inl (by simp)
      · rcases ih h with h | h
        · exact Or.inl (by simp [h])
        · exact Or.inr h

theorem addReplace_ok {f : Bytes} {c : Option Bytes} {lib : List Module} (hp : PathOk f)
    (hc : ∀ d, c = some d → d.length < 4294967296) (h : ∀ m ∈ lib, m.Ok) :
    ∀ m ∈ addReplace f c lib, m.Ok := by
  unfold addReplace
  cases c with
  | none => exact h
  | some d =>
    have hnew : Module.Ok ⟨truncateName f, d⟩ := ⟨truncateName_ok hp, truncateName_length f, hc d rfl⟩
    simp only
    split
    · intro m hm
      rcases List.mem_cons.1 hm with rfl | hm
      · exact hnew
      · exact h m hm
    · intro m hm
      rcases mem_replace hm with hm | rfl
      · exact h m hm
      · exact hnew

theorem denote_addReplace (f : Bytes) (c : Option Bytes) (lib : List Module) :
    denote (addReplace f c lib) =
      match c with
      | none => denote lib
      | some d => (denote lib).set (truncateName f) (some d) := by
  cases c with
  | none => rfl
  | some d =>
    funext k
    simp only [addReplace, Store.set]
    split
    · rename_i hf
      by_cases hk : k = truncateName f
      · subst hk; simp [denote, find]
      · have : ¬ truncateName f = k := fun e => hk e.symm
        simp [denote, find, this, hk]
    · rename_i m hf
      by_cases hk : k = truncateName f
      · subst hk
        simp [denote, find_replace_self (d := d) (lib := lib) (k := truncateName f) (by simp [hf])]
      · simp [denote, find_replace_other hk, hk]

/-- A list in which `addAll` is applied file by file. -/
theorem denote_addAll (files : List (Bytes × Option Bytes)) (lib : List Module) :
    denote (files.foldl (fun l f => addReplace f.1 f.2 l) lib) = (denote lib).addAll files := by
  induction files generalizing lib with
  | nil => rfl
  | cons f fs ih =>
    obtain ⟨f, c⟩ := f
    rw [List.foldl_cons, ih, denote_addReplace]
    cases c <;> rfl

theorem addAll_inv {files : List (Bytes × Option Bytes)} {lib : List Module}
    (hf : (Cmd.add files).Ok) (h : ∀ m ∈ lib, m.Ok) (hd : Distinct lib) :
    (∀ m ∈ files.foldl (fun l f => addReplace f.1 f.2 l) lib, m.Ok)
      ∧ Distinct (files.foldl (fun l f => addReplace f.1 f.2 l) lib) := by
  induction files generalizing lib with
  | nil => exact ⟨h, hd⟩
  | cons f fs ih =>
    rw [List.foldl_cons]
    have h1 := hf f (by simp)
    exact ih (fun g hg => hf g (by simp [hg])) (addReplace_ok h1.1 h1.2 h) (addReplace_distinct hd)

/-! ### Deleting -/

theorem deleteModule_sub {k : Bytes} {lib lib' : List Module} (h : deleteModule k lib = .ok lib') :
    lib'.Sublist lib := by
  induction lib generalizing lib' with
  | nil => simp [deleteModule] at h
  | cons a as ih =>
    simp only [deleteModule] at h
    by_cases ha : a.name = k
    · rw [if_pos ha] at h
      cases as with
      | nil => simp at h
      | cons b bs =>
        simp only [Outcome.ok.injEq] at h
        subst h
        exact List.sublist_cons_self _ _
    · rw [if_neg ha] at h
      cases hd : deleteModule k as with
      | ok l =>
        rw [hd] at h
        simp only [Outcome.ok.injEq] at h
        subst h
        exact (ih hd).cons_cons a
      | fail => simp [hd] at h
      | ub => simp [hd] at h

theorem find_deleteModule {k : Bytes} {lib lib' : List Module} (hn : Distinct lib)
    (h : deleteModule k lib = .ok lib') (k' : Bytes) :
    find k' lib' = if k' = k then none else find k' lib := by
  induction lib generalizing lib' with
  | nil => simp [deleteModule] at h
  | cons a as ih =>
    simp only [Distinct, List.map_cons, List.nodup_cons] at hn
    simp only [deleteModule] at h
    by_cases ha : a.name = k
    · rw [if_pos ha] at h
      cases as with
      | nil => simp at h
      | cons b bs =>
        simp only [Outcome.ok.injEq] at h
        subst h
        by_cases hk : k' = k
        · subst hk
          rw [if_pos rfl]
          exact find_none.2 (ha ▸ hn.1)
        · have : ¬ a.name = k' := fun e => hk (by rw [← ha, e])
          rw [if_neg hk]
          conv => rhs; rw [find, if_neg this]
    · rw [if_neg ha] at h
      cases hd : deleteModule k as with
      | fail => simp [hd] at h
      | ub => simp [hd] at h
      | ok l =>
        rw [hd] at h
        simp only [Outcome.ok.injEq] at h
        subst h
        simp only [find]
        rw [ih hn.2 hd]
        by_cases hk : k' = k
        · subst hk; simp [ha]
        · simp [hk]

theorem deleteModule_fail {k : Bytes} {lib : List Module} :
    deleteModule k lib = .fail ↔ find k lib = none := by
  induction lib with
  | nil => simp [deleteModule, find]
  | cons a as ih =>
    simp only [deleteModule, find]
    by_cases ha : a.name = k
    · rw [if_pos ha, if_pos ha]
      cases as <;> simp
    · rw [if_neg ha, if_neg ha, ← ih]
      cases deleteModule k as <;> simp

theorem deleteModule_ub {k : Bytes} {lib : List Module} (hn : Distinct lib) :
    deleteModule k lib = .ub ↔ ∃ l m, lib = l ++ [m] ∧ m.name = k := by
  induction lib with
  | nil => simp [deleteModule]
  | cons a as ih =>
    simp only [Distinct, List.map_cons, List.nodup_cons] at hn
    simp only [deleteModule]
    by_cases ha : a.name = k
    · rw [if_pos ha]
      cases as with
      | nil => simp only [true_iff]; exact ⟨[], a, rfl, ha⟩
      | cons b bs =>
        simp only [reduceCtorEq, false_iff]
        rintro ⟨l, m, e, hm⟩
        apply hn.1
        rw [ha, ← hm]
        cases l with
        | nil => simp at e
        | cons x xs =>
          simp only [List.cons_append, List.cons.injEq] at e
          rw [e.2]; simp
    · rw [if_neg ha]
      constructor
      · intro h
        cases hd : deleteModule k as with
        | ok l => simp [hd] at h
        | fail => simp [hd] at h
        | ub =>
          obtain ⟨l, m, e, hm⟩ := (ih hn.2).1 hd
          exact ⟨a :: l, m, by rw [e]; rfl, hm⟩
      · rintro ⟨l, m, e, hm⟩
        cases l with
        | nil =>
          simp only [List.nil_append, List.cons.injEq] at e
          exact absurd (e.1 ▸ hm) ha
        | cons x xs =>
          simp only [List.cons_append, List.cons.injEq] at e
          rw [(ih hn.2).2 ⟨xs, m, e.2, hm⟩]

theorem deleteAll_spec (files : List Bytes) (lib : List Module) (hn : Distinct lib)
    (hok : ∀ m ∈ lib, m.Ok) (hub : Library.deleteAll files lib ≠ .ub) :
    (∃ lib', Library.deleteAll files lib = .ok lib' ∧ (denote lib).deleteAll files = some (denote lib')
        ∧ Distinct lib' ∧ ∀ m ∈ lib', m.Ok)
      ∨ (Library.deleteAll files lib = .fail ∧ (denote lib).deleteAll files = none) := by
  induction files generalizing lib with
  | nil => exact Or.inl ⟨lib, rfl, rfl, hn, hok⟩
  | cons f fs ih =>
    simp only [Library.deleteAll] at hub ⊢
    simp only [Store.deleteAll]
    cases hd : deleteModule (truncateName f) lib with
    | ub => simp [hd] at hub
    | fail =>
      right
      have := deleteModule_fail.1 hd
      simp [denote, this]
    | ok l =>
      simp only [hd] at hub
      have hs := deleteModule_sub hd
      have hn' : Distinct l := List.Nodup.sublist (hs.map Module.name) hn
      have hok' : ∀ m ∈ l, m.Ok := fun m hm => hok m (hs.subset hm)
      have hfind : find (truncateName f) lib ≠ none := by
        intro e
        rw [deleteModule_fail.2 e] at hd
        simp at hd
      have hden : denote l = (denote lib).set (truncateName f) none := by
        funext k
        simp only [denote, Store.set, find_deleteModule hn hd]
        by_cases hk : k = truncateName f <;> simp [hk]
      obtain ⟨m, hm⟩ := Option.ne_none_iff_exists'.1 hfind
      have hl : denote lib (truncateName f) = some m.data := by simp [denote, hm]
      simp only [hl]
      rw [← hden]
      exact ih l hn' hok' hub

theorem apply_spec {c : Cmd} {lib : List Module} (hc : c.Ok) (hn : Distinct lib)
    (hok : ∀ m ∈ lib, m.Ok) (hub : apply c lib ≠ .ub) :
    (∃ lib', apply c lib = .ok lib' ∧ (denote lib).apply c = some (denote lib')
        ∧ Distinct lib' ∧ ∀ m ∈ lib', m.Ok)
      ∨ (apply c lib = .fail ∧ (denote lib).apply c = none) := by
  cases c with
  | add files =>
    left
    refine ⟨_, rfl, ?_, (addAll_inv hc hok hn).2, (addAll_inv hc hok hn).1⟩
    simp only [Store.apply, denote_addAll]
  | delete files => exact deleteAll_spec files lib hn hok hub

end Verif.Library
