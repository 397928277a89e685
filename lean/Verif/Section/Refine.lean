import Verif.Section.Step
/-!
# Histories of directives
-/
namespace Verif.Section
open Spec (Cell Area World limit)

variable {α : Type}

theorem bind_ok {β γ : Type} {o : Outcome β} {f : β → Outcome γ} {c : γ} (h : o.bind f = .ok c) :
    ∃ b, o = .ok b ∧ f b = .ok c := by
  cases o with
  | ok b => exact ⟨b, rfl, h⟩
  | fail => cases h
  | ub => cases h

/-! ## Errors are never forgotten -/

theorem checkSpace_errors {cfg : Config} {n : Nat} {s : State α} {r : Bool × State α} (h : checkSpace cfg n s = .ok r) :
    r.2.errors = s.errors + (if r.1 then 0 else 1) := by
  unfold checkSpace at h
  split at h
  · cases h
    rfl
  · split at h
    · split at h
      · cases h
        rfl
      · split at h
        · cases h
          rfl
        · obtain ⟨x, -, hx⟩ := bind_ok h
          cases hx
          simp
    · cases h

theorem outputConst_errors {cfg : Config} {env : Env} {size : Size} {v : Nat} {s s' : State α}
    (h : outputConst cfg env size v s = .ok s') : s.errors ≤ s'.errors := by
  unfold outputConst at h
  split at h
  · obtain ⟨r, hr, h⟩ := bind_ok h
    have hc := checkSpace_errors hr
    split at h
    · split at h
      · cases h
      · split at h
        · cases h
          simp only [State.error]
          omega
        · obtain ⟨x, -, h⟩ := bind_ok h
          cases h
          simp only [errors_set]
          omega
    · cases h
      omega
  · cases h

theorem fill_errors {cfg : Config} {env : Env} : ∀ (n : Nat) {s s' : State α}, fill cfg env n s = .ok s' →
    s.errors ≤ s'.errors
  | 0, s, s', h => by
    cases h
    exact Nat.le_refl _
  | 1, s, s', h => outputConst_errors h
  | n + 2, s, s', h => by
    rw [fill] at h
    obtain ⟨t, ht, h⟩ := bind_ok h
    exact Nat.le_trans (outputConst_errors ht) (fill_errors n h)

theorem skipBytes_errors {cfg : Config} {env : Env} {n : Nat} {s s' : State α}
    (h : skipBytes cfg env n s = .ok s') : s.errors ≤ s'.errors := by
  unfold skipBytes at h
  split at h
  · cases h
    exact Nat.le_refl _
  · split at h
    · obtain ⟨r, hr, h⟩ := bind_ok h
      have hc := checkSpace_errors hr
      split at h
      · split at h
        · cases h
        · simp only at h
          split at h
          · cases h
            simp only [errors_set]
            omega
          · have := fill_errors _ h
            simp only [errors_set] at this
            omega
      · cases h
        omega
    · cases h

theorem outputReloc_errors {cfg : Config} {env : Env} {size : Size} {e : α} {s s' : State α}
    (h : outputReloc cfg env size e s = .ok s') : s.errors ≤ s'.errors := by
  unfold outputReloc at h
  split at h
  · obtain ⟨r, hr, h⟩ := bind_ok h
    have hc := checkSpace_errors hr
    split at h
    · split at h
      · cases h
      · split at h
        · have := skipBytes_errors h
          simp only [State.error] at this
          omega
        · obtain ⟨x, -, h⟩ := bind_ok h
          cases h
          simp only [errors_set]
          omega
    · cases h
      omega
  · cases h

theorem outputBinary_errors {cfg : Config} {env : Env} {bs : Bytes} {s s' : State α}
    (h : outputBinary cfg env bs s = .ok s') : s.errors ≤ s'.errors := by
  unfold outputBinary at h
  obtain ⟨r, hr, h⟩ := bind_ok h
  have hc := checkSpace_errors hr
  split at h
  · split at h
    · cases h
    · split at h
      · cases h
        simp only [State.error]
        omega
      · simp only at h
        split at h
        · cases h
          simp only [errors_set]
          omega
        · cases h
  · cases h
    omega

theorem switchTo_errors (name : String) (g : Group) (s : State α) : s.errors ≤ (switchTo name g s).errors := by
  unfold switchTo
  split
  · exact Nat.le_refl _
  · unfold create
    simp only
    split <;> simp [State.error]

theorem switchKind_errors {cfg : Config} {name : String} {g : Group} {k : Kind} {s s' : State α}
    (h : switchKind cfg name g k s = .ok s') : s.errors ≤ s'.errors := by
  unfold switchKind at h
  split at h
  · cases h
  · split at h
    · split at h
      · cases h
      · split at h
        · cases h
          exact Nat.le_refl _
        · cases h
          simp [State.error]
    · simp only at h
      cases h
      unfold create
      simp only
      split <;> simp [State.error]

/-- The number of errors never gets smaller. -/
theorem step_errors {cfg : Config} {env : Env} {op : Op α} {s s' : State α} (h : step cfg env op s = .ok s') :
    s.errors ≤ s'.errors := by
  cases op with
  | const size v => exact outputConst_errors h
  | expr size e =>
    simp only [step, outputExpr] at h
    split at h
    · cases e with
      | missing =>
        cases h
        simp [State.error]
      | known v => exact outputConst_errors h
      | later e => exact outputReloc_errors h
    · cases h
  | skip n => exact skipBytes_errors h
  | align n =>
    simp only [step, alignBytes] at h
    split at h
    · split at h
      · cases h
      · obtain ⟨t, -, h⟩ := bind_ok h
        exact skipBytes_errors h
    · cases h
  | binary bs => exact outputBinary_errors h
  | «section» name g k =>
    cases k with
    | none =>
      cases h
      exact switchTo_errors _ _ _
    | some k => exact switchKind_errors h
  | named name =>
    cases h
    unfold switchName
    split <;> simp [State.error]
  | org v =>
    cases h
    unfold setOrigin
    split <;> simp [State.error]
  | scope v =>
    cases h
    exact Nat.le_refl _
  | push =>
    cases h
    exact Nat.le_refl _
  | pop =>
    cases h
    unfold pop
    split <;> simp [State.error]

theorem run_errors {cfg : Config} : ∀ {ops : List (Env × Op α)} {s s' : State α}, run cfg ops s = .ok s' →
    s.errors ≤ s'.errors
  | [], s, s', h => by
    cases h
    exact Nat.le_refl _
  | (env, op) :: ops, s, s', h => by
    rw [run] at h
    obtain ⟨t, ht, h⟩ := bind_ok h
    exact Nat.le_trans (step_errors ht) (run_errors h)

/-! ## Mistakes are reported -/

theorem checkSpace_none {cfg : Config} {n : Nat} {s : State α} (h0 : n ≠ 0) (hs : s.sect = none) {r : Bool × State α}
    (h : checkSpace cfg n s = .ok r) : r = (false, s.error) := by
  unfold checkSpace at h
  rw [if_neg h0] at h
  split at h
  · rw [hs] at h
    cases h
    rfl
  · cases h

theorem checkSpace_bss {cfg : Config} {n : Nat} {s : State α} {x : Sect α} (hs : s.sect = some x)
    (hb : x.group.bss = true) {r : Bool × State α} (h : checkSpace cfg n s = .ok r) : r = (true, s) := by
  unfold checkSpace at h
  split at h
  · cases h
    rfl
  · split at h
    · rw [hs] at h
      simp only [hb] at h
      cases h
      rfl
    · cases h

/-- Data needs a section with contents. -/
theorem emit_bad {pos : Pos} {bs : Bytes} {hs : List (Patch α)} {w : World α} (h : Spec.emit pos bs hs w = .bad) :
    w.area = none ∨ ∃ y, w.area = some y ∧ y.group.bss = true := by
  unfold Spec.emit at h
  cases hy : w.area with
  | none => exact .inl rfl
  | some y =>
    rw [hy] at h
    simp only at h
    cases hb : y.group.bss with
    | true => exact .inr ⟨y, rfl, hb⟩
    | false =>
      rw [hb, if_neg (by decide)] at h
      split at h <;> cases h

theorem outputConst_bad {cfg : Config} {env : Env} {size : Size} {v : Nat} {s s' : State α} {w : World α}
    (hm : Match cfg s w) (hw : w.area = none ∨ ∃ y, w.area = some y ∧ y.group.bss = true)
    (h : outputConst cfg env size v s = .ok s') : s.errors < s'.errors := by
  unfold outputConst at h
  split at h
  · obtain ⟨r, hr, h⟩ := bind_ok h
    rcases hw with hw | ⟨y, hw, hb⟩
    · rw [checkSpace_none (Nat.ne_of_gt (size_pos size)) (hm.noArea hw) hr] at h
      cases h
      simp [State.error]
    · obtain ⟨x, hx, hrel⟩ := hm.area hw
      have hxb : x.group.bss = true := by rw [hrel.group, hb]
      rw [checkSpace_bss hx hxb hr] at h
      simp only [hx, hxb, if_true] at h
      cases h
      simp [State.error]
  · cases h

theorem outputReloc_bad {cfg : Config} {env : Env} {size : Size} {e : α} {s s' : State α} {w : World α}
    (hm : Match cfg s w) (hw : w.area = none ∨ ∃ y, w.area = some y ∧ y.group.bss = true)
    (h : outputReloc cfg env size e s = .ok s') : s.errors < s'.errors := by
  unfold outputReloc at h
  split at h
  · obtain ⟨r, hr, h⟩ := bind_ok h
    rcases hw with hw | ⟨y, hw, hb⟩
    · rw [checkSpace_none (Nat.ne_of_gt (size_pos size)) (hm.noArea hw) hr] at h
      cases h
      simp [State.error]
    · obtain ⟨x, hx, hrel⟩ := hm.area hw
      have hxb : x.group.bss = true := by rw [hrel.group, hb]
      rw [checkSpace_bss hx hxb hr] at h
      simp only [hx, hxb, if_true] at h
      have := skipBytes_errors h
      simp only [State.error] at this
      omega
  · cases h

theorem outputBinary_bad {cfg : Config} {env : Env} {bs : Bytes} {s s' : State α} {w : World α}
    (hm : Match cfg s w) (hw : w.area = none ∨ ∃ y, w.area = some y ∧ y.group.bss = true)
    (h : outputBinary cfg env bs s = .ok s') : s.errors < s'.errors := by
  unfold outputBinary at h
  obtain ⟨r, hr, h⟩ := bind_ok h
  rcases hw with hw | ⟨y, hw, hb⟩
  · have hs := hm.noArea hw
    by_cases h0 : bs.length % W32 = 0
    · rw [checkSpace, if_pos h0] at hr
      cases hr
      simp only [if_true, hs] at h
      cases h
    · rw [checkSpace_none h0 hs hr] at h
      cases h
      simp [State.error]
  · obtain ⟨x, hx, hrel⟩ := hm.area hw
    have hxb : x.group.bss = true := by rw [hrel.group, hb]
    rw [checkSpace_bss hx hxb hr] at h
    simp only [hx, hxb, if_true] at h
    cases h
    simp [State.error]

theorem space_bad {env : Env} {n : Nat} {w : World α} (h : Spec.space env n w = .bad) : n ≠ 0 ∧ w.area = none := by
  unfold Spec.space at h
  split at h
  · cases h
  · rename_i h0
    refine ⟨h0, ?_⟩
    cases hy : w.area with
    | none => rfl
    | some y =>
      rw [hy] at h
      simp only at h
      split at h <;> cases h

theorem skipBytes_bad {cfg : Config} {env : Env} {n : Nat} {s s' : State α} {w : World α} (hm : Match cfg s w)
    (hw : n ≠ 0 ∧ w.area = none) (h : skipBytes cfg env n s = .ok s') : s.errors < s'.errors := by
  unfold skipBytes at h
  rw [if_neg hw.1] at h
  split at h
  · obtain ⟨r, hr, h⟩ := bind_ok h
    rw [checkSpace_none hw.1 (hm.noArea hw.2) hr] at h
    cases h
    simp [State.error]
  · cases h

/-! ## Selecting sections -/

theorem find_index {cfg : Config} {s : State α} {w : World α} (h : Match cfg s w) (name : String) :
    (s.sections.findIdx? fun x => x.name == name) = w.areas.findIdx? fun y => y.name == name := by
  have e : s.sections.map Sect.name = w.areas.map Area.name := by
    apply List.ext_getElem?
    intro i
    simp only [List.getElem?_map]
    by_cases hi : i < w.areas.length
    · have hi' : i < s.sections.length := by rw [h.length]; exact hi
      have hr := h.rel i s.sections[i] w.areas[i] (by simp [hi']) (by simp [hi])
      simp [hi, hi', hr.name]
    · have hi' : ¬ i < s.sections.length := by rw [h.length]; exact hi
      rw [List.getElem?_eq_none (by omega), List.getElem?_eq_none (by omega)]
      rfl
  have e1 : (s.sections.map Sect.name).findIdx? (fun n => n == name) = (w.areas.map Area.name).findIdx? fun n => n == name := by
    rw [e]
  rw [List.findIdx?_map, List.findIdx?_map] at e1
  exact e1

theorem Match.select {cfg : Config} {s : State α} {w : World α} (h : Match cfg s w) {i : Nat} (hi : i < w.areas.length) :
    Match cfg { s with current := some i } { w with current := some i } := by
  refine ⟨h.length, h.rel, rfl, ?_, h.stack, h.stackValid, h.scope⟩
  intro j hj
  cases hj
  exact hi

theorem Match.create {cfg : Config} {s : State α} {w : World α} (h : Match cfg s w) {x : Sect α} {y : Area α}
    (hr : Rel cfg.wordSize x y) :
    Match cfg (Section.create x s) { w with areas := w.areas ++ [y], current := some w.areas.length } := by
  unfold Section.create
  refine ⟨by simp [h.length], ?_, by simp [h.length], ?_, h.stack, ?_, h.scope⟩
  · intro i a b ha hb
    simp only at ha hb
    by_cases hi : i < w.areas.length
    · rw [List.getElem?_append_left (by rw [h.length]; exact hi)] at ha
      rw [List.getElem?_append_left hi] at hb
      exact h.rel i a b ha hb
    · rw [List.getElem?_append_right (by rw [h.length]; omega)] at ha
      rw [List.getElem?_append_right (by omega)] at hb
      rw [h.length] at ha
      cases hk : i - w.areas.length with
      | zero =>
        rw [hk] at ha hb
        cases ha
        cases hb
        exact hr
      | succ k =>
        rw [hk] at hb
        simp at hb
  · intro i hi
    simp only [Option.some.injEq] at hi
    simp only [List.length_append, List.length_singleton]
    omega
  · intro p hp i hi
    have := h.stackValid p hp i hi
    simp only [List.length_append, List.length_singleton]
    omega

/-- A new section stands for an area without cells. -/
theorem rel_new {ws : Nat} {x : Sect α} {y : Area α} (h1 : x.name = y.name) (h2 : x.group = y.group)
    (h3 : x.flags = flagsOf y.attributes false) (h4 : x.origin = y.attributes.address.getD 0)
    (h5 : x.bank = y.attributes.bank.getD 0) (h6 : x.align = y.attributes.align.getD 0)
    (h7 : x.page = y.attributes.page.getD 0) (h8 : x.imagePosition = x.origin * ws % W32) (h9 : x.used = 0)
    (h10 : x.pc = 0) (h11 : x.alloc = 0) (h12 : x.data = []) (h13 : x.patches = []) (h14 : x.lines = [])
    (h15 : y.cells = []) (h16 : y.holes = []) (h17 : y.org = none)
    (h18 : x.adjust = 0) : Rel ws x y := by
  refine ⟨h1, h2, ?_, h4, h5, h6, h7, h8, ?_, ?_, ?_, ?_, ?_, ?_, ?_, ?_, fun _ => h18, ?_, ?_⟩
  · rw [h3, h17]
    rfl
  · rw [h9, h15]
    rfl
  · rw [h15]
    exact Nat.zero_le _
  · rw [h15]
    exact ⟨0, rfl⟩
  · rw [h10, h15]
    simp
  · rw [h11, h12]
    rfl
  · intro _
    rw [h9]
    exact Nat.zero_le _
  · intro _
    rw [h9, h15]
    rfl
  · rw [h13, h16]
  · intro v n hv
    rw [h17] at hv
    cases hv
  · rw [h14, h15]
    exact ⟨List.Pairwise.nil, by simp, by simp, by simp⟩

theorem flags_attributes {k : Kind} (h : k.flags.orgFixed = false) : k.flags = flagsOf (Spec.Kind.attributes k) false := by
  obtain ⟨⟨a, b, c, d, e, f⟩, o, bk, al, pg⟩ := k
  simp only at h
  subst h
  cases a <;> cases b <;> cases d <;> cases e <;> cases f <;> rfl

/-- The comparison of the program is the one of the attributes. -/
theorem kind_same {ws : Nat} {x : Sect α} {y : Area α} (hr : Rel ws x y) {k : Kind} (hk : k.flags.orgFixed = false) :
    (x.flags = k.flags ∧ (k.flags.bankFixed → x.bank = k.bank) ∧ (k.flags.loadFixed → x.origin = k.origin) ∧
      (k.flags.aligned → x.align = k.align) ∧ (k.flags.paged → x.page = k.page)) ↔
    (y.attributes = Spec.Kind.attributes k ∧ y.org = none) := by
  rw [hr.flags, hr.bank, hr.origin, hr.align, hr.page]
  obtain ⟨⟨a, b, c, d, e, f⟩, o, bk, al, pg⟩ := k
  obtain ⟨aa, ab, aal, ap, ar⟩ := y.attributes
  simp only at hk
  subst hk
  cases aa <;> cases ab <;> cases aal <;> cases ap <;> cases y.org <;> cases a <;> cases b <;> cases d <;> cases f <;>
    simp [flagsOf, Spec.Kind.attributes] <;> grind

theorem select_refines {cfg : Config} {s : State α} {w : World α} (h : Match cfg s w) (name : String) (g : Group) :
    match Spec.select name g none w with
    | .good w' => (switchTo name g s).errors = s.errors ∧ Match cfg (switchTo name g s) w'
    | .bad => s.errors < (switchTo name g s).errors
    | .outside => True := by
  unfold Spec.select switchTo find
  rw [find_index h name]
  cases hf : w.areas.findIdx? fun y => y.name == name with
  | none =>
    simp only [Bool.false_eq_true, if_false]
    refine ⟨rfl, h.create ?_⟩
    refine rel_new rfl rfl rfl rfl rfl rfl rfl ?_ rfl rfl rfl rfl rfl rfl rfl rfl rfl rfl
    simp
  | some i =>
    have hi : i < w.areas.length := (List.findIdx?_eq_some_iff_getElem.1 hf).1
    have hi' : i < s.sections.length := by rw [h.length]; exact hi
    have hr := h.rel i s.sections[i] w.areas[i] (by simp [hi']) (by simp [hi])
    simp only [List.getElem?_eq_getElem hi, List.getElem?_eq_getElem hi', hr.group]
    by_cases hg : w.areas[i].group.id = g.id
    · simp only [hg, ne_eq, not_true_eq_false, if_false, if_true]
      exact ⟨by first | rfl | trivial, h.select hi⟩
    · simp only [hg, ne_eq, not_false_eq_true, if_true, if_false]
      simp [create, State.error]

theorem selectKind_refines {cfg : Config} {s : State α} {w : World α} (h : Match cfg s w) (name : String) (g : Group)
    {k : Kind} (hk : k.flags.orgFixed = false) (hb : (k.flags.bankFixed && !cfg.banks) = false) :
    match Spec.select name g (some k) w with
    | .good w' => ∃ s', switchKind cfg name g k s = .ok s' ∧ s'.errors = s.errors ∧ Match cfg s' w'
    | .bad => ∀ s', switchKind cfg name g k s = .ok s' → s.errors < s'.errors
    | .outside => True := by
  unfold Spec.select switchKind find
  rw [find_index h name, hb]
  simp only [Bool.false_eq_true, if_false]
  cases hf : w.areas.findIdx? fun y => y.name == name with
  | none =>
    refine ⟨_, rfl, rfl, h.create ?_⟩
    refine rel_new rfl rfl (flags_attributes hk) ?_ ?_ ?_ ?_ rfl rfl rfl rfl rfl rfl rfl rfl rfl rfl rfl <;>
      simp only [Spec.Kind.attributes] <;> split <;> rfl
  | some i =>
    have hi : i < w.areas.length := (List.findIdx?_eq_some_iff_getElem.1 hf).1
    have hi' : i < s.sections.length := by rw [h.length]; exact hi
    have hr := h.rel i s.sections[i] w.areas[i] (by simp [hi']) (by simp [hi])
    simp only [List.getElem?_eq_getElem hi, List.getElem?_eq_getElem hi', hr.group]
    by_cases hg : w.areas[i].group.id = g.id
    · simp only [hg, ne_eq, not_true_eq_false, if_false, if_true, kind_same hr hk, List.getElem?_eq_getElem hi']
      by_cases hs : w.areas[i].attributes = Spec.Kind.attributes k ∧ w.areas[i].org = none
      · rw [if_pos hs, if_pos hs]
        exact ⟨_, rfl, rfl, h.select hi⟩
      · rw [if_neg hs, if_neg hs]
        intro s' hs'
        cases hs'
        simp [State.error]
    · simp only [hg, ne_eq, not_false_eq_true, if_true, if_false]
      intro s' hs'
      cases hs'
      simp [create, State.error]

theorem known_digits (big : Bool) (size : Size) (v : Int) :
    Spec.digits big size.bytes (v % (256 ^ size.bytes : Nat)).toNat = Spec.digits big size.bytes (v % 2 ^ 32).toNat := by
  have key : ∀ i, i < size.bytes →
      (v % (256 ^ size.bytes : Nat)).toNat / 256 ^ i % 256 = (v % 2 ^ 32).toNat / 256 ^ i % 256 := by
    intro i hi
    cases size with
    | one =>
      have : i = 0 := by simp only [Size.bytes] at hi; omega
      subst this
      simp only [Size.bytes]
      omega
    | two =>
      simp only [Size.bytes] at hi ⊢
      have : i = 0 ∨ i = 1 := by omega
      rcases this with rfl | rfl <;> omega
    | four => rfl
  unfold Spec.digits
  have : (List.range size.bytes).map (fun i => UInt8.ofNat ((v % (256 ^ size.bytes : Nat)).toNat / 256 ^ i % 256)) =
      (List.range size.bytes).map fun i => UInt8.ofNat ((v % 2 ^ 32).toNat / 256 ^ i % 256) := by
    apply List.map_congr_left
    intro i hi
    rw [key i (List.mem_range.1 hi)]
  simp only [this]

/-- Sections with a word of one, two or four bytes. -/
def Config.Valid (cfg : Config) : Prop := cfg.wordSize = 1 ∨ cfg.wordSize = 2 ∨ cfg.wordSize = 4

theorem emitConst_refines {cfg : Config} {env : Env} {s : State α} {w : World α} (hws : 0 < cfg.wordSize)
    (h : Match cfg s w) {size : Size} (hd : cfg.wordSize ∣ size.bytes) (v : Nat) :
    match Spec.emit env.pos (Spec.digits env.big size.bytes v) [] w with
    | .good w' => ∃ s', outputConst cfg env size v s = .ok s' ∧ s'.errors = s.errors ∧ Match cfg s' w'
    | .bad => ∀ s', outputConst cfg env size v s = .ok s' → s.errors < s'.errors
    | .outside => True := by
  have hlen : (Spec.digits env.big size.bytes v).length = size.bytes := by rw [← encode_digits, encode_length]
  cases he : Spec.emit env.pos (Spec.digits env.big size.bytes v) [] w with
  | good w' =>
    unfold Spec.emit at he
    cases hy : w.area with
    | none => simp [hy] at he
    | some y =>
      rw [hy] at he
      simp only at he
      cases hb : y.group.bss with
      | true => simp [hb] at he
      | false =>
        rw [hb, if_neg (by decide), hlen] at he
        by_cases hsz : y.cells.length + size.bytes ≤ limit false
        · rw [if_pos hsz] at he
          cases he
          have := outputConst_ok hws h hy hb env v hd hsz
          simpa using this
        · rw [if_neg hsz] at he
          cases he
  | bad => exact fun s' hs' => outputConst_bad h (emit_bad he) hs'
  | outside => trivial

theorem emitReloc_refines {cfg : Config} {env : Env} {s : State α} {w : World α} (hws : 0 < cfg.wordSize)
    (h : Match cfg s w) {size : Size} (hd : cfg.wordSize ∣ size.bytes) (e : α) {n : Nat}
    (hn : ∀ y, w.area = some y → n = y.cells.length) :
    match Spec.emit env.pos (List.replicate size.bytes 0) [⟨n, size, env.big && size != .one, e⟩] w with
    | .good w' => ∃ s', outputReloc cfg env size e s = .ok s' ∧ s'.errors = s.errors ∧ Match cfg s' w'
    | .bad => ∀ s', outputReloc cfg env size e s = .ok s' → s.errors < s'.errors
    | .outside => True := by
  cases he : Spec.emit env.pos (List.replicate size.bytes 0) [⟨n, size, env.big && size != .one, e⟩] w with
  | good w' =>
    unfold Spec.emit at he
    cases hy : w.area with
    | none => simp [hy] at he
    | some y =>
      rw [hy] at he
      simp only at he
      cases hb : y.group.bss with
      | true => simp [hb] at he
      | false =>
        rw [hb, if_neg (by decide), List.length_replicate] at he
        by_cases hsz : y.cells.length + size.bytes ≤ limit false
        · rw [if_pos hsz] at he
          cases he
          rw [hn y hy]
          exact outputReloc_ok hws h hy hb env e hd hsz
        · rw [if_neg hsz] at he
          cases he
  | bad => exact fun s' hs' => outputReloc_bad h (emit_bad he) hs'
  | outside => trivial

theorem space_refines {cfg : Config} {env : Env} {s : State α} {w : World α}
    (hws : cfg.wordSize = 1 ∨ cfg.wordSize = 2) (h : Match cfg s w) {n : Nat} (hd : cfg.wordSize ∣ n) :
    match Spec.space env n w with
    | .good w' => ∃ s', skipBytes cfg env n s = .ok s' ∧ s'.errors = s.errors ∧ Match cfg s' w'
    | .bad => ∀ s', skipBytes cfg env n s = .ok s' → s.errors < s'.errors
    | .outside => True := by
  cases he : Spec.space env n w with
  | good w' => exact skipBytes_ok hws env h hd he
  | bad => exact fun s' hs' => skipBytes_bad h (space_bad he) hs'
  | outside => trivial

theorem gap_dvd {ws size n : Nat} (h1 : ws ∣ size) (h2 : ws ∣ n) (hn : 0 < n) : ws ∣ Spec.gap size n := by
  unfold Spec.gap
  have hm : ws ∣ size % n := (Nat.dvd_mod_iff h2).2 h1
  rw [Nat.dvd_mod_iff h2]
  exact Nat.dvd_sub h2 hm

/-- Every directive does what it means. -/
theorem step_refines {cfg : Config} (hv : cfg.Valid) {s : State α} {w : World α} (h : Match cfg s w) (env : Env)
    (op : Op α) :
    match Spec.step cfg env op w with
    | .good w' => ∃ s', step cfg env op s = .ok s' ∧ s'.errors = s.errors ∧ Match cfg s' w'
    | .bad => ∀ s', step cfg env op s = .ok s' → s.errors < s'.errors
    | .outside => True := by
  have hpos : 0 < cfg.wordSize := by
    unfold Config.Valid at hv
    omega
  cases op with
  | const size v =>
    simp only [Spec.step, step]
    by_cases hd : cfg.wordSize ∣ size.bytes
    · rw [if_pos hd]
      exact emitConst_refines hpos h hd v
    · rw [if_neg hd]
      trivial
  | expr size e =>
    simp only [Spec.step, step, outputExpr]
    by_cases hd : cfg.wordSize ∣ size.bytes
    · rw [if_pos hd, if_pos (wordSize_le hd (size_pos size))]
      cases e with
      | missing =>
        intro s' hs'
        cases hs'
        simp [State.error]
      | known v =>
        simp only
        rw [← known_digits]
        exact emitConst_refines hpos h hd _
      | later e =>
        simp only
        refine emitReloc_refines hpos h hd e ?_
        intro y hy
        rw [hy]
    · rw [if_neg hd]
      trivial
  | skip n =>
    simp only [Spec.step, step]
    by_cases hd : cfg.wordSize ∣ n ∧ cfg.wordSize ≤ 2
    · rw [if_pos hd]
      refine space_refines ?_ h hd.1
      unfold Config.Valid at hv
      omega
    · rw [if_neg hd]
      trivial
  | align n =>
    simp only [Spec.step, step]
    cases hy : w.area with
    | none => trivial
    | some y =>
      simp only
      by_cases hd : cfg.wordSize ∣ n ∧ cfg.wordSize ≤ 2 ∧ 0 < n ∧ y.cells.length + n ≤ 2 ^ 32
      · rw [if_pos hd]
        obtain ⟨hd1, hd2, hd3, hd4⟩ := hd
        obtain ⟨x, hx, hr⟩ := h.area hy
        have hws : cfg.wordSize = 1 ∨ cfg.wordSize = 2 := by
          unfold Config.Valid at hv
          omega
        have heq : alignBytes cfg env n s = skipBytes cfg env (Spec.gap y.cells.length n) s := by
          unfold alignBytes
          rw [if_pos (wordSize_le hd1 hd3), hx]
          simp only
          obtain ⟨t, ht, hle, he⟩ := alignToNext_ok (v := x.used) (a := n) hd3 (by rw [hr.used]; exact hd4)
          rw [ht, ok_bind]
          have hg : Spec.gap y.cells.length n < n := Nat.mod_lt _ hd3
          rw [hr.used] at he hle ⊢
          have : (t + W32 - y.cells.length) % W32 = Spec.gap y.cells.length n := by omega
          rw [this]
        rw [heq]
        exact space_refines hws h (gap_dvd hr.whole hd1 hd3)
      · rw [if_neg hd]
        trivial
  | binary bs =>
    simp only [Spec.step, step]
    by_cases hd : cfg.wordSize ∣ bs.length ∧ bs.length < 2 ^ 32
    · rw [if_pos hd]
      cases he : Spec.emit env.pos bs [] w with
      | good w' => exact outputBinary_ok hpos env h hd.1 hd.2 he
      | bad => exact fun s' hs' => outputBinary_bad h (emit_bad he) hs'
      | outside => trivial
    · rw [if_neg hd]
      trivial
  | «section» name g k =>
    cases k with
    | none =>
      simp only [Spec.step, step]
      have := select_refines h name g
      cases hs : Spec.select name g none w with
      | good w' =>
        rw [hs] at this
        exact ⟨_, rfl, this⟩
      | bad =>
        rw [hs] at this
        intro s' hs'
        cases hs'
        exact this
      | outside => trivial
    | some k =>
      simp only [Spec.step, step]
      by_cases hk : k.flags.orgFixed = true
      · rw [if_pos hk]
        trivial
      · rw [if_neg hk]
        by_cases hb : (k.flags.bankFixed && !cfg.banks) = true
        · rw [if_pos hb]
          intro s' hs'
          unfold switchKind at hs'
          rw [if_pos hb] at hs'
          cases hs'
        · rw [if_neg hb]
          exact selectKind_refines h name g (by simpa using hk) (by simpa using hb)
  | named name =>
    simp only [Spec.step, step, switchName, find]
    rw [find_index h name]
    cases hf : w.areas.findIdx? fun y => y.name == name with
    | none =>
      intro s' hs'
      cases hs'
      simp [State.error]
    | some i =>
      have hi : i < w.areas.length := (List.findIdx?_eq_some_iff_getElem.1 hf).1
      exact ⟨_, rfl, rfl, h.select hi⟩
  | org v =>
    simp only [Spec.step, step, setOrigin]
    cases hy : w.area with
    | none =>
      rw [h.noArea hy]
      intro s' hs'
      cases hs'
      simp [State.error]
    | some y =>
      obtain ⟨x, hx, hr⟩ := h.area hy
      rw [hx]
      refine ⟨_, rfl, by simp, h.put hy ?_⟩
      refine ⟨hr.name, hr.group, ?_, hr.origin, hr.bank, hr.align, hr.page, hr.image, hr.used, hr.size, hr.whole, hr.pc,
        hr.alloc, hr.inside, hr.data, hr.patches, (fun h => by cases h), ?_, hr.lines⟩
      · simp only [hr.flags, flagsOf, Option.isSome_some]
      · intro v' n' hv'
        simp only [Option.some.injEq, Prod.mk.injEq] at hv'
        obtain ⟨rfl, rfl⟩ := hv'
        refine ⟨Nat.le_refl _, hr.whole, ?_⟩
        simp only [sub32, add32, hr.pc]
        omega
  | scope v =>
    refine ⟨_, rfl, rfl, ?_⟩
    exact ⟨h.length, h.rel, h.current, h.valid, h.stack, h.stackValid, rfl⟩
  | push =>
    refine ⟨_, rfl, rfl, ?_⟩
    refine ⟨h.length, h.rel, h.current, h.valid, ?_, ?_, h.scope⟩
    · simp only [push, h.current, h.scope, h.stack]
    · intro p hp i hi
      rcases List.mem_cons.1 hp with rfl | hp
      · exact h.valid i hi
      · exact h.stackValid p hp i hi
  | pop =>
    simp only [Spec.step, step, pop]
    rw [h.stack]
    cases hst : w.stack with
    | nil =>
      intro s' hs'
      cases hs'
      simp [State.error]
    | cons p st =>
      obtain ⟨c, sc⟩ := p
      refine ⟨_, rfl, rfl, ?_⟩
      refine ⟨h.length, h.rel, rfl, ?_, rfl, ?_, rfl⟩
      · intro i hi
        exact h.stackValid (c, sc) (by rw [hst]; exact List.mem_cons_self) i hi
      · intro p hp i hi
        exact h.stackValid p (by rw [hst]; exact List.mem_cons_of_mem _ hp) i hi

/-- Every history does what it means. -/
theorem run_refines {cfg : Config} (hv : cfg.Valid) : ∀ (ops : List (Env × Op α)) {s : State α} {w : World α},
    Match cfg s w →
    match Spec.run cfg ops w with
    | .good w' => ∃ s', run cfg ops s = .ok s' ∧ s'.errors = s.errors ∧ Match cfg s' w'
    | .bad => ∀ s', run cfg ops s = .ok s' → s.errors < s'.errors
    | .outside => True
  | [], s, w, h => ⟨s, rfl, rfl, h⟩
  | (env, op) :: ops, s, w, h => by
    have hs := step_refines hv h env op
    rw [Spec.run]
    cases hw : Spec.step cfg env op w with
    | good w1 =>
      rw [hw] at hs
      obtain ⟨s1, h1, h2, h3⟩ := hs
      have ih := run_refines hv ops h3
      simp only
      cases hr : Spec.run cfg ops w1 with
      | good w' =>
        rw [hr] at ih
        obtain ⟨s', a, b, c⟩ := ih
        refine ⟨s', ?_, b.trans h2, c⟩
        rw [run, h1]
        exact a
      | bad =>
        rw [hr] at ih
        intro s' hs'
        rw [run, h1] at hs'
        have := ih s' hs'
        omega
      | outside => trivial
    | bad =>
      rw [hw] at hs
      intro s' hs'
      rw [run] at hs'
      obtain ⟨s1, h1, h2⟩ := bind_ok hs'
      exact Nat.lt_of_lt_of_le (hs s1 h1) (run_errors h2)
    | outside => trivial

theorem match_start (cfg : Config) : Match cfg ({} : State α) {} :=
  ⟨rfl, by simp, rfl, by simp, rfl, by simp, rfl⟩

end Verif.Section
