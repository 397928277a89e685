import Verif.Section.Items
import Verif.Section.Frame
/-!
# What ends up in sections (C29), line mappings (C41) and labels (C47)
-/
namespace Verif.Section
open Spec (Cell Area World Result)

variable {α : Type}

theorem spec_run_append {cfg : Config} : ∀ (a b : List (Env × Op α)) (w : World α),
    Spec.run cfg (a ++ b) w =
      match Spec.run cfg a w with
      | .good w1 => Spec.run cfg b w1
      | .bad => .bad
      | .outside => .outside
  | [], b, w => rfl
  | (env, op) :: a, b, w => by
    simp only [List.cons_append, Spec.run]
    cases Spec.step cfg env op w with
    | good w1 => exact spec_run_append a b w1
    | bad => rfl
    | outside => rfl

theorem good_run {cfg : Config} (hv : cfg.Valid) {ops : List (Env × Op α)} {w : World α}
    (h : Spec.run cfg ops {} = .good w) : ∃ s, run cfg ops {} = .ok s ∧ s.errors = 0 ∧ Match cfg s w := by
  have := run_refines hv ops (match_start (α := α) cfg)
  rw [h] at this
  exact this

/-- A section of the program holds an area: the bytes in their order within the memory that was allocated, the program counter
in words, the places to be filled in, and what it was declared with. -/
structure Holds (cfg : Config) (x : Sect α) (y : Area α) : Prop where
  name : x.name = y.name
  group : x.group = y.group
  size : x.used = y.cells.length
  contents : y.group.bss = false → x.used ≤ x.data.length ∧ x.data.take x.used = y.cells.map Cell.value
  pc : x.pc * cfg.wordSize = y.cells.length
  patches : x.patches.Perm y.holes
  inside : ∀ p ∈ y.holes, p.offset + p.size.bytes ≤ y.cells.length
  apart : y.holes.Pairwise fun p q => p.offset + p.size.bytes ≤ q.offset
  address : y.attributes.address = if x.flags.loadFixed then some x.origin else none
  bank : y.attributes.bank = if x.flags.bankFixed then some x.bank else none
  align : y.attributes.align = if x.flags.aligned then some x.align else none
  page : y.attributes.page = if x.flags.paged then some x.page else none
  root : y.attributes.root = x.flags.root
  image : ∀ a, y.attributes.address = some a → x.imagePosition = a * cfg.wordSize % 2 ^ 32

theorem getD_isSome (o : Option Nat) : o = if o.isSome then some (o.getD 0) else none := by cases o <;> rfl

theorem holds {cfg : Config} {x : Sect α} {y : Area α} (h : Rel cfg.wordSize x y) (hh : Holes y) : Holds cfg x y where
  name := h.name
  group := h.group
  size := h.used
  contents := fun hb => ⟨h.inside hb, h.data hb⟩
  pc := by
    rw [h.pc]
    exact Nat.div_mul_cancel h.whole
  patches := h.patches
  inside := hh.inside
  apart := hh.apart
  address := by
    rw [h.flags, h.origin]
    exact getD_isSome _
  bank := by
    rw [h.flags, h.bank]
    exact getD_isSome _
  align := by
    rw [h.flags, h.align]
    exact getD_isSome _
  page := by
    rw [h.flags, h.page]
    exact getD_isSome _
  root := by
    rw [h.flags]
    rfl
  image := by
    intro a ha
    rw [h.image, h.origin, ha]
    rfl

theorem holes_start : HolesAll ({} : World α) := by
  intro y hy
  cases hy

/-- After a history of directives that makes sense, no error has been reported and every section holds exactly what the
directives that were given while it was selected mean. -/
theorem C29_history {cfg : Config} (hv : cfg.Valid) {ops : List (Env × Op α)} {w : World α}
    (h : Spec.run cfg ops {} = .good w) :
    ∃ s, run cfg ops {} = .ok s ∧ s.errors = 0 ∧ s.current = w.current ∧ s.stack = w.stack ∧ s.scope = w.scope ∧
      s.sections.length = w.areas.length ∧
      ∀ (i : Nat) (x : Sect α) (y : Area α), s.sections[i]? = some x → w.areas[i]? = some y → Holds cfg x y := by
  obtain ⟨s, h1, h2, hm⟩ := good_run hv h
  refine ⟨s, h1, h2, hm.current, hm.stack, hm.scope, hm.length, ?_⟩
  intro i x y hx hy
  exact holds (hm.rel i x y hx hy) (holes_run holes_start h y (List.mem_of_getElem? hy))

/-- A history with a mistake in it does not pass unnoticed. -/
theorem C29_mistakes {cfg : Config} (hv : cfg.Valid) {ops : List (Env × Op α)} (h : Spec.run cfg ops {} = .bad) :
    ∀ s, run cfg ops {} = .ok s → 0 < s.errors := by
  have := run_refines hv ops (match_start (α := α) cfg)
  rw [h] at this
  exact this

/-- A directive changes at most the section that is selected, whatever has happened before. -/
theorem C29_others {cfg : Config} {env : Env} {op : Op α} {s s' : State α} (h : step cfg env op s = .ok s') :
    ∀ i : Nat, i < s.sections.length → s.current ≠ some i → s'.sections[i]? = s.sections[i]? := step_others h

/-- What has been put in a section stays there. -/
theorem C29_earlier {cfg : Config} (hv : cfg.Valid) {a b : List (Env × Op α)} {w : World α}
    (h : Spec.run cfg (a ++ b) {} = .good w) :
    ∃ s s', run cfg a {} = .ok s ∧ run cfg (a ++ b) {} = .ok s' ∧ s.sections.length ≤ s'.sections.length ∧
      ∀ (i : Nat) (x x' : Sect α), s.sections[i]? = some x → s'.sections[i]? = some x' →
        x'.name = x.name ∧ x'.group = x.group ∧ x.used ≤ x'.used ∧
        (x.group.bss = false → x'.data.take x.used = x.data.take x.used) ∧ ∀ p ∈ x.patches, p ∈ x'.patches := by
  have ha := h
  rw [spec_run_append] at ha
  cases hw : Spec.run cfg a {} with
  | bad =>
    rw [hw] at ha
    cases ha
  | outside =>
    rw [hw] at ha
    cases ha
  | good w1 =>
    rw [hw] at ha
    simp only at ha
    obtain ⟨s, h1, -, hm1⟩ := good_run hv hw
    obtain ⟨s', h2, -, hm2⟩ := good_run hv h
    have he := spec_run_extends ha
    refine ⟨s, s', h1, h2, ?_, ?_⟩
    · rw [hm1.length, hm2.length]
      apply Nat.le_of_not_lt
      intro hlt
      obtain ⟨y', hy', -⟩ := he w.areas.length w1.areas[w.areas.length] (by simp [hlt])
      rw [List.getElem?_eq_none (Nat.le_refl _)] at hy'
      cases hy'
    · intro i x x' hx hx'
      have hi : i < w1.areas.length := by
        rw [← hm1.length]
        exact (List.getElem?_eq_some_iff.1 hx).1
      obtain ⟨y', hy', hc⟩ := he i w1.areas[i] (by simp [hi])
      have r1 := hm1.rel i x w1.areas[i] hx (by simp [hi])
      have r2 := hm2.rel i x' y' hx' hy'
      refine ⟨?_, ?_, ?_, ?_, ?_⟩
      · rw [r1.name, r2.name, hc.name]
      · rw [r1.group, r2.group, hc.group]
      · rw [r1.used, r2.used]
        exact hc.cells.length_le
      · intro hb
        have hb1 : w1.areas[i].group.bss = false := by
          rw [← r1.group]
          exact hb
        have hb2 : y'.group.bss = false := by
          rw [hc.group]
          exact hb1
        have hle : x.used ≤ x'.used := by
          rw [r1.used, r2.used]
          exact hc.cells.length_le
        have d2 := congrArg (List.take x.used) (r2.data hb2)
        rw [List.take_take, Nat.min_eq_left hle] at d2
        rw [d2, r1.data hb1]
        obtain ⟨t, ht⟩ := hc.cells
        rw [← ht, List.map_append, r1.used, List.take_left' (by simp)]
      · intro p hp
        exact r2.patches.mem_iff.2 (hc.holes.subset (r1.patches.mem_iff.1 hp))

/-- The two bytes of an earlier instruction can be replaced (680x0 with a floating point unit); nothing else changes. -/
theorem C29_replace {cfg : Config} (hv : cfg.Valid) {ops : List (Env × Op α)} {w : World α}
    (h : Spec.run cfg ops {} = .good w) {y : Area α} (hy : w.area = some y) (hb : y.group.bss = false) (env : Env)
    {v offset : Nat} (ho : offset + 2 ≤ y.cells.length) :
    ∃ s x s' x', run cfg ops {} = .ok s ∧ s.sect = some x ∧ outputAt env v offset s = .ok s' ∧ s'.errors = 0 ∧
      s'.sect = some x' ∧ x'.used = x.used ∧ x'.pc = x.pc ∧ x'.patches = x.patches ∧ x'.data.length = x.data.length ∧
      x'.data.take offset = x.data.take offset ∧ (x'.data.drop offset).take 2 = Spec.digits env.big 2 v ∧
      x'.data.drop (offset + 2) = x.data.drop (offset + 2) := by
  obtain ⟨s, h1, h2, hm⟩ := good_run hv h
  obtain ⟨x, hx, hr⟩ := hm.area hy
  have hin := hr.inside hb
  have hu := hr.used
  have hlim := hr.size
  have hl2 := limit_lt y.group.bss
  have hd : ∃ a b, encode env.big .two v = [a, b] := by
    simp only [encode]
    split
    · exact ⟨_, _, rfl⟩
    · exact ⟨_, _, rfl⟩
  obtain ⟨a, b, hab⟩ := hd
  have he : outputAt env v offset s = .ok (s.set { x with data := (x.data.set offset a).set (offset + 1) b }) := by
    unfold outputAt
    rw [hx]
    simp only
    rw [Nat.mod_eq_of_lt (by omega), if_pos (by omega), hr.group, hb]
    simp only [Bool.false_eq_true, if_false]
    rw [if_pos (by omega), hab]
  refine ⟨s, x, _, _, h1, hx, he, ?_, sect_set hx, rfl, rfl, rfl, ?_, ?_, ?_, ?_⟩
  · unfold State.set
    split <;> exact h2
  · simp
  · simp only [List.take_set]
    rw [List.set_eq_of_length_le (by simp; omega), List.set_eq_of_length_le (by simp; omega)]
  · have hsize : offset + 2 ≤ x.data.length := by omega
    have e2 := encode_digits env.big .two v
    rw [hab] at e2
    rw [show Spec.digits env.big 2 v = [a, b] from e2.symm]
    apply List.ext_getElem?
    intro i
    match i with
    | 0 =>
      have h0 : offset < x.data.length := by omega
      simp [List.getElem?_drop, h0]
    | 1 =>
      have h0 : offset + 1 < x.data.length := by omega
      simp [List.getElem?_drop, h0]
    | n + 2 =>
      simp [List.getElem?_take]
      omega
  · simp only [List.drop_set]
    rw [if_pos (by omega), if_pos (by omega)]

/-- `DB`, `DW` and `DL` put the bytes of their operands behind each other in the section that is selected, and report mistakes:
numbers that do not fit, strings that are too long. -/
theorem C29_data {cfg : Config} (hv : cfg.Valid) {ops : List (Env × Op α)} {w : World α}
    (h : Spec.run cfg ops {} = .good w) (env : Env) (rng : Size → α → α) (size : Size) (its : List (Item α)) :
    ∃ s, run cfg ops {} = .ok s ∧
      match Spec.items cfg env rng size its w with
      | .good w' => (∃ s', dataItems cfg env rng size its s = .ok s' ∧ s'.errors = 0 ∧
          ∀ (i : Nat) (x : Sect α) (y : Area α), s'.sections[i]? = some x → w'.areas[i]? = some y →
            x.used = y.cells.length ∧ (y.group.bss = false → x.data.take x.used = y.cells.map Cell.value) ∧
            x.pc * cfg.wordSize = y.cells.length ∧ x.patches.Perm y.holes) ∧
        ∀ y, w.area = some y → y.group.bss = false →
          ∃ bs : List Bytes, its.map (Spec.itemBytes env size) = bs.map some ∧ ∃ hs,
            w' = w.put { y with cells := y.cells ++ bs.flatten.map fun b => ⟨b, env.pos⟩, holes := y.holes ++ hs }
      | .bad => ∀ s', dataItems cfg env rng size its s = .ok s' → 0 < s'.errors
      | .outside => True := by
  obtain ⟨s, h1, h2, hm⟩ := good_run hv h
  refine ⟨s, h1, ?_⟩
  have ha := items_agree hv env rng size its hm
  cases hr : Spec.items cfg env rng size its w with
  | good w' =>
    rw [hr] at ha
    obtain ⟨s', h3, h4, h5⟩ := ha
    refine ⟨⟨s', h3, h4.trans h2, ?_⟩, ?_⟩
    · intro i x y hx hy
      have r := h5.rel i x y hx hy
      refine ⟨r.used, r.data, ?_, r.patches⟩
      rw [r.pc]
      exact Nat.div_mul_cancel r.whole
    · intro y hy hb
      exact items_cells hy hb hr
  | bad =>
    rw [hr] at ha
    intro s' hs'
    have := ha s' hs'
    omega
  | outside => trivial

/-- Space is counted in bytes, words, longs or doubles. -/
theorem C29_space {cfg : Config} {env : Env} {multiplier : Nat} {count : Int} (s : State α) (h : 0 ≤ count)
    (hl : count.toNat * multiplier < 2 ^ 32) :
    defineSpace cfg env multiplier count s = step cfg env (.skip (count.toNat * multiplier)) s := by
  unfold defineSpace
  rw [if_pos h, Nat.mod_eq_of_lt hl]
  rfl

/-- `CNOP` fills up to a multiple of the alignment and adds the offset. -/
theorem C29_cnop {cfg : Config} {env : Env} {offset align : Nat} (s : State α) :
    cnop cfg env offset align s = run cfg [(env, .align align), (env, .skip offset)] s := by
  unfold cnop
  rw [if_pos (by omega), if_pos (by omega)]
  simp only [Int.toNat_natCast, run, step]
  cases alignBytes cfg env align s with
  | ok s1 =>
    simp only [ok_bind]
    cases skipBytes cfg env offset s1 <;> rfl
  | fail => rfl
  | ub => rfl

/-! ## The attributes of a section -/

theorem attributes_collect {cfg : Config} : ∀ (as : List Attr) (a b : Spec.Attributes) (k : Kind),
    Spec.collect cfg as a = some b → k.flags = flagsOf a false →
    k.bank = a.bank.getD U32MAX → k.align = a.align.getD U32MAX → k.page = a.page.getD U32MAX →
    (∀ v, a.bank = some v → v < U32MAX) → (∀ v, a.align = some v → v < U32MAX) → (∀ v, a.page = some v → v < U32MAX) →
    ∃ k', attributes cfg as k = .inl k' ∧ k'.flags = flagsOf b false ∧ k'.origin = k.origin ∧ b.address = a.address ∧
      k'.bank = b.bank.getD U32MAX ∧ k'.align = b.align.getD U32MAX ∧ k'.page = b.page.getD U32MAX ∧
      (a.root = true → b.root = true)
  | [], a, b, k, h, hf, h1, h2, h3, _, _, _ => by
    cases h
    exact ⟨k, rfl, hf, rfl, rfl, h1, h2, h3, id⟩
  | .bank (some v) :: as, a, b, k, h, hf, h1, h2, h3, b1, b2, b3 => by
    rw [Spec.collect] at h
    split at h
    · rename_i hc
      obtain ⟨hc1, hc2, hc3⟩ := hc
      rw [attributes, if_neg (by simp [hc1, h1, hc2])]
      have := attributes_collect as _ b { k with bank := bracketed (some v), flags := { k.flags with bankFixed := true } } h
        (by simp [hf, flagsOf]) rfl h2 h3 (by intro u hu; cases hu; exact hc3) b2 b3
      exact this
    · cases h
  | .align (some v) :: as, a, b, k, h, hf, h1, h2, h3, b1, b2, b3 => by
    rw [Spec.collect] at h
    split at h
    · rename_i hc
      obtain ⟨hc1, hc2⟩ := hc
      rw [attributes, if_neg (by simp [h2, hc1])]
      exact attributes_collect as { a with align := some v } b { k with align := bracketed (some v), flags := { k.flags with aligned := true } } h
        (by simp [hf, flagsOf]) h1 rfl h3 b1 (by intro u hu; cases hu; exact hc2) b3
    · cases h
  | .page (some v) :: as, a, b, k, h, hf, h1, h2, h3, b1, b2, b3 => by
    rw [Spec.collect] at h
    split at h
    · rename_i hc
      obtain ⟨hc1, hc2⟩ := hc
      rw [attributes, if_neg (by simp [h3, hc1])]
      exact attributes_collect as { a with page := some v } b { k with page := bracketed (some v), flags := { k.flags with paged := true } } h
        (by simp [hf, flagsOf]) h1 h2 rfl b1 b2 (by intro u hu; cases hu; exact hc2)
    · cases h
  | .root :: as, a, b, k, h, hf, h1, h2, h3, b1, b2, b3 => by
    rw [Spec.collect] at h
    rw [attributes]
    obtain ⟨k', g1, g2, g3, g4, g5, g6, g7, g8⟩ := attributes_collect as _ b { k with flags := { k.flags with root := true } } h
      (by simp [hf, flagsOf]) h1 h2 h3 b1 b2 b3
    exact ⟨k', g1, g2, g3, g4, g5, g6, g7, fun _ => g8 rfl⟩
  | .bank none :: _, _, _, _, h, _, _, _, _, _, _, _ => by cases h
  | .align none :: _, _, _, _, h, _, _, _, _, _, _, _ => by cases h
  | .page none :: _, _, _, _, h, _, _, _, _, _, _, _ => by cases h
  | .other :: _, _, _, _, h, _, _, _, _, _, _, _ => by cases h
  | .nothing :: _, _, _, _, h, _, _, _, _, _, _, _ => by cases h

theorem attributes_none {a : Spec.Attributes} (h : flagsOf a false = {}) : a = {} := by
  obtain ⟨ad, ba, al, pa, ro⟩ := a
  simp only [flagsOf, Flags.mk.injEq] at h
  obtain ⟨h1, h2, -, h3, h4, h5⟩ := h
  cases ad <;> cases ba <;> cases al <;> cases pa <;> simp_all

/-- A `SECTION` directive selects the section with the attributes that it lists. -/
theorem C29_section {cfg : Config} {env : Env} (name : String) (g : Group) {address : Option Nat} {as : List Attr}
    {a b : Spec.Attributes} (ha : ∀ v, address = some v → v < 2 ^ 32 - 1)
    (hc : Spec.collect cfg as { address := address } = some a) (hs : Spec.settle a = some b) (s : State α) :
    ∃ k : Option Kind, sectionDirective cfg name g address as s = step cfg env (.section name g k) s ∧
      match k with
      | none => b = {}
      | some k => k.flags.orgFixed = false ∧ b = Spec.Kind.attributes k := by
  have hl : (decide (bracketed address ≠ U32MAX)) = address.isSome := by
    cases address with
    | none => rfl
    | some v =>
      have := ha v rfl
      have : v ≠ U32MAX := by
        intro e
        rw [e] at this
        revert this
        decide
      simp [bracketed, this]
  obtain ⟨k', g1, g2, g3, g4, g5, g6, g7, -⟩ := attributes_collect as _ a
    ⟨{ loadFixed := decide (bracketed address ≠ U32MAX) }, bracketed address, U32MAX, U32MAX, U32MAX⟩ hc
    (by simp [flagsOf, hl]) rfl rfl rfl (by simp) (by simp) (by simp)
  unfold sectionDirective
  simp only [g1]
  simp only at g3 g4
  have hkind : ∀ (c : Spec.Attributes), c.address = address → ∀ k : Kind, k.flags = flagsOf c false →
      k.origin = bracketed address → k.bank = c.bank.getD U32MAX → k.align = c.align.getD U32MAX →
      k.page = c.page.getD U32MAX → c = Spec.Kind.attributes k := by
    intro c hca k q1 q2 q3 q4 q5
    obtain ⟨ad, ba, al, pa, ro⟩ := c
    simp only at hca
    subst hca
    simp only [Spec.Kind.attributes, q1, flagsOf, q2, q3, q4, q5, bracketed]
    congr 1
    · cases ad <;> rfl
    · cases ba <;> rfl
    · cases al <;> rfl
    · cases pa <;> rfl
  have hfl : k'.flags.aligned = a.align.isSome ∧ k'.flags.loadFixed = a.address.isSome := by
    rw [g2]
    exact ⟨rfl, rfl⟩
  by_cases hboth : k'.flags.aligned = true ∧ k'.flags.loadFixed = true
  · rw [if_pos (by simp [hboth])]
    rw [hfl.1, hfl.2] at hboth
    obtain ⟨n, hn⟩ := Option.isSome_iff_exists.1 hboth.1
    obtain ⟨v, hvv⟩ := Option.isSome_iff_exists.1 hboth.2
    unfold Spec.settle at hs
    rw [hn, hvv] at hs
    simp only at hs
    split at hs
    · rename_i hd
      cases hs
      have hk : k'.align = n := by
        rw [g6, hn]
        rfl
      have ho : k'.origin = v := by
        rw [g3]
        rw [hvv] at g4
        rw [← g4]
        rfl
      rw [if_neg (by omega), if_neg (by rw [hk, ho]; simp [Nat.mod_eq_zero_of_dvd hd.2])]
      refine ⟨some _, rfl, ?_, ?_⟩
      · simp only [g2, flagsOf]
      · rw [← hvv]
        refine hkind { a with align := none } g4 { k' with align := U32MAX, flags := { k'.flags with aligned := false } } ?_ g3 g5
          rfl g7
        simp only [g2, flagsOf]
        rfl
    · cases hs
  · rw [if_neg (by simpa using hboth)]
    have hb : b = a := by
      unfold Spec.settle at hs
      rw [hfl.1, hfl.2] at hboth
      split at hs
      · rename_i h1 h2
        simp [h1, h2] at hboth
      · cases hs
        rfl
    subst hb
    split
    · rename_i hz
      exact ⟨none, rfl, attributes_none (g2 ▸ hz)⟩
    · refine ⟨some k', rfl, ?_, hkind b g4 k' g2 g3 g5 g6 g7⟩
      rw [g2]
      rfl

/-! ## Line mappings -/

/-- The source line of every byte is found, the entries are in order and neighbouring entries differ. -/
theorem C41_lines {cfg : Config} (hv : cfg.Valid) {ops : List (Env × Op α)} {w : World α}
    (h : Spec.run cfg ops {} = .good w) :
    ∃ s, run cfg ops {} = .ok s ∧
      ∀ (i : Nat) (x : Sect α) (y : Area α), s.sections[i]? = some x → w.areas[i]? = some y →
        (∀ (j : Nat) (c : Cell), y.cells[j]? = some c → Spec.lineOf x.lines (j / cfg.wordSize) = some c.pos) ∧
        (x.lines.Pairwise fun a b => a.offset ≤ b.offset) ∧
        (∀ e ∈ x.lines, e.offset * cfg.wordSize ≤ y.cells.length) ∧
        ∀ (j : Nat) (a b : LineEntry), x.lines[j]? = some a → x.lines[j + 1]? = some b → a.pos ≠ b.pos := by
  obtain ⟨s, h1, -, hm⟩ := good_run hv h
  refine ⟨s, h1, ?_⟩
  intro i x y hx hy
  have r := (hm.rel i x y hx hy).lines
  refine ⟨r.found, r.sorted, ?_, r.differ⟩
  intro e he
  exact Nat.le_trans (Nat.mul_le_mul_right _ (r.bound e he)) (Nat.div_mul_le_self _ _)

/-! ## Labels -/

/-- A label stands for the address of the next byte: from the last `ORG`, or from where the section is placed, which is the
address that it was declared with if there is one. `ORG` in a section with a bank is left out. -/
theorem C47_label {cfg : Config} (hv : cfg.Valid) {ops : List (Env × Op α)} {w : World α}
    (h : Spec.run cfg ops {} = .good w) {y : Area α} (hy : w.area = some y)
    (hb : y.attributes.bank = none ∨ y.org = none) {placed : Nat} (hp : ∀ a, y.attributes.address = some a → placed = a) :
    ∃ s l, run cfg ops {} = .ok s ∧ label s = some l ∧
      Spec.Label.value placed l % 2 ^ 32 = Spec.Area.address cfg.wordSize y placed % 2 ^ 32 := by
  obtain ⟨s, h1, -, hm⟩ := good_run hv h
  obtain ⟨x, hx, hr⟩ := hm.area hy
  obtain ⟨i, hi, -, -⟩ := area_current hy
  have hpos : 0 < cfg.wordSize := by
    unfold Config.Valid at hv
    omega
  have hl : label s = some (if (x.flags.loadFixed || x.flags.orgFixed) && !x.flags.bankFixed then
      .constant ((x.pc + x.adjust + x.origin) % W32) else .inside i x.pc) := by
    unfold label
    rw [hm.current, hi, hx]
  refine ⟨s, _, h1, hl, ?_⟩
  have hwh := Nat.div_mul_cancel hr.whole
  have horg : ∀ v n, y.org = some (v, n) →
      (x.pc + x.adjust + x.origin) % W32 = (v + (y.cells.length - n) / cfg.wordSize) % W32 := by
    intro v n ho
    obtain ⟨a1, a2, a3⟩ := hr.adjust v n ho
    have hsub : (y.cells.length - n) / cfg.wordSize + n / cfg.wordSize = y.cells.length / cfg.wordSize := by
      rw [← div_add hpos (Nat.dvd_sub hr.whole a2), Nat.sub_add_cancel a1]
    rw [hr.pc]
    omega
  split
  · rename_i hf
    rw [hr.flags] at hf
    simp only [flagsOf, Bool.and_eq_true, Bool.or_eq_true, Bool.not_eq_true', Option.isSome_iff_exists] at hf
    simp only [Spec.Label.value, Spec.Area.address]
    cases ho : y.org with
    | some vn =>
      obtain ⟨v, n⟩ := vn
      simp only
      rw [horg v n ho]
      omega
    | none =>
      simp only
      rw [hr.unmoved ho, hr.pc, hr.origin]
      rw [ho] at hf
      obtain ⟨⟨a, ha⟩ | ⟨a, ha⟩, -⟩ := hf
      · rw [hp a ha, ha]
        simp only [Option.getD_some]
        omega
      · cases ha
  · rename_i hf
    rw [hr.flags] at hf
    have ho : y.org = none := by
      rcases hb with hb | hb
      · cases ho : y.org with
        | none => rfl
        | some vn =>
          simp [flagsOf, hb, ho] at hf
      · exact hb
    simp only [Spec.Label.value, Spec.Area.address, ho, hr.pc]

/-- A label in a section that has a bank, or that is yet to be placed, is an offset in that section. -/
theorem C47_inside {cfg : Config} (hv : cfg.Valid) {ops : List (Env × Op α)} {w : World α}
    (h : Spec.run cfg ops {} = .good w) {i : Nat} (hi : w.current = some i) {y : Area α} (hy : w.areas[i]? = some y)
    (hb : y.attributes.bank.isSome ∨ (y.attributes.address = none ∧ y.org = none)) :
    ∃ s, run cfg ops {} = .ok s ∧ label s = some (.inside i (y.cells.length / cfg.wordSize)) := by
  obtain ⟨s, h1, -, hm⟩ := good_run hv h
  have ha : w.area = some y := by
    unfold World.area
    rw [hi]
    exact hy
  obtain ⟨x, hx, hr⟩ := hm.area ha
  refine ⟨s, h1, ?_⟩
  unfold label
  rw [hm.current, hi, hx]
  simp only
  rw [if_neg, hr.pc]
  rw [hr.flags]
  rcases hb with hb | ⟨hb, ho⟩
  · simp [flagsOf, hb]
  · simp [flagsOf, hb, ho]

end Verif.Section
