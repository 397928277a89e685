import Verif.Assign.Lemmas
/-!
# Properties of section placement (C02, C03, C04, C05, C08, C09)

All theorems are about `assignProcess`, the linker's placement of all sections (all 55 passes),
for any machine layout (`gs`, `pools`; pools may be shared between groups) and any list of sections.
-/
namespace Verif.Assign
open Verif.Alloc

/-! A running example: two groups sharing a pool, a second bank, and sections of several kinds. -/

def exGroups : List MGroup := [⟨"CODE", [0, 1]⟩, ⟨"DATA", [0]⟩, ⟨"BSS", [2]⟩]
def exPools : List Pool :=
  [⟨some 0, 0, 0x1000, 0, 0x400, []⟩, ⟨some 0x400, 0, 0x1000, 1, 0x400, []⟩, ⟨none, 0, 0x8000, 0, 0x1000, []⟩]

def exCode : SGroup := ⟨"CODE", 0, false, false⟩
def exData : SGroup := ⟨"DATA", 0, true, false⟩
def exBss : SGroup := ⟨"BSS", 1, false, false⟩

/-- An unplaced section. -/
def mk (g : Option SGroup) (size : Nat) (byteLoc : Option Nat) (bank : Int) (align page : Option Nat) : Section :=
  ⟨g, size, byteLoc, bank, (match byteLoc with | some l => (l : Int) | none => -1), none, 0, 1, align, page, true, false, none⟩

def exSections : List Section :=
  [mk (some exData) 0x50 none (-1) none none,
   mk (some exCode) 0x300 none (-1) (some 0x100) none,
   mk (some exCode) 0x20 (some 0x1010) (-1) none none,
   mk (some exBss) 0x80 none (-1) none (some 0x100),
   mk none 0 none (-1) none none,
   mk (some exCode) 0x380 none 1 none none,
   { mk (some exCode) 0x380 none 1 none none with used := false }]

/-- Final byte address, bank and home of each section. -/
def summary (r : Outcome (List Pool × List Section)) : Outcome (List (Option Nat × Int × Option Nat)) :=
  match r with
  | .ok (_, ss) => .ok (ss.map fun s => (s.byteLoc, s.bank, s.home))
  | .fail => .fail
  | .ub => .ub

theorem exResult : summary (assignProcess exGroups exPools exSections) =
    .ok [(some 0x1030, 0, some 0), (some 0x1100, 0, some 0), (some 0x1010, 0, some 0),
      (some 0x8000, 0, some 2), (some 0, 0, none), (some 0x1000, 1, some 1), (none, 1, none)] := by
  decide +kernel

theorem exInput : Input exPools exSections := ⟨by decide, by decide, by decide⟩

/-- The result of the running example. -/
theorem exRuns : ∃ pools' ss', assignProcess exGroups exPools exSections = .ok (pools', ss') := by
  have h := exResult
  unfold summary at h
  split at h
  · next p s e => exact ⟨p, s, e⟩
  · cases h
  · cases h

variable {gs : List MGroup} {pools pools' : List Pool} {ss ss' : List Section}

/-- **C09** If placement succeeds, every used section has been placed (and has an address), every unused one
is untouched, and the sections are still the same ones in the same order. -/
theorem C09_every_used_section_placed (hin : Input pools ss)
    (h : assignProcess gs pools ss = .ok (pools', ss')) :
    ss'.length = ss.length ∧
    ∀ (i : Nat) s s', ss[i]? = some s → ss'[i]? = some s' →
      (s.used = false → s' = s) ∧
      (s.used = true → s'.assigned = true ∧ s'.byteLoc.isSome ∧
        ((s.group = none ∧ PlacedEqu s s') ∨ ∃ k l, PlacedAt gs pools s s' k l)) := by
  have hsw := process_ok hin h
  refine ⟨hsw.secs.length_eq.symm, ?_⟩
  intro i s s' hs hs'
  have haf := hsw.secs.get hs hs'
  have hmem : s ∈ ss := List.mem_of_getElem? hs
  have hfr := hin.fresh s hmem
  unfold After at haf
  refine ⟨?_, ?_⟩
  · intro hu; simpa [hu] using haf
  · intro hu
    simp only [hfr.1, hu, Bool.not_true, Bool.or_false, Bool.false_eq_true, if_false] at haf
    obtain ⟨p, hp⟩ := find_some s
    have hne := List.find?_some hp
    rw [hp] at haf
    simp only at haf
    have haf' := haf.static (initPools_static pools)
    clear haf
    cases hact : p.act s with
    | nothing => simp [hact] at hne
    | equ =>
      rw [hact] at haf'
      exact ⟨haf'.assigned (by simp), by rw [PlacedEqu.byteLoc haf']; rfl, Or.inl ⟨PlacedEqu.noGroup haf', haf'⟩⟩
    | fixed =>
      rw [hact] at haf'
      obtain ⟨k, l, h1, _⟩ := haf'
      exact ⟨h1.assigned, by rw [h1.byteLoc]; rfl, Or.inr ⟨k, l, h1⟩⟩
    | floating =>
      rw [hact] at haf'
      obtain ⟨k, l, h1, _⟩ := haf'
      exact ⟨h1.assigned, by rw [h1.byteLoc]; rfl, Or.inr ⟨k, l, h1⟩⟩

example : ∃ pools' ss', assignProcess exGroups exPools exSections = .ok (pools', ss') ∧
    ss'.length = exSections.length :=
  let ⟨p, s, h⟩ := exRuns
  ⟨p, s, h, (C09_every_used_section_placed exInput h).1⟩

/-- **C01** at the level of the whole link: sections placed in the same pool never overlap. -/
theorem C01_sections_disjoint (hin : Input pools ss)
    (h : assignProcess gs pools ss = .ok (pools', ss')) :
    ∀ k, (ss'.flatMap (occupies k)).Pairwise Range.Disjoint := by
  intro k
  have hsw := process_ok hin h
  apply pairwise_of_cover
  intro a
  have hc := hsw.cons k a
  have h0 : cover (ss.flatMap (occupies k)) a = 0 := by
    have : ss.flatMap (occupies k) = [] := by
      rw [List.flatMap_eq_nil_iff]
      intro s hs
      simp [occupies, (hin.fresh s hs).2]
    rw [this]; rfl
  have h1 : poolCover (initPools pools) k a ≤ 1 := by
    unfold poolCover
    split
    · next p hp =>
      simp only [initPools, List.getElem?_map] at hp
      cases hq : pools[k]? with
      | none => rw [hq] at hp; simp at hp
      | some q =>
        rw [hq] at hp
        simp only [Option.map_some, Option.some.injEq] at hp
        subst hp
        simp only [init_cover]
        split <;> omega
    · omega
  omega

/-- The same for two individual sections. -/
theorem C01_two_sections_disjoint (hin : Input pools ss)
    (h : assignProcess gs pools ss = .ok (pools', ss')) (i j k l m : Nat) (s t : Section) (hij : i < j)
    (hs : ss'[i]? = some s) (ht : ss'[j]? = some t) (hks : s.home = some k) (hkt : t.home = some k)
    (hl : s.byteLoc = some l) (hm : t.byteLoc = some m) :
    Range.Disjoint (l, s.size) (m, t.size) := by
  have hp := C01_sections_disjoint hin h k
  have es : occupies k s = [(l, s.size)] := by simp [occupies, hks, hl]
  have et : occupies k t = [(m, t.size)] := by simp [occupies, hkt, hm]
  -- split the list at `i`
  have hi := (List.getElem?_eq_some_iff.1 hs)
  obtain ⟨hi1, hi2⟩ := hi
  have hsplit : ss' = ss'.take i ++ s :: ss'.drop (i + 1) := by
    rw [← hi2, List.getElem_cons_drop hi1, List.take_append_drop]
  rw [hsplit, List.flatMap_append, List.flatMap_cons, es] at hp
  have hp2 := (List.pairwise_append.1 hp).2.1
  simp only [List.cons_append, List.nil_append] at hp2
  refine (List.pairwise_cons.1 hp2).1 (m, t.size) ?_
  refine List.mem_flatMap.2 ⟨t, ?_, by rw [et]; simp⟩
  have : (ss'.drop (i + 1))[j - (i + 1)]? = some t := by
    rw [List.getElem?_drop]
    have : i + 1 + (j - (i + 1)) = j := by omega
    rw [this]; exact ht
  exact List.mem_of_getElem? this

example : ∃ pools' ss', assignProcess exGroups exPools exSections = .ok (pools', ss') ∧
    (ss'.flatMap (occupies 0)).length = 3 ∧ (ss'.flatMap (occupies 0)).Pairwise Range.Disjoint := by
  obtain ⟨p, s, h⟩ := exRuns
  refine ⟨p, s, h, ?_, C01_sections_disjoint exInput h 0⟩
  have hk : (match assignProcess exGroups exPools exSections with
    | .ok (_, ss) => (ss.flatMap (occupies 0)).length | _ => 0) = 3 := by decide +kernel
  rw [h] at hk
  exact hk

/-- **C02** Every placed section lies inside one of the pools of its group, in the bank it asked for. -/
theorem C02_sections_within_group_pool (hin : Input pools ss)
    (h : assignProcess gs pools ss = .ok (pools', ss')) (i : Nat) (s s' : Section) (g : SGroup)
    (hs : ss[i]? = some s) (hs' : ss'[i]? = some s') (hu : s.used = true) (hg : s.group = some g) :
    ∃ mg k p l, mg ∈ gs ∧ mg.name = g.name ∧ k ∈ mg.pools ∧ pools[k]? = some p ∧
      s'.byteLoc = some l ∧ p.base ≤ l ∧ l + s.size ≤ p.base + p.size ∧
      s'.bank = p.bank ∧ (s.bank ≠ -1 → s'.bank = s.bank) := by
  have hc := ((C09_every_used_section_placed hin h).2 i s s' hs hs').2 hu
  rcases hc.2.2 with ⟨hn, _⟩ | ⟨k, l, hp⟩
  · rw [hg] at hn; cases hn
  · obtain ⟨g', mg, hg', hmg, hname, hk⟩ := hp.group
    rw [hg] at hg'; cases hg'
    obtain ⟨p, hpk, hw, hb, hb', _⟩ := hp.pool
    refine ⟨mg, k, p, l, hmg, hname, hk, hpk, hp.byteLoc, hw.1, hw.2, hb', ?_⟩
    intro hne
    rcases hb with hb | hb
    · exact absurd hb hne
    · rw [hb', hb]

/-- **C03** A used section of an ordinary group (text, or bss without the data flag) that has a fixed address keeps
it. -/
theorem C03_fixed_address_kept (hin : Input pools ss)
    (h : assignProcess gs pools ss = .ok (pools', ss')) (i : Nat) (s s' : Section) (g : SGroup) (l : Nat)
    (hs : ss[i]? = some s) (hs' : ss'[i]? = some s') (hu : s.used = true)
    (hg : s.group = some g) (ho : Ordinary g) (hl : s.byteLoc = some l) :
    s'.byteLoc = some l ∧ s'.loc = s.loc ∧ ∃ k, PlacedAt gs pools s s' k l := by
  have hsw := process_ok hin h
  have haf := hsw.secs.get hs hs'
  have hfr := hin.fresh s (List.mem_of_getElem? hs)
  unfold After at haf
  simp only [hfr.1, hu, Bool.not_true, Bool.or_false, Bool.false_eq_true, if_false] at haf
  obtain ⟨p, hp, hact⟩ := find_fixed hg ho hfr.1 hl
  rw [hp] at haf
  simp only at haf
  rw [hact] at haf
  obtain ⟨k, l', h1, h2, h3⟩ := haf.static (initPools_static pools)
  rw [hl] at h2; cases h2
  exact ⟨h1.byteLoc, h3, k, h1⟩

example : ∃ pools' ss' s', assignProcess exGroups exPools exSections = .ok (pools', ss') ∧
    ss'[2]? = some s' ∧ s'.byteLoc = some 0x1010 := by
  obtain ⟨p, t, h⟩ := exRuns
  have hlen := (C09_every_used_section_placed exInput h).1
  have h2 : 2 < t.length := by rw [hlen]; decide
  exact ⟨p, t, t[2], h, List.getElem?_eq_some_iff.2 ⟨h2, rfl⟩,
    (C03_fixed_address_kept exInput h 2 _ t[2] exCode 0x1010 rfl
      (List.getElem?_eq_some_iff.2 ⟨h2, rfl⟩) rfl rfl (by decide) rfl).1⟩

/-- The code violates C03 for bss groups with the data flag: no predicate accepts them (xlink/assign.c 132-164), so
only the last pass places them, which ignores the fixed address. The section asked for $8100 and is put at
$8000. -/
theorem C03_bss_data_section_is_moved :
    ∃ (gs : List MGroup) (pools : List Pool) (s : Section) (pools' : List Pool) (s' : Section),
      Input pools [s] ∧ s.used = true ∧ s.byteLoc = some 0x8100 ∧
      assignProcess gs pools [s] = .ok (pools', [s']) ∧ s'.byteLoc = some 0x8000 := by
  refine ⟨[⟨"BSS", [0]⟩], [⟨none, 0, 0x8000, 0, 0x1000, []⟩],
    mk (some ⟨"BSS", 1, true, false⟩) 0x10 (some 0x8100) (-1) none none,
    [⟨none, 0, 0x8000, 0, 0x1000, [⟨0x8010, 0xFF0⟩]⟩],
    { mk (some ⟨"BSS", 1, true, false⟩) 0x10 (some 0x8000) 0 none none with
      loc := 0x8000, assigned := true, home := some 0 },
    ⟨by decide, by decide, by decide⟩, rfl, rfl, ?_, rfl⟩
  decide +kernel

/-- **C04** A used section with an alignment and no fixed address starts at a multiple of the alignment. -/
theorem C04_sections_aligned (hin : Input pools ss)
    (h : assignProcess gs pools ss = .ok (pools', ss')) (i : Nat) (s s' : Section) (g : SGroup) (a : Nat)
    (hs : ss[i]? = some s) (hs' : ss'[i]? = some s') (hu : s.used = true)
    (hg : s.group = some g) (hl : s.byteLoc = none) (ha : s.align = some a) :
    ∃ l, s'.byteLoc = some l ∧ a ∣ l := by
  have hsw := process_ok hin h
  have haf := hsw.secs.get hs hs'
  have hfr := hin.fresh s (List.mem_of_getElem? hs)
  unfold After at haf
  simp only [hfr.1, hu, Bool.not_true, Bool.or_false, Bool.false_eq_true, if_false] at haf
  obtain ⟨p, hp⟩ := find_some s
  have hact := act_floating hg hl p (by have := List.find?_some hp; simpa using this)
  rw [hp] at haf
  simp only at haf
  rw [hact] at haf
  obtain ⟨k, l, h1, h2, _⟩ := haf
  exact ⟨l, h1.byteLoc, h2 a ha⟩

example : ∃ pools' ss' s' l, assignProcess exGroups exPools exSections = .ok (pools', ss') ∧
    ss'[1]? = some s' ∧ s'.byteLoc = some l ∧ 0x100 ∣ l := by
  obtain ⟨p, t, h⟩ := exRuns
  have hlen := (C09_every_used_section_placed exInput h).1
  have h2 : 1 < t.length := by rw [hlen]; decide
  obtain ⟨l, h3, h4⟩ := C04_sections_aligned exInput h 1 _ t[1] exCode 0x100 rfl
    (List.getElem?_eq_some_iff.2 ⟨h2, rfl⟩) rfl rfl rfl rfl
  exact ⟨p, t, t[1], l, h, List.getElem?_eq_some_iff.2 ⟨h2, rfl⟩, h3, h4⟩

/-- **C05**, the part that holds (see `Verif/Alloc/Props.lean` for the part that does not): a used section
with a page and neither alignment nor fixed address does not straddle a page. -/
theorem C05_sections_paged_partial (hin : Input pools ss)
    (h : assignProcess gs pools ss = .ok (pools', ss')) (i : Nat) (s s' : Section) (g : SGroup) (pg : Nat)
    (hs : ss[i]? = some s) (hs' : ss'[i]? = some s') (hu : s.used = true)
    (hg : s.group = some g) (hl : s.byteLoc = none) (ha : s.align = none) (hpg : s.page = some pg) :
    ∃ l, s'.byteLoc = some l ∧ SamePage l s.size pg := by
  have hsw := process_ok hin h
  have haf := hsw.secs.get hs hs'
  have hfr := hin.fresh s (List.mem_of_getElem? hs)
  unfold After at haf
  simp only [hfr.1, hu, Bool.not_true, Bool.or_false, Bool.false_eq_true, if_false] at haf
  obtain ⟨p, hp⟩ := find_some s
  have hact := act_floating hg hl p (by have := List.find?_some hp; simpa using this)
  rw [hp] at haf
  simp only at haf
  rw [hact] at haf
  obtain ⟨k, l, h1, _, h2, _⟩ := haf
  exact ⟨l, h1.byteLoc, h2 pg hpg ha⟩

example : ∃ pools' ss' s' l, assignProcess exGroups exPools exSections = .ok (pools', ss') ∧
    ss'[3]? = some s' ∧ s'.byteLoc = some l ∧ SamePage l 0x80 0x100 := by
  obtain ⟨p, t, h⟩ := exRuns
  have hlen := (C09_every_used_section_placed exInput h).1
  have h2 : 3 < t.length := by rw [hlen]; decide
  obtain ⟨l, h3, h4⟩ := C05_sections_paged_partial exInput h 3 _ t[3] exBss 0x100 rfl
    (List.getElem?_eq_some_iff.2 ⟨h2, rfl⟩) rfl rfl rfl rfl rfl
  exact ⟨p, t, t[3], l, h, List.getElem?_eq_some_iff.2 ⟨h2, rfl⟩, h3, h4⟩

/-- The word address of a floating section is its byte address divided by the word size (addresses below
`2^31`). -/
theorem C09_word_address (hin : Input pools ss)
    (h : assignProcess gs pools ss = .ok (pools', ss')) (i : Nat) (s s' : Section) (g : SGroup)
    (hs : ss[i]? = some s) (hs' : ss'[i]? = some s') (hu : s.used = true)
    (hg : s.group = some g) (hl : s.byteLoc = none) :
    ∃ l, s'.byteLoc = some l ∧ s.wordSize ≠ 0 ∧ (l < 2 ^ 31 → s'.loc = ((l / s.wordSize : Nat) : Int)) := by
  have hsw := process_ok hin h
  have haf := hsw.secs.get hs hs'
  have hfr := hin.fresh s (List.mem_of_getElem? hs)
  unfold After at haf
  simp only [hfr.1, hu, Bool.not_true, Bool.or_false, Bool.false_eq_true, if_false] at haf
  obtain ⟨p, hp⟩ := find_some s
  have hact := act_floating hg hl p (by have := List.find?_some hp; simpa using this)
  rw [hp] at haf
  simp only at haf
  rw [hact] at haf
  obtain ⟨k, l, h1, _, _, h2, h3⟩ := haf
  refine ⟨l, h1.byteLoc, h3, ?_⟩
  intro hlt
  rw [h2]
  have : int32 l = (l : Int) := by simp [int32]; omega
  rw [this]
  rfl

/-- **C08** The image offset of a placed section is its pool's image offset plus its distance from the start of the
pool; in pools that are not part of the image there is none. -/
theorem C08_image_offset (hin : Input pools ss)
    (h : assignProcess gs pools ss = .ok (pools', ss')) (i : Nat) (s s' : Section)
    (hs : ss[i]? = some s) (hs' : ss'[i]? = some s') (hu : s.used = true) (hg : s.group ≠ none) :
    ∃ k p l, s'.home = some k ∧ pools[k]? = some p ∧ s'.byteLoc = some l ∧
      s'.image = p.image.map (fun (img : Nat) => (img : Int) + ((l : Int) - (p.base : Int))) := by
  have hc := ((C09_every_used_section_placed hin h).2 i s s' hs hs').2 hu
  rcases hc.2.2 with ⟨hn, _⟩ | ⟨k, l, hp⟩
  · exact absurd hn hg
  · obtain ⟨p, hpk, hw, hb, hb', _, hi1, hi2⟩ := hp.pool
    refine ⟨k, p, l, hp.home, hpk, hp.byteLoc, ?_⟩
    cases himg : p.image with
    | none => simpa using hi2 himg
    | some img => simpa using hi1 img himg

/-- **C08** Sections placed in the same pool have disjoint image ranges. -/
theorem C08_image_ranges_disjoint (hin : Input pools ss)
    (h : assignProcess gs pools ss = .ok (pools', ss')) (i j k : Nat) (s s' t t' : Section) (hij : i < j)
    (hs : ss[i]? = some s) (ht : ss[j]? = some t)
    (hs' : ss'[i]? = some s') (ht' : ss'[j]? = some t') (hus : s.used = true) (hut : t.used = true)
    (hks : s'.home = some k) (hkt : t'.home = some k)
    (u v : Int) (hu : s'.image = some u) (hv : t'.image = some v) :
    ∀ x : Int, ¬ (u ≤ x ∧ x < u + s'.size ∧ v ≤ x ∧ x < v + t'.size) := by
  have gsome : ∀ (i : Nat) (s s' : Section), ss[i]? = some s → ss'[i]? = some s' → s.used = true →
      s'.home = some k → s.group ≠ none := by
    intro i s s' hs hs' hus hk hn
    rcases ((C09_every_used_section_placed hin h).2 i s s' hs hs').2 hus with ⟨_, _, ⟨_, h1⟩ | ⟨k', l, h1⟩⟩
    · rw [h1.home, (hin.fresh s (List.mem_of_getElem? hs)).2] at hk
      cases hk
    · obtain ⟨g, mg, hg, _⟩ := h1.group
      rw [hn] at hg; cases hg
  obtain ⟨k1, p1, l1, hk1, hp1, hl1, him1⟩ := C08_image_offset hin h i s s' hs hs' hus (gsome i s s' hs hs' hus hks)
  obtain ⟨k2, p2, l2, hk2, hp2, hl2, him2⟩ := C08_image_offset hin h j t t' ht ht' hut (gsome j t t' ht ht' hut hkt)
  rw [hks] at hk1; cases hk1
  rw [hkt] at hk2; cases hk2
  rw [hp1] at hp2; cases hp2
  have hd := C01_two_sections_disjoint hin h i j k l1 l2 s' t' hij hs' ht' hks hkt hl1 hl2
  rw [hu] at him1; rw [hv] at him2
  cases himg : p1.image with
  | none => rw [himg] at him1; simp at him1
  | some img =>
    rw [himg] at him1 him2
    simp only [Option.map_some, Option.some.injEq] at him1 him2
    intro x hx
    apply hd (x - img + p1.base).toNat
    constructor <;> constructor <;> simp only <;> omega

example : ∃ pools' ss', assignProcess exGroups exPools exSections = .ok (pools', ss') ∧
    (∃ s' : Section, ss'[1]? = some s' ∧ s'.image = some 0x100 ∧ s'.home = some 0) ∧
    (∃ s' : Section, ss'[2]? = some s' ∧ s'.image = some 0x10 ∧ s'.home = some 0) := by
  obtain ⟨p, t, h⟩ := exRuns
  refine ⟨p, t, h, ?_⟩
  have hk : (match assignProcess exGroups exPools exSections with
    | .ok (_, ss) => (ss[1]?.map fun s => (s.image, s.home), ss[2]?.map fun s => (s.image, s.home))
    | _ => (none, none)) = (some (some 0x100, some 0), some (some 0x10, some 0)) := by decide +kernel
  rw [h] at hk
  simp only [Prod.mk.injEq, Option.map_eq_some_iff] at hk
  obtain ⟨⟨a, ha, ha1, ha2⟩, b, hb, hb1, hb2⟩ := hk
  exact ⟨⟨a, ha, ha1, ha2⟩, b, hb, hb1, hb2⟩

end Verif.Assign
