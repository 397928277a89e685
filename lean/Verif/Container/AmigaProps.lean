import Verif.Container.Amiga
/-!
# C23: Amiga executables can be loaded
-/
namespace Verif.Container.Amiga

theorem longs_flatMap : ∀ (o : List Nat) (r : Bytes), (∀ x ∈ o, x < 4294967296) →
    longs o.length (o.flatMap put32be ++ r) = some (o, r)
  | [], r, _ => rfl
  | x :: o, r, h => by
    rw [List.flatMap_cons, List.append_assoc, List.length_cons, longs, get32be_put32be (h x (by simp))]
    simp only
    rw [longs_flatMap o r (fun y hy => h y (by simp [hy]))]
    rfl

def enc (g : Nat × List Nat) : Bytes := put32be g.2.length ++ put32be g.1 ++ g.2.flatMap put32be

structure GroupOk (g : Nat × List Nat) : Prop where
  id : g.1 < 4294967296
  ne : g.2 ≠ []
  count : g.2.length < 4294967296
  offs : ∀ x ∈ g.2, x < 4294967296

theorem relocs_enc : ∀ (G : List (Nat × List Nat)) (fuel : Nat) (r : Bytes), (∀ g ∈ G, GroupOk g) → G.length < fuel →
    relocs fuel (G.flatMap enc ++ (put32be 0 ++ r)) = some (G, r)
  | [], fuel, r, _, hf => by
    obtain ⟨n, rfl⟩ : ∃ n, fuel = n + 1 := ⟨fuel - 1, by simp at hf; omega⟩
    rw [List.flatMap_nil, List.nil_append, relocs, get32be_put32be (by omega)]
  | g :: G, fuel, r, h, hf => by
    obtain ⟨n, rfl⟩ : ∃ n, fuel = n + 1 := ⟨fuel - 1, by simp at hf; omega⟩
    have ok := h g (by simp)
    have e : (g :: G).flatMap enc ++ (put32be 0 ++ r) =
        put32be g.2.length ++ (put32be g.1 ++ (g.2.flatMap put32be ++ (G.flatMap enc ++ (put32be 0 ++ r)))) := by
      simp [enc]
    rw [e, relocs, get32be_put32be ok.count]
    obtain ⟨m, hm⟩ : ∃ m, g.2.length = m + 1 := ⟨g.2.length - 1, by
      have := List.length_pos_iff.2 ok.ne; omega⟩
    have hl := longs_flatMap g.2 (G.flatMap enc ++ (put32be 0 ++ r)) ok.offs
    rw [hm] at hl ⊢
    simp only
    rw [get32be_put32be ok.id]
    simp only
    rw [hl]
    simp only
    rw [relocs_enc G n r (fun t ht => h t (by simp [ht])) (by simp at hf; omega)]
    rfl

/-- Everything fits into 32 bits, and text sections have their data. -/
structure Fits (l : List Sect) : Prop where
  total : l.countP live < 4294967296
  size : ∀ s ∈ l, live s = true → s.size ≤ 4294967292
  data : ∀ s ∈ l, live s = true → s.text = true → s.data.length = s.size
  patches : ∀ s ∈ l, live s = true → s.patches.length < 4294967296 ∧ ∀ p ∈ s.patches, p.offset < 4294967296

def groups (l : List Sect) (total : Nat) (ps : List Patch) : List (Nat × List Nat) :=
  ((List.range total).map fun id => (id, offsetsFor l ps id)).filter fun g => g.2 ≠ []

theorem flatMap_groups (l : List Sect) (ps : List Patch) : ∀ (ids : List Nat),
    (ids.flatMap fun id =>
      let o := offsetsFor l ps id
      if o = [] then [] else put32be o.length ++ put32be id ++ o.flatMap put32be) =
    ((ids.map fun id => (id, offsetsFor l ps id)).filter fun g => g.2 ≠ []).flatMap enc
  | [] => rfl
  | id :: ids => by
    rw [List.flatMap_cons, flatMap_groups l ps ids, List.map_cons, List.filter_cons]
    by_cases h : offsetsFor l ps id = []
    · simp [h]
    · simp [h, enc]

theorem offsetsFor_length (l : List Sect) (ps : List Patch) (id : Nat) : (offsetsFor l ps id).length ≤ ps.length := by
  unfold offsetsFor
  rw [List.length_map]
  exact List.length_filter_le _ _

theorem groupOk {l : List Sect} {total : Nat} {ps : List Patch} (ht : total < 4294967296) (h1 : ps.length < 4294967296)
    (h2 : ∀ p ∈ ps, p.offset < 4294967296) : ∀ g ∈ groups l total ps, GroupOk g := by
  intro g hg
  unfold groups at hg
  rw [List.mem_filter, List.mem_map] at hg
  obtain ⟨⟨id, hid, rfl⟩, hne⟩ := hg
  have hid := List.mem_range.1 hid
  refine ⟨by show id < 4294967296; omega, by simpa using hne, ?_, ?_⟩
  · have := offsetsFor_length l ps id
    show (offsetsFor l ps id).length < 4294967296
    omega
  · intro x hx
    unfold offsetsFor at hx
    rw [List.mem_map] at hx
    obtain ⟨p, hp, rfl⟩ := hx
    exact h2 p (List.mem_filter.1 hp).1

theorem length_groups {l : List Sect} {total : Nat} {ps : List Patch} : (groups l total ps).length ≤ total := by
  unfold groups
  have := List.length_filter_le (fun g : Nat × List Nat => decide (g.2 ≠ [])) ((List.range total).map fun id => (id, offsetsFor l ps id))
  simpa using this

/-- The relocation block is read back. -/
theorem hunkTail_reloc32 {l : List Sect} {total : Nat} {ps : List Patch} {b : Bytes} (ht : total < 4294967296)
    (h1 : ps.length < 4294967296) (h2 : ∀ p ∈ ps, p.offset < 4294967296) (h : reloc32 l total ps = .ok b) (r : Bytes) :
    hunkTail (b ++ (put32be 0x3F2 ++ r)) = some (groups l total ps, r) := by
  unfold reloc32 at h
  split at h
  · cases h
  split at h
  · cases h
    rw [flatMap_groups]
    change hunkTail ((put32be 0x3EC ++ (groups l total ps).flatMap enc ++ put32be 0) ++ (put32be 0x3F2 ++ r)) = _
    have e : (put32be 0x3EC ++ (groups l total ps).flatMap enc ++ put32be 0) ++ (put32be 0x3F2 ++ r) =
      put32be 0x3EC ++ ((groups l total ps).flatMap enc ++ (put32be 0 ++ (put32be 0x3F2 ++ r))) := by simp
    rw [e, hunkTail, get32be_put32be (by omega)]
    simp only
    rw [relocs_enc _ _ _ (groupOk ht h1 h2)]
    · simp only
      rw [get32be_put32be (by omega)]
      rfl
    · rw [List.length_append]
      have : (groups l total ps).length ≤ ((groups l total ps).flatMap enc).length := by
        generalize groups l total ps = G
        induction G with
        | nil => simp
        | cons g G ih =>
          rw [List.flatMap_cons, List.length_append, List.length_cons]
          have : 1 ≤ (enc g).length := by simp [enc, put32be]
          omega
      omega
  · cases h
    rename_i hn
    rw [List.nil_append, hunkTail, get32be_put32be (by omega)]
    simp only
    have : groups l total ps = [] := by
      unfold groups
      rw [List.filter_eq_nil_iff]
      intro g hg
      rw [List.mem_map] at hg
      obtain ⟨id, _, rfl⟩ := hg
      have : offsetsFor l ps id = [] := by
        unfold offsetsFor
        rw [List.map_eq_nil_iff, List.filter_eq_nil_iff]
        intro p hp
        have hp' : isReloc p = false := by
          rw [List.any_eq_true] at hn
          cases hr : isReloc p with
          | false => rfl
          | true => exact absurd ⟨p, hp, hr⟩ hn
        simp [hp']
      simp [this]
    rw [this]

theorem longSize_eq {n : Nat} (h : n ≤ 4294967292) : longSize n = (n + 3) / 4 := by
  unfold longSize
  rw [Nat.mod_eq_of_lt (by omega)]

theorem longSize_lt {n : Nat} (h : n ≤ 4294967292) : longSize n < 1073741824 := by rw [longSize_eq h]; omega

theorem sectionSize_mod {s : Sect} (h : s.size ≤ 4294967292) : sectionSize s % 1073741824 = longSize s.size ∧
    (sectionSize s / 1073741824 == 1) = s.shared ∧ sectionSize s < 4294967296 := by
  have hl := longSize_lt h
  unfold sectionSize
  cases hs : s.shared with
  | false =>
    rw [if_neg (by simp)]
    have : longSize s.size / 1073741824 = 0 := by omega
    rw [this]
    exact ⟨Nat.mod_eq_of_lt hl, rfl, by omega⟩
  | true =>
    rw [if_pos rfl]
    have e : longSize s.size ||| 0x40000000 = 1073741824 + longSize s.size := by
      have := Nat.two_pow_add_eq_or_of_lt (i := 30) hl 1
      rw [Nat.or_comm]
      simpa using this.symm
    rw [e]
    have : (1073741824 + longSize s.size) / 1073741824 = 1 := by omega
    rw [this]
    exact ⟨by omega, rfl, by omega⟩

theorem length_padded (b : Bytes) : (padded b).length = 4 * ((b.length + 3) / 4) := by
  unfold padded
  rw [List.length_append, List.length_replicate]
  omega

/-- The hunk that should come out for a section. -/
def hunkOf (l : List Sect) (total : Nat) (s : Sect) : Hunk :=
  ⟨hunkType s, longSize s.size, s.shared, if s.text then padded s.data else [], if s.text then groups l total s.patches else []⟩

theorem hunk_section {l : List Sect} {s : Sect} {b : Bytes} (hf : Fits l) (hs : s ∈ l) (hl : live s = true)
    (h : writeSection l (l.countP live) s = .ok b) (r : Bytes) :
    hunk (sectionSize s) (b ++ r) = some (hunkOf l (l.countP live) s, r) := by
  obtain ⟨h1, h2, h3⟩ := sectionSize_mod (hf.size s hs hl)
  have hlt := longSize_lt (hf.size s hs hl)
  unfold writeSection at h
  by_cases ht : s.text = true
  · rw [if_pos ht] at h
    cases hr : reloc32 l (l.countP live) s.patches with
    | fail => rw [hr] at h; cases h
    | ub => rw [hr] at h; cases h
    | ok rb =>
      rw [hr] at h
      cases h
      have e : (put32be (hunkType s) ++ put32be (longSize s.size) ++ padded s.data ++ rb ++ put32be 0x3F2) ++ r =
        put32be (hunkType s) ++ (put32be (longSize s.size) ++ (padded s.data ++ (rb ++ (put32be 0x3F2 ++ r)))) := by simp
      have hk : hunkType s < 4294967296 := by unfold hunkType; split <;> (try split) <;> omega
      have hk2 : hunkType s ≠ 0x3EB ∧ (hunkType s = 0x3E9 ∨ hunkType s = 0x3EA) := by
        unfold hunkType; rw [if_pos ht]; split <;> simp
      have hn : 4 * longSize s.size = (padded s.data).length := by
        rw [length_padded, hf.data s hs hl ht, longSize_eq (hf.size s hs hl)]
      rw [e, hunk, get32be_put32be hk]
      simp only
      rw [get32be_put32be (by omega)]
      simp only
      rw [if_pos (by omega), if_neg hk2.1, if_pos hk2.2, hn, getN_append]
      simp only
      rw [hunkTail_reloc32 hf.total (hf.patches s hs hl).1 (hf.patches s hs hl).2 hr]
      simp only [Option.map_some, h1, h2, hunkOf, ht, if_true]
  · rw [if_neg ht] at h
    cases h
    have e : (put32be (hunkType s) ++ put32be (longSize s.size) ++ put32be 0x3F2) ++ r =
      put32be (hunkType s) ++ (put32be (longSize s.size) ++ (put32be 0x3F2 ++ r)) := by simp
    have hk : hunkType s = 0x3EB := by unfold hunkType; rw [if_neg ht]
    rw [e, hunk, get32be_put32be (by omega)]
    simp only
    rw [get32be_put32be (by omega)]
    simp only
    rw [if_pos (by omega), if_pos hk, hunkTail, get32be_put32be (by omega)]
    simp only [Option.map_some, h1, h2, hunkOf, ht]
    rfl

theorem hunks_sections {l : List Sect} (hf : Fits l) : ∀ (todo : List Sect) (b : Bytes), (∀ s ∈ todo, s ∈ l) →
    writeSections l (l.countP live) todo = .ok b → ∀ r : Bytes,
    hunks ((todo.filter live).map sectionSize) (b ++ r) = some ((todo.filter live).map (hunkOf l (l.countP live)), r)
  | [], b, _, h, r => by cases h; rfl
  | s :: todo, b, hm, h, r => by
    rw [writeSections] at h
    by_cases hl : live s = true
    · rw [if_pos hl] at h
      cases ha : writeSection l (l.countP live) s with
      | fail => rw [ha] at h; cases h
      | ub => rw [ha] at h; cases h
      | ok a =>
        rw [ha] at h
        cases hb : writeSections l (l.countP live) todo with
        | fail => rw [hb] at h; cases h
        | ub => rw [hb] at h; cases h
        | ok b' =>
          rw [hb] at h
          cases h
          rw [List.filter_cons_of_pos hl, List.map_cons, List.append_assoc, hunks,
            hunk_section hf (hm s (by simp)) hl ha]
          simp only
          rw [hunks_sections hf todo b' (fun t ht => hm t (by simp [ht])) hb r]
          rfl
    · rw [if_neg hl] at h
      rw [List.filter_cons_of_neg hl]
      exact hunks_sections hf todo b (fun t ht => hm t (by simp [ht])) h r

theorem load_file {l : List Sect} (hf : Fits l) (h1 : 0 < l.countP live) {b : Bytes}
    (h : writeSections l (l.countP live) l = .ok b) :
    load (header l (l.countP live) ++ b) = some ((l.filter live).map (hunkOf l (l.countP live))) := by
  have ht := hf.total
  have e : header l (l.countP live) ++ b = [0x3F3, 0, l.countP live, 0, (l.countP live + 4294967295) % 4294967296].flatMap put32be ++
      (((l.filter live).map sectionSize).flatMap put32be ++ (b ++ [])) := by
    simp [header, List.flatMap_map]
  have hlen : l.countP live = ((l.filter live).map sectionSize).length := by rw [List.length_map, List.countP_eq_length_filter]
  have hl := longs_flatMap [0x3F3, 0, l.countP live, 0, (l.countP live + 4294967295) % 4294967296]
    (((l.filter live).map sectionSize).flatMap put32be ++ (b ++ [])) (by
      intro x hx
      simp only [List.mem_cons, List.not_mem_nil, or_false] at hx
      rcases hx with hx | hx | hx | hx | hx
      all_goals omega)
  have hl2 := longs_flatMap ((l.filter live).map sectionSize) (b ++ []) (by
    intro x hx
    rw [List.mem_map] at hx
    obtain ⟨s, hs, rfl⟩ := hx
    obtain ⟨hs, hlive⟩ := List.mem_filter.1 hs
    exact (sectionSize_mod (hf.size s hs hlive)).2.2)
  rw [← hlen] at hl2
  rw [e, load]
  simp only [List.length_cons, List.length_nil] at hl
  rw [hl]
  simp only
  rw [if_pos (by omega), hl2]
  simp only
  rw [hunks_sections hf l b (fun _ h => h) h []]

theorem written_sections {entry : Option (Option (Option Nat × Int))} {l : List Sect} {f : Bytes}
    (h : writeExecutable entry l = .ok f) :
    ∃ b, writeSections l (l.countP live) l = .ok b ∧ f = header l (l.countP live) ++ b := by
  have key : ∀ g, (match writeSections l (l.countP live) l with
      | .ok b => Outcome.ok (header l (l.countP live) ++ b)
      | .fail => .fail
      | .ub => .ub) = .ok g → ∃ b, writeSections l (l.countP live) l = .ok b ∧ g = header l (l.countP live) ++ b := by
    intro g hg
    cases hw : writeSections l (l.countP live) l with
    | ok b => rw [hw] at hg; cases hg; exact ⟨b, rfl, rfl⟩
    | fail => rw [hw] at hg; cases hg
    | ub => rw [hw] at hg; cases hg
  unfold writeExecutable at h
  match entry, h with
  | none, h => exact key f h
  | some none, h => cases h
  | some (some (sec, v)), h =>
    simp only at h
    by_cases hc : sec ≠ some 0 ∨ v ≠ 0
    · rw [if_pos hc] at h; cases h
    · rw [if_neg hc] at h; exact key f h

/-- An executable has one hunk for each used section, in order: of the right kind, in the right memory, as long as the
section rounded up to longwords, with the section's bytes followed by zeros. -/
theorem C23_amiga (entry : Option (Option (Option Nat × Int))) (l : List Sect) (f : Bytes) (hf : Fits l)
    (hne : ∃ s ∈ l, s.used = true ∧ s.equ = false) (h : writeExecutable entry l = .ok f) :
    ∃ hs, load f = some hs ∧ hs.length = (l.filter fun s => s.used && !s.equ).length ∧
      ∀ (k : Nat) (s : Sect), (l.filter fun s => s.used && !s.equ)[k]? = some s →
        ∃ hk, hs[k]? = some hk ∧ hk.chip = s.shared ∧ s.size ≤ 4 * hk.longs ∧ 4 * hk.longs < s.size + 4 ∧
          (s.text = true → hk.kind = (if s.dataFlag then 0x3EA else 0x3E9) ∧ hk.data.length = 4 * hk.longs ∧
            ∃ z, hk.data = s.data ++ z ∧ ∀ x ∈ z, x = 0) ∧
          (s.text = false → hk.kind = 0x3EB ∧ hk.data = [] ∧ hk.relocs = []) := by
  obtain ⟨b, hw, rfl⟩ := written_sections h
  have hpos : 0 < l.countP live := by
    rw [List.countP_pos_iff]
    obtain ⟨s, hs, h1, h2⟩ := hne
    exact ⟨s, hs, by simp [live, h1, h2]⟩
  refine ⟨_, load_file hf hpos hw, by rw [List.length_map]; rfl, ?_⟩
  intro k s hk
  have hk' : (l.filter live)[k]? = some s := hk
  obtain ⟨hs, hl⟩ := List.mem_filter.1 (List.mem_of_getElem? hk')
  have hsz := hf.size s hs hl
  refine ⟨hunkOf l (l.countP live) s, by rw [List.getElem?_map, hk']; rfl, rfl, ?_, ?_, ?_, ?_⟩
  · show s.size ≤ 4 * longSize s.size
    rw [longSize_eq hsz]; omega
  · show 4 * longSize s.size < s.size + 4
    rw [longSize_eq hsz]; omega
  · intro ht
    refine ⟨by show hunkType s = _; unfold hunkType; rw [if_pos ht], ?_, List.replicate ((4 - s.data.length % 4) % 4) 0, ?_, ?_⟩
    · show (if s.text = true then padded s.data else []).length = 4 * longSize s.size
      rw [if_pos ht, length_padded, hf.data s hs hl ht, longSize_eq hsz]
    · show (if s.text = true then padded s.data else []) = _
      rw [if_pos ht]; rfl
    · intro x hx
      exact (List.mem_replicate.1 hx).2
  · intro ht
    refine ⟨by show hunkType s = _; unfold hunkType; rw [ht]; rfl, ?_, ?_⟩
    · show (if s.text = true then padded s.data else []) = []
      rw [ht]; rfl
    · show (if s.text = true then groups l (l.countP live) s.patches else []) = []
      rw [ht]; rfl

theorem countP_take_lt {l : List Sect} {i j : Nat} {s : Sect} (hi : l[i]? = some s) (hl : live s = true) (hij : i < j) :
    (l.take i).countP live < (l.take j).countP live := by
  have h1 : (l.take (i + 1)).countP live = (l.take i).countP live + 1 := by
    rw [List.take_add_one, hi, List.countP_append]
    simp [hl]
  have h2 : (l.take (i + 1)).countP live ≤ (l.take j).countP live := by
    have : l.take (i + 1) = (l.take j).take (i + 1) := by rw [List.take_take, Nat.min_eq_left (by omega)]
    rw [this]
    exact List.Sublist.countP_le (List.take_sublist _ _)
  omega

theorem sectionId_inj {l : List Sect} {i j t : Nat} (hi : sectionId l i = some t) (hj : sectionId l j = some t) : i = j := by
  unfold sectionId at hi hj
  cases ei : l[i]? with
  | none => rw [ei] at hi; cases hi
  | some s =>
    cases ej : l[j]? with
    | none => rw [ej] at hj; cases hj
    | some s' =>
      rw [ei] at hi
      rw [ej] at hj
      simp only at hi hj
      by_cases hs : live s = true
      · by_cases hs' : live s' = true
        · rw [if_pos hs] at hi
          rw [if_pos hs'] at hj
          have hi := Option.some.inj hi
          have hj := Option.some.inj hj
          rcases Nat.lt_trichotomy i j with hlt | heq | hlt
          · have := countP_take_lt ei hs hlt; omega
          · exact heq
          · have := countP_take_lt ej hs' hlt; omega
        · rw [if_neg hs'] at hj; cases hj
      · rw [if_neg hs] at hi; cases hi

/-- The hunk with a section's number is the section's hunk. -/
theorem filter_getElem : ∀ (l : List Sect) (j : Nat) (s : Sect), l[j]? = some s → live s = true →
    (l.filter live)[(l.take j).countP live]? = some s
  | [], j, s, h, _ => by simp at h
  | x :: l, 0, s, h, hl => by
    simp only [List.getElem?_cons_zero, Option.some.injEq] at h
    subst h
    rw [List.filter_cons_of_pos hl]
    simp
  | x :: l, j + 1, s, h, hl => by
    rw [List.getElem?_cons_succ] at h
    have ih := filter_getElem l j s h hl
    by_cases hx : live x = true
    · rw [List.filter_cons_of_pos hx, List.take_succ_cons, List.countP_cons_of_pos hx, List.getElem?_cons_succ]
      exact ih
    · rw [List.filter_cons_of_neg hx, List.take_succ_cons, List.countP_cons_of_neg hx]
      exact ih

theorem groups_offsets (g : Nat → List Nat) (t : Nat) : ∀ ids : List Nat, ids.Nodup →
    ((((ids.map fun id => (id, g id)).filter fun x => decide (x.2 ≠ [])).filter fun r => r.1 == t).flatMap fun r => r.2) =
      if t ∈ ids then g t else []
  | [], _ => by simp
  | id :: ids, hn => by
    obtain ⟨h1, h2⟩ := List.nodup_cons.1 hn
    have ih := groups_offsets g t ids h2
    rw [List.map_cons, List.filter_cons]
    by_cases hid : id = t
    · subst hid
      rw [if_neg h1] at ih
      by_cases hg : g id = []
      · simp only [hg, ne_eq, not_true_eq_false, decide_false, Bool.false_eq_true, if_false, ih]
        simp
      · simp only [ne_eq, hg, not_false_eq_true, decide_true, if_true]
        rw [List.filter_cons_of_pos (by simp), List.flatMap_cons, ih]
        simp
    · have hm : (t ∈ id :: ids) = (t ∈ ids) := by
        simp only [List.mem_cons, eq_iff_iff]
        exact ⟨fun h => h.resolve_left (fun e => hid e.symm), Or.inr⟩
      simp only [hm]
      split
      · rw [List.filter_cons_of_neg (by simpa using hid)]
        exact ih
      · exact ih

/-- The relocations of a hunk: those by the address of a hunk are the patches that refer to that hunk's section, and
there are no others. -/
theorem C23_amiga_relocations (entry : Option (Option (Option Nat × Int))) (l : List Sect) (f : Bytes) (hf : Fits l)
    (hne : ∃ s ∈ l, s.used = true ∧ s.equ = false) (h : writeExecutable entry l = .ok f) :
    ∃ hs, load f = some hs ∧
      ∀ (k : Nat) (s : Sect) (hk : Hunk), (l.filter fun s => s.used && !s.equ)[k]? = some s → s.text = true →
        hs[k]? = some hk →
        (∀ g ∈ hk.relocs, g.1 < hs.length) ∧
        ∀ (j : Nat) (s' : Sect), l[j]? = some s' → s'.used = true → s'.equ = false →
          ∃ t, (l.filter fun s => s.used && !s.equ)[t]? = some s' ∧
            hk.offsets t = (s.patches.filter fun p => p.reloc && p.target == some j).map fun p => p.offset := by
  obtain ⟨b, hw, rfl⟩ := written_sections h
  have hpos : 0 < l.countP live := by
    rw [List.countP_pos_iff]
    obtain ⟨s, hs, h1, h2⟩ := hne
    exact ⟨s, hs, by simp [live, h1, h2]⟩
  refine ⟨_, load_file hf hpos hw, ?_⟩
  intro k s hk hks ht hhk
  have hks' : (l.filter live)[k]? = some s := hks
  rw [List.getElem?_map, hks'] at hhk
  cases hhk
  have hr : (hunkOf l (l.countP live) s).relocs = groups l (l.countP live) s.patches := by
    show (if s.text = true then _ else _) = _
    rw [if_pos ht]
  constructor
  · intro g hg
    rw [hr] at hg
    unfold groups at hg
    rw [List.mem_filter, List.mem_map] at hg
    obtain ⟨⟨id, hid, rfl⟩, _⟩ := hg
    rw [List.length_map, ← List.countP_eq_length_filter]
    exact List.mem_range.1 hid
  · intro j s' hj hu he
    have hl' : live s' = true := by simp [live, hu, he]
    have hid : sectionId l j = some ((l.take j).countP live) := by
      unfold sectionId
      rw [hj]
      simp only
      rw [if_pos hl']
    have hfg := filter_getElem l j s' hj hl'
    refine ⟨(l.take j).countP live, hfg, ?_⟩
    have hlt : (l.take j).countP live < l.countP live := by
      have := (List.getElem?_eq_some_iff.1 hfg).1
      rwa [← List.countP_eq_length_filter] at this
    unfold Hunk.offsets
    rw [hr]
    unfold groups
    rw [groups_offsets (offsetsFor l s.patches) _ (List.range (l.countP live)) List.nodup_range,
      if_pos (List.mem_range.2 hlt)]
    unfold offsetsFor
    congr 1
    apply List.filter_congr
    intro p _
    unfold isReloc
    cases hp : p.target with
    | none => simp
    | some j' =>
      have : (sectionId l j' == some ((l.take j).countP live)) = (some j' == some j) := by
        by_cases hjj : j' = j
        · subst hjj; simp [hid]
        · have h1 : sectionId l j' ≠ some ((l.take j).countP live) := fun e => hjj (sectionId_inj e hid)
          have h2 : (some j' : Option Nat) ≠ some j := by simpa using hjj
          rw [beq_eq_false_iff_ne.2 h1, beq_eq_false_iff_ne.2 h2]
      simp [this]

/-- The executable is written if relocations refer to used sections only and there is no entry option. -/
theorem C23_amiga_written (l : List Sect)
    (h : ∀ s ∈ l, ∀ p ∈ s.patches, p.reloc = true → ∀ j, p.target = some j →
      ∃ s', l[j]? = some s' ∧ s'.used = true ∧ s'.equ = false) :
    ∃ f, writeExecutable none l = .ok f := by
  have hr : ∀ s ∈ l, ∃ b, writeSection l (l.countP live) s = .ok b := by
    intro s hs
    unfold writeSection
    by_cases ht : s.text = true
    · rw [if_pos ht]
      have : ∃ r, reloc32 l (l.countP live) s.patches = .ok r := by
        unfold reloc32
        rw [if_neg]
        · split
          · exact ⟨_, rfl⟩
          · exact ⟨_, rfl⟩
        · intro hc
          rw [List.any_eq_true] at hc
          obtain ⟨p, hp, hc⟩ := hc
          cases hpt : p.target with
          | none => simp [isReloc, hpt] at hc
          | some j =>
            have hpr : p.reloc = true := by
              cases hpr : p.reloc with
              | true => rfl
              | false => simp [isReloc, hpr] at hc
            obtain ⟨s', hj, hu, he⟩ := h s hs p hp hpr j hpt
            have hl' : live s' = true := by simp [live, hu, he]
            simp [hpt, sectionId, hj, hl'] at hc
      obtain ⟨r, hr⟩ := this
      rw [hr]
      exact ⟨_, rfl⟩
    · rw [if_neg ht]
      exact ⟨_, rfl⟩
  have hw : ∀ todo : List Sect, (∀ s ∈ todo, s ∈ l) → ∃ b, writeSections l (l.countP live) todo = .ok b := by
    intro todo
    induction todo with
    | nil => intro _; exact ⟨[], rfl⟩
    | cons s todo ih =>
      intro hm
      obtain ⟨b, hb⟩ := ih (fun t ht => hm t (by simp [ht]))
      obtain ⟨a, ha⟩ := hr s (hm s (by simp))
      rw [writeSections]
      split
      · rw [ha]
        simp only
        rw [hb]
        exact ⟨_, rfl⟩
      · exact ⟨b, hb⟩
  obtain ⟨b, hb⟩ := hw l (fun _ h => h)
  unfold writeExecutable
  simp only
  rw [hb]
  exact ⟨_, rfl⟩

/-- An accepted entry symbol is the first byte of the first hunk, if the first section in the list is used. -/
theorem C23_amiga_entry (sec : Option Nat) (v : Int) (l : List Sect) (f : Bytes)
    (h : writeExecutable (some (some (sec, v))) l = .ok f) : sec = some 0 ∧ v = 0 := by
  unfold writeExecutable at h
  simp only at h
  by_cases hc : sec ≠ some 0 ∨ v ≠ 0
  · rw [if_pos hc] at h; cases h
  · exact ⟨Decidable.byContradiction fun a => hc (.inl a), Decidable.byContradiction fun a => hc (.inr a)⟩

/-- The linker refuses every entry symbol that is in a section with a hunk: the first section of every object file is
the one for exported constants (xasm/motor/object.c 561, 397-438), and sections are not sorted for this format
(xlink/main.c 607-611). -/
theorem C23_amiga_entry_refused (l : List Sect) (s0 s : Sect) (j : Nat) (v : Int) (h0 : l[0]? = some s0)
    (he : s0.equ = true) (hj : l[j]? = some s) (hs : s.equ = false) :
    writeExecutable (some (some (some j, v))) l = .fail := by
  unfold writeExecutable
  simp only
  rw [if_pos]
  left
  intro e
  cases e
  rw [h0] at hj
  cases hj
  rw [he] at hs
  cases hs

/-- If no section is used, the file has a table of no hunks that goes from 0 to 0xFFFFFFFF. -/
theorem C23_amiga_no_hunks : ∃ f, writeExecutable none [] = .ok f ∧ load f = none :=
  ⟨[0, 0, 3, 0xF3, 0, 0, 0, 0, 0, 0, 0, 0, 0, 0, 0, 0, 0xFF, 0xFF, 0xFF, 0xFF], by decide +kernel, by decide +kernel⟩

/-- Constants, code that refers to data and to itself, chip data, an unused section, BSS. -/
def amigaExample : List Sect :=
  [⟨true, true, false, false, false, 0, [], []⟩,
   ⟨true, false, true, false, false, 9, [1, 2, 3, 4, 5, 6, 7, 8, 9], [⟨true, 4, some 2⟩, ⟨true, 0, some 1⟩, ⟨true, 1, none⟩, ⟨true, 5, some 2⟩]⟩,
   ⟨true, false, true, true, true, 4, [10, 11, 12, 13], []⟩,
   ⟨false, false, true, true, false, 1, [14], []⟩,
   ⟨true, false, false, false, false, 5, [], []⟩]

theorem amigaExample_fits : Fits amigaExample :=
  ⟨by decide, by decide, by decide, by decide⟩

example : (match writeExecutable none amigaExample with
  | .ok f => load f == some [⟨0x3E9, 3, false, [1, 2, 3, 4, 5, 6, 7, 8, 9, 0, 0, 0], [(0, [0]), (1, [4, 5])]⟩,
      ⟨0x3EA, 1, true, [10, 11, 12, 13], []⟩, ⟨0x3EB, 2, false, [], []⟩]
  | _ => false) = true := by decide +kernel

example : writeExecutable (some (some (some 1, 0))) amigaExample = .fail :=
  C23_amiga_entry_refused _ _ _ 1 0 rfl rfl rfl rfl

end Verif.Container.Amiga
