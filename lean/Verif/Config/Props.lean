import Verif.Config.Model
import Verif.Assign.Props
import Verif.Image.Props
/-!
# C44: the built-in memory maps
-/
namespace Verif.Config
open Verif.Assign Verif.Alloc

/-- The pools are in the 32-bit address space, and pools with the same bank number have no address in common. -/
def AddressesApart (c : Cfg) : Prop :=
  (∀ p ∈ c.pools, p.base + p.size < 4294967296) ∧
  c.pools.Pairwise fun p q => p.bank = q.bank → p.base + p.size ≤ q.base ∨ q.base + q.size ≤ p.base

/-- Pools that are part of the image have no place of it in common; the image has less than 2^31 bytes. -/
def ImagesApart (c : Cfg) : Prop :=
  (∀ p ∈ c.pools, ∀ i ∈ p.image, i + p.size < 2147483000) ∧
  c.pools.Pairwise fun p q => ∀ i ∈ p.image, ∀ j ∈ q.image, i + p.size ≤ j ∨ j + q.size ≤ i

/-- The same for the memory of the HC800: a pool begins at the 16 KiB bank with its number and may go on in the next
ones. -/
def BanksApart (c : Cfg) : Prop :=
  c.pools.Pairwise fun p q => p.bank * 0x4000 + (p.size : Int) ≤ q.bank * 0x4000 ∨
    q.bank * 0x4000 + (q.size : Int) ≤ p.bank * 0x4000

instance (o : Option Nat) (P : Nat → Prop) [DecidablePred P] : Decidable (∀ i ∈ o, P i) :=
  match o with
  | none => isTrue (by simp)
  | some i => if h : P i then isTrue (by simpa using h) else isFalse (by simpa using h)

instance (c : Cfg) : Decidable (AddressesApart c) := by unfold AddressesApart; infer_instance
instance (c : Cfg) : Decidable (ImagesApart c) := by unfold ImagesApart; infer_instance
instance (c : Cfg) : Decidable (BanksApart c) := by unfold BanksApart; infer_instance

/-! ## What that means for sections -/

theorem pairwise_get {α : Type} {R : α → α → Prop} (hsym : ∀ a b, R a b → R b a) {l : List α} (h : l.Pairwise R)
    {i j : Nat} {a b : α} (ha : l[i]? = some a) (hb : l[j]? = some b) (hij : i ≠ j) : R a b := by
  obtain ⟨hi, rfl⟩ := List.getElem?_eq_some_iff.1 ha
  obtain ⟨hj, rfl⟩ := List.getElem?_eq_some_iff.1 hb
  rw [List.pairwise_iff_getElem] at h
  rcases Nat.lt_or_gt_of_ne hij with h' | h'
  · exact h i j hi hj h'
  · exact hsym _ _ (h j i hj hi h')

/-- Two placed sections, for every relation between pools that separates places. -/
theorem sections_apart {c : Cfg} {ss ss' : List Section} {pools' : List Pool}
    (hin : Input c.pools ss) (h : assignProcess c.groups c.pools ss = .ok (pools', ss'))
    {i j : Nat} {s t s' t' : Section} (hij : i ≠ j) (hs : ss[i]? = some s) (ht : ss[j]? = some t)
    (hs' : ss'[i]? = some s') (ht' : ss'[j]? = some t') (hus : s.used = true) (hut : t.used = true)
    (hgs : s.group ≠ none) (hgt : t.group ≠ none) (hsz : 0 < s.size) (htz : 0 < t.size) :
    ∃ (k m : Nat) (p q : Pool) (l o : Nat), c.pools[k]? = some p ∧ c.pools[m]? = some q ∧ s'.byteLoc = some l ∧
      t'.byteLoc = some o ∧ PlacedAt c.groups c.pools s s' k l ∧ PlacedAt c.groups c.pools t t' m o ∧
      (k = m → l + s.size ≤ o ∨ o + t.size ≤ l) := by
  obtain ⟨-, -, h1⟩ := ((C09_every_used_section_placed hin h).2 i s s' hs hs').2 hus
  obtain ⟨-, -, h2⟩ := ((C09_every_used_section_placed hin h).2 j t t' ht ht').2 hut
  rcases h1 with ⟨hn, _⟩ | ⟨k, l, h1⟩
  · exact absurd hn hgs
  rcases h2 with ⟨hn, _⟩ | ⟨m, o, h2⟩
  · exact absurd hn hgt
  obtain ⟨p, hp, -⟩ := h1.pool
  obtain ⟨q, hq, -⟩ := h2.pool
  refine ⟨k, m, p, q, l, o, hp, hq, h1.byteLoc, h2.byteLoc, h1, h2, ?_⟩
  rintro rfl
  have hss := h1.same.size
  have hts := h2.same.size
  have key : Range.Disjoint (l, s'.size) (o, t'.size) := by
    rcases Nat.lt_or_gt_of_ne hij with hlt | hlt
    · exact C01_two_sections_disjoint hin h i j k l o s' t' hlt hs' ht' h1.home h2.home h1.byteLoc h2.byteLoc
    · have := C01_two_sections_disjoint hin h j i k o l t' s' hlt ht' hs' h2.home h1.home h2.byteLoc h1.byteLoc
      exact fun a ha => this a ⟨ha.2, ha.1⟩
  rw [hss, hts] at key
  refine Decidable.byContradiction fun hc => ?_
  refine key (max l o) ⟨?_, ?_⟩ <;> simp only [Range.Has] <;> omega

/-- C44. In a memory map whose pools are apart, no two sections that end up in the same bank have an address in
common. -/
theorem C44_sections_apart {c : Cfg} (hc : AddressesApart c) {ss ss' : List Section} {pools' : List Pool}
    (hin : Input c.pools ss) (h : assignProcess c.groups c.pools ss = .ok (pools', ss'))
    {i j : Nat} {s t s' t' : Section} (hij : i ≠ j) (hs : ss[i]? = some s) (ht : ss[j]? = some t)
    (hs' : ss'[i]? = some s') (ht' : ss'[j]? = some t') (hus : s.used = true) (hut : t.used = true)
    (hgs : s.group ≠ none) (hgt : t.group ≠ none) (hsz : 0 < s.size) (htz : 0 < t.size) (hb : s'.bank = t'.bank) :
    ∃ l o, s'.byteLoc = some l ∧ t'.byteLoc = some o ∧ (l + s.size ≤ o ∨ o + t.size ≤ l) := by
  obtain ⟨k, m, p, q, l, o, hp, hq, hl, ho, h1, h2, hkm⟩ :=
    sections_apart hin h hij hs ht hs' ht' hus hut hgs hgt hsz htz
  refine ⟨l, o, hl, ho, ?_⟩
  by_cases he : k = m
  · exact hkm he
  obtain ⟨p', hp', hw, -, hbp, -⟩ := h1.pool
  obtain ⟨q', hq', hw', -, hbq, -⟩ := h2.pool
  rw [hp] at hp'; cases hp'
  rw [hq] at hq'; cases hq'
  have := pairwise_get (R := fun p q : Pool => p.bank = q.bank → p.base + p.size ≤ q.base ∨ q.base + q.size ≤ p.base)
    (fun a b h e => (h e.symm).symm) hc.2 hp hq he (by omega)
  unfold Range.Within at hw hw'
  simp only at hw hw'
  omega

/-- C44 for the HC800, whose executables hold sections by bank and offset (`image`). -/
theorem C44_hc800_sections_apart {c : Cfg} (hc : BanksApart c) (himg : ∀ p ∈ c.pools, p.image = some 0)
    {ss ss' : List Section} {pools' : List Pool}
    (hin : Input c.pools ss) (h : assignProcess c.groups c.pools ss = .ok (pools', ss'))
    {i j : Nat} {s t s' t' : Section} (hij : i ≠ j) (hs : ss[i]? = some s) (ht : ss[j]? = some t)
    (hs' : ss'[i]? = some s') (ht' : ss'[j]? = some t') (hus : s.used = true) (hut : t.used = true)
    (hgs : s.group ≠ none) (hgt : t.group ≠ none) (hsz : 0 < s.size) (htz : 0 < t.size) :
    ∃ u v, s'.image = some u ∧ t'.image = some v ∧
      (s'.bank * 0x4000 + u + s.size ≤ t'.bank * 0x4000 + v ∨ t'.bank * 0x4000 + v + t.size ≤ s'.bank * 0x4000 + u) := by
  obtain ⟨k, m, p, q, l, o, hp, hq, hl, ho, h1, h2, hkm⟩ :=
    sections_apart hin h hij hs ht hs' ht' hus hut hgs hgt hsz htz
  obtain ⟨p', hp', hw, -, hbp, -, hi1, -⟩ := h1.pool
  obtain ⟨q', hq', hw', -, hbq, -, hi2, -⟩ := h2.pool
  rw [hp] at hp'; cases hp'
  rw [hq] at hq'; cases hq'
  have hi1 := hi1 0 (himg p (List.mem_of_getElem? hp))
  have hi2 := hi2 0 (himg q (List.mem_of_getElem? hq))
  refine ⟨_, _, hi1, hi2, ?_⟩
  unfold Range.Within at hw hw'
  simp only at hw hw'
  rw [hbp, hbq]
  by_cases he : k = m
  · have := hkm he
    subst he
    rw [hp] at hq; cases hq
    omega
  · have := pairwise_get (R := fun p q : Pool => p.bank * 0x4000 + p.size ≤ q.bank * 0x4000 ∨
      q.bank * 0x4000 + q.size ≤ p.bank * 0x4000) (fun a b h => h.symm) hc hp hq he
    omega

/-! ## From object code to image -/

/-- The section as the image writer sees it: a section from the placement together with its bytes. -/
def toImage (s : Section) (b : Bytes) : Image.Sect where
  equ := s.group = none
  used := s.used
  assigned := s.assigned
  bss := (s.group.map (·.type)) = some 1
  image := s.image.map Int.toNat
  overlay := if s.overlay = noOverlay then none else some s.overlay
  data := b

/-- Pool `k` is one of those for a section with contents. -/
def TextPool (c : Cfg) (ss : List Section) (k : Nat) : Prop :=
  ∃ s ∈ ss, s.used = true ∧ ∃ sg, s.group = some sg ∧ sg.type ≠ 1 ∧ ∃ g ∈ c.groups, g.name = sg.name ∧ k ∈ g.pools

/-- The pools for sections with contents have no place of the image in common. -/
def TextApart (c : Cfg) (ss : List Section) : Prop :=
  (∀ p ∈ c.pools, ∀ i ∈ p.image, i + p.size < 2147483000) ∧
  ∀ k m p q, k ≠ m → c.pools[k]? = some p → c.pools[m]? = some q → TextPool c ss k → TextPool c ss m →
    ∀ i ∈ p.image, ∀ j ∈ q.image, i + p.size ≤ j ∨ j + q.size ≤ i

theorem ImagesApart.text {c : Cfg} (h : ImagesApart c) (ss : List Section) : TextApart c ss :=
  ⟨h.1, fun _ _ _ _ hkm hp hq _ _ => pairwise_get
    (R := fun p q : Pool => ∀ i ∈ p.image, ∀ j ∈ q.image, i + p.size ≤ j ∨ j + q.size ≤ i)
    (fun _ _ h i hi j hj => (h j hj i hi).symm) h.2 hp hq hkm⟩

/-- On the Mega Drive, work memory and cartridge both claim the start of the image; they are apart if work memory is
for `BSS` sections without contents. -/
theorem megaDrive_text (ss : List Section)
    (hb : ∀ s ∈ ss, ∀ g, s.used = true → s.group = some g → g.name = "BSS" → g.type = 1) : TextApart megaDrive ss := by
  refine ⟨by decide, ?_⟩
  have key : ∀ k, TextPool megaDrive ss k → k = 0 := by
    rintro k ⟨s, hs, hu, sg, hg, ht, g, hgm, hn, hk⟩
    simp only [megaDrive, List.mem_cons, List.not_mem_nil, or_false] at hgm
    rcases hgm with rfl | rfl | rfl
    · simpa using hk
    · simpa using hk
    · exact absurd (hb s hs sg hu hg hn.symm) ht
  intro k m p q hkm _ _ h1 h2
  exact absurd ((key k h1).trans (key m h2).symm) hkm

/-- What is written of a section, and where. -/
theorem placed_image {c : Cfg} {ss ss' : List Section} {pools' : List Pool}
    (hin : Input c.pools ss) (h : assignProcess c.groups c.pools ss = .ok (pools', ss'))
    {i : Nat} {s s' : Section} (hs : ss[i]? = some s) (hs' : ss'[i]? = some s') {b : Bytes} {n : Nat} {o : Option Nat} {x : Nat}
    (hp : Image.Placed n (toImage s' b) o x) :
    ∃ k p l img, s.used = true ∧ TextPool c ss k ∧ s'.home = some k ∧ c.pools[k]? = some p ∧ s'.byteLoc = some l ∧
      p.image = some img ∧ p.base ≤ l ∧ l + s.size ≤ p.base + p.size ∧ s'.size = s.size ∧
      x = img + (l - p.base) + (if o = none then n else 0) := by
  obtain ⟨he, hu, ha, hb, ho, loc, hloc, hx⟩ := hp
  simp only [toImage] at he hu ha hb ho hloc
  have hC := (C09_every_used_section_placed hin h).2 i s s' hs hs'
  have hus : s.used = true := by
    cases hc : s.used with
    | true => rfl
    | false => rw [hC.1 hc, hc] at hu; cases hu
  rcases (hC.2 hus).2.2 with ⟨hn, hp⟩ | ⟨k, l, hp⟩
  · rw [hp.same.group, hn] at he
    simp at he
  · obtain ⟨p, hpk, hw, -, -, -, hi1, hi2⟩ := hp.pool
    cases hpi : p.image with
    | none => rw [hi2 hpi] at hloc; cases hloc
    | some img =>
      rw [hi1 img hpi] at hloc
      unfold Range.Within at hw
      simp only at hw
      refine ⟨k, p, l, img, hus, ?_, hp.home, hpk, hp.byteLoc, hpi, hw.1, hw.2, hp.same.size, ?_⟩
      · obtain ⟨g, mg, hg, hmg, hname, hkm⟩ := hp.group
        refine ⟨s, List.mem_of_getElem? hs, hus, g, hg, ?_, mg, hmg, hname, hkm⟩
        rw [hp.same.group, hg] at hb
        simpa using hb
      · simp only [Option.map_some, Option.some.injEq] at hloc
        omega

theorem apart_of_link {c : Cfg} {ss ss' : List Section} {pools' : List Pool} (hc : TextApart c ss)
    (hin : Input c.pools ss) (h : assignProcess c.groups c.pools ss = .ok (pools', ss'))
    (hpos : ∀ s ∈ ss, s.group ≠ none → 0 < s.size) {data : List Bytes}
    (hdata : ∀ (i : Nat) s b g, ss[i]? = some s → data[i]? = some b → s.group = some g → g.type ≠ 1 → b.length = s.size)
    {l : List Image.Sect} (hl : l.Perm (List.zipWith toImage ss' data)) {n : Nat} (hn : n < 600) :
    Image.Fits n l ∧ Image.Apart n l := by
  have hlen := (C09_every_used_section_placed hin h).1
  have get : ∀ (i : Nat) t, (List.zipWith toImage ss' data)[i]? = some t → ∃ s s' b, ss[i]? = some s ∧ ss'[i]? = some s' ∧
      data[i]? = some b ∧ t = toImage s' b := by
    intro i t ht
    rw [List.getElem?_zipWith] at ht
    cases hs' : ss'[i]? with
    | none => simp [hs'] at ht
    | some s' =>
      cases hb : data[i]? with
      | none => simp [hs', hb] at ht
      | some b =>
        simp only [hs', hb, Option.some.injEq] at ht
        have hi : i < ss.length := by
          rw [← hlen]; exact (List.getElem?_eq_some_iff.1 hs').1
        exact ⟨ss[i], s', b, List.getElem?_eq_getElem hi, rfl, rfl, ht.symm⟩
  have size : ∀ (i : Nat) s s' b o x, ss[i]? = some s → ss'[i]? = some s' → data[i]? = some b →
      Image.Placed n (toImage s' b) o x → b.length = s.size ∧ s.group ≠ none := by
    intro i s s' b o x hs hs' hb hp
    obtain ⟨k, p, l, img, hu, -, hk, -⟩ := placed_image hin h hs hs' hp
    rcases (((C09_every_used_section_placed hin h).2 i s s' hs hs').2 hu).2.2 with ⟨hg, hq⟩ | ⟨k', l', hq⟩
    · have := hp.1
      simp only [toImage, hq.same.group, hg] at this
      simp at this
    · obtain ⟨g, mg, hg, -⟩ := hq.group
      have hb' := hp.2.2.2.1
      simp only [toImage, hq.same.group, hg] at hb'
      exact ⟨hdata i s b g hs hb hg (by simpa using hb'), by simp [hg]⟩
  constructor
  · refine ⟨by omega, ?_⟩
    intro t ht o x hp
    obtain ⟨i, hi⟩ := List.getElem?_of_mem (hl.mem_iff.1 ht)
    obtain ⟨s, s', b, hs, hs', hb, rfl⟩ := get i t hi
    obtain ⟨k, p, l, img, -, -, -, hpk, -, himg, h1, h2, -, rfl⟩ := placed_image hin h hs hs' hp
    have := hc.1 p (List.mem_of_getElem? hpk) img himg
    have hsz := (size i s s' b _ _ hs hs' hb hp).1
    simp only [toImage]
    split <;> omega
  · refine (List.Perm.pairwise_iff ?_ hl).2 ?_
    · intro a b hab o p q hp hq
      exact (hab o q p hq hp).symm
    rw [List.pairwise_iff_getElem]
    intro i j hi hj hij o x y hx hy
    obtain ⟨s, s', b, hs, hs', hb, e1⟩ := get i _ (List.getElem?_eq_getElem hi)
    obtain ⟨t, t', d, ht, ht', hd, e2⟩ := get j _ (List.getElem?_eq_getElem hj)
    rw [e1] at hx ⊢
    rw [e2] at hy ⊢
    have hsz := size i s s' b _ _ hs hs' hb hx
    have htz := size j t t' d _ _ ht ht' hd hy
    obtain ⟨k, p, l, img, hus, htx, hk, hpk, hl, himg, h1, h2, h3, rfl⟩ := placed_image hin h hs hs' hx
    obtain ⟨m, q, o', jmg, hut, hty, hm, hqm, ho, hjmg, h1', h2', h3', rfl⟩ := placed_image hin h ht ht' hy
    obtain ⟨k', m', p', q', l', o'', hp', hq', hl', ho', hP, hQ, hkm⟩ := sections_apart hin h (Nat.ne_of_lt hij) hs ht hs'
      ht' hus hut hsz.2 htz.2 (hpos s (List.mem_of_getElem? hs) hsz.2) (hpos t (List.mem_of_getElem? ht) htz.2)
    have ek := hP.home; rw [hk] at ek; cases ek
    have em := hQ.home; rw [hm] at em; cases em
    rw [hl] at hl'; cases hl'
    rw [ho] at ho'; cases ho'
    simp only [toImage]
    by_cases he : k = m
    · subst he
      rw [hpk] at hqm; cases hqm
      rw [himg] at hjmg; cases hjmg
      have := hkm rfl
      omega
    · have := hc.2 k m p q he hpk hqm htx hty img himg jmg hjmg
      omega

/-- C44, from object code to image: the bytes of every section with contents are in the image, at the place of its
pool in the image plus the offset of its address in the pool; the sections may be written in any order. -/
theorem C44_image_contents {c : Cfg} {ss ss' : List Section} {pools' : List Pool} (hc : TextApart c ss)
    (hin : Input c.pools ss) (h : assignProcess c.groups c.pools ss = .ok (pools', ss'))
    (hpos : ∀ s ∈ ss, s.group ≠ none → 0 < s.size) {data : List Bytes}
    (hdata : ∀ (i : Nat) s b g, ss[i]? = some s → data[i]? = some b → s.group = some g → g.type ≠ 1 → b.length = s.size)
    {l : List Image.Sect} (hl : l.Perm (List.zipWith toImage ss' data)) {header : Bytes} (hh : header.length < 600)
    {padding : Option Nat} {fs : Image.Files} (hw : Image.writeBinary header padding l = .ok fs)
    {i : Nat} {s s' : Section} {b : Bytes} {g : SGroup} (hs : ss[i]? = some s) (hs' : ss'[i]? = some s')
    (hb : data[i]? = some b) (hu : s.used = true) (hg : s.group = some g) (ht : g.type ≠ 1) :
    ∃ k p a, PlacedAt c.groups c.pools s s' k a ∧ c.pools[k]? = some p ∧ p.base ≤ a ∧ ∀ img, p.image = some img →
      p.overlay = noOverlay → ∀ x < s.size, (fs none)[header.length + img + (a - p.base) + x]? = b[x]? := by
  obtain ⟨hF, hA⟩ := apart_of_link hc hin h hpos hdata hl hh
  rcases (((C09_every_used_section_placed hin h).2 i s s' hs hs').2 hu).2.2 with ⟨hn, _⟩ | ⟨k, a, hp⟩
  · rw [hg] at hn; cases hn
  obtain ⟨p, hpk, hw', -, -, hov, hi1, -⟩ := hp.pool
  unfold Range.Within at hw'
  simp only at hw'
  refine ⟨k, p, a, hp, hpk, hw'.1, ?_⟩
  intro img himg hno x hx
  have hbl := hdata i s b g hs hb hg ht
  have hm : toImage s' b ∈ l := by
    refine hl.mem_iff.2 (List.mem_of_getElem? (i := i) ?_)
    rw [List.getElem?_zipWith, hs', hb]
  have hP : Image.Placed header.length (toImage s' b) none (header.length + img + (a - p.base)) := by
    refine ⟨by simp [toImage, hp.same.group, hg], by simp [toImage, hp.same.used, hu], hp.assigned, ?_, ?_,
      img + (a - p.base), ?_, ?_⟩
    · simp [toImage, hp.same.group, hg, ht]
    · simp [toImage, hov, hno]
    · simp only [toImage, hi1 img himg, Option.map_some, Option.some.injEq]
      omega
    · simp only [if_true]; omega
  exact Image.C20_section_at_offset header padding l fs hF hA hw _ hm none _ hP x (by simpa [toImage, hbl] using hx)

end Verif.Config
