import Verif.Config.Tables
import Verif.Config.Options
/-!
# C44: what is wrong with the built-in memory maps
-/
namespace Verif.Config
open Verif.Assign Verif.Alloc

def code : SGroup := ⟨"CODE", 0, false, false⟩
def codeS : SGroup := ⟨"CODE_S", 0, false, true⟩
def bss : SGroup := ⟨"BSS", 1, false, false⟩
def zp : SGroup := ⟨"ZP", 1, false, false⟩

/-- A used section, free to go anywhere unless `at` is an address. -/
def sect (g : SGroup) (size : Nat) (loc : Option Nat := none) : Section :=
  ⟨some g, size, loc, -1, -1, none, noOverlay, 1, none, none, true, false, none⟩

/-- Group, bank, address and image offset of the sections after placement. -/
def placement (c : Cfg) (ss : List Section) : Option (List (Option String × Int × Option Nat × Option Int)) :=
  match assignProcess c.groups c.pools ss with
  | .ok (_, ss') => some (ss'.map fun s => (s.group.map (·.name), s.bank, s.byteLoc, s.image))
  | _ => none

/-- The sections of a Game Boy program: the second `CODE` section does not fit into bank 0. -/
def gbSects : List Section := [sect code 0x3000, sect code 0x2000, sect bss 0x80, sect ⟨"HRAM", 1, false, false⟩ 4]

example : placement gameboy gbSects =
    some [(some "CODE", 0, some 0, some 0), (some "CODE", 1, some 0x4000, some 0x4000), (some "BSS", 0, some 0xC000, none),
      (some "HRAM", 0, some 0xFF80, none)] := by decide +kernel

theorem gbInput : Input gameboy.pools gbSects := by
  have h : (∀ p ∈ gameboy.pools, p.base + p.size < W32) ∧ (∀ s ∈ gbSects, s.assigned = false ∧ s.home = none) ∧
    ∀ s ∈ gbSects, s.Ok gameboy.pools := by decide +kernel
  exact ⟨h.1, h.2.1, h.2.2⟩

/-- The hypotheses of `C44_image_contents` hold of it. -/
example (b₁ b₂ : Bytes) (h₁ : b₁.length = 0x3000) (h₂ : b₂.length = 0x2000) (pools' : List Pool) (ss' : List Section)
    (h : assignProcess gameboy.groups gameboy.pools gbSects = .ok (pools', ss')) (fs : Image.Files)
    (hw : Image.writeBinary [] none (List.zipWith toImage ss' [b₁, b₂, [], []]) = .ok fs) (s₂ : Section)
    (hs₂ : ss'[1]? = some s₂) :
    ∃ k p a, PlacedAt gameboy.groups gameboy.pools (sect code 0x2000) s₂ k a ∧ gameboy.pools[k]? = some p ∧ p.base ≤ a ∧
      ∀ img, p.image = some img → p.overlay = noOverlay →
      ∀ x < 0x2000, (fs none)[0 + img + (a - p.base) + x]? = b₂[x]? := by
  refine C44_image_contents (ss := gbSects) (data := [b₁, b₂, [], []])
    ((C44_images_partial "ngb" ⟨.ok gameboy, [.binary, .gameBoy], none, 0⟩ (by simp [allChoices, configOption]) gameboy rfl (by decide)).text _) gbInput h
    (by decide) ?_ (List.Perm.refl _) (header := []) (by decide) hw (i := 1) rfl hs₂ rfl rfl rfl (by decide)
  intro i s b g hs hb hg ht
  match i with
  | 0 => cases hs; cases hb; exact h₁
  | 1 => cases hs; cases hb; exact h₂
  | 2 => cases hs; cases hg; exact absurd rfl ht
  | 3 => cases hs; cases hg; exact absurd rfl ht
  | i + 4 => cases hs

/-- The Commodore maps (`-cc64`, `-cc128`, `-cc264`, `-cmega65`, `-tc64`, ...): the set up itself stores outside of the
array of pools. -/
theorem C44_commodore_undefined : ∀ n ch, (n, ch) ∈ allChoices → n ∈ ["c64", "c128", "c264", "mega65"] →
    ∀ f, accept ch f = .ub := by
  have h : ∀ x ∈ allChoices, x.1 ∈ ["c64", "c128", "c264", "mega65"] →
      (match x.2.cfg with | .ub => true | _ => false) = true := by decide +kernel
  intro n ch hm hn f
  have := h _ hm hn
  simp only [accept, checkOptions]
  cases hc : ch.cfg with
  | ub => rfl
  | ok c => simp [hc] at this
  | fail => simp [hc] at this

/-- `-chc8mh` and `-thc8mh`: no output format will do, since one of the pools claims to be an overlay. -/
theorem C44_medium_harvard_refused : ∀ n ch, (n, ch) ∈ allChoices → n = "hc8mh" → ∀ f, accept ch f = .fail := by
  have h : ∀ x ∈ allChoices, x.1 = "hc8mh" → (match x.2.cfg with | .ok c => needsOverlay c | _ => false) = true ∧
      x.2.allowed = [.binary, .hc800] := by decide +kernel
  intro n ch hm hn f
  obtain ⟨h1, h2⟩ := h _ hm hn
  simp only [accept, checkOptions]
  cases hc : ch.cfg with
  | fail => rfl
  | ub => simp [hc] at h1
  | ok c =>
    simp only [hc] at h1
    cases hf : (f <|> ch.format) with
    | none => rfl
    | some f =>
      simp only [h1, Bool.true_and]
      dsimp only at h2
      split
      · rfl
      · next hf =>
        rw [if_neg (by simp), if_pos]
        rw [Decidable.not_not, h2] at hf
        simp only [List.mem_cons, List.not_mem_nil, or_false] at hf
        rcases hf with rfl | rfl <;> rfl

/-- `-tc128fh`: no output format is set. -/
theorem C44_c128fh_refused (n : String) (ch : Choice) (h : (n, ch) ∈ targetOption) (hn : n = "c128fh") :
    accept ch none = .fail := by
  have h' : ∀ x ∈ targetOption, x.1 = "c128fh" → (match accept x.2 none with | .fail => true | _ => false) = true := by
    decide +kernel
  have := h' _ h hn
  cases hc : accept ch none with
  | fail => rfl
  | ok c => simp [hc] at this
  | ub => simp [hc] at this

/-- Code for group `HOME` is put into bank 0 when an object file is read (xlink/object.c 328-330). There is no such bank
in the maps for the HC800, so that no program with a section for `HOME` can be linked. -/
theorem C44_hc800_home_refused {c : Cfg}
    (hc : c ∈ [hc8Rom, hc8Small, hc8SmallHarvard, hc8Medium, hc8MediumHarvard, hc8Large]) {ss : List Section}
    (hin : Input c.pools ss) {s : Section} (hs : s ∈ ss) (hu : s.used = true) {g : SGroup} (hg : s.group = some g)
    (hn : g.name = "HOME") (hb : s.bank = 0) : ∀ r, assignProcess c.groups c.pools ss ≠ .ok r := by
  have table : ∀ c ∈ [hc8Rom, hc8Small, hc8SmallHarvard, hc8Medium, hc8MediumHarvard, hc8Large], ∀ g ∈ c.groups,
      g.name = "HOME" → ∀ k ∈ g.pools, (match c.pools[k]? with | some p => decide (p.bank ≠ 0) | none => true) = true := by
    decide +kernel
  rintro ⟨pools', ss'⟩ h
  obtain ⟨i, hi⟩ := List.getElem?_of_mem hs
  obtain ⟨hlen, hall⟩ := C09_every_used_section_placed hin h
  have hi' : i < ss'.length := by rw [hlen]; exact (List.getElem?_eq_some_iff.1 hi).1
  rcases ((hall i s ss'[i] hi (List.getElem?_eq_getElem hi')).2 hu).2.2 with ⟨h0, _⟩ | ⟨k, l, hp⟩
  · rw [hg] at h0; cases h0
  obtain ⟨p, hpk, -, hbank, -⟩ := hp.pool
  obtain ⟨g', mg, hg', hmg, hname, hk⟩ := hp.group
  rw [hg] at hg'; cases hg'
  have := table c hc mg hmg (hname.trans hn) k hk
  simp only [hpk, decide_eq_true_eq] at this
  omega

/-- Foenix F256: the pool for zero page variables lies inside the one for code and data, so that variables and code end
up at the same address. -/
theorem C44_f256_overlap : placement f256 [sect code 0x20, sect zp 4] =
    some [(some "CODE", 0, some 0, some 0), (some "ZP", 0, some 0x10, none)] := by decide +kernel

/-- Commodore 128 function ROM: sections without contents go to any address, also those of the ROM and of the zero
page, although the pool is meant for sections with a fixed address only (doc/LinkerCommodore.md 36). -/
theorem C44_c128f_overlap : placement (cbm128Rom 0x8000 0x8000) [sect code 0x20, sect bss 4, sect bss 4 (some 0x8000)] =
    some [(some "CODE", 0, some 0x8000, some 0), (some "BSS", 0, some 0, none), (some "BSS", 0, some 0x8000, none)] := by
  decide +kernel

/-- HC800 medium: shared memory goes on in the first of the code banks. -/
theorem C44_hc8m_overlap : placement hc8Medium [sect codeS 0x8000, sect code 0x4000, sect code 0x8000] =
    some [(some "CODE_S", 0x82, some 0x4000, some 0), (some "CODE", 0x81, some 0, some 0),
      (some "CODE", 0x83, some 0x8000, some 0)] := by decide +kernel

/-- HC800 small with `-fbin`, which is accepted: sections of both pools go to the start of the image. -/
theorem C44_hc8s_image_overlap : (∃ n ch, (n, ch) ∈ configOption ∧ n = "hc8s" ∧ ∃ c, accept ch (some .binary) = .ok (c, .binary) ∧
    c = hc8Small) ∧ placement hc8Small [sect code 0x4000, sect code 2] =
    some [(some "CODE", 0x81, some 0, some 0), (some "CODE", 0x82, some 0x4000, some 0)] := by
  refine ⟨⟨"hc8s", ⟨.ok hc8Small, [.binary, .hc800], none, 0⟩, by simp [configOption], rfl, hc8Small, rfl, rfl⟩, by decide +kernel⟩

/-- Mega Drive: initialised work memory goes to the start of the image. -/
theorem C44_mega_drive_image_overlap : placement megaDrive [sect code 4, sect ⟨"BSS", 0, true, false⟩ 4] =
    some [(some "CODE", 0, some 0, some 0), (some "BSS", 0, some 0xFF0000, some 0)] := by decide +kernel

/-- Amiga with `-fbin`, which is accepted: all pools begin at address 0. -/
theorem C44_amiga_overlap : (∃ n ch, (n, ch) ∈ configOption ∧ n = "amiga" ∧ ∃ c, accept ch (some .binary) = .ok (c, .binary) ∧
    c = amiga) ∧ placement amiga [sect code 4, sect bss 4] =
    some [(some "CODE", 0, some 0, some 0x200000), (some "BSS", 0, some 0, none)] := by
  refine ⟨⟨"amiga", ⟨.ok amiga, ffAmiga, none, 0⟩, by simp [configOption], rfl, amiga, rfl, rfl⟩, by decide +kernel⟩

end Verif.Config
