import Verif.Config.Props
import Verif.Config.Options
import Verif.Container.PrgProps
/-!
# C44: programs for Commodore machines, from object code to memory

The set up of these machines is undefined behaviour (`C44_commodore_undefined`); this is about the memory map `cbm` that
it leaves if that does no harm.
-/
namespace Verif.Config
open Verif.Assign Verif.Alloc Verif.Container

theorem cbm_apart (base size : Nat) (h : base + size < 65536) : ImagesApart (cbm base size) := by
  refine ⟨?_, by simp [cbm]⟩
  intro p hp i hi
  simp only [cbm, List.mem_singleton] at hp
  subst hp
  simp only [pool, Option.mem_def, Option.some.injEq] at hi ⊢
  omega

/-- A section with contents is in memory at its address. -/
def InMemory (ss ss' : List Section) (data : List Bytes) (base : Nat) (mem : Bytes) : Prop :=
  ∀ (i : Nat) s s' b g, ss[i]? = some s → ss'[i]? = some s' → data[i]? = some b → s.used = true → s.group = some g →
    g.type ≠ 1 → ∃ a, s'.byteLoc = some a ∧ base ≤ a ∧ ∀ x < s.size, mem[a - base + x]? = b[x]?

theorem in_memory {base size stub header : Nat} (hb : header + stub = base)
    {ss ss' : List Section} {pools' : List Pool} (hin : Input (cbm base size).pools ss)
    (h : assignProcess (cbm base size).groups (cbm base size).pools ss = .ok (pools', ss')) {data : List Bytes}
    (hdata : ∀ (i : Nat) s b g, ss[i]? = some s → data[i]? = some b → s.group = some g → g.type ≠ 1 → b.length = s.size)
    {l : List Image.Sect} (hl : l.Perm (List.zipWith toImage ss' data)) {f : Bytes} {start : Nat}
    (hr : Runs f header stub start l) :
    ∃ mem, loadPrg f = some (header, mem) ∧ runBasic header mem = some start ∧ InMemory ss ss' data header mem := by
  obtain ⟨mem, h1, h2, h3⟩ := hr
  refine ⟨mem, h1, h2, ?_⟩
  intro i s s' b g hs hs' hb' hu hg ht
  rcases (((C09_every_used_section_placed hin h).2 i s s' hs hs').2 hu).2.2 with ⟨hn, _⟩ | ⟨k, a, hp⟩
  · rw [hg] at hn; cases hn
  obtain ⟨p, hpk, hw, -, -, hov, hi1, -⟩ := hp.pool
  unfold Range.Within at hw
  have hp' : p = pool (some 0) noOverlay base 0 size := by
    have := List.mem_of_getElem? hpk
    simpa [cbm] using this
  subst hp'
  simp only [pool] at hw hov hi1
  refine ⟨a, hp.byteLoc, by omega, ?_⟩
  intro x hx
  have hm : toImage s' b ∈ l := by
    refine hl.mem_iff.2 (List.mem_of_getElem? (i := i) ?_)
    rw [List.getElem?_zipWith, hs', hb']
  have hbl := hdata i s b g hs hb' hg ht
  have := h3 _ hm (by simp [toImage, hp.same.group, hg]) (by simp [toImage, hp.same.used, hu]) hp.assigned
    (by simp [toImage, hp.same.group, hg, ht]) (by simp [toImage, hov]) (a - base)
    (by simp only [toImage, hi1 0 rfl, Option.map_some, Option.some.injEq]; omega) x (by simpa [toImage, hbl] using hx)
  rw [show a - header + x = stub + (a - base) + x by omega]
  exact this

/-- Header address, first address and size of the machines with BASIC. -/
def basicMachines : List (Nat × Nat × Nat) :=
  [(0x0801, 0x080E, 0xA000 - 0x080E), (0x1C01, 0x1C0E, 0xF000 - 0x1C0E), (0x1001, 0x100E, 0xFD00 - 0x100E)]

/-- The header addresses are the ones of the options. -/
theorem basicMachines_options : ∀ n ch, (n, ch) ∈ configOption ++ targetOption → .cbmPrg ∈ ch.allowed →
    (n, ch.header) ∈ ["c64", "c128", "c264"].zip (basicMachines.map (·.1)) := by
  have h : ∀ x ∈ configOption ++ targetOption, .cbmPrg ∈ x.2.allowed →
      (x.1, x.2.header) ∈ ["c64", "c128", "c264"].zip (basicMachines.map (·.1)) := by decide +kernel
  exact fun n ch hm ha => h _ hm ha

/-- C44 for the Commodore machines: the program is loaded, BASIC calls the start address, and every section with contents
is in memory at the address that it was linked for. -/
theorem C44_commodore_in_memory {header base size : Nat} (hm : (header, base, size) ∈ basicMachines)
    {ss ss' : List Section} {pools' : List Pool} (hin : Input (cbm base size).pools ss)
    (h : assignProcess (cbm base size).groups (cbm base size).pools ss = .ok (pools', ss'))
    (hpos : ∀ s ∈ ss, s.group ≠ none → 0 < s.size) {data : List Bytes}
    (hdata : ∀ (i : Nat) s b g, ss[i]? = some s → data[i]? = some b → s.group = some g → g.type ≠ 1 → b.length = s.size)
    {l : List Image.Sect} (hl : l.Perm (List.zipWith toImage ss' data)) {entry : Option (Option Int)} {first : Option Int}
    {start : Int} (hs : Start entry first start) (h0 : 0 ≤ start) (h1 : start < 100000) :
    ∃ f mem, prgFile header entry first l = .ok f ∧ loadPrg f = some (header, mem) ∧
      runBasic header mem = some start.toNat ∧ InMemory ss ss' data header mem := by
  have hnum : base + size < 65536 ∧ header + 13 = base ∧ header % 256 = 1 ∧ header + 13 < 65536 := by
    simp only [basicMachines, List.mem_cons, Prod.mk.injEq, List.not_mem_nil, or_false] at hm
    rcases hm with ⟨rfl, rfl, rfl⟩ | ⟨rfl, rfl, rfl⟩ | ⟨rfl, rfl, rfl⟩ <;> decide
  obtain ⟨hsz, hb, hlow, ha⟩ := hnum
  obtain ⟨hF, hA⟩ := apart_of_link ((cbm_apart base size hsz).text ss) hin h hpos hdata hl (n := 15) (by decide)
  obtain ⟨f, hf, hr⟩ := C42_prg header entry first l start hs h0 h1 ha hlow hF hA
  obtain ⟨mem, h1, h2, h3⟩ := in_memory hb hin h hdata hl hr
  exact ⟨f, mem, hf, h1, h2, h3⟩

/-- C44 for the MEGA65. -/
theorem C44_mega65_in_memory
    {ss ss' : List Section} {pools' : List Pool} (hin : Input (cbm 0x2012 (0xF700 - 0x2012)).pools ss)
    (h : assignProcess (cbm 0x2012 (0xF700 - 0x2012)).groups (cbm 0x2012 (0xF700 - 0x2012)).pools ss = .ok (pools', ss'))
    (hpos : ∀ s ∈ ss, s.group ≠ none → 0 < s.size) {data : List Bytes}
    (hdata : ∀ (i : Nat) s b g, ss[i]? = some s → data[i]? = some b → s.group = some g → g.type ≠ 1 → b.length = s.size)
    {l : List Image.Sect} (hl : l.Perm (List.zipWith toImage ss' data)) {entry : Option (Option Int)} {first : Option Int}
    {start : Int} (hs : Start entry first start) (h0 : 0 ≤ start) (h1 : start < 100000) :
    ∃ f mem, mega65File entry first l = .ok f ∧ loadPrg f = some (0x2001, mem) ∧
      runBasic 0x2001 mem = some start.toNat ∧ InMemory ss ss' data 0x2001 mem := by
  have hsz : 0x2012 + (0xF700 - 0x2012) < 65536 := by decide
  obtain ⟨hF, hA⟩ := apart_of_link ((cbm_apart _ _ hsz).text ss) hin h hpos hdata hl (n := 19) (by decide)
  obtain ⟨f, hf, hr⟩ := C42_mega65 entry first l start hs h0 h1 hF hA
  obtain ⟨mem, h1, h2, h3⟩ := in_memory (by decide) hin h hdata hl hr
  exact ⟨f, mem, hf, h1, h2, h3⟩

/-- A program for the Commodore 64 with code and variables. -/
example : (match assignProcess (cbm 0x080E (0xA000 - 0x080E)).groups (cbm 0x080E (0xA000 - 0x080E)).pools
      [⟨some ⟨"CODE", 0, false, false⟩, 3, none, -1, -1, none, noOverlay, 1, none, none, true, false, none⟩,
       ⟨some ⟨"BSS", 1, false, false⟩, 2, none, -1, -1, none, noOverlay, 1, none, none, true, false, none⟩] with
    | .ok (_, [c, v]) =>
      (match prgFile 0x0801 none (some 0x080E) [toImage c [0xA9, 0x01, 0x60], toImage v []] with
      | .ok f => (c.byteLoc, v.byteLoc, loadPrg f)
      | _ => (none, none, none))
    | _ => (none, none, none)) =
    (some 0x080E, some 0x0811, some (0x0801, [0x0C, 0x08, 0x0A, 0, 0x9E, 0x32, 0x30, 0x36, 0x32, 0, 0, 0, 0, 0xA9, 0x01, 0x60])) := by
  decide +kernel

end Verif.Config
