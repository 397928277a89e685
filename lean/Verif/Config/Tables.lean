import Verif.Config.Props
/-!
# C44: the tables of memory maps
-/
namespace Verif.Config
open Verif.Assign Verif.Alloc

/-- Every memory map of the linker. -/
def allChoices : List (String × Choice) := configOption ++ targetOption

/-- Does the memory map have the property? -/
def mapIs (P : Cfg → Bool) (ch : Choice) : Bool :=
  match ch.cfg with
  | .ok c => P c
  | _ => false

/-- C44, the table: pools with the same bank number have no address in common. This excludes the Amiga, where sections
are not placed in memory by the linker; the others are treated below. -/
theorem C44_addresses_partial : ∀ n ch, (n, ch) ∈ allChoices → ∀ c, ch.cfg = .ok c →
    n ∉ ["amiga", "a", "b", "c128f", "c128fl", "c128fh", "hc8mh", "fxf256jrs"] → AddressesApart c := by
  have h : ∀ x ∈ allChoices, mapIs (fun c => decide (AddressesApart c)) x.2 = true ∨
      (match x.2.cfg with | .ok _ => false | _ => true) = true ∨
      x.1 ∈ ["amiga", "a", "b", "c128f", "c128fl", "c128fh", "hc8mh", "fxf256jrs"] := by decide +kernel
  intro n ch hm c hc hn
  rcases h _ hm with h | h | h
  · simpa [mapIs, hc] using h
  · simp [hc] at h
  · exact absurd h hn

/-- The Commodore maps. -/
theorem C44_addresses_cbm (base size : Nat) (h : base + size < 65536) : AddressesApart (cbm base size) := by
  refine ⟨?_, by simp [cbm]⟩
  intro p hp
  simp only [cbm, List.mem_singleton] at hp
  subst hp
  simp only [pool]
  omega

/-- C44, the table for images: configurations whose output is an image. In the map of the Mega Drive the pool for `BSS`
claims to be part of the image, see below. -/
theorem C44_images_partial : ∀ n ch, (n, ch) ∈ allChoices → ∀ c, ch.cfg = .ok c →
    n ∉ ["smd", "md", "hc8s", "hc8sh", "hc8m", "hc8mh", "hc8l"] → ImagesApart c := by
  have h : ∀ x ∈ allChoices, mapIs (fun c => decide (ImagesApart c)) x.2 = true ∨
      (match x.2.cfg with | .ok _ => false | _ => true) = true ∨
      x.1 ∈ ["smd", "md", "hc8s", "hc8sh", "hc8m", "hc8mh", "hc8l"] := by decide +kernel
  intro n ch hm c hc hn
  rcases h _ hm with h | h | h
  · simpa [mapIs, hc] using h
  · simp [hc] at h
  · exact absurd h hn

/-- C44, the table for the banks of the HC800. -/
theorem C44_banks_partial : ∀ n ch, (n, ch) ∈ allChoices → ∀ c, ch.cfg = .ok c → .hc800 ∈ ch.allowed → n ≠ "hc8m" →
    BanksApart c := by
  have h : ∀ x ∈ allChoices, mapIs (fun c => decide (BanksApart c)) x.2 = true ∨
      (match x.2.cfg with | .ok _ => false | _ => true) = true ∨
      .hc800 ∉ x.2.allowed ∨ x.1 = "hc8m" := by decide +kernel
  intro n ch hm c hc ha hn
  rcases h _ hm with h | h | h | h
  · simpa [mapIs, hc] using h
  · simp [hc] at h
  · exact absurd ha h
  · exact absurd h hn

/-- Groups refer to pools that exist and have different names; only one map has overlays. -/
def WellFormed (c : Cfg) : Prop :=
  (∀ g ∈ c.groups, g.pools ≠ [] ∧ ∀ k ∈ g.pools, k < c.pools.length) ∧ (c.groups.map (·.name)).Nodup ∧
  (c = hc8MediumHarvard ∨ ∀ p ∈ c.pools, p.overlay = noOverlay)

instance (c : Cfg) : Decidable (WellFormed c) := by unfold WellFormed; infer_instance

theorem C44_wellformed : ∀ n ch, (n, ch) ∈ allChoices → ∀ c, ch.cfg = .ok c → WellFormed c := by
  have h : ∀ x ∈ allChoices, mapIs (fun c => decide (WellFormed c)) x.2 = true ∨
      (match x.2.cfg with | .ok _ => false | _ => true) = true := by decide +kernel
  intro n ch hm c hc
  rcases h _ hm with h | h
  · simpa [mapIs, hc] using h
  · simp [hc] at h

end Verif.Config
