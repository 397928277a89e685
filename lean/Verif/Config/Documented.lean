import Verif.Config.Tables
/-!
# C46: the built-in memory maps are the documented ones

The tables in doc/LinkerGameboy.md (21-33), doc/LinkerMasterSystem.md (17-30), doc/LinkerMegaDrive.md (18-21),
doc/LinkerCommodore.md (24-42), doc/LinkerHC800.md (41-48), doc/LinkerFoenix256.md (50-66) and
doc/LinkerFoenix2560.md (17-33), and where the program disagrees with them.
-/
namespace Verif.Config
open Verif.Assign (Pool MGroup)

/-- Configuration, group and the areas in which its sections can be placed: first and last address, in the order in which
they are filled. -/
abbrev Row := String × String × List (Nat × Nat)

def documentedGameboy : List Row :=
  let common (n : String) : List Row := [(n, "VRAM", [(0x8000, 0x9FFF)]), (n, "BSS", [(0xC000, 0xDFFF)])]
  common "ngb" ++ common "ngbs" ++
  [("ngbs", "HOME", [(0, 0x7FFF)]), ("ngbs", "CODE", [(0, 0x7FFF)]), ("ngbs", "DATA", [(0, 0x7FFF)]),
   ("ngb", "HOME", [(0, 0x3FFF)]),
   ("ngb", "CODE", (0, 0x3FFF) :: List.replicate 255 (0x4000, 0x7FFF)),
   ("ngb", "DATA", (0, 0x3FFF) :: List.replicate 255 (0x4000, 0x7FFF))]

def documentedSega : List Row :=
  let small (n : String) (size : Nat) : List Row :=
    [(n, "HOME", [(0, 0x3FF)]), (n, "BSS", [(0xC000, 0xDFF7)]), (n, "CODE", [(0, 0x3FF), (0x400, size - 17)]),
     (n, "DATA", [(0, 0x3FF), (0x400, size - 17)])]
  let banked := (0, 0x3FF) :: (0x400, 0x3FFF) :: (0x4000, 0x7FEF) :: List.replicate 62 (0x8000, 0xBFFF)
  small "sms8" 0x2000 ++ small "sms16" 0x4000 ++ small "sms32" 0x8000 ++
  [("smsb", "HOME", [(0, 0x3FF)]), ("smsb", "BSS", [(0xC000, 0xDFF7)]), ("smsb", "CODE", banked), ("smsb", "DATA", banked),
   ("smd", "CODE", [(0, 0x3FFFFF)]), ("smd", "DATA", [(0, 0x3FFFFF)]), ("smd", "BSS", [(0xFF0000, 0xFFFFFF)])]

def documentedCommodore : List Row :=
  let rom (n : String) (first last : Nat) : List Row := [(n, "CODE", [(first, last)]), (n, "DATA", [(first, last)]), (n, "BSS", [(0, 0xFFFF)])]
  rom "c128f" 0x8000 0xFFFF ++ rom "c128fl" 0x8000 0xBFFF ++ rom "c128fh" 0xC000 0xFFFF

/-- The configurations are called `hc800…` in the documentation. -/
def documentedHc800 : List Row :=
  [("hc800b", "HOME", [(0, 0x3FFF)]), ("hc800b", "BSS", [(0, 0x3FFF)]),
   ("hc8s", "CODE_S", [(0x4000, 0xFFFF)]), ("hc8sh", "CODE_S", [(0x4000, 0xFFFF)]), ("hc8sh", "BSS_S", [(0x4000, 0xFFFF)]),
   ("hc8l", "CODE_S", [(0x4000, 0x7FFF)])]

def documentedFoenix : List Row :=
  let sys := (0x10000, 0x3FFFFF)
  let a := (0x800000, 0xBFFFFF)
  let b := (0xC00000, 0xFFFFFF)
  let sdram := (0x2000000, 0x5FFFFFF)
  [("fxa2560x", "CODE", [sys]), ("fxa2560x", "DATA", [sys, sdram]), ("fxa2560x", "BSS", [sys, sdram]),
   ("fxa2560x", "DATA_VA", [a]), ("fxa2560x", "BSS_VA", [a]), ("fxa2560x", "DATA_VB", [b]), ("fxa2560x", "BSS_VB", [b]),
   ("fxa2560x", "DATA_D", [sdram]), ("fxa2560x", "BSS_D", [sdram]),
   ("fxf256jrs", "HOME", [(0xE000, 0xFFFF)]), ("fxf256jrs", "ZP", [(0x10, 0xFF)])]

/-- The areas of a group. -/
def areas (c : Cfg) (group : String) : Option (List (Nat × Nat)) :=
  (c.groups.find? fun g => g.name == group).map fun g => g.pools.filterMap fun i => c.pools[i]?.map fun p => (p.base, p.base + p.size - 1)

/-- What the option `-c` with the given name says about a group. -/
def configAreas (name group : String) : Option (List (Nat × Nat)) :=
  match configOption.find? fun x => x.1 == name with
  | some (_, ⟨.ok c, _, _, _⟩) => areas c group
  | _ => none

/-- C46: every area in the tables is the one that is used. The table is complete except for the lines named in
`C46_disagreements` and the Commodore memory maps with a BASIC area (C44). -/
theorem C46_documented_areas_partial : ∀ row ∈ documentedGameboy ++ documentedSega ++ documentedCommodore ++ documentedHc800 ++ documentedFoenix,
    configAreas row.1 row.2.1 = some row.2.2 := by decide +kernel

/-- The Commodore memory maps with a BASIC area (doc/LinkerCommodore.md 24-29), if the writes outside of an array that
`C44_commodore_undefined` is about do no harm. -/
theorem C46_documented_basic :
    ∀ row ∈ [(c64Basic, 0x80E, 0x9FFF), (c128Basic, 0x1C0E, 0xEFFF), (c264Basic, 0x100E, 0xFCFF), (mega65Basic, 0x2012, 0xF6FF)],
      areas (cbm row.1.1 row.1.2) "CODE" = some [row.2] ∧ areas (cbm row.1.1 row.1.2) "DATA" = some [row.2] := by
  decide +kernel

/-- C46: in cartridges with banks of 16 KiB, the number of the bank that the program must select is the number of the
block of 16 KiB in the image. -/
theorem C46_bank_numbers : ∀ c ∈ [gameboy, masterSystemBanked], ∀ p ∈ c.pools, ∀ o, p.image = some o →
    (o : Int) = p.bank * 0x4000 + (p.base % 0x4000 : Nat) := by
  have key : ∀ c ∈ [gameboy, masterSystemBanked], ∀ p ∈ c.pools,
      p.image = none ∨ p.image = some (p.bank * 0x4000 + (p.base % 0x4000 : Nat)).toNat ∧ 0 ≤ p.bank := by decide +kernel
  intro c hc p hp o ho
  rcases key c hc p hp with h | ⟨h, h2⟩
  · rw [h] at ho; cases ho
  · rw [h] at ho
    have := Option.some.inj ho
    omega

/-- Where the program disagrees with the tables: the fast memory of the Game Boy ends at `$FFFE` instead of `$FFFF`, the
lower slots of the HC800 are smaller or, in the medium mode, its shared memory is larger than documented and reaches into
the banks, and the main memory of the F256 begins at 0 instead of `$200`. -/
theorem C46_disagreements :
    configAreas "ngb" "HRAM" = some [(0xFF80, 0xFFFE)] ∧ configAreas "ngbs" "HRAM" = some [(0xFF80, 0xFFFE)] ∧
    configAreas "hc8s" "HOME" = some [(0, 0x3FFF)] ∧ configAreas "hc8sh" "HOME" = some [(0, 0x3FFF)] ∧
    configAreas "hc8m" "CODE_S" = some [(0x4000, 0xBFFF)] ∧
    configAreas "fxf256jrs" "DATA" = some [(0, 0xBFFF)] ∧
    configAreas "amiga" "CODE" = some [(0, 0x3FFFFFFE)] := by decide +kernel

end Verif.Config
