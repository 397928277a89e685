import Verif.Assign.Model
/-!
# Built-in memory maps and the options of the linker (`xlink/group.c`, `xlink/commodore.c`, `xlink/foenix.c`, `xlink/main.c`)

A memory map is a list of pools and the groups that refer to them by position.
-/
namespace Verif.Config
open Verif.Assign (Pool MGroup)

structure Cfg where
  pools : List Pool
  groups : List MGroup
  deriving Repr, DecidableEq

/-- `pool_Create` (xlink/group.c 351-365). `onlyAbs` is never consulted by the code and left out, as in `Pool`. -/
def pool (image : Option Nat) (overlay base : Nat) (bank : Int) (size : Nat) : Pool := ⟨image, overlay, base, bank, size, []⟩

/-- `UINT32_MAX`. -/
abbrev noOverlay : Nat := 4294967295

/-- `group_SetupGameboy` (xlink/group.c 394-422) with `group_InitCommonGameboy` (206-224). -/
def gameboy : Cfg where
  pools := (List.range 256).map (fun i => pool (some (i * 0x4000)) noOverlay (if i = 0 then 0 else 0x4000) i 0x4000) ++
    [pool none noOverlay 0x8000 0 0x2000, pool none noOverlay 0xC000 0 0x2000, pool none noOverlay 0xFF80 0 0x7F]
  groups := [⟨"HOME", [0]⟩, ⟨"CODE", List.range 256⟩, ⟨"DATA", List.range 256⟩, ⟨"VRAM", [256]⟩, ⟨"BSS", [257]⟩, ⟨"HRAM", [258]⟩]

/-- `group_SetupSmallGameboy` (xlink/group.c 424-449) with `group_InitCommonGameboy` (206-224). -/
def smallGameboy : Cfg where
  pools := [pool (some 0) noOverlay 0 0 0x8000,
    pool none noOverlay 0x8000 0 0x2000, pool none noOverlay 0xC000 0 0x2000, pool none noOverlay 0xFF80 0 0x7F]
  groups := [⟨"HOME", [0]⟩, ⟨"CODE", [0]⟩, ⟨"DATA", [0]⟩, ⟨"VRAM", [1]⟩, ⟨"BSS", [2]⟩, ⟨"HRAM", [3]⟩]

/-- `group_SetupAmiga` (xlink/group.c 451-483). -/
def amiga : Cfg where
  pools := [pool (some 0x200000) noOverlay 0 0 0x3FFFFFFF, pool (some 0) noOverlay 0 0 0x1FFFFF,
    pool none noOverlay 0 0 0x3FFFFFFF, pool none noOverlay 0 0 0x3FFFFFFF]
  groups := [⟨"CODE", [0]⟩, ⟨"CODE_C", [1]⟩, ⟨"DATA", [0]⟩, ⟨"DATA_C", [1]⟩, ⟨"BSS", [2]⟩, ⟨"BSS_C", [3]⟩]

/-- `group_SetupSegaMegaDrive` (xlink/group.c 485-502). -/
def megaDrive : Cfg where
  pools := [pool (some 0) noOverlay 0 0 0x400000, pool (some 0) noOverlay 0xFF0000 0 0x10000]
  groups := [⟨"CODE", [0]⟩, ⟨"DATA", [0]⟩, ⟨"BSS", [1]⟩]

/-- `group_SetupSegaMasterSystem` (xlink/group.c 504-532). -/
def masterSystem (size : Nat) : Cfg where
  pools := [pool (some 0) noOverlay 0 0 0x400, pool (some 0x400) noOverlay 0x400 0 (size - 16 - 0x400),
    pool none noOverlay 0xC000 0 0x1FF8]
  groups := [⟨"CODE", [0, 1]⟩, ⟨"HOME", [0]⟩, ⟨"DATA", [0, 1]⟩, ⟨"BSS", [2]⟩]

/-- `group_SetupSegaMasterSystemBanked` (xlink/group.c 534-570). -/
def masterSystemBanked : Cfg where
  pools := [pool (some 0) noOverlay 0 0 0x400, pool (some 0x400) noOverlay 0x400 0 (0x4000 - 0x400),
      pool (some 0x4000) noOverlay 0x4000 1 0x3FF0] ++
    (List.range 62).map (fun i => pool (some ((i + 2) * 0x4000)) noOverlay 0x8000 (i + 2 : Nat) 0x4000) ++
    [pool none noOverlay 0xC000 0 0x1FF8]
  groups := [⟨"HOME", [0]⟩, ⟨"CODE", List.range 65⟩, ⟨"DATA", List.range 65⟩, ⟨"BSS", [65]⟩]

/-- `group_SetupHC8XXROM` (xlink/group.c 572-618). -/
def hc8Rom : Cfg where
  pools := [pool (some 0) noOverlay 0 1 0x4000, pool none noOverlay 0 0x80 0x4000]
  groups := [⟨"HOME", [0]⟩, ⟨"CODE", [0]⟩, ⟨"DATA", [0]⟩, ⟨"BSS", [1]⟩]

/-- `group_SetupHC8XXSmall` (xlink/group.c 620-665). -/
def hc8Small : Cfg where
  pools := [pool (some 0) noOverlay 0 0x81 0x4000, pool (some 0) noOverlay 0x4000 0x82 0xC000]
  groups := [⟨"HOME", [0]⟩, ⟨"CODE", [0, 1]⟩, ⟨"DATA", [0, 1]⟩, ⟨"BSS", [0, 1]⟩, ⟨"CODE_S", [1]⟩, ⟨"DATA_S", [1]⟩, ⟨"BSS_S", [1]⟩]

/-- `group_SetupHC8XXSmallHarvard` (xlink/group.c 667-714). -/
def hc8SmallHarvard : Cfg where
  pools := [pool (some 0) noOverlay 0 0x81 0x4000, pool (some 0) noOverlay 0x4000 0x82 0xC000,
    pool (some 0) noOverlay 0 0x85 0x4000, pool (some 0) noOverlay 0x4000 0x86 0xC000]
  groups := [⟨"HOME", [0]⟩, ⟨"CODE", [0, 1]⟩, ⟨"DATA", [2, 3]⟩, ⟨"BSS", [2, 3]⟩, ⟨"CODE_S", [1]⟩, ⟨"DATA_S", [3]⟩, ⟨"BSS_S", [3]⟩]

/-- The banks of the larger HC800 memory maps (xlink/group.c 724-728, 784-788, 842-846). -/
def hc8Banks (first : Nat) : List Pool :=
  (List.range ((0x100 - first) / 2)).map fun i => pool (some 0) noOverlay 0x8000 (i * 2 + first : Nat) 0x8000

/-- `group_SetupHC8XXMedium` (xlink/group.c 716-771). -/
def hc8Medium : Cfg where
  pools := [pool (some 0) noOverlay 0 0x81 0x4000, pool (some 0) noOverlay 0x4000 0x82 0x8000] ++ hc8Banks 0x83
  groups := [⟨"HOME", [0, 1]⟩, ⟨"CODE", List.range (2 + (0x100 - 0x83) / 2)⟩, ⟨"DATA", [0, 1]⟩, ⟨"BSS", [0, 1]⟩,
    ⟨"CODE_S", [1]⟩, ⟨"DATA_S", [1]⟩, ⟨"BSS_S", [1]⟩]

/-- `group_SetupHC8XXMediumHarvard` (xlink/group.c 773-831). The third pool is created with its second and third
argument exchanged (780). -/
def hc8MediumHarvard : Cfg where
  pools := [pool (some 0) noOverlay 0 0x81 0x4000, pool (some 0) noOverlay 0x4000 0x82 0x4000] ++ hc8Banks 0x87 ++
    [pool (some 0) 0 4294967295 0x83 0x4000, pool (some 0) noOverlay 0x4000 0x84 0xC000]
  groups := [⟨"HOME", [0, 1]⟩, ⟨"CODE", List.range (2 + (0x100 - 0x87) / 2)⟩,
    ⟨"DATA", [2 + (0x100 - 0x87) / 2, 3 + (0x100 - 0x87) / 2]⟩, ⟨"BSS", [2 + (0x100 - 0x87) / 2, 3 + (0x100 - 0x87) / 2]⟩,
    ⟨"CODE_S", [1]⟩, ⟨"DATA_S", [3 + (0x100 - 0x87) / 2]⟩, ⟨"BSS_S", [3 + (0x100 - 0x87) / 2]⟩]

/-- `group_SetupHC8XXLarge` (xlink/group.c 833-895). -/
def hc8Large : Cfg where
  pools := [pool (some 0) noOverlay 0 0x81 0x4000, pool (some 0) noOverlay 0x4000 0x82 0x4000] ++ hc8Banks 0x83
  groups := [⟨"HOME", [0, 1]⟩, ⟨"CODE", List.range (2 + (0x100 - 0x83) / 2)⟩, ⟨"DATA", List.range (2 + (0x100 - 0x83) / 2)⟩,
    ⟨"BSS", List.range (2 + (0x100 - 0x83) / 2)⟩, ⟨"CODE_S", [1]⟩, ⟨"DATA_S", [1]⟩, ⟨"BSS_S", [1]⟩]

/-- `group_SetupCoCo` (xlink/group.c 953-973). -/
def coco : Cfg where
  pools := [pool (some 0) noOverlay 0x600 0 (0x8000 - 0x600)]
  groups := [⟨"CODE", [0]⟩, ⟨"DATA", [0]⟩, ⟨"BSS", [0]⟩]

/-- `setupCommodore128ROM` (xlink/commodore.c 71-90). -/
def cbm128Rom (base size : Nat) : Cfg where
  pools := [pool (some 0) noOverlay base 0 size, pool none noOverlay 0 0 0x10000]
  groups := [⟨"CODE", [0]⟩, ⟨"DATA", [0]⟩, ⟨"BSS", [1]⟩]

/-- What a setup function does to the array of pools of the group it has created last: `pools[i] = …` for an array of
`n` elements. -/
def storePool (n i : Nat) (c : Cfg) : Outcome Cfg := if i < n then .ok c else .ub

/-- `setupUnbankedCommodore` (xlink/commodore.c 49-69): the `BSS` group is created with room for one pool (65), and
three are stored (66-68). The memory map that results if that does no harm is `cbm`: the number of pools of the group
stays 1. -/
def cbm (base size : Nat) : Cfg where
  pools := [pool (some 0) noOverlay base 0 size]
  groups := [⟨"CODE", [0]⟩, ⟨"DATA", [0]⟩, ⟨"BSS", [0]⟩]

def setupCbm (base size : Nat) : Outcome Cfg :=
  (storePool 1 0 (cbm base size)).bind fun c => (storePool 1 1 c).bind fun c => storePool 1 2 c

/-- `foenix_SetupFoenixA2560XGroups` (xlink/foenix.c 198-257). -/
def a2560x : Cfg where
  pools := [pool (some 0x10000) noOverlay 0x10000 0 (0x400000 - 0x10000), pool (some 0x800000) noOverlay 0x800000 0 0x400000,
    pool (some 0xC00000) noOverlay 0xC00000 0 0x400000, pool (some 0x02000000) noOverlay 0x02000000 0 0x04000000]
  groups := [⟨"CODE", [0]⟩, ⟨"DATA", [0, 3]⟩, ⟨"BSS", [0, 3]⟩, ⟨"DATA_VA", [1]⟩, ⟨"BSS_VA", [1]⟩, ⟨"DATA_VB", [2]⟩,
    ⟨"BSS_VB", [2]⟩, ⟨"DATA_D", [3]⟩, ⟨"BSS_D", [3]⟩]

/-- `foenix_SetupFoenixF256JrSmallGroups` (xlink/foenix.c 259-295). -/
def f256 : Cfg where
  pools := [pool (some 0) noOverlay 0 0 0xC000, pool (some 0xE000) noOverlay 0xE000 0 (0x10000 - 0xE000),
    pool none noOverlay 0x0010 0 (0x100 - 0x10)]
  groups := [⟨"HOME", [1]⟩, ⟨"CODE", [0, 1]⟩, ⟨"DATA", [0]⟩, ⟨"BSS", [0]⟩, ⟨"ZP", [2]⟩]

/-! ## Options -/

/-- `FILE_FORMAT_*` (xlink/xlink.h 25-39). -/
inductive Format where
  | binary | gameBoy | amigaExecutable | amigaLinkObject | cbmPrg | megaDrive | masterSystem | hc800Kernel | hc800 | pgz |
    f256Kup | f256KupPad | cocoBin | mega65Prg
  deriving Repr, DecidableEq

/-- What an option sets up: the memory map, `g_allowedFormats`, `g_outputFormat` if it is set, `g_cbmHeaderAddress`. -/
structure Choice where
  cfg : Outcome Cfg
  allowed : List Format
  format : Option Format
  header : Nat

/-- `handleFileFormatOption` (xlink/main.c 161-194). Other names are errors. -/
def formatOption : List (String × Format) :=
  [("amigaexe", .amigaExecutable), ("amigalink", .amigaLinkObject), ("bin", .binary), ("cbm", .cbmPrg), ("ngb", .gameBoy),
   ("smd", .megaDrive), ("sms", .masterSystem), ("hc800k", .hc800Kernel), ("hc800", .hc800), ("fxpgz", .pgz),
   ("fxkup", .f256Kup), ("fxkupp", .f256KupPad), ("cocobin", .cocoBin), ("mega65", .mega65Prg)]

/-- `FF_*` (xlink/main.c 46-56). -/
def ffAmiga : List Format := [.binary, .amigaExecutable, .amigaLinkObject]
def ffF256 : List Format := [.binary, .f256Kup, .f256KupPad, .pgz]

/-- The arguments of `setupUnbankedCommodore`: the start and the size (xlink/commodore.c 148, 153, 158, 163). -/
def c128Basic : Nat × Nat := (0x1C0E, 0xF000 - 0x1C0E)
def c64Basic : Nat × Nat := (0x080E, 0xA000 - 0x080E)
def c264Basic : Nat × Nat := (0x100E, 0xFD00 - 0x100E)
def mega65Basic : Nat × Nat := (0x2012, 0xF700 - 0x2012)

/-- `commodore_Setup*` (xlink/commodore.c 146-164). -/
def c128 : Outcome Cfg := setupCbm c128Basic.1 c128Basic.2
def c64 : Outcome Cfg := setupCbm c64Basic.1 c64Basic.2
def c264 : Outcome Cfg := setupCbm c264Basic.1 c264Basic.2
def mega65 : Outcome Cfg := setupCbm mega65Basic.1 mega65Basic.2

/-- `handleMemoryConfigurationOption` (xlink/main.c 321-416), option `-c`. Other names are errors. -/
def configOption : List (String × Choice) :=
  [("amiga", ⟨.ok amiga, ffAmiga, none, 0⟩),
   ("c64", ⟨c64, [.binary, .cbmPrg], none, 0x0801⟩),
   ("c128", ⟨c128, [.binary, .cbmPrg], none, 0x1C01⟩),
   ("c128f", ⟨.ok (cbm128Rom 0x8000 0x8000), [.binary], none, 0⟩),
   ("c128fl", ⟨.ok (cbm128Rom 0x8000 0x4000), [.binary], none, 0⟩),
   ("c128fh", ⟨.ok (cbm128Rom 0xC000 0x4000), [.binary], none, 0⟩),
   ("c264", ⟨c264, [.binary, .cbmPrg], none, 0x1001⟩),
   ("ngb", ⟨.ok gameboy, [.binary, .gameBoy], none, 0⟩),
   ("ngbs", ⟨.ok smallGameboy, [.binary, .gameBoy], none, 0⟩),
   ("smd", ⟨.ok megaDrive, [.binary, .megaDrive], none, 0⟩),
   ("sms8", ⟨.ok (masterSystem 0x2000), [.binary, .masterSystem], none, 0⟩),
   ("sms16", ⟨.ok (masterSystem 0x4000), [.binary, .masterSystem], none, 0⟩),
   ("sms32", ⟨.ok (masterSystem 0x8000), [.binary, .masterSystem], none, 0⟩),
   ("smsb", ⟨.ok masterSystemBanked, [.binary, .masterSystem], none, 0⟩),
   ("hc800b", ⟨.ok hc8Rom, [.binary, .hc800Kernel], none, 0⟩),
   ("hc8s", ⟨.ok hc8Small, [.binary, .hc800], none, 0⟩),
   ("hc8sh", ⟨.ok hc8SmallHarvard, [.binary, .hc800], none, 0⟩),
   ("hc8m", ⟨.ok hc8Medium, [.binary, .hc800], none, 0⟩),
   ("hc8mh", ⟨.ok hc8MediumHarvard, [.binary, .hc800], none, 0⟩),
   ("hc8l", ⟨.ok hc8Large, [.binary, .hc800], none, 0⟩),
   ("fxa2560x", ⟨.ok a2560x, [.binary, .pgz], none, 0⟩),
   ("fxf256jrs", ⟨.ok f256, ffF256, none, 0⟩),
   ("coco", ⟨.ok coco, [.binary, .cocoBin], none, 0⟩),
   ("mega65", ⟨mega65, [.binary, .mega65Prg], none, 0⟩)]

/-- `handleLegacyTargetOption` (xlink/main.c 196-319), option `-t`. Other names are errors. -/
def targetOption : List (String × Choice) :=
  [("a", ⟨.ok amiga, ffAmiga, some .amigaExecutable, 0⟩),
   ("b", ⟨.ok amiga, ffAmiga, some .amigaLinkObject, 0⟩),
   ("g", ⟨.ok gameboy, [.binary, .gameBoy], some .gameBoy, 0⟩),
   ("s", ⟨.ok smallGameboy, [.binary, .gameBoy], some .gameBoy, 0⟩),
   ("c64", ⟨c64, [.binary, .cbmPrg], some .cbmPrg, 0x0801⟩),
   ("c128", ⟨c128, [.binary, .cbmPrg], some .cbmPrg, 0x1C01⟩),
   ("c128f", ⟨.ok (cbm128Rom 0x8000 0x8000), [.binary], some .binary, 0⟩),
   ("c128fl", ⟨.ok (cbm128Rom 0x8000 0x4000), [.binary], some .binary, 0⟩),
   ("c128fh", ⟨.ok (cbm128Rom 0xC000 0x4000), [.binary], none, 0⟩),
   ("c264", ⟨c264, [.binary, .cbmPrg], some .cbmPrg, 0x1001⟩),
   ("md", ⟨.ok megaDrive, [.binary, .megaDrive], some .megaDrive, 0⟩),
   ("ms8", ⟨.ok (masterSystem 0x2000), [.binary, .masterSystem], some .masterSystem, 0⟩),
   ("ms16", ⟨.ok (masterSystem 0x4000), [.binary, .masterSystem], some .masterSystem, 0⟩),
   ("ms32", ⟨.ok (masterSystem 0x8000), [.binary, .masterSystem], some .masterSystem, 0⟩),
   ("ms48", ⟨.ok (masterSystem 0xC000), [.binary, .masterSystem], some .masterSystem, 0⟩),
   ("msb", ⟨.ok masterSystemBanked, [.binary, .masterSystem], some .masterSystem, 0⟩),
   ("hc8b", ⟨.ok hc8Rom, [.binary, .hc800Kernel], some .hc800Kernel, 0⟩),
   ("hc8s", ⟨.ok hc8Small, [.binary, .hc800], some .hc800, 0⟩),
   ("hc8sh", ⟨.ok hc8SmallHarvard, [.binary, .hc800], some .hc800, 0⟩),
   ("hc8m", ⟨.ok hc8Medium, [.binary, .hc800], some .hc800, 0⟩),
   ("hc8mh", ⟨.ok hc8MediumHarvard, [.binary, .hc800], some .hc800, 0⟩),
   ("hc8l", ⟨.ok hc8Large, [.binary, .hc800], some .hc800, 0⟩),
   ("fxa2560x", ⟨.ok a2560x, [.binary, .pgz], some .pgz, 0⟩),
   ("fxf256jrs", ⟨.ok f256, ffF256, some .pgz, 0⟩),
   ("coco", ⟨.ok coco, [.binary, .cocoBin], some .cocoBin, 0⟩)]

/-- `group_NeedsOverlay` (xlink/group.c 975-985): a pool of some group has an overlay number. -/
def needsOverlay (c : Cfg) : Bool :=
  c.groups.any fun g => g.pools.any fun i => match c.pools[i]? with
    | some p => p.overlay != noOverlay
    | none => false

/-- `format_SupportsOverlay` (xlink/main.c 77-80). -/
def supportsOverlay (f : Format) : Bool := f == .cbmPrg || f == .mega65Prg

/-- `format_SupportsReloc` (xlink/main.c 72-75): sections are not placed then (607). -/
def supportsReloc (f : Format) : Bool := f == .amigaExecutable || f == .amigaLinkObject

end Verif.Config
