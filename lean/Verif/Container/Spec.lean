import Verif.Bytes
/-!
# Loaders

How CoCo `.BIN` files (the format is described in xlink/coco.c 31-41) and Foenix PGZ files are read. These follow the
descriptions of the formats, not the linker.
-/
namespace Verif.Container

/-- Reads blocks until the end block. Gives the blocks with their addresses and the start address. -/
def cocoBlocks : Nat → Bytes → Option (List (Nat × Bytes) × Nat)
  | 0, _ => none
  | fuel + 1, f =>
    match get8 f with
    | some (0, f) =>
      match get16be f with
      | some (size, f) =>
        match get16be f with
        | some (addr, f) =>
          match getN size f with
          | some (d, f) => (cocoBlocks fuel f).map fun r => ((addr, d) :: r.1, r.2)
          | none => none
        | none => none
      | none => none
    | some (0xFF, f) =>
      match get16be f with
      | some (0, f) => (get16be f).map fun r => ([], r.1)
      | _ => none
    | _ => none

def cocoLoad (f : Bytes) : Option (List (Nat × Bytes) × Nat) := cocoBlocks (f.length + 1) f

/-- Reads segments until the end of the file. A segment without bytes gives the start address. -/
def pgzSegments : Nat → Bytes → Option (List (Nat × Bytes))
  | _, [] => some []
  | 0, _ => none
  | fuel + 1, f =>
    match get32le f with
    | some (addr, f) =>
      match get32le f with
      | some (size, f) =>
        match getN size f with
        | some (d, f) => (pgzSegments fuel f).map fun r => (addr, d) :: r
        | none => none
      | none => none
    | none => none

/-- The bytes loaded, each with its address, in the order of loading. -/
def placedBytes (l : List (Nat × Bytes)) : List (Nat × UInt8) :=
  l.flatMap fun s => s.2.mapIdx fun i b => (s.1 + i, b)

/-- The bytes loaded and the start addresses. -/
def pgzLoad : Bytes → Option (List (Nat × UInt8) × List Nat)
  | 0x7A :: f =>
    (pgzSegments (f.length + 1) f).map fun l => (placedBytes l, (l.filter fun s => s.2.isEmpty).map fun s => s.1)
  | _ => none

end Verif.Container
