import Verif.Bytes
/-!
# What the machines do with the files

How a Commodore loads a `.prg` file and runs the BASIC program in it, and how the F256 kernel reads the header of a
kernel user program.
-/
namespace Verif.Container

/-- The number in a string of digits. -/
def parseDigits : Bytes → Option Nat
  | [] => none
  | b :: r => (b :: r).foldl (fun acc c => match acc with
    | none => none
    | some n => if 0x30 ≤ c.toNat ∧ c.toNat ≤ 0x39 then some (10 * n + (c.toNat - 0x30)) else none) (some 0)

/-- The address that the `SYS` in a tokenised line calls; on the MEGA65 a `BANK 0:` comes before it. -/
def sysAddress : Bytes → Option Nat
  | 0xFE :: 0x02 :: 0x30 :: 0x3A :: 0x9E :: r => parseDigits r
  | 0x9E :: r => parseDigits r
  | _ => none

/-- Runs the program in memory from address `base`: one line, and the link of the line leads behind it, to the end of
the program (a link of 0). Gives the address called. -/
def runBasic (base : Nat) (mem : Bytes) : Option Nat :=
  match get16le mem with
  | some (link, r) =>
    match get16le r with
    | some (_, r) =>
      match getSz r with
      | some (text, _) =>
        if base + 4 + text.length + 1 ≤ link ∧ get16le (mem.drop (link - base)) = some (0, mem.drop (link - base + 2)) then
          sysAddress text
        else none
      | none => none
    | none => none
  | none => none

/-- Loads a file: the address and the bytes that go there. -/
def loadPrg (f : Bytes) : Option (Nat × Bytes) := get16le f

/-- The header of a kernel user program: number of blocks, first slot, entry address. -/
def kupHeader (f : Bytes) : Option (Nat × Nat × Nat) :=
  match get16le f with
  | some (0x56F2, f) =>
    match get8 f with
    | some (blocks, f) =>
      match get8 f with
      | some (slot, f) => (get16le f).map fun r => (blocks, slot, r.1)
      | none => none
    | none => none
  | _ => none

end Verif.Container
