import Verif.Expr.LinkSpec
import Verif.Patch.Model
/-!
# Specification of patching

A patch type has a width and an order of bytes. A number is stored correctly if the bytes in the window
`[offset, offset + width)` read as the number modulo `256 ^ width`.
-/
namespace Verif.Patch
open Verif.Expr

/-- The number of bytes a patch of this type overwrites. -/
def width : Nat → Nat
  | 0 => 1
  | 1 => 2
  | 2 => 2
  | 3 => 4
  | 4 => 4
  | _ => 0

/-- The number that the bytes of a little endian number denote. -/
def leNat : Bytes → Nat
  | [] => 0
  | b :: bs => b.toNat + 256 * leNat bs

/-- The number the bytes denote in the byte order of the type. -/
def decode (type : Nat) (bs : Bytes) : Nat :=
  if type = 2 ∨ type = 4 then leNat bs.reverse else leNat bs

/-- The numbers a patch of this type accepts: signed and unsigned numbers of its width. -/
def Fits (type : Nat) (v : Int) : Prop :=
  match type with
  | 0 => -128 ≤ v ∧ v ≤ 255
  | 1 => -32768 ≤ v ∧ v ≤ 65535
  | 2 => -32768 ≤ v ∧ v ≤ 65535
  | 3 => I32 v
  | 4 => I32 v
  | _ => True

/-- The bytes in the window of the patch. -/
def window (type offset : Nat) (data : Bytes) : Bytes := (data.drop offset).take (width type)

/-- `data'` is `data` with the number `v` stored in the window and nothing else changed. -/
structure Stored (type offset : Nat) (v : Int) (data data' : Bytes) : Prop where
  inside : offset + width type ≤ data.length
  length : data'.length = data.length
  outside : ∀ i : Nat, ¬ (offset ≤ i ∧ i < offset + width type) → data'[i]? = data[i]?
  value : (decode type (window type offset data') : Int) = v % (256 : Int) ^ width type

/-- The byte at `i` is not overwritten by any of the patches. -/
def Untouched (ps : List SPatch) (i : Nat) : Prop :=
  ∀ p ∈ ps, ¬ (p.offset ≤ i ∧ i < p.offset + width p.type)

/-- The patches overwrite different bytes. -/
def Apart (p q : SPatch) : Prop :=
  p.offset + width p.type ≤ q.offset ∨ q.offset + width q.type ≤ p.offset

/-- The type is one that the assembler writes. -/
def SPatch.Ok (p : SPatch) : Prop := p.type < 5 ∧ p.offset < 4294967296

end Verif.Patch
