import Verif.Expr.Link
/-!
# Applying patches at link time

Model of `patchSection` (xlink/patch.c 655-750). The section's data is a byte list; a store outside of it is
undefined behaviour (the code does not check `patch->offset`). The text of error messages is left out.
-/
namespace Verif.Patch
open Verif.Expr

/-- `SPatch` (xlink/patch.h 79-89). `type` is `EPatchType`: 0 `PATCH_8`, 1 `PATCH_LE_16`, 2 `PATCH_BE_16`,
3 `PATCH_LE_32`, 4 `PATCH_BE_32`, 5 `PATCH_NONE`, 6 `PATCH_RELOC`. -/
structure SPatch where
  type : Nat
  valueSymbol : Option Nat
  valueSection : Option Nat
  offset : Nat
  expression : Bytes
  deriving Repr, DecidableEq

/-- `section->data[i] = b` -/
def setByte (data : Bytes) (i : Nat) (b : UInt8) : Outcome Bytes :=
  if i < data.length then .ok (data.set i b) else .ub

/-- The stores of the `switch` (xlink/patch.c 682-734). `relocatable` is `valueSymbol != NULL`. -/
def store (type : Nat) (relocatable : Bool) (value : Int) (offset : Nat) (data : Bytes) : Outcome Bytes :=
  let v := u32 value
  match type with
  | 0 =>
    if !relocatable && decide (value ≥ -128) && decide (value ≤ 255) then setByte data offset (byte v) else .fail
  | 1 =>
    if !relocatable && decide (value ≥ -32768) && decide (value ≤ 65535) then do
      let data ← setByte data offset (byte v)
      setByte data (add32 offset 1) (byte (v / 256))
    else .fail
  | 2 =>
    if !relocatable && decide (value ≥ -32768) && decide (value ≤ 65535) then do
      let data ← setByte data offset (byte (v / 256))
      setByte data (add32 offset 1) (byte v)
    else .fail
  | 3 => do
    let data ← setByte data offset (byte v)
    let data ← setByte data (add32 offset 1) (byte (v / 256))
    let data ← setByte data (add32 offset 2) (byte (v / 65536))
    setByte data (add32 offset 3) (byte (v / 16777216))
  | 4 => do
    let data ← setByte data offset (byte (v / 16777216))
    let data ← setByte data (add32 offset 1) (byte (v / 65536))
    let data ← setByte data (add32 offset 2) (byte (v / 256))
    setByte data (add32 offset 3) (byte v)
  | 5 => .ok data
  | 6 => .ok data
  | _ => .fail

/-- The relocation part (xlink/patch.c 667-680): the value to store and the patch with its relocation. -/
def relocate (allowReloc onlySectionRelative : Bool) (p : SPatch) (e : Entry) : Outcome (Int × SPatch) :=
  match e.sym with
  | none => .ok (e.value, p)
  | some s =>
    if !allowReloc then .fail
    else if onlySectionRelative || s.isLocal then do
      let v ← chk (e.value + s.value)
      .ok (v, { p with valueSection := s.sect, valueSymbol := none })
    else .ok (e.value, { p with valueSection := none, valueSymbol := some s.id })

/-- What becomes of the patch (xlink/patch.c 735-746). -/
def finish (allowReloc : Bool) (p : SPatch) : SPatch :=
  if allowReloc then { p with type := 6, expression := [] }
  else { type := 5, valueSymbol := none, valueSection := none, offset := 0, expression := [] }

/-- One iteration of the loop in `patchSection` (xlink/patch.c 662-748). `env` is the environment of the section;
the address of the patch is part of it. If the expression has no value, nothing is done and nothing is said. -/
def applyPatch (fm : FMath) (allowReloc onlySectionRelative : Bool) (env : Env) (p : SPatch) (data : Bytes) :
    Outcome (SPatch × Bytes) := do
  match ← calculate fm { env with offset := p.offset } p.expression with
  | none => .ok (p, data)
  | some e => do
    let (v, p') ← relocate allowReloc onlySectionRelative p e
    let data ← store p.type e.sym.isSome v p.offset data
    .ok (finish allowReloc p', data)

/-- `patchSection` (xlink/patch.c 655-750). -/
def patchSection (fm : FMath) (allowReloc onlySectionRelative : Bool) (env : Env) :
    List SPatch → Bytes → Outcome (List SPatch × Bytes)
  | [], data => .ok ([], data)
  | p :: ps, data => do
    let (p', data) ← applyPatch fm allowReloc onlySectionRelative env p data
    let (ps', data) ← patchSection fm allowReloc onlySectionRelative env ps data
    .ok (p' :: ps', data)

end Verif.Patch
