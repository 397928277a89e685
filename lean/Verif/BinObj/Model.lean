import Verif.Section.Model
import Verif.Expr.AsmTotal
/-!
# Images written by the assembler

xasm/motor/binaryobject.c: the assembler places the sections itself, makes addresses of the labels, applies the patches
and writes a binary or Verilog file. Sections are those of `Verif.Section`. `data` is a null pointer as long as nothing
has been allocated. Expressions are those of `Verif.Expr`.
-/
namespace Verif.BinObj
open Verif.Section Verif.Expr

variable {α : Type}

/-- The three kinds of `assignSection`: all backends but two do nothing (xasm/6502/x65_section.c 22,
xasm/680x0/m68k_section.c 22, xasm/dcpu-16/dcpu16_section.c 24, xasm/mips/mips_section.c 22, xasm/rc8/rc8_section.c 22,
xasm/schip/schip_section.c 22). -/
inductive Backend where
  | plain | z80 | m6809
  deriving Repr, DecidableEq

/-- `z80_AssignSection` (xasm/z80/z80_section.c 21-28) and `m6809_AssignSection` (xasm/6809/m6809_section.c 23-30). -/
def assignSection (k : Backend) (s : Sect α) : Sect α :=
  match k with
  | .plain => s
  | .z80 =>
    if s.flags.bankFixed then
      { s with imagePosition := (s.imagePosition + s.bank * 16384) % W32,
               origin := (s.origin + if s.bank = 0 then 0 else 16384) % W32, flags := { s.flags with loadFixed := true } }
    else s
  | .m6809 =>
    if s.flags.bankFixed then
      { s with imagePosition := (s.imagePosition + s.bank * 256) % W32,
               origin := (s.origin + s.bank * 256) % W32, flags := { s.flags with loadFixed := true } }
    else s

/-- `assignSection` and `minimumWordSize` of `xasm_Configuration`, `sectionAlignment` of `opt_Current`. -/
structure Settings where
  backend : Backend
  wordSize : Nat
  alignment : Nat
  deriving Repr, DecidableEq

/-- One round of the loop in `commonPatch`: the section, and `imagePos` behind it (xasm/motor/binaryobject.c 57-85). -/
def placeOne (c : Settings) (pos : Nat) (s : Sect α) : Outcome (Sect α × Nat) :=
  let s := assignSection c.backend s
  if s.flags.loadFixed then
    if s.imagePosition < pos then .fail
    else .ok (s, (s.imagePosition + s.used) % W32)
  else
    let alignment := if s.flags.aligned then s.align else c.alignment
    if alignment = 0 then .ub
    else
      let pos := (pos + (alignment - 1)) % W32
      let pos := pos - pos % alignment
      let done (pos : Nat) : Outcome (Sect α × Nat) :=
        .ok ({ s with flags := { s.flags with loadFixed := true }, imagePosition := pos, origin := pos / c.wordSize }, (pos + s.used) % W32)
      if s.flags.paged then
        if s.used > s.page then .fail
        else if s.page = 0 then .ub
        else
          let remaining := s.page - pos % s.page
          if remaining < s.used then done ((pos + remaining) % W32) else done pos
      else done pos

/-- The loop (xasm/motor/binaryobject.c 53-88). -/
def place (c : Settings) : Nat → List (Sect α) → Outcome (List (Sect α))
  | _, [] => .ok []
  | pos, s :: ss => (placeOne c pos s).bind fun (s, pos) => (place c pos ss).bind fun ss => .ok (s :: ss)

/-- The parts of `SSymbol` that are needed. `sect` is the position of its section. `relocated`: `SYMF_RELOC` has been
replaced by `SYMF_CONSTANT`, all other flags are those of the type, and `SYMF_USED`. -/
structure Sym where
  type : SymType
  sect : Option Nat
  value : Int
  used : Bool := false
  relocated : Bool := false
  deriving Repr, DecidableEq

/-- `markUsedSymbols` (xasm/motor/symbol.c 647-666), called before an image is written (xasm/motor/xasm.c 246). -/
def markUsed (ss : List (Sect AExpr)) (ys : List Sym) : List Sym :=
  ys.mapIdx fun i y => { y with used := y.used || ss.any fun s => s.patches.any fun p => p.expr.syms.contains i }

/-- xasm/motor/binaryobject.c 92-100. `err_Fail` exits. The value is a signed number, the sum is calculated without sign. -/
def relocate (ss : List (Sect α)) (y : Sym) : Outcome Sym :=
  if y.used then
    if y.type = .imported ∨ y.type = .global then .fail
    else if y.type.reloc ∧ ¬ y.relocated then
      match y.sect.bind fun i => ss[i]? with
      | none => .ub
      | some s => .ok { y with relocated := true, value := toI32 (y.value + s.origin) }
    else .ok y
  else .ok y

/-- xasm/motor/binaryobject.c 90-102. -/
def relocateAll (ss : List (Sect α)) : List Sym → Outcome (List Sym)
  | [] => .ok []
  | y :: ys => (relocate ss y).bind fun y => (relocateAll ss ys).bind fun ys => .ok (y :: ys)

/-- Bytes written over those at `offset`; outside of the array this is undefined. -/
def overwrite (data : Bytes) (offset : Nat) (bs : Bytes) : Outcome Bytes :=
  if offset + bs.length ≤ data.length then .ok (data.take offset ++ bs ++ data.drop (offset + bs.length)) else .ub

/-- `patch_8`, `patch_le_16`, `patch_be_16`, `patch_le_32`, `patch_be_32` (xasm/motor/patch.c 401-444): the data, and whether
an error was reported. -/
def applyPatch (data : Bytes) (p : Patch α) (v : Int) : Outcome (Bytes × Nat) :=
  let inRange : Bool :=
    match p.size with
    | .one => -128 ≤ v && v ≤ 255
    | .two => -32768 ≤ v && v ≤ 65535
    | .four => true
  if inRange then (overwrite data p.offset (encode p.big p.size (u32 v))).bind fun data => .ok (data, 0)
  else .ok (data, 1)

/-- The patches of a section, one after the other (xasm/motor/patch.c 483-494). `eval` is `reduceExpression`: undefined, or
a value, or none, in which case the patch stays. The result has the number of errors. -/
def patchSection (eval : Patch α → Outcome (Option Int)) : List (Patch α) → Sect α → Outcome (Sect α × Nat)
  | [], s => .ok (s, 0)
  | p :: ps, s =>
    (eval p).bind fun v =>
      match v with
      | none => (patchSection eval ps s).bind fun (s, n) => .ok ({ s with patches := p :: s.patches }, n)
      | some v =>
        (applyPatch s.data p v).bind fun (data, e) =>
          (patchSection eval ps { s with data := data }).bind fun (s, n) => .ok (s, e + n)

/-- `patch_BackPatch` (xasm/motor/patch.c 480-496). `eval` gets the number of the section. -/
def backPatch (eval : Nat → Patch α → Outcome (Option Int)) : Nat → List (Sect α) → Outcome (List (Sect α) × Nat)
  | _, [] => .ok ([], 0)
  | i, s :: ss =>
    (patchSection (eval i) s.patches { s with patches := [] }).bind fun (s, e) =>
      (backPatch eval (i + 1) ss).bind fun (ss, n) => .ok (s :: ss, e + n)

/-- What expressions need to know of a symbol. A label that has an address is a constant which belongs to a section but is not
an `EQU`; for `reduceExpression` it is like a `SET` symbol with a section (xasm/motor/expression.c 39-55, xasm/motor/patch.c
388-395). -/
def Sym.view (y : Sym) : ASym where
  type := if y.relocated then .set else y.type
  sect := y.sect
  value := y.value

/-- What expressions need to know of a section. -/
def view (s : Sect α) : ASect where
  loadFixed := s.flags.loadFixed
  bankFixed := s.flags.bankFixed
  orgFixed := s.flags.orgFixed
  otherFlags := s.flags.aligned || s.flags.root || s.flags.paged
  origin := s.origin
  bank := s.bank

/-- The symbols and sections for expressions. Other symbols do not exist. -/
def world (ss : List (Sect α)) (ys : List Sym) : Asm where
  syms i := match ys[i]? with | some y => y.view | none => ⟨.undefined, none, 0⟩
  sects := ss.map view

/-- `reduceExpression` for a patch in the section with number `i` (xasm/motor/patch.c 360-399). Changes of an expression without
a value do not matter, it is not used any more. -/
def evaluate (fm : FMath) (A : Asm) (i : Nat) (p : Patch AExpr) : Outcome (Option Int) :=
  (reduce fm A ⟨i, p.offset⟩ p.expr).bind fun (_, v) => .ok v

/-- `commonPatch` (xasm/motor/binaryobject.c 40-106) with `needsOrg` (31-38). The result has the number of errors reported for
values that do not fit. -/
def commonPatch (c : Settings) (fm : FMath) (ss : List (Sect AExpr)) (ys : List Sym) : Outcome (List (Sect AExpr) × List Sym × Nat) :=
  match ss with
  | [] => .fail
  | first :: _ =>
    if ss.any (fun s => !s.patches.isEmpty) && !first.flags.loadFixed && !first.flags.bankFixed then .fail
    else
      (place c 0 ss).bind fun ss =>
        (relocateAll ss ys).bind fun ys =>
          (backPatch (evaluate fm (world ss ys)) 0 ss).bind fun (ss, n) => .ok (ss, ys, n)

/-- `writeBinarySection` (xasm/motor/binaryobject.c 131-139): zeros up to the position, then the data. -/
def writeBinary (last : Nat) (s : Sect α) : Outcome Bytes :=
  if s.used ≤ s.data.length then .ok (List.replicate (s.imagePosition - last) 0 ++ s.data.take s.used) else .ub

/-- The two digits and the line break of `"%02X\n"`. -/
def hexLine (b : UInt8) : List Char :=
  let digit (n : Nat) : Char := Char.ofNat (if n < 10 then 48 + n else 55 + n)
  [digit (b.toNat / 16), digit (b.toNat % 16), '\n']

/-- `writeVerilogSection` (xasm/motor/binaryobject.c 141-152). -/
def writeVerilog (last : Nat) (s : Sect α) : Outcome (List Char) :=
  if s.used ≤ s.data.length then
    .ok ((List.replicate (s.imagePosition - last) "00\n".toList).flatten ++ (s.data.take s.used).flatMap hexLine)
  else .ub

/-- The loop in `internalWrite` (xasm/motor/binaryobject.c 117-122). -/
def writeLoop {β : Type} (write : Nat → Sect α → Outcome (List β)) : Nat → List (Sect α) → Outcome (List β)
  | _, [] => .ok []
  | last, s :: ss =>
    if s.alloc = 0 then writeLoop write last ss
    else
      (write last s).bind fun bs =>
        (writeLoop write ((s.imagePosition + s.used) % W32) ss).bind fun rest => .ok (bs ++ rest)

/-- `internalWrite` (xasm/motor/binaryobject.c 108-129): the contents of the file, which can always be created. -/
def write {β : Type} (w : Nat → Sect α → Outcome (List β)) (ss : List (Sect α)) : Outcome (List β) :=
  match ss with
  | [] => .fail
  | first :: _ => writeLoop w first.imagePosition ss

/-- `bin_Write` (xasm/motor/binaryobject.c 154-157), with the symbols marked (xasm/motor/xasm.c 246). -/
def binWrite (c : Settings) (fm : FMath) (ss : List (Sect AExpr)) (ys : List Sym) : Outcome Bytes :=
  (commonPatch c fm ss (markUsed ss ys)).bind fun (ss, _, _) => write writeBinary ss

/-- `bin_WriteVerilog` (xasm/motor/binaryobject.c 159-162), with the symbols marked (xasm/motor/xasm.c 246). -/
def verilogWrite (c : Settings) (fm : FMath) (ss : List (Sect AExpr)) (ys : List Sym) : Outcome (List Char) :=
  (commonPatch c fm ss (markUsed ss ys)).bind fun (ss, _, _) => write writeVerilog ss

end Verif.BinObj
