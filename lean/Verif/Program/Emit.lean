import Verif.Program.Model
import Verif.Object.Model
import Verif.Resolve.Model
/-!
# The symbols of an object file

Which symbols of a program are written to the object file, with which types and numbers (xasm/motor/object.c), and what the
linker makes of them (xlink/object.c, xlink/section.c). That what is read is what was written is C15.
-/
namespace Verif.Program
open Verif.Expr (AExpr ASym SymType FMath toI32)

/-- A program that has been assembled. `table` are the symbols in the order of `sym_hashedSymbols`, `exported` is
`SYMF_EXPORT`, `debug` is `enableDebugInfo`, and `info` are the file and the line that are written for a symbol. -/
structure Module where
  fm : FMath
  prog : Prog
  table : List Nat
  name : Nat → Bytes
  exported : Nat → Bool
  debug : Bool
  info : Nat → Option Nat × Nat

def Module.sym (M : Module) (s : Nat) : ASym := M.prog.syms s

/-- The expressions of a section that are left to the linker: those whose patches have not been removed
(`patch_BackPatch`, xasm/motor/patch.c 480-496). -/
def Module.expressions (M : Module) (k : Nat) : List AExpr :=
  match M.prog.sects.sections[k]? with
  | some x => x.patches.filterMap (left M.fm M.prog.asm k)
  | none => []

/-- `SYMF_EXPORTABLE` in `defaultSymbolFlags` (xasm/motor/symbol.c 38-50). -/
def exportable : SymType → Bool
  | .label | .equ | .undefined => true
  | _ => false

/-- `SYMF_FILE_EXPORT`, set by `markLocalExports` (xasm/motor/object.c 193-216): the symbol is used by another section. -/
def Module.fileExport (M : Module) (s : Nat) : Bool :=
  exportable (M.sym s).type && (List.range M.prog.sects.sections.length).any fun k =>
    (M.expressions k).any fun e => decide (s ∈ e.names) && decide ((M.sym s).sect ≠ some k)

/-- One symbol in the file. Imports have no value. -/
def Module.entry (M : Module) (s type : Nat) : Object.Symbol :=
  ⟨M.name s, type, if Object.hasValue type then Expr.u32 (M.sym s).value else 0, (M.info s).1, (M.info s).2⟩

/-- `writeSymbolsWithFlags` (xasm/motor/object.c 157-191, 445-449). The assertion holds: one of the flags is set. -/
def Module.flagged (M : Module) (k : Nat) : List (Nat × Object.Symbol) :=
  (M.table.filter fun s => decide ((M.sym s).sect = some k) && (M.exported s || M.fileExport s || (M.debug && (M.sym s).type.reloc))).map
    fun s => (s, M.entry s (if M.exported s then 0 else if M.fileExport s then 3 else 2))

/-- A symbol in an expression (xasm/motor/object.c 121-152). Symbols that have been written have numbers (124). -/
def Module.mention (M : Module) (k : Nat) (l : List (Nat × Object.Symbol)) (s : Nat) : List (Nat × Object.Symbol) :=
  if l.any (fun x => x.1 == s) then l
  else l ++ [(s, M.entry s (
    if (M.sym s).sect = some k then if M.fileExport s then 3 else if M.exported s then 0 else 2
    else if (M.sym s).type = .imported ∨ (M.sym s).type = .global then 1
    else 4))]

/-- `writeSymbols` (xasm/motor/object.c 115-155). Unary operators and parentheses have one operand. -/
def Module.writeSymbols (M : Module) (k : Nat) (l : List (Nat × Object.Symbol)) : AExpr → List (Nat × Object.Symbol)
  | .const _ => l
  | .sym s => M.mention k l s
  | .bank s => M.mention k l s
  | .pcRel a b => M.writeSymbols k (M.writeSymbols k l a) b
  | .parens _ e => M.writeSymbols k l e
  | .bin _ _ a b => M.writeSymbols k (M.writeSymbols k l a) b
  | .un _ _ e => M.writeSymbols k l e
  | .bit _ e => M.writeSymbols k l e

/-- `writeSectionSymbols` (xasm/motor/object.c 440-462). -/
def Module.symbols (M : Module) (k : Nat) : List (Nat × Object.Symbol) :=
  (M.expressions k).foldl (M.writeSymbols k) (M.flagged k)

/-- `id` of a symbol while a section is written: its number, or `UINT32_MAX`. -/
def Module.ids (M : Module) (k s : Nat) : Nat :=
  match (M.symbols k).findIdx? (fun x => x.1 == s) with
  | some n => n
  | none => 4294967295

/-- `writeExportedConstantsSection` (xasm/motor/object.c 397-438). -/
def Module.constants (M : Module) : List (Nat × Object.Symbol) :=
  (M.table.filter fun s => decide ((M.sym s).type = .equ ∨ (M.sym s).type = .set) && M.exported s).map fun s => (s, M.entry s 0)

/-- `ESymbolType` (xlink/symbol.h 30-37). -/
def symType : Nat → Option Smart.SymType
  | 0 => some .exported
  | 1 => some .imported
  | 2 => some .local
  | 3 => some .localExport
  | 4 => some .localImport
  | _ => none

/-- `readSymbol` (xlink/object.c 160-187). -/
def readSymbol (y : Object.Symbol) : Option Resolve.Sym := (symType y.type).map fun t => ⟨y.name, t, toI32 y.value⟩

/-- What patches of the section `j` ask for, when the symbols are resolved (xlink/patch.c 556-572; `sect_GetConstantSymbolBank`,
xlink/section.c 210-224). -/
def linkEnv (secs : List Resolve.Sect) (lnk : Resolve.Slot → Outcome Resolve.Res) (st : Resolve.State) (j : Nat) (loc : Int)
    (property : Int → Int → Outcome Int) : Expr.Env where
  symbol id := (Resolve.lookup secs lnk false st j id).bind fun r => .ok r.1
  bank id := (Resolve.lookupBank secs lnk st j id).bind fun r => .ok r.1
  groupProperty := property
  cpuLocation := loc
  offset := 0

end Verif.Program
