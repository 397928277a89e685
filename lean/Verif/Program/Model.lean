import Verif.Section.Props
import Verif.Symbol.Model
import Verif.Cpu.Common
import Verif.Patch.Props
import Verif.BinObj.Model
import Verif.Expr.AsmLink
/-!
# From statements to an image

What happens to a program between the parsers of its statements and the bytes of its sections: the statements are executed one
after the other (`parse_Until`, xasm/motor/parse.c 155-180), the expressions that are left are simplified and evaluated
(xasm/motor/xasm.c 242-247), and the linker calculates the others (xlink/patch.c). An error that is reported is a failure:
the assembler continues, but writes no output (xasm/motor/xasm.c 249). Symbols are numbers; which symbol a name in a scope
stands for is the subject of C27 and C28.
-/
namespace Verif.Program
open Verif.Section (Config Env Op Operand Size Group Kind Label State Sect Patch)
open Verif.Expr (Src ASym AExpr SymType FMath Here Asm Den I32 u32 toI32 build reduce optimize writeExpr)
open Verif.Cpu (Item)

/-- Directives that choose a section or append to it, but do not contain expressions with labels (xasm/motor/parse_directive.c
769-826). `ORG` is left out: with it addresses do not follow from the place of the section. -/
inductive Directive where
  | skip (count : Nat)
  | align (alignment : Nat)
  | binary (bs : Bytes)
  | «section» (name : String) (group : Group) (k : Option Kind)
  | named (name : String)
  | push
  | pop
  deriving Repr

def Directive.op {α : Type} : Directive → Op α
  | .skip n => .skip n
  | .align n => .align n
  | .binary bs => .binary bs
  | .section name g k => .section name g k
  | .named name => .named name
  | .push => .push
  | .pop => .pop

/-- A statement, as the parsers leave it. `code` is what an instruction puts into the section. -/
inductive Stmt where
  | label (s : Nat)
  | equ (s : Nat) (e : Src)
  | set (s : Nat) (e : Src)
  | external (s : Nat)
  | global (s : Nat)
  | code (is : List Item)
  | directive (d : Directive)

/-- The sections and the symbols. A symbol that does not exist is like one that is only mentioned (`createSymbol`,
xasm/motor/symbol.c 237-252). -/
structure Prog where
  sects : State AExpr := {}
  syms : Nat → ASym := fun _ => ⟨.undefined, none, 0⟩

/-- What does not change: the processor, the functions of the C library, and what `mkBin` needs. -/
structure Params where
  cfg : Config
  fm : FMath
  junk : AExpr → Bool

/-- A directive or a number; errors are counted. -/
def operate (P : Params) (env : Env) (op : Op AExpr) (σ : Prog) : Outcome Prog :=
  (Section.step P.cfg env op σ.sects).bind fun s => if s.errors = 0 then .ok { σ with sects := s } else .fail

/-- What `expr_PcRelative` looks at (xasm/motor/expression.c 256-279). -/
def here (s : State AExpr) : Here :=
  match s.sect with
  | some x => ⟨x.flags.loadFixed || x.flags.orgFixed, (x.pc + x.origin + x.adjust) % W32⟩
  | none => ⟨false, 0⟩

/-- `sect_OutputConst8` … with constants and other expressions (xasm/motor/section.c 261-273, 346-358, 437-449). -/
def operand (e : AExpr) : Operand AExpr :=
  match e.cached with
  | some v => .known v
  | none => .later e

def size? : Nat → Option Size
  | 1 => some .one
  | 2 => some .two
  | 4 => some .four
  | _ => none

/-- One item of an instruction. There are no others than those of one, two and four bytes. Expressions are made when they are
put into the section; without a section a null pointer is used, unless there is an error before. -/
def item (P : Params) (env : Env) (i : Item) (σ : Prog) : Outcome Prog :=
  match σ.sects.sect, size? i.size with
  | none, _ => .ub
  | _, none => .ub
  | some _, some z =>
    match i with
    | .const _ v => operate P env (.const z v) σ
    | .expr _ s => (build P.fm σ.syms P.junk (here σ.sects) s).bind fun e => operate P env (.expr z (operand e)) σ

def items (P : Params) (env : Env) : List Item → Prog → Outcome Prog
  | [], σ => .ok σ
  | i :: is, σ => (item P env i σ).bind fun σ => items P env is σ

/-- Assignment to a symbol. -/
def update (syms : Nat → ASym) (s : Nat) (y : ASym) : Nat → ASym := fun t => if t = s then y else syms t

/-- The symbol can be defined by `EQU` or as a label (xasm/motor/symbol.c 401, 458). -/
def definable (t : SymType) : Bool := t = .undefined || t = .global

/-- The symbol can be defined by `SET` (`createSymbolOfType`, xasm/motor/symbol.c 290-305). -/
def assignable (t : SymType) : Bool := t = .undefined || t = .set

/-- A label (`sym_CreateLabel`, xasm/motor/symbol.c 454-484). The member `section` of a symbol that is not a label is null. -/
def ofLabel : Label → ASym
  | .constant v => ⟨.equ, none, toI32 v⟩
  | .inside k n => ⟨.label, some k, toI32 n⟩

/-- `parse_ConstantExpression` (xasm/motor/parse_expression.c 659-675). Expressions in the source are not relative to the
program counter. -/
def constant (P : Params) (syms : Nat → ASym) (e : Src) : Outcome Int :=
  (build P.fm syms P.junk ⟨false, 0⟩ e).bind fun e =>
    match e.cached with
    | some v => .ok (toI32 v)
    | none => .fail

/-- One statement (xasm/motor/parse_symbol.c 103-213; `sym_CreateEqu` and `sym_CreateSet`, xasm/motor/symbol.c 397-428;
`sym_Import` and `sym_Global`, 527-564). Which symbols are exported is left out. -/
def step (P : Params) (env : Env) (x : Stmt) (σ : Prog) : Outcome Prog :=
  match x with
  | .label s =>
    match Section.label σ.sects with
    | some l => if definable (σ.syms s).type then .ok { σ with syms := update σ.syms s (ofLabel l) } else .fail
    | none => .fail
  | .equ s e => (constant P σ.syms e).bind fun v =>
    if definable (σ.syms s).type then .ok { σ with syms := update σ.syms s ⟨.equ, none, v⟩ } else .fail
  | .set s e => (constant P σ.syms e).bind fun v =>
    if assignable (σ.syms s).type then .ok { σ with syms := update σ.syms s ⟨.set, none, v⟩ } else .fail
  | .external s =>
    if (σ.syms s).type = .undefined then .ok { σ with syms := update σ.syms s ⟨.imported, none, 0⟩ } else .fail
  | .global s =>
    match (σ.syms s).type with
    | .undefined => .ok { σ with syms := update σ.syms s ⟨.global, none, 0⟩ }
    | .label | .equ => .ok σ
    | _ => .fail
  | .code is => items P env is σ
  | .directive d => operate P env d.op σ

/-- A program: statements, each with the options and the line. -/
def run (P : Params) : List (Env × Stmt) → Prog → Outcome Prog
  | [], σ => .ok σ
  | (env, x) :: xs, σ => (step P env x σ).bind fun σ => run P xs σ

/-- What expressions know when the source has been read. -/
def Prog.asm (σ : Prog) : Asm where
  syms := σ.syms
  sects := σ.sects.sections.map BinObj.view

/-- `EPatchType` (xasm/motor/patch.h 30-36). -/
def patchType : Size → Bool → Nat
  | .one, _ => 0
  | .two, false => 1
  | .two, true => 2
  | .four, false => 3
  | .four, true => 4

/-- What becomes of a patch (`patch_OptimizeAll`, `patch_BackPatch`, xasm/motor/patch.c 480-505): its value is stored, or its
expression is written to the object file (`writeExpression`, xasm/motor/object.c 218-357). -/
def settle (fm : FMath) (A : Asm) (ids : Nat → Nat) (k : Nat) (p : Patch AExpr) (data : Bytes) :
    Outcome (Option Patch.SPatch × Bytes) :=
  (reduce fm A ⟨k, p.offset⟩ (optimize A.syms p.expr)).bind fun r =>
    match r.2 with
    | some v => (BinObj.applyPatch data p v).bind fun d => if d.2 = 0 then .ok (none, d.1) else .fail
    | none =>
      match writeExpr ids r.1 with
      | some bs => .ok (some ⟨patchType p.size p.big, none, none, p.offset, bs⟩, data)
      | none => .fail

/-- The patches of a section. What is left is written in the same order. -/
def settleAll (fm : FMath) (A : Asm) (ids : Nat → Nat) (k : Nat) : List (Patch AExpr) → Bytes → Outcome (List Patch.SPatch × Bytes)
  | [], data => .ok ([], data)
  | p :: ps, data =>
    (settle fm A ids k p data).bind fun r =>
      (settleAll fm A ids k ps r.2).bind fun rs => .ok (r.1.toList ++ rs.1, rs.2)

/-- What is left of the expression of a patch for the linker, when all of the source has been read. -/
def left (fm : FMath) (A : Asm) (k : Nat) (p : Patch AExpr) : Option AExpr :=
  match reduce fm A ⟨k, p.offset⟩ (optimize A.syms p.expr) with
  | .ok (e, none) => some e
  | _ => none

/-- The symbols in the expressions of a section that are left to the linker. -/
def names (fm : FMath) (A : Asm) (k : Nat) (x : Sect AExpr) : List Nat := (x.patches.filterMap (left fm A k)).flatMap AExpr.names

/-- A section: the assembler writes `usedSpace` bytes of it and the patches (xasm/motor/object.c), the linker applies them
(`patchSection`, xlink/patch.c 655-750). That what is read is what was written is C15. -/
def image (fm : FMath) (A : Asm) (ids : Nat → Nat) (onlySectionRelative : Bool) (env : Expr.Env) (k : Nat) (x : Sect AExpr) :
    Outcome (List Patch.SPatch × Bytes) :=
  (settleAll fm A ids k x.patches x.data).bind fun r =>
    Patch.patchSection fm false onlySectionRelative env r.1 (r.2.take x.used)

end Verif.Program
