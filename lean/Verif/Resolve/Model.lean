import Verif.Smart.Model
import Verif.Expr.Link
/-!
# Resolving symbols (`xlink/section.c`)

Sections and their symbols are fixed lists; what resolving changes (`value`, `section`, `resolved` and the type of a
linker symbol) is a separate state that says for every symbol whether it is resolved and to what.
-/
namespace Verif.Resolve
open Verif.Smart (SymType)
open Verif.Expr (chk Entry RelSym)

/-- `SSymbol` (xlink/symbol.h 39-51). -/
structure Sym where
  name : Bytes
  type : SymType
  value : Int
  deriving Repr, DecidableEq

/-- `SSection` (xlink/section.h 42-77) after placement. `equ` is `group == NULL`; `loc` is `cpuLocation`, -1 if the
section has no address (relocatable output), `bank` is `cpuBank`. -/
structure Sect where
  fileId : Nat
  equ : Bool
  used : Bool
  loc : Int
  bank : Int
  symbols : List Sym
  deriving Repr, DecidableEq

/-- `symbol->value` and `symbol->section` of a resolved symbol. -/
structure Res where
  value : Int
  sect : Option Nat
  deriving Repr, DecidableEq

/-- A symbol: its section and its number in the section. -/
abbrev Slot := Nat × Nat

/-- The resolved symbols. -/
abbrev State := Slot → Option Res

def State.set (st : State) (x : Slot) (r : Res) : State := fun y => if y = x then some r else st y

/-- All symbols, in the order in which they are searched. -/
def slotsFrom : Nat → List Sect → List (Slot × Sect × Sym)
  | _, [] => []
  | i, s :: rest => (s.symbols.zipIdx.map fun (y, k) => ((i, k), s, y)) ++ slotsFrom (i + 1) rest

def slots (secs : List Sect) : List (Slot × Sect × Sym) := slotsFrom 0 secs

def getSym (secs : List Sect) (x : Slot) : Option (Sect × Sym) := do
  let s ← secs[x.1]?
  let y ← s.symbols[x.2]?
  some (s, y)

/-- `type == SYM_EXPORT`: linker symbols become exported ones when they are resolved (xlink/section.c 114). -/
def isExport (st : State) (x : Slot) (y : Sym) : Bool :=
  y.type == .exported || (y.type == .linker && (st x).isSome)

/-- The searches for an exported symbol (xlink/section.c 53-73, 82-103). -/
def find (secs : List Sect) (name : Bytes) (sectOk : Sect → Bool) (symOk : Slot → Sym → Bool) :
    Option (Slot × Sect × Sym) :=
  (slots secs).find? fun (x, s, y) => sectOk s && symOk x y && y.name == name

/-- `symbol->value`: the one from the object file until the symbol is resolved. -/
def current (st : State) (x : Slot) (y : Sym) : Int :=
  match st x with
  | some r => r.value
  | none => y.value

/-- Resolving a symbol that its section defines (xlink/section.c 38-48): the address of the section is added to the
value that the symbol has at that moment. -/
def define (st : State) (x : Slot) (s : Sect) (y : Sym) : Outcome State := do
  let v ← chk (current st x y + (if s.loc ≠ -1 then s.loc else 0))
  .ok (st.set x ⟨v, some x.1⟩)

/-- Resolving an exported symbol unless it is resolved (xlink/section.c 60-61, 90-91). One that is not resolved has the
type `SYM_EXPORT` or `SYM_LOCALEXPORT`, so that the recursive call takes the first case. -/
def ensure (st : State) (z : Slot) (t : Sect) (w : Sym) : Outcome State :=
  match st z with
  | some _ => .ok st
  | none => define st z t w

/-- Taking over the value of an exported symbol (xlink/section.c 60-69, 90-99). -/
def copyFrom (st : State) (x : Slot) (f : Slot × Sect × Sym) : Outcome State := do
  let st ← ensure st f.1 f.2.1 f.2.2
  match st f.1 with
  | none => .ub
  | some r => .ok (st.set x ⟨r.value, some f.1.1⟩)

/-- `resolveSymbol` (xlink/section.c 35-123). `lnk` evaluates the expression of a linker symbol
(`patch_EvaluateExpression`): its value and section. It does not depend on the state: expressions in layout files
contain numbers and group properties only. `error` does not return. File and line of symbols are left out. -/
def resolve (secs : List Sect) (lnk : Slot → Outcome Res) (allow : Bool) (st : State) (x : Slot) : Outcome State :=
  match getSym secs x with
  | none => .ub
  | some (s, y) =>
    match y.type with
    | .exported | .localExport | .local => define st x s y
    | .imported =>
      match find secs y.name (fun t => t.used || t.equ) (isExport st) with
      | some z => copyFrom st x z
      | none => if allow then .ok st else .fail
    | .localImport =>
      match find secs y.name (fun t => t.used && t.fileId == s.fileId)
          (fun z w => w.type == .localExport || isExport st z w) with
      | some z => copyFrom st x z
      | none => .fail
    | .linker => do
      let r ← lnk x
      .ok (st.set x r)

/-- Resolving a symbol unless it is resolved (`sect_GetSymbol`, xlink/section.c 189-201, and the body of
`resolveUnresolvedSymbols`, 125-132). -/
def touch (secs : List Sect) (lnk : Slot → Outcome Res) (allow : Bool) (st : State) (x : Slot) : Outcome State :=
  match st x with
  | some _ => .ok st
  | none => resolve secs lnk allow st x

/-- A sequence of such requests. -/
def touchAll (secs : List Sect) (lnk : Slot → Outcome Res) : List (Slot × Bool) → State → Outcome State
  | [], st => .ok st
  | (x, allow) :: xs, st => do
    let st ← touch secs lnk allow st x
    touchAll secs lnk xs st

/-- `sect_ResolveUnresolved` (xlink/section.c 226-239): all symbols of used sections in order. -/
def resolveUnresolved (secs : List Sect) (lnk : Slot → Outcome Res) (st : State) : Outcome State :=
  touchAll secs lnk (((slots secs).filter fun (_, s, _) => s.used).map fun (x, _, _) => (x, true)) st

/-- `symbol_IsLocal` (xlink/symbol.h 53-66). -/
def isLocal : SymType → Bool
  | .local | .localExport | .localImport => true
  | _ => false

/-- `OBJ_SYMBOL` in an expression of section `i` (xlink/patch.c 556-572): the entry that is pushed. The `id` of a
relocatable entry is the number of the symbol in section `i`, standing for the pointer. Only imports can stay
unresolved without an error; they have the value 0 and no section (xlink/object.c 166-169, 185). -/
def lookup (secs : List Sect) (lnk : Slot → Outcome Res) (allow : Bool) (st : State) (i id : Nat) :
    Outcome (Entry × State) :=
  match secs[i]? with
  | none => .ub
  | some s =>
    match s.symbols[id]? with
    | none => .fail
    | some y => do
      let st ← touch secs lnk allow st (i, id)
      match st (i, id) with
      | none => .ok (⟨some ⟨id, none, y.value, isLocal y.type⟩, 0⟩, st)
      | some r =>
        match r.sect.bind (secs[·]?) with
        | some t =>
          if t.loc ≠ -1 ∨ t.equ then .ok (⟨none, r.value⟩, st)
          else .ok (⟨some ⟨id, r.sect, r.value, isLocal y.type⟩, 0⟩, st)
        | none => .ok (⟨some ⟨id, none, r.value, isLocal y.type⟩, 0⟩, st)

/-- `sect_GetConstantSymbolBank` (xlink/section.c 210-224). An import that cannot be resolved is an error. -/
def lookupBank (secs : List Sect) (lnk : Slot → Outcome Res) (st : State) (i id : Nat) :
    Outcome (Option Int × State) := do
  let st ← touch secs lnk false st (i, id)
  match (st (i, id)).bind (·.sect) with
  | none => .ub
  | some j =>
    match secs[j]? with
    | none => .ub
    | some t => if t.bank ≠ -1 then .ok (some t.bank, st) else .ok (none, st)

end Verif.Resolve
