import Verif.Section.Directive
/-!
# The symbol table of the assembler

xasm/motor/symbol.c and xasm/motor/parse_symbol.c. Symbols are identified by numbers in place of addresses; numbers are not
used again after `PURGE`. The table is a list in the order of `list_Insert`, without the division into hash chains: symbols
with the same name are in the same chain. The value of a symbol is a union in the program; here it has one field for each
kind of value. The callbacks that compute predeclared symbols are left out.
-/
namespace Verif.Symbol
open Verif.Section (Label)

/-- `ESymbolType` (xasm/motor/symbol.h 32-44) without `SYM_EQUF`, which nothing makes. -/
inductive SymType where
  | label | equ | set | equs | macro | «import» | group | global | «structure» | undefined
  deriving Repr, DecidableEq

/-- `SYMF_*` (xasm/motor/symbol.h 51-59), those that this model needs. -/
structure Flags where
  constant : Bool := false
  export_ : Bool := false
  exportable : Bool := false
  modifiable : Bool := false
  deriving Repr, DecidableEq

/-- `defaultSymbolFlags` (xasm/motor/symbol.c 38-50). -/
def defaultFlags : SymType → Flags
  | .label => { exportable := true }
  | .equ => { constant := true, exportable := true }
  | .set => { constant := true, modifiable := true }
  | .equs => {}
  | .macro => {}
  | .import => {}
  | .group => { export_ := true }
  | .global => { modifiable := true }
  | .structure => { constant := true }
  | .undefined => { modifiable := true, exportable := true }

/-- `SSymbol` (xasm/motor/symbol.h 64-90). `internal` means that there is no file that the symbol comes from. -/
structure Symbol where
  id : Nat
  name : String
  scope : Option Nat
  type : SymType
  flags : Flags
  internal : Bool := false
  sect : Option Nat := none
  integer : Int := 0
  text : String := ""
  bss : Bool := false
  deriving Repr, DecidableEq

/-- `sym_hashedSymbols`, `sym_CurrentScope`, the scopes in `g_sectionStack`, `g_rsSymbol`. `next` is the number of the next
symbol and `internal` tells that no file has been opened yet. -/
structure State where
  table : List Symbol := []
  scope : Option Nat := none
  stack : List (Option Nat) := []
  rs : Option Nat := none
  next : Nat := 0
  internal : Bool := false
  errors : Nat := 0
  deriving Repr, DecidableEq

def State.error (s : State) : State := { s with errors := s.errors + 1 }

/-- `SET_TYPE_AND_FLAGS` (xasm/motor/symbol.c 35-36). -/
def setType (t : SymType) (x : Symbol) : Symbol :=
  { x with type := t, flags := { defaultFlags t with export_ := x.flags.export_ || (defaultFlags t).export_ } }

/-- `getSymbol` (xasm/motor/symbol.c 227-235). -/
def getSymbol (name : String) (scope : Option Nat) (s : State) : Option Symbol :=
  s.table.find? fun x => x.scope == scope && x.name == name

/-- `createSymbol` (xasm/motor/symbol.c 237-252). -/
def createSymbol (name : String) (scope : Option Nat) (s : State) : Symbol × State :=
  let x : Symbol := setType .undefined
    { id := s.next, name := name, scope := scope, type := .label, flags := {}, internal := s.internal }
  (x, { s with table := x :: s.table, next := s.next + 1 })

/-- `isLocalName` (xasm/motor/symbol.c 254-257). -/
def isLocalName (name : String) : Bool :=
  name.toList.head? == some '$' || name.toList.head? == some '.' || name.toList.getLast? == some '$'

/-- `assumedScopeOf` (xasm/motor/symbol.c 259-262). -/
def assumedScope (name : String) (s : State) : Option Nat := if isLocalName name then s.scope else none

/-- `findOrCreateSymbolInScope` (xasm/motor/symbol.c 264-273). -/
def findOrCreateIn (scope : Option Nat) (name : String) (s : State) : Symbol × State :=
  match getSymbol name scope s with
  | some x => (x, s)
  | none => createSymbol name scope s

/-- `findOrCreateSymbol` (xasm/motor/symbol.c 275-278). -/
def findOrCreate (name : String) (s : State) : Symbol × State := findOrCreateIn (assumedScope name s) name s

/-- `canBeType` (xasm/motor/symbol.c 280-283). -/
def canBeType (x : Symbol) (t : SymType) : Bool := x.type == t || x.type == .undefined

/-- Assignments to the members of a symbol. -/
def State.put (s : State) (x : Symbol) : State :=
  { s with table := s.table.map fun y => if y.id = x.id then x else y }

/-- `if (!isLocalName(name)) sym_CurrentScope = symbol`. -/
def State.enter (s : State) (x : Symbol) : State := if isLocalName x.name then s else { s with scope := some x.id }

/-- `createSymbolOfType` (xasm/motor/symbol.c 290-305), and what its callers do with the symbol. -/
def createOfType (name : String) (t : SymType) (f : Symbol → Symbol) (enters : Bool) (s : State) : State :=
  let r := findOrCreate name s
  if r.1.flags.modifiable && canBeType r.1 t then
    let s := r.2.put (f (setType t r.1))
    if enters then s.enter r.1 else s
  else r.2.error

/-- `sym_CreateSet` (xasm/motor/symbol.c 418-428). -/
def createSet (name : String) (v : Int) (s : State) : State :=
  createOfType name .set (fun x => { x with integer := v }) true s

/-- `sym_CreateStructure` (xasm/motor/symbol.c 430-440). -/
def createStructure (name : String) (v : Int) (s : State) : State :=
  createOfType name .structure (fun x => { x with integer := v }) true s

/-- `sym_CreateEqus` and `sym_CreateEqusOwned` (xasm/motor/symbol.c 357-374). -/
def createEqus (name text : String) (s : State) : State :=
  createOfType name .equs (fun x => { x with text := text }) false s

/-- `sym_CreateMacro` and `sym_CreateMacroOwned` (xasm/motor/symbol.c 376-395). -/
def createMacro (name text : String) (s : State) : State :=
  createOfType name .macro (fun x => { x with text := text }) false s

/-- What `EQU` and labels have in common: the symbol is not defined yet, or was named by `GLOBAL`. -/
def canDefine (x : Symbol) (t : SymType) : Bool := x.flags.modifiable && (canBeType x t || x.type == .global)

def markGlobal (x : Symbol) : Symbol :=
  if x.type = .global then { x with flags := { x.flags with export_ := true } } else x

/-- `sym_CreateEqu` (xasm/motor/symbol.c 397-416). The message names the file of the symbol, which internal symbols do not
have (414). -/
def createEqu (name : String) (v : Int) (s : State) : Outcome State :=
  let r := findOrCreate name s
  if canDefine r.1 .equ then .ok ((r.2.put { setType .equ (markGlobal r.1) with integer := v }).enter r.1)
  else if r.1.internal then .ub
  else .ok r.2.error

/-- `sym_CreateLabel` (xasm/motor/symbol.c 454-484). `l` is what the label is in the current section, if there is one. -/
def createLabel (name : String) (l : Option Label) (s : State) : State :=
  let r := findOrCreate name s
  if canDefine r.1 .label then
    match l with
    | none => (r.2.put (markGlobal r.1)).error
    | some (.constant v) =>
      (r.2.put { setType .equ (markGlobal r.1) with integer := if v < 2 ^ 31 then v else v - 2 ^ 32 }).enter r.1
    | some (.inside i n) =>
      (r.2.put { setType .label (markGlobal r.1) with sect := some i, integer := n }).enter r.1
  else r.2.error

/-- `sym_CreateGroup` (xasm/motor/symbol.c 340-355); the flags are those of a symbol that is not defined. -/
def createGroup (name : String) (bss : Bool) (s : State) : State :=
  match getSymbol name none s with
  | some x => if x.type = .group ∧ x.bss = bss then s else s.error
  | none =>
    let r := createSymbol name none s
    r.2.put { r.1 with type := .group, bss := bss }

/-- `sym_Export` (xasm/motor/symbol.c 514-525). -/
def exportSymbol (name : String) (s : State) : Outcome State :=
  let r := findOrCreate name s
  if r.1.flags.exportable then .ok (r.2.put { r.1 with flags := { r.1.flags with export_ := true } })
  else if r.1.internal then .ub
  else .ok r.2.error

/-- `sym_Import` (xasm/motor/symbol.c 527-539). -/
def importSymbol (name : String) (s : State) : State :=
  let r := findOrCreate name s
  if r.1.type = .undefined then r.2.put { setType .import r.1 with integer := 0 } else r.2.error

/-- `sym_Global` (xasm/motor/symbol.c 541-564). -/
def globalSymbol (name : String) (s : State) : Outcome State :=
  let r := findOrCreate name s
  if r.1.type = .global ∨ r.1.type = .import then if r.1.internal then .ub else .ok r.2.error
  else if r.1.type = .undefined then .ok (r.2.put { setType .global r.1 with integer := 0 })
  else if r.1.flags.exportable then .ok (r.2.put { r.1 with flags := { r.1.flags with export_ := true } })
  else if r.1.internal then .ub
  else .ok r.2.error

/-- `sym_Purge` (xasm/motor/symbol.c 566-577). -/
def purge (name : String) (s : State) : State :=
  match getSymbol name (assumedScope name s) s with
  | some x => { s with table := s.table.filter fun y => y.id ≠ x.id }
  | none => s

/-- A symbol that is referred to by its address: it must not have been removed. -/
def State.deref (s : State) (id : Nat) : Outcome Symbol :=
  match s.table.find? fun x => x.id == id with
  | some x => .ok x
  | none => .ub

/-- Signed 32 bit arithmetic. -/
def int32 (v : Int) : Outcome Int := if -2 ^ 31 ≤ v ∧ v < 2 ^ 31 then .ok v else .ub

/-- `getRsCounter` (xasm/motor/parse_symbol.c 52-60). The counter is dereferenced by all callers, so that it must exist. -/
def rsCounter (s : State) : Outcome (Symbol × State) :=
  match s.rs with
  | some id => (s.deref id).bind fun x => .ok (x, s)
  | none =>
    let r := findOrCreate "__RS" s
    if r.1.flags.modifiable && canBeType r.1 .set then
      let s := createSet "__RS" 0 s
      (s.deref r.1.id).bind fun x => .ok (x, { s with rs := some r.1.id })
    else .ub

/-- `parse_SetRs` (xasm/motor/parse_symbol.c 88-91). -/
def setRs (v : Int) (s : State) : Outcome State :=
  (rsCounter s).bind fun r => .ok (r.2.put { r.1 with integer := v })

/-- `parse_IncrementRs` (xasm/motor/parse_symbol.c 62-69). -/
def incrementRs (size : Int) (s : State) : Outcome (Int × State) :=
  (rsCounter s).bind fun r => (int32 (r.1.integer + size)).bind fun v => .ok (r.1.integer, r.2.put { r.1 with integer := v })

/-- `isDotLocalName` (xasm/motor/parse_symbol.c 35-38). -/
def isDotLocal (name : String) : Bool := name.toList.head? == some '.'

/-- `createRsSymbol` (xasm/motor/parse_symbol.c 71-86). -/
def rsSymbol (name : String) (multiplier : Nat) (count : Int) (s : State) : Outcome State :=
  (int32 (multiplier * count)).bind fun value =>
    if isDotLocal name then
      match s.scope with
      | none => .ok s.error
      | some id => (s.deref id).bind fun x =>
        if x.type = .structure then
          (incrementRs value s).bind fun r =>
            let s := createSet name r.1 r.2
            match s.scope with
            | none => .ub
            | some id => (s.deref id).bind fun x => (int32 (x.integer + value)).bind fun v => .ok (s.put { x with integer := v })
        else .ok s.error
    else (incrementRs value s).bind fun r => .ok (createSet name r.1 r.2)

/-- `createRsSetSymbol` (xasm/motor/parse_symbol.c 93-101). -/
def rsSetSymbol (name : String) (v : Int) (s : State) : Outcome State :=
  (setRs v s).bind fun s => .ok (if isDotLocal name then createSet name v s else createStructure name v s)

/-- `sym_EndStructure` (xasm/motor/symbol.c 442-452). -/
def endStructure (s : State) : Outcome State :=
  match s.scope with
  | none => .ok s.error
  | some id => (s.deref id).bind fun x =>
    if x.type = .structure then
      match s.rs with
      | none => .ok { s with scope := none }
      | some r => (s.deref r).bind fun y => .ok { s.put { x with integer := y.integer } with scope := none }
    else .ok s.error

/-- The loop in `parseIdentifier` (xasm/motor/parse_expression.c 87-110) after `sym_GetSymbol` (82): further names in the
scope of the symbol. The symbol is given by its number. -/
def mentionIn : List String → Nat → State → Nat × State
  | [], id, s => (id, s)
  | n :: ns, id, s =>
    let r := findOrCreateIn (some id) n s
    mentionIn ns r.1.id r.2

def mention (name : String) (more : List String) (s : State) : Nat × State :=
  let r := findOrCreate name s
  mentionIn more r.1.id r.2

/-- What happens to the symbol table. -/
inductive Op where
  | equ (name : String) (v : Int)
  | set (name : String) (v : Int)
  | equs (name text : String)
  | macro (name text : String)
  | label (name : String) (l : Option Label)
  | group (name : String) (bss : Bool)
  | export_ (name : String)
  | import_ (name : String)
  | global (name : String)
  | purge (name : String)
  | rsset (v : Int)
  | rsskip (multiplier : Nat) (count : Int)
  | rsbegin (name : String) (v : Int)
  | rsfield (name : String) (multiplier : Nat) (count : Int)
  | rsend
  | push
  | pop
  | mention (name : String) (more : List String)
  deriving Repr, DecidableEq

/-- `RSRESET` and `RSSET` are in xasm/motor/parse_directive.c 311-324, `RB` without a name in 745-750. `PUSHS` and `POPS`
keep the scope (xasm/motor/section.c 653-679, xasm/motor/parse_directive.c 737-743). -/
def step (op : Op) (s : State) : Outcome State :=
  match op with
  | .equ n v => createEqu n v s
  | .set n v => .ok (createSet n v s)
  | .equs n t => .ok (createEqus n t s)
  | .macro n t => .ok (createMacro n t s)
  | .label n l => .ok (createLabel n l s)
  | .group n b => .ok (createGroup n b s)
  | .export_ n => exportSymbol n s
  | .import_ n => .ok (importSymbol n s)
  | .global n => globalSymbol n s
  | .purge n => .ok (purge n s)
  | .rsset v => setRs v s
  | .rsskip m c => (int32 (c * m)).bind fun v => (incrementRs v s).bind fun r => .ok r.2
  | .rsbegin n v => rsSetSymbol n v s
  | .rsfield n m c => rsSymbol n m c s
  | .rsend => endStructure s
  | .push => .ok { s with stack := s.scope :: s.stack }
  | .pop =>
    match s.stack with
    | sc :: st => .ok { s with scope := sc, stack := st }
    | [] => .ok s.error
  | .mention n more => .ok (mention n more s).2

def run : List Op → State → Outcome State
  | [], s => .ok s
  | op :: ops, s => (step op s).bind fun s => run ops s

/-- `sym_Init` (xasm/motor/symbol.c 721-740) without `__AMIGADATE`. -/
def init : Outcome State :=
  (run [.equ "__RANDSEED" 0, .equ "__NARG" 0, .equ "__LINE" 0, .equs "__DATE" "", .equs "__TIME" "", .equ "__ASMOTOR" 0]
    { internal := true }).bind fun s => .ok { s with internal := false }

/-- `sym_IsDefined` (xasm/motor/symbol.c 617-622). -/
def isDefined (name : String) (s : State) : Bool :=
  match getSymbol name (assumedScope name s) s with
  | some x => x.type != .undefined
  | none => false

end Verif.Symbol
