import Verif.CInt
import Verif.Bytes
/-!
# Sections of the assembler

xasm/motor/section.c and xasm/motor/linemap.c: the data directives append to the current section. Names, groups and scopes
are identified by numbers or text; the list of sections is in the order of creation, and sections are identified by their
position in it. Memory is a list of bytes for each section; writing outside of it is undefined behaviour. `err_Error`
counts errors and continues; `internalerror` and `err_Fail` exit. An assertion that fails is treated as undefined behaviour,
which it is when assertions are compiled out. Expressions of patches are not looked into.
-/
namespace Verif.Section

/-- `SECTF_*` (xasm/motor/section.h 63-68). -/
structure Flags where
  loadFixed : Bool := false
  bankFixed : Bool := false
  orgFixed : Bool := false
  aligned : Bool := false
  root : Bool := false
  paged : Bool := false
  deriving Repr, DecidableEq

/-- The token that is being processed: `lexctx_TokenFileInfo` and `lexctx_TokenLineNumber`. -/
structure Pos where
  file : Nat
  line : Nat
  deriving Repr, DecidableEq

/-- `SLineMapEntry` (xasm/motor/linemap.h 26-30). -/
structure LineEntry where
  pos : Pos
  offset : Nat
  deriving Repr, DecidableEq

/-- Sizes of data. -/
inductive Size where
  | one | two | four
  deriving Repr, DecidableEq

def Size.bytes : Size → Nat
  | .one => 1 | .two => 2 | .four => 4

/-- `SPatch` (xasm/motor/patch.h 38-46): the place, the type (`PATCH_8`, `PATCH_LE_16` and so on) and the expression. -/
structure Patch (α : Type) where
  offset : Nat
  size : Size
  big : Bool
  expr : α
  deriving Repr, DecidableEq

/-- The `SYM_GROUP` symbol that a section belongs to. -/
structure Group where
  id : Nat
  bss : Bool
  deriving Repr, DecidableEq

/-- `SSection` (xasm/motor/section.h 32-59). `data` has `allocatedSpace` bytes. -/
structure Sect (α : Type) where
  name : String
  group : Group
  flags : Flags
  used : Nat := 0
  alloc : Nat := 0
  imagePosition : Nat := 0
  origin : Nat := 0
  pc : Nat := 0
  adjust : Nat := 0
  bank : Nat := 0
  align : Nat := 0
  page : Nat := 0
  lines : List LineEntry := []
  patches : List (Patch α) := []
  data : Bytes := []
  deriving Repr

/-- `sect_Sections`, `sect_Current`, `g_sectionStack`, `sym_CurrentScope`, `xasm_TotalErrors`. -/
structure State (α : Type) where
  sections : List (Sect α) := []
  current : Option Nat := none
  stack : List (Option Nat × Nat) := []
  scope : Nat := 0
  errors : Nat := 0
  deriving Repr

/-- `xasm_Configuration`: `minimumWordSize` and `supportBanks`. -/
structure Config where
  wordSize : Nat
  banks : Bool
  deriving Repr, DecidableEq

/-- What is in effect when a directive is processed: byte order and fill byte (`opt_Current`) and the token. -/
structure Env where
  big : Bool
  fill : UInt8
  pos : Pos
  deriving Repr, DecidableEq

variable {α : Type}

/-- `err_Error`. -/
def State.error (s : State α) : State α := { s with errors := s.errors + 1 }

/-- `alignToNext` (xasm/motor/section.c 123-128). -/
def alignToNext (value alignment : Nat) : Outcome Nat :=
  if alignment = 0 then .ub
  else
    let t := (value + alignment + W32 - 1) % W32
    .ok (t - t % alignment)

/-- `mem_Realloc`: the old contents, then bytes that are not specified (zeros here). Memory of size 0 need not exist. -/
def realloc (data : Bytes) (size : Nat) : Outcome Bytes :=
  if size = 0 then .ub else .ok (data.take size ++ List.replicate (size - data.length) 0)

/-- `growCurrentSection` (xasm/motor/section.c 130-142). -/
def grow (cfg : Config) (count : Nat) (x : Sect α) : Outcome (Sect α) :=
  if cfg.wordSize ≤ count then
    let needed := (count + x.used) % W32
    if needed > x.alloc then
      (alignToNext needed 0x4000).bind fun allocate =>
      (realloc x.data allocate).bind fun data => .ok { x with data := data, alloc := allocate }
    else .ok x
  else .ub

/-- The current section, and how to change it. `sect_Current` always points to a section of the list. -/
def State.sect (s : State α) : Option (Sect α) := s.current.bind fun i => s.sections[i]?

def State.set (s : State α) (x : Sect α) : State α :=
  match s.current with
  | some i => { s with sections := s.sections.set i x }
  | none => s

/-- `checkAvailableSpace` (xasm/motor/section.c 144-160). The result is that of the function. -/
def checkSpace (cfg : Config) (count : Nat) (s : State α) : Outcome (Bool × State α) :=
  if count = 0 then .ok (true, s)
  else if cfg.wordSize ≤ count then
    match s.sect with
    | none => .ok (false, s.error)
    | some x => if x.group.bss then .ok (true, s) else (grow cfg count x).bind fun x => .ok (true, s.set x)
  else .ub

/-- `sect_Current->data[sect_Current->usedSpace++] = value`. -/
def store (b : UInt8) (x : Sect α) : Outcome (Sect α) :=
  if x.used < x.data.length then .ok { x with data := x.data.set x.used b, used := (x.used + 1) % W32 } else .ub

def storeAll : Bytes → Sect α → Outcome (Sect α)
  | [], x => .ok x
  | b :: bs, x => (store b x).bind fun x => storeAll bs x

/-- `addEntry` (xasm/motor/linemap.c 68-77) from `linemap_AddCurrent` (86-89). -/
def addLine (pos : Pos) (x : Sect α) : Sect α :=
  match x.lines.getLast? with
  | some e => if e.pos = pos then x else { x with lines := x.lines ++ [⟨pos, x.pc⟩] }
  | none => { x with lines := x.lines ++ [⟨pos, x.pc⟩] }

/-- `cpuProgramCounter += count / minimumWordSize`. -/
def advance (cfg : Config) (count : Nat) (x : Sect α) : Sect α := { x with pc := (x.pc + count / cfg.wordSize) % W32 }

/-- The bytes that `sect_OutputConst8`, `sect_OutputConst16` and `sect_OutputConst32` store (xasm/motor/section.c 216,
284-299, 369-388). -/
def encode (big : Bool) : Size → Nat → Bytes
  | .one, v => [byte v]
  | .two, v => if big then [byte (v / 256), byte v] else [byte v, byte (v / 256)]
  | .four, v =>
    if big then [byte (v / 16777216), byte (v / 65536), byte (v / 256), byte v]
    else [byte v, byte (v / 256), byte (v / 65536), byte (v / 16777216)]

/-- `sect_OutputConst8` (xasm/motor/section.c 207-230), `sect_OutputConst16` (275-313) and `sect_OutputConst32`
(360-402). `v` is the value without sign. -/
def outputConst (cfg : Config) (env : Env) (size : Size) (v : Nat) (s : State α) : Outcome (State α) :=
  if cfg.wordSize ≤ size.bytes then
    (checkSpace cfg size.bytes s).bind fun r =>
      if r.1 then
        match r.2.sect with
        | none => .fail
        | some x =>
          if x.group.bss then .ok r.2.error
          else (storeAll (encode env.big size v) (addLine env.pos x)).bind fun x => .ok (r.2.set (advance cfg size.bytes x))
      else .ok r.2
  else .ub

/-- The loops in `sect_SkipBytes` (xasm/motor/section.c 533-539): pairs of bytes, then a single one. -/
def fill (cfg : Config) (env : Env) : Nat → State α → Outcome (State α)
  | 0, s => .ok s
  | 1, s => outputConst cfg env .one env.fill.toNat s
  | n + 2, s => (outputConst cfg env .two (env.fill.toNat * 256 + env.fill.toNat) s).bind fun s => fill cfg env n s

/-- `sect_SkipBytes` (xasm/motor/section.c 521-552). -/
def skipBytes (cfg : Config) (env : Env) (count : Nat) (s : State α) : Outcome (State α) :=
  if count = 0 then .ok s
  else if cfg.wordSize ≤ count then
    (checkSpace cfg count s).bind fun r =>
      if r.1 then
        match r.2.sect with
        | none => .fail
        | some x =>
          let s := r.2.set (addLine env.pos x)
          if x.group.bss then
            .ok (s.set (advance cfg count { addLine env.pos x with used := (x.used + count) % W32 }))
          else fill cfg env count s
      else .ok r.2
  else .ub

/-- `patch_Create` (xasm/motor/patch.c 454-471): `list_InsertAfter` puts a patch behind the first one. -/
def addPatch (p : Patch α) : List (Patch α) → List (Patch α)
  | [] => [p]
  | q :: ps => q :: p :: ps

/-- `sect_OutputReloc8` (xasm/motor/section.c 232-259), `sect_OutputReloc16` (315-344) and `sect_OutputRel32` (404-435). -/
def outputReloc (cfg : Config) (env : Env) (size : Size) (e : α) (s : State α) : Outcome (State α) :=
  if cfg.wordSize ≤ size.bytes then
    (checkSpace cfg size.bytes s).bind fun r =>
      if r.1 then
        match r.2.sect with
        | none => .fail
        | some x =>
          if x.group.bss then skipBytes cfg env size.bytes r.2.error
          else
            let x := addLine env.pos x
            (storeAll (List.replicate size.bytes 0) { x with patches := addPatch ⟨x.used, size, env.big && size != .one, e⟩ x.patches }).bind
              fun x => .ok (r.2.set (advance cfg size.bytes x))
      else .ok r.2
  else .ub

/-- The expression of a data directive: none, a constant or one whose value is not known yet. -/
inductive Operand (α : Type) where
  | missing
  | known (v : Int)
  | later (e : α)
  deriving Repr

/-- `sect_OutputExpr8` (xasm/motor/section.c 261-273), `sect_OutputExpr16` (346-358) and `sect_OutputExpr32` (437-449).
Constants are converted to an unsigned type of the size. -/
def outputExpr (cfg : Config) (env : Env) (size : Size) (e : Operand α) (s : State α) : Outcome (State α) :=
  if cfg.wordSize ≤ size.bytes then
    match e with
    | .missing => .ok s.error
    | .known v => outputConst cfg env size (v % (256 ^ size.bytes : Nat)).toNat s
    | .later e => outputReloc cfg env size e s
  else .ub

/-- `sect_OutputBinaryFile` (xasm/motor/section.c 470-511) for a file that can be read. The size is kept in 32 bits. -/
def outputBinary (cfg : Config) (env : Env) (bs : Bytes) (s : State α) : Outcome (State α) :=
  let size := bs.length % W32
  (checkSpace cfg size s).bind fun r =>
    if r.1 then
      match r.2.sect with
      | none => .fail
      | some x =>
        if x.group.bss then .ok r.2.error
        else
          let x := addLine env.pos x
          if x.used + size ≤ x.data.length then
            .ok (r.2.set (advance cfg size { x with
              data := x.data.take x.used ++ bs.take size ++ x.data.drop (x.used + size), used := (x.used + size) % W32 }))
          else .ub
    else .ok r.2

/-- `sect_Align` (xasm/motor/section.c 513-519). -/
def alignBytes (cfg : Config) (env : Env) (alignment : Nat) (s : State α) : Outcome (State α) :=
  if cfg.wordSize ≤ alignment then
    match s.sect with
    | none => .ub
    | some x => (alignToNext x.used alignment).bind fun t => skipBytes cfg env ((t + W32 - x.used) % W32) s
  else .ub

/-- `sect_OutputConst16At` (xasm/motor/section.c 172-205). -/
def outputAt (env : Env) (v offset : Nat) (s : State α) : Outcome (State α) :=
  let size := match s.sect with
    | some x => x.used
    | none => 0
  if (offset + 2) % W32 ≤ size then
    match s.sect with
    | none => .fail
    | some x =>
      if x.group.bss then .ok s.error
      else if offset + 1 < x.data.length then
        match encode env.big .two v with
        | [a, b] => .ok (s.set { x with data := (x.data.set offset a).set (offset + 1) b })
        | _ => .ub
      else .ub
  else .ok s

/-- `findSection` (xasm/motor/section.c 103-121): the first section of that name, unless it belongs to another group. The
second component tells whether an error was reported. -/
def find (name : String) (group : Option Group) (s : State α) : Option Nat × Bool :=
  match s.sections.findIdx? fun x => x.name == name with
  | none => (none, false)
  | some i =>
    match group with
    | none => (some i, false)
    | some g =>
      match s.sections[i]? with
      | some x => if x.group.id = g.id then (some i, false) else (none, true)
      | none => (none, true)

/-- `createSection` (xasm/motor/section.c 85-101) at the end of the list; the new section becomes the current one. -/
def create (x : Sect α) (s : State α) : State α :=
  { s with sections := s.sections ++ [x], current := some s.sections.length }

/-- `sect_SwitchTo` (xasm/motor/section.c 554-569). -/
def switchTo (name : String) (group : Group) (s : State α) : State α :=
  match find name (some group) s with
  | (some i, _) => { s with current := some i }
  | (none, err) =>
    let s := if err then s.error else s
    create { name := name, group := group, flags := {} } s

/-- What a `SECTION` directive says: origin, bank, alignment and page are used if the flag is set. -/
structure Kind where
  flags : Flags
  origin : Nat
  bank : Nat
  align : Nat
  page : Nat
  deriving Repr, DecidableEq

/-- `sect_SwitchTo_KIND` (xasm/motor/section.c 571-605). If the section exists with another kind, or in another group, an
error is reported; in the latter case a section is created nevertheless. -/
def switchKind (cfg : Config) (name : String) (group : Group) (k : Kind) (s : State α) : Outcome (State α) :=
  if k.flags.bankFixed && !cfg.banks then .fail
  else
    match find name (some group) s with
    | (some i, _) =>
      match s.sections[i]? with
      | none => .ub
      | some x =>
        if x.flags = k.flags ∧ (k.flags.bankFixed → x.bank = k.bank) ∧ (k.flags.loadFixed → x.origin = k.origin) ∧
            (k.flags.aligned → x.align = k.align) ∧ (k.flags.paged → x.page = k.page) then
          .ok { s with current := some i }
        else .ok s.error
    | (none, err) =>
      let s := if err then s.error else s
      let origin := if k.flags.loadFixed then k.origin else 0
      .ok (create {
        name := name, group := group, flags := k.flags, bank := if k.flags.bankFixed then k.bank else 0,
        align := if k.flags.aligned then k.align else 0, page := if k.flags.paged then k.page else 0,
        origin := origin, imagePosition := origin * cfg.wordSize % W32 } s)

/-- `sect_SwitchTo_NAMEONLY` (xasm/motor/section.c 607-615). -/
def switchName (name : String) (s : State α) : State α :=
  match find name none s with
  | (some i, _) => { s with current := some i }
  | (none, _) => { s with current := none }.error

/-- `sect_SetOriginAddress` (xasm/motor/section.c 634-642). -/
def setOrigin (org : Nat) (s : State α) : State α :=
  match s.sect with
  | none => s.error
  | some x => s.set { x with
      flags := { x.flags with orgFixed := true }, adjust := sub32 org (add32 x.pc x.origin) }

/-- `sect_Push` (xasm/motor/section.c 653-665). -/
def push (s : State α) : State α := { s with stack := (s.current, s.scope) :: s.stack }

/-- `sect_Pop` (xasm/motor/section.c 667-679) as `POPS` uses it (xasm/motor/parse_directive.c 737-743). -/
def pop (s : State α) : State α :=
  match s.stack with
  | (c, sc) :: st => { s with current := c, scope := sc, stack := st }
  | [] => s.error

/-- The operations on sections. `attributes` is what `handleSection` has read. -/
inductive Op (α : Type) where
  | const (size : Size) (v : Nat)
  | expr (size : Size) (e : Operand α)
  | skip (count : Nat)
  | align (alignment : Nat)
  | binary (bs : Bytes)
  | section (name : String) (group : Group) (k : Option Kind)
  | named (name : String)
  | org (v : Nat)
  | scope (v : Nat)
  | push
  | pop
  deriving Repr

def step (cfg : Config) (env : Env) (op : Op α) (s : State α) : Outcome (State α) :=
  match op with
  | .const size v => outputConst cfg env size v s
  | .expr size e => outputExpr cfg env size e s
  | .skip n => skipBytes cfg env n s
  | .align n => alignBytes cfg env n s
  | .binary bs => outputBinary cfg env bs s
  | .section name g none => .ok (switchTo name g s)
  | .section name g (some k) => switchKind cfg name g k s
  | .named name => .ok (switchName name s)
  | .org v => .ok (setOrigin v s)
  | .scope v => .ok { s with scope := v }
  | .push => .ok (push s)
  | .pop => .ok (pop s)

/-- A history of operations, each with the options and the token in effect. -/
def run (cfg : Config) : List (Env × Op α) → State α → Outcome (State α)
  | [], s => .ok s
  | (env, op) :: ops, s => (step cfg env op s).bind fun s => run cfg ops s

end Verif.Section
