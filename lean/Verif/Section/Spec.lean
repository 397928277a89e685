import Verif.Section.Directive
/-!
# What the data directives mean

A section is a list of cells, one for each byte: the value and the line of source that it comes from. There are no buffers,
no counters and no arithmetic with 32 bits. Whether a directive is meaningful is decided here as well: a mistake in the
source is `bad`, a program that is too large or does not keep to whole words is `outside` of what is claimed.
-/
namespace Verif.Section.Spec

/-- The outcome of a directive. -/
inductive Result (β : Type) where
  | good (b : β)
  | bad
  | outside
  deriving Repr

structure Cell where
  value : UInt8
  pos : Pos
  deriving Repr, DecidableEq

/-- What a section was declared with; attributes that were not given have no value. -/
structure Attributes where
  address : Option Nat := none
  bank : Option Nat := none
  align : Option Nat := none
  page : Option Nat := none
  root : Bool := false
  deriving Repr, DecidableEq

/-- `holes` are the places to be filled in when the program is linked, in order. `org` is the last `ORG`: the address that
was given and the number of bytes in front of it. -/
structure Area (α : Type) where
  name : String
  group : Group
  attributes : Attributes
  cells : List Cell := []
  holes : List (Patch α) := []
  org : Option (Nat × Nat) := none
  deriving Repr

structure World (α : Type) where
  areas : List (Area α) := []
  current : Option Nat := none
  stack : List (Option Nat × Nat) := []
  scope : Nat := 0
  deriving Repr

variable {α : Type}

def World.area (w : World α) : Option (Area α) := w.current.bind fun i => w.areas[i]?

def World.put (w : World α) (y : Area α) : World α :=
  match w.current with
  | some i => { w with areas := w.areas.set i y }
  | none => w

/-- The digits of a number to the base 256. -/
def digits (big : Bool) (n v : Nat) : Bytes :=
  let ds := (List.range n).map fun i => UInt8.ofNat (v / 256 ^ i % 256)
  if big then ds.reverse else ds

/-- Sections with contents may grow until one step of allocation below 2^32, others up to 2^32 bytes less one. -/
def limit (bss : Bool) : Nat := if bss then 2 ^ 32 - 1 else 2 ^ 32 - 2 ^ 14

/-- Append bytes, and holes that begin at them. -/
def emit (pos : Pos) (bs : Bytes) (holes : List (Patch α)) (w : World α) : Result (World α) :=
  match w.area with
  | none => .bad
  | some y =>
    if y.group.bss then .bad
    else if y.cells.length + bs.length ≤ limit false then
      .good (w.put { y with cells := y.cells ++ bs.map fun b => ⟨b, pos⟩, holes := y.holes ++ holes })
    else .outside

/-- Append space. Bytes in sections without contents are taken to be zero. -/
def space (env : Env) (n : Nat) (w : World α) : Result (World α) :=
  if n = 0 then .good w
  else
    match w.area with
    | none => .bad
    | some y =>
      if y.cells.length + n ≤ limit y.group.bss then
        .good (w.put { y with
          cells := y.cells ++ List.replicate n ⟨if y.group.bss then 0 else env.fill, env.pos⟩ })
      else .outside

/-- Number of bytes until the next multiple. -/
def gap (size n : Nat) : Nat := (n - size % n) % n

def Kind.attributes (k : Kind) : Attributes where
  address := if k.flags.loadFixed then some k.origin else none
  bank := if k.flags.bankFixed then some k.bank else none
  align := if k.flags.aligned then some k.align else none
  page := if k.flags.paged then some k.page else none
  root := k.flags.root

/-- Select a section or begin a new one. A section belongs to one group, and is reopened either with the attributes that it
was declared with or with none. A section that has used `ORG` can not be reopened with attributes. -/
def select (name : String) (g : Group) (k : Option Kind) (w : World α) : Result (World α) :=
  match w.areas.findIdx? fun y => y.name == name with
  | none => .good { w with
      areas := w.areas ++ [{ name := name, group := g, attributes := match k with
        | some k => Kind.attributes k
        | none => {} }],
      current := some w.areas.length }
  | some i =>
    match w.areas[i]? with
    | none => .bad
    | some y =>
      if y.group.id ≠ g.id then .bad
      else
        match k with
        | none => .good { w with current := some i }
        | some k => if y.attributes = Kind.attributes k ∧ y.org = none then .good { w with current := some i } else .bad

def step (cfg : Config) (env : Env) (op : Op α) (w : World α) : Result (World α) :=
  match op with
  | .const size v =>
    if cfg.wordSize ∣ size.bytes then emit env.pos (digits env.big size.bytes v) [] w else .outside
  | .expr size e =>
    if cfg.wordSize ∣ size.bytes then
      match e with
      | .missing => .bad
      | .known v => emit env.pos (digits env.big size.bytes (v % 2 ^ 32).toNat) [] w
      | .later e =>
        emit env.pos (List.replicate size.bytes 0)
          [⟨match w.area with
            | some y => y.cells.length
            | none => 0, size, env.big && size != .one, e⟩] w
    else .outside
  | .skip n => if cfg.wordSize ∣ n ∧ cfg.wordSize ≤ 2 then space env n w else .outside
  | .align n =>
    match w.area with
    | none => .outside
    | some y =>
      if cfg.wordSize ∣ n ∧ cfg.wordSize ≤ 2 ∧ 0 < n ∧ y.cells.length + n ≤ 2 ^ 32 then space env (gap y.cells.length n) w
      else .outside
  | .binary bs => if cfg.wordSize ∣ bs.length ∧ bs.length < 2 ^ 32 then emit env.pos bs [] w else .outside
  | .section name g k =>
    match k with
    | none => select name g none w
    | some k =>
      if k.flags.orgFixed then .outside
      else if k.flags.bankFixed && !cfg.banks then .bad
      else select name g (some k) w
  | .named name =>
    match w.areas.findIdx? fun y => y.name == name with
    | some i => .good { w with current := some i }
    | none => .bad
  | .org v =>
    match w.area with
    | some y => .good (w.put { y with org := some (v, y.cells.length) })
    | none => .bad
  | .scope v => .good { w with scope := v }
  | .push => .good { w with stack := (w.current, w.scope) :: w.stack }
  | .pop =>
    match w.stack with
    | (c, sc) :: st => .good { w with current := c, scope := sc, stack := st }
    | [] => .bad

def run (cfg : Config) : List (Env × Op α) → World α → Result (World α)
  | [], w => .good w
  | (env, op) :: ops, w =>
    match step cfg env op w with
    | .good w => run cfg ops w
    | .bad => .bad
    | .outside => .outside

/-- The address of the next byte, seen from the CPU: from the last `ORG`, or from where the section is placed. -/
def Area.address (ws : Nat) (y : Area α) (placed : Nat) : Nat :=
  match y.org with
  | some (v, n) => v + (y.cells.length - n) / ws
  | none => placed + y.cells.length / ws

/-- The line of source of the byte at an offset, from a table of line mappings: the last entry that is not behind it. -/
def lineOf (lines : List LineEntry) (offset : Nat) : Option Pos :=
  (lines.filter fun e => e.offset ≤ offset).getLast?.map LineEntry.pos

/-! ## Directives -/

/-- What fits in one or two bytes, with or without a sign; numbers are 32 bits wide anyway. -/
def fits (size : Size) (v : Int) : Bool :=
  match size with
  | .one => -2 ^ 7 ≤ v && v < 2 ^ 8
  | .two => -2 ^ 15 ≤ v && v < 2 ^ 16
  | .four => true

/-- The number that characters stand for, the first one being the most significant. -/
def number (bs : Bytes) : Nat := bs.foldl (fun v b => v * 256 + b.toNat) 0

/-- The bytes of an operand in the source; `none` if it is a mistake. Strings of `DB` are characters, other strings are
numbers. Nothing at all is space. -/
def itemBytes (env : Env) (size : Size) : Item α → Option Bytes
  | .const v => if fits size v then some (digits env.big size.bytes (v % 2 ^ 32).toNat) else none
  | .later _ => some (List.replicate size.bytes 0)
  | .text bs =>
    if size = .one then some bs
    else if bs.length ≤ size.bytes then some (digits env.big size.bytes (number bs)) else none
  | .nothing => some (List.replicate size.bytes env.fill)

/-- One operand of a data directive. An empty string and one with a character zero are left out. The last operand of `DW` and `DL` has to be there. -/
def item (cfg : Config) (env : Env) (rng : Size → α → α) (size : Size) (last : Bool) (it : Item α) (w : World α) :
    Result (World α) :=
  if cfg.wordSize ∣ size.bytes then
    match itemBytes env size it with
    | none => .bad
    | some bs =>
      match it with
      | .const _ => emit env.pos bs [] w
      | .later e =>
        emit env.pos bs
          [⟨match w.area with
            | some y => y.cells.length
            | none => 0, size, env.big && size != .one, rng size e⟩] w
      | .text t => if size = .one ∧ (t = [] ∨ 0 ∈ t) then .outside else emit env.pos bs [] w
      | .nothing =>
        if size ≠ .one ∧ last then .bad else if cfg.wordSize ≤ 2 then space env size.bytes w else .outside
  else .outside

def items (cfg : Config) (env : Env) (rng : Size → α → α) (size : Size) : List (Item α) → World α → Result (World α)
  | [], w => .good w
  | it :: its, w =>
    match item cfg env rng size its.isEmpty it w with
    | .good w => items cfg env rng size its w
    | .bad => .bad
    | .outside => .outside

/-- The attributes that a `SECTION` directive lists: each at most once and with a value in brackets. The value 2^32-1 is left
out. -/
def collect (cfg : Config) : List Attr → Attributes → Option Attributes
  | [], a => some a
  | .bank (some v) :: as, a =>
    if cfg.banks ∧ a.bank = none ∧ v < 2 ^ 32 - 1 then collect cfg as { a with bank := some v } else none
  | .align (some v) :: as, a =>
    if a.align = none ∧ v < 2 ^ 32 - 1 then collect cfg as { a with align := some v } else none
  | .page (some v) :: as, a =>
    if a.page = none ∧ v < 2 ^ 32 - 1 then collect cfg as { a with page := some v } else none
  | .root :: as, a => collect cfg as { a with root := true }
  | _ :: _, _ => none

/-- The address of a section that has one has to satisfy the alignment, which is then of no further use. -/
def settle (a : Attributes) : Option Attributes :=
  match a.address, a.align with
  | some v, some n => if 0 < n ∧ n ∣ v then some { a with align := none } else none
  | _, _ => some a

/-- What a label stands for when its section is placed at an address. -/
def Label.value (placed : Nat) : Label → Nat
  | .constant v => v
  | .inside _ n => placed + n

end Verif.Section.Spec
