import Verif.Program.Model
/-!
# What a program means

A program is a sequence of statements that fill sections. Its sections are placed somewhere in memory; a label then is the
address of its section plus the number of bytes in front of it, and every expression is stored as the number that it has with
these addresses. There are no trees, patches, constants that are folded, or passes. The symbols that a program defines are
found together with its contents, so that the meaning of symbols (`ρ`) is a parameter which has to agree with what is found
in the end (`Consistent`).
-/
namespace Verif.Program.Spec
open Verif.Section (Config Env Op Size Patch)
open Verif.Section.Spec (Area Cell Result digits)
open Verif.Expr (Src ASym FMath Den I32 u32 toI32 wrap)
open Verif.Cpu (Item)

/-- An expression, and what the symbols stood for in that line. -/
structure Value where
  src : Src
  now : Nat → ASym

/-- The sections, in which every expression is a hole, and the symbols. -/
structure World where
  areas : Section.Spec.World Value := {}
  syms : Nat → ASym := fun _ => ⟨.undefined, none, 0⟩

def operate (cfg : Config) (env : Env) (op : Op Value) (W : World) : Result World :=
  match Section.Spec.step cfg env op W.areas with
  | .good a => .good { W with areas := a }
  | .bad => .bad
  | .outside => .outside

/-- Numbers and expressions of one, two or four bytes. -/
def item (cfg : Config) (env : Env) (i : Item) (W : World) : Result World :=
  match size? i.size with
  | none => .outside
  | some z =>
    match i with
    | .const _ v => operate cfg env (.const z v) W
    | .expr _ s => operate cfg env (.expr z (.later ⟨s, W.syms⟩)) W

def items (cfg : Config) (env : Env) : List Item → World → Result World
  | [], W => .good W
  | i :: is, W =>
    match item cfg env i W with
    | .good W => items cfg env is W
    | .bad => .bad
    | .outside => .outside

/-- A symbol that nothing has been said about, except that it is known elsewhere. -/
def free (y : ASym) : Bool := y.type = .undefined || y.type = .global

/-- One statement. Every symbol is defined once, except by `SET`. -/
def step (cfg : Config) (fm : FMath) (ρ : Den) (env : Env) (x : Stmt) (W : World) : Result World :=
  match x with
  | .label s =>
    match W.areas.current, W.areas.area with
    | some k, some y =>
      if free (W.syms s) then .good { W with syms := update W.syms s ⟨.label, some k, y.cells.length⟩ } else .bad
    | _, _ => .bad
  | .equ s e =>
    match e.value fm wrap W.syms ρ with
    | some v => if free (W.syms s) then .good { W with syms := update W.syms s ⟨.equ, none, v⟩ } else .bad
    | none => .bad
  | .set s e =>
    match e.value fm wrap W.syms ρ with
    | some v =>
      if (W.syms s).type = .undefined ∨ (W.syms s).type = .set then .good { W with syms := update W.syms s ⟨.set, none, v⟩ }
      else .bad
    | none => .bad
  | .external s =>
    if (W.syms s).type = .undefined then .good { W with syms := update W.syms s ⟨.imported, none, 0⟩ } else .bad
  | .global s =>
    if (W.syms s).type = .undefined then .good { W with syms := update W.syms s ⟨.global, none, 0⟩ }
    else if (W.syms s).type = .label ∨ (W.syms s).type = .equ then .good W
    else .bad
  | .code is => items cfg env is W
  | .directive d => operate cfg env d.op W

def run (cfg : Config) (fm : FMath) (ρ : Den) : List (Env × Stmt) → World → Result World
  | [], W => .good W
  | (env, x) :: xs, W =>
    match step cfg fm ρ env x W with
    | .good W => run cfg fm ρ xs W
    | .bad => .bad
    | .outside => .outside

/-- The addresses when section `k` is placed at `base k`. All addresses are below `2^31`. -/
structure Consistent (base : Nat → Int) (W : World) (ρ : Den) : Prop where
  label : ∀ (s k n : Nat), W.syms s = ⟨.label, some k, n⟩ → ρ.sym s = some (base k + n)
  constant : ∀ s, (W.syms s).type.constant = true → ρ.sym s = some (W.syms s).value
  fits : ∀ k y, W.areas.areas[k]? = some y → 0 ≤ base k ∧ base k + y.cells.length < 2147483648
  fixed : ∀ k y (a : Nat), W.areas.areas[k]? = some y → y.attributes.address = some a → base k = a
  bank : ∀ s k n y (b : Nat), W.syms s = ⟨.label, some k, n⟩ → W.areas.areas[k]? = some y → y.attributes.bank = some b →
    ρ.bank s = some (toI32 b)

/-- The number of an expression that is stored at an address. -/
def Value.at (fm : FMath) (ρ : Den) (address : Int) (x : Value) : Option Int :=
  x.src.value fm wrap x.now { ρ with pc := address }

/-- The offset is not part of the hole. -/
def Outside {α : Type} (h : Patch α) (i : Nat) : Prop := ¬ (h.offset ≤ i ∧ i < h.offset + h.size.bytes)

/-- The bytes of a section at an address: every expression is replaced by the digits of its number. -/
structure Contents (fm : FMath) (ρ : Den) (address : Int) (y : Area Value) (bs : Bytes) : Prop where
  length : bs.length = y.cells.length
  plain : ∀ i, (∀ h ∈ y.holes, Outside h i) → bs[i]? = (y.cells[i]?).map Cell.value
  values : ∀ h ∈ y.holes, ∃ v, h.expr.at fm ρ (address + h.offset) = some v ∧
    (bs.drop h.offset).take h.size.bytes = digits h.big h.size.bytes (u32 v)

end Verif.Program.Spec
