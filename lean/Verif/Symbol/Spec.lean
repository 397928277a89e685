import Verif.Symbol.Model
/-!
# A dictionary of names

What the symbol table is for. A symbol is known by its path: its name, the name of the symbol it is local to, and so on.
-/
namespace Verif.Symbol.Spec
open Verif.Section (Label)

/-- Innermost name first. -/
abbrev Path := List String

/-- What a name stands for. -/
inductive Def where
  | unknown
  | label (sect : Option Nat) (offset : Int)
  | constant (v : Int)
  | variable (v : Int)
  | text (t : String)
  | macro (t : String)
  | imported
  | group (bss : Bool)
  | shared
  | struct (v : Int)
  deriving Repr, DecidableEq

structure Entry where
  d : Def := .unknown
  exported : Bool := false
  builtin : Bool := false
  deriving Repr, DecidableEq

/-- `cur` is the scope of local names, `stack` holds those that were put aside, `rs` tells whether the counter is in use,
`early` whether the symbols are made by the assembler itself. -/
structure World where
  entries : List (Path × Entry) := []
  cur : Path := []
  stack : List Path := []
  rs : Bool := false
  early : Bool := false
  errors : Nat := 0
  deriving Repr, DecidableEq

namespace World

def get (p : Path) (w : World) : Option Entry := (w.entries.find? fun e => e.1 == p).map (·.2)

def put (p : Path) (e : Entry) (w : World) : World := { w with entries := (p, e) :: w.entries.filter fun x => x.1 ≠ p }

def erase (p : Path) (w : World) : World := { w with entries := w.entries.filter fun x => x.1 ≠ p }

/-- A name that has not been seen yet. -/
def fresh (w : World) : Entry := { builtin := w.early }

def entry (p : Path) (w : World) : Entry := (w.get p).getD w.fresh

def touch (p : Path) (w : World) : World := w.put p (w.entry p)

/-- A mistake is reported and has no other effect. -/
def fail (w : World) : World := { w with errors := w.errors + 1 }

end World

def isLocal (name : String) : Bool :=
  match name.toList with
  | [] => false
  | c :: cs => c = '.' || c = '$' || (c :: cs).getLast? = some '$'

/-- Local names belong to the current scope. -/
def resolve (name : String) (w : World) : Path := if isLocal name then name :: w.cur else [name]

/-- The name has a meaning from now on; it is exported if that was announced. -/
def define (p : Path) (d : Def) (w : World) : World :=
  let e := w.entry p
  w.put p { e with d := d, exported := e.exported || e.d = .shared }

/-- Global names begin a new scope. -/
def enter (name : String) (w : World) : World := if isLocal name then w else { w with cur := [name] }

inductive Result where
  | good (w : World)
  | outside
  deriving Repr, DecidableEq

def Result.bind : Result → (World → Result) → Result
  | .good w, f => f w
  | .outside, _ => .outside

def set (name : String) (v : Int) (w : World) : World :=
  match (w.entry (resolve name w)).d with
  | .unknown | .variable _ => enter name (define (resolve name w) (.variable v) w)
  | _ => w.fail

def struct (name : String) (v : Int) (w : World) : World :=
  match (w.entry (resolve name w)).d with
  | .unknown => enter name (define (resolve name w) (.struct v) w)
  | _ => w.fail

/-- String symbols and macros. -/
def textual (name : String) (d : Def) (w : World) : World :=
  match (w.entry (resolve name w)).d with
  | .unknown => define (resolve name w) d w
  | _ => w.fail

/-- A mistake that concerns a symbol made by the assembler itself is not considered. -/
def refuse (p : Path) (w : World) : Result := if (w.entry p).builtin then .outside else .good w.fail

def constant (name : String) (v : Int) (w : World) : Result :=
  match (w.entry (resolve name w)).d with
  | .unknown | .shared => .good (enter name (define (resolve name w) (.constant v) w))
  | _ => refuse (resolve name w) w

/-- A label needs a section. -/
def label (name : String) (l : Option Label) (w : World) : Result :=
  match (w.entry (resolve name w)).d, l with
  | .unknown, none => .good (w.touch (resolve name w)).fail
  | .shared, none => .outside
  | .unknown, some l | .shared, some l => .good (enter name (define (resolve name w)
      (match l with
        | .constant v => .constant (if v < 2 ^ 31 then v else v - 2 ^ 32)
        | .inside i n => .label (some i) n) w))
  | _, _ => .good w.fail

def group (name : String) (bss : Bool) (w : World) : World :=
  match w.get [name] with
  | none => define [name] (.group bss) w
  | some e => if e.d = .group bss then w else w.fail

def mark (p : Path) (w : World) : World := w.put p { w.entry p with exported := true }

def exports (name : String) (w : World) : Result :=
  let p := resolve name w
  match (w.entry p).d with
  | .unknown | .label _ _ | .constant _ | .group _ => .good (mark p w)
  | _ => refuse p w

def imports (name : String) (w : World) : World :=
  match (w.entry (resolve name w)).d with
  | .unknown => define (resolve name w) .imported w
  | _ => w.fail

/-- Exported if it is defined in this file, imported otherwise. -/
def global (name : String) (w : World) : Result :=
  let p := resolve name w
  match (w.entry p).d with
  | .unknown => .good (define p .shared w)
  | .label _ _ | .constant _ | .group _ => .good (mark p w)
  | _ => refuse p w

def hasLocals (p : Path) (w : World) : Bool := w.entries.any fun e => e.1.tail == p

/-- A symbol with local symbols, or that is in use otherwise, is not removed. -/
def purge (name : String) (w : World) : Result :=
  let p := resolve name w
  match w.get p with
  | none => .good w
  | some _ => if hasLocals p w ∨ p = w.cur ∨ p ∈ w.stack ∨ (w.rs ∧ p = ["__RS"]) then .outside else .good (w.erase p)

/-- The value of the counter. On its first use the counter is 0, and begins a scope. -/
def counter (w : World) : Option (Int × World) :=
  if w.rs then
    match (w.entry ["__RS"]).d with
    | .variable v => some (v, w)
    | _ => none
  else
    match (w.entry ["__RS"]).d with
    | .unknown | .variable _ => some (0, { enter "__RS" (define ["__RS"] (.variable 0) w) with rs := true })
    | _ => none

def setCounter (v : Int) (w : World) : Result :=
  match counter w with
  | some (_, w) => .good (define ["__RS"] (.variable v) w)
  | none => .outside

def fits (v : Int) : Prop := -2 ^ 31 ≤ v ∧ v < 2 ^ 31

instance (v : Int) : Decidable (fits v) := inferInstanceAs (Decidable (_ ∧ _))

/-- The value of the counter, which then moves on. -/
def advance (size : Int) (w : World) : Option (Int × World) :=
  match counter w with
  | some (v, w) => if fits (v + size) then some (v, define ["__RS"] (.variable (v + size)) w) else none
  | none => none

/-- A symbol for the counter. Names with a dot are fields of a structure, the size of which grows. -/
def field (name : String) (multiplier : Nat) (count : Int) (w : World) : Result :=
  if fits (multiplier * count) then
    let grow (w : World) (f : World → Result) : Result :=
      match advance (multiplier * count) w with
      | some (v, w) => f (set name v w)
      | none => .outside
    if name.toList.head? = some '.' then
      match (w.entry w.cur).d with
      | .struct _ => grow w fun w =>
        match (w.entry w.cur).d with
        | .struct v => if fits (v + multiplier * count) then .good (define w.cur (.struct (v + multiplier * count)) w) else .outside
        | _ => .outside
      | _ => .good w.fail
    else grow w .good
  else .outside

def begin_ (name : String) (v : Int) (w : World) : Result :=
  (setCounter v w).bind fun w => .good (if name.toList.head? = some '.' then set name v w else struct name v w)

/-- A structure stands for the value of the counter at its end. -/
def end_ (w : World) : Result :=
  match (w.entry w.cur).d with
  | .struct _ =>
    if w.rs then
      match (w.entry ["__RS"]).d with
      | .variable v => .good { define w.cur (.struct v) w with cur := [] }
      | _ => .outside
    else .good { w with cur := [] }
  | _ => .good w.fail

/-- Names in expressions: `name.more.more`. -/
def mention : List String → Path → World → World
  | [], p, w => w.touch p
  | n :: ns, p, w => mention ns (n :: p) (w.touch p)

def step (op : Op) (w : World) : Result :=
  match op with
  | .equ n v => constant n v w
  | .set n v => .good (set n v w)
  | .equs n t => .good (textual n (.text t) w)
  | .macro n t => .good (textual n (.macro t) w)
  | .label n l => label n l w
  | .group n b => .good (group n b w)
  | .export_ n => exports n w
  | .import_ n => .good (imports n w)
  | .global n => global n w
  | .purge n => purge n w
  | .rsset v => setCounter v w
  | .rsskip m c =>
    if fits (c * m) then
      match advance (c * m) w with
      | some (_, w) => .good w
      | none => .outside
    else .outside
  | .rsbegin n v => begin_ n v w
  | .rsfield n m c => field n m c w
  | .rsend => end_ w
  | .push => .good { w with stack := w.cur :: w.stack }
  | .pop =>
    match w.stack with
    | p :: ps => .good { w with cur := p, stack := ps }
    | [] => .good w.fail
  | .mention n more => .good (mention more (resolve n w) w)

def run : List Op → World → Result
  | [], w => .good w
  | op :: ops, w => (step op w).bind fun w => run ops w

end Verif.Symbol.Spec
