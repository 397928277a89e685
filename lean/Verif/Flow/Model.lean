import Verif.Lexer.Skip
/-!
# Control flow: conditions, repetitions, macros and included files

The assembler reads statements from a stack of contexts. Here a text is a list of statements, one for each line; how the
lines that are skipped are found in the characters of the text is the subject of `Verif/Lexer/Skip.lean`. What the other
statements do to the rest of the assembler, and how operands are evaluated, is a parameter. Errors and warnings after
which the assembler goes on are not recorded.
-/
namespace Verif.Flow

open Verif.Lexer (Dir skipTo isFalseBranch)

/-- The arguments of a macro; the first one is `\0`. -/
abbrev Args := List (Option (List Char))

/-- What the text of a statement depends on: the arguments of the macro and the unique value of the context. -/
structure View where
  args : Args
  unique : Nat
  deriving DecidableEq

/-- The rest of the assembler: `σ` is its state, `α` the operands of statements, as they are written. `reserved` says
whether a statement begins with a reserved word. -/
structure Sem (α σ : Type) where
  exec : View → α → σ → Outcome σ
  value : View → α → σ → Outcome (Int × σ)
  strings : View → α → σ → Outcome ((List Char × List Char) × σ)
  defined : View → α → σ → Outcome (Bool × σ)
  args : View → α → σ → Outcome (Args × σ)
  reserved : α → Bool

/-- The conditions (xasm/motor/tokens.h 148-157). -/
inductive Test where
  | ifc | ifnc | ifd | ifnd | «if» | ifeq | ifgt | ifge | iflt | ifle
  deriving DecidableEq

/-- The token of a condition. -/
def Test.dir : Test → Dir
  | .ifc => .ifc
  | .ifnc => .ifnc
  | .ifd => .ifd
  | .ifnd => .ifnd
  | .if => .if
  | .ifeq => .ifeq
  | .ifgt => .ifgt
  | .ifge => .ifge
  | .iflt => .iflt
  | .ifle => .ifle

/-- A statement. `define` is the first line of a macro, `blank` an empty line. -/
inductive Item (α : Type) where
  | blank
  | exec (a : α)
  | cond (t : Test) (a : α)
  | «else»
  | endc
  | rept (a : α)
  | endr
  | rexit
  | define (name : List Char)
  | endm
  | mexit
  | call (name : List Char) (a : α)
  | shift (a : α)
  | incl (name : List Char)

/-- The context types, with the number of repetitions that remain (xasm/motor/lexer_context.h 31-35, 76-85). -/
inductive Kind where
  | file
  | «macro»
  | rept (remaining : Nat)
  deriving DecidableEq

/-- A context: the statements behind the current one, the arguments and the number of the unique value. A repetition
shares the arguments of the context below it (`lexbuf_Copy`, xasm/motor/lexer_buffer.c 126-137, copies the pointer), so
that `args` is not used for it; the bookmark of a repetition is the context below it (xasm/motor/lexer_context.c
349-361). -/
structure Frame (α : Type) where
  kind : Kind
  items : List (Item α)
  args : Args
  unique : Nat

/-- The state: the stack of contexts, the macros, the number of the next unique value (`runId`, xasm/motor/lexer_buffer.c
28-33) and the rest. -/
structure State (α σ : Type) where
  frames : List (Frame α)
  macros : List Char → Option (List (Item α))
  next : Nat
  s : σ

variable {α σ : Type}

/-- The arguments of the innermost context that is not a repetition. -/
def ownerArgs : List (Frame α) → Args
  | [] => []
  | f :: fs => match f.kind with
    | .rept _ => ownerArgs fs
    | _ => f.args

/-- `lexbuf_ShiftArguments` (xasm/motor/lexer_buffer.c 119-124). -/
def shiftArgs : Nat → Args → Args
  | n + 1, a0 :: _ :: rest => shiftArgs n (a0 :: rest)
  | _, args => args

/-- `lexctx_ShiftMacroArgs`, `getThisContextMacro` (xasm/motor/lexer_context.c 94-105, 173-181). -/
def shiftFrames (count : Int) : List (Frame α) → List (Frame α)
  | [] => []
  | f :: fs => match f.kind with
    | .macro => { f with args := shiftArgs count.toNat f.args } :: fs
    | .rept _ => f :: shiftFrames count fs
    | .file => f :: fs

variable (sem : Sem α σ)

/-- The directive that a line shows to the code that skips text (xasm/motor/tokens.c 124-145). -/
def Item.dir : Item α → Option Dir
  | .blank => none
  | .exec a => if sem.reserved a then some (.other 1) else none
  | .cond t _ => some t.dir
  | .else => some .else
  | .endc => some .endc
  | .rept _ => some .rept
  | .endr => some .endr
  | .rexit => some (.other 2)
  | .define _ => some .macro
  | .endm => some .endm
  | .mexit => some (.other 3)
  | .call _ _ => none
  | .shift _ => some (.other 4)
  | .incl _ => some (.other 5)

/-- The first directive, and what follows it. -/
def firstDirective : List (Item α) → Option (Dir × List (Item α))
  | [] => none
  | i :: is => match i.dir sem with
    | some d => some (d, is)
    | none => firstDirective is

/-- `lex_GetNextDirective` on statements (xasm/motor/lexer.c 697-720). -/
def nextItem (s : Dir × List (Item α)) : Outcome (Bool × (Dir × List (Item α))) :=
  match firstDirective sem s.2 with
  | some (d, is) => .ok (true, (d, is))
  | none => .ok (false, (s.1, []))

/-- Skips statements up to a directive; `id` is the current token (xasm/motor/parse_block.c 48-90). If the number of
rounds is not enough the code does not end (see `Verif.Lexer.C34_endless`), which is not told apart from a failure. -/
def skipItems (stop : Dir → Bool) (id : Dir) (items : List (Item α)) : Outcome (Bool × List (Item α)) :=
  (skipTo Prod.fst (nextItem sem) (items.length + 2) stop (id, items)).bind fun (found, (_, rest)) => .ok (found, rest)

/-- The conditions and their values (xasm/motor/parse_directive.c 589-683 and 806-815). -/
def holds (t : Test) (v : View) (a : α) (s : σ) : Outcome (Bool × σ) :=
  match t with
  | .ifc => (sem.strings v a s).bind fun (p, s) => .ok (p.1 == p.2, s)
  | .ifnc => (sem.strings v a s).bind fun (p, s) => .ok (p.1 != p.2, s)
  | .ifd => (sem.defined v a s).bind fun (d, s) => .ok (d, s)
  | .ifnd => (sem.defined v a s).bind fun (d, s) => .ok (!d, s)
  | .if => (sem.value v a s).bind fun (n, s) => .ok (decide (n ≠ 0), s)
  | .ifeq => (sem.value v a s).bind fun (n, s) => .ok (decide (n = 0), s)
  | .ifgt => (sem.value v a s).bind fun (n, s) => .ok (decide (n > 0), s)
  | .ifge => (sem.value v a s).bind fun (n, s) => .ok (decide (n ≥ 0), s)
  | .iflt => (sem.value v a s).bind fun (n, s) => .ok (decide (n < 0), s)
  | .ifle => (sem.value v a s).bind fun (n, s) => .ok (decide (n ≤ 0), s)

/-- The conditions that fail if neither `ELSE` nor `ENDC` follows (`handleIfExpr`, xasm/motor/parse_directive.c 640-653;
`handleIfStrings` and `handleIfSymbol`, 589-638, do not look at the result). -/
def Test.strict : Test → Bool
  | .ifc | .ifnc | .ifd | .ifnd => false
  | _ => true

/-- The statements of a macro: up to and including `ENDM` (`parse_CopyMacroBlock`, xasm/motor/parse_block.c 152-165). -/
def copyBody (items : List (Item α)) : Outcome (List (Item α) × List (Item α)) :=
  (skipItems sem (· == .endm) (.other 0) items).bind fun (found, rest) =>
    if found then .ok (items.take (items.length - rest.length), rest) else .fail

/-- What a step leads to. -/
inductive Next (α σ : Type) where
  | more (st : State α σ)
  | done (st : State α σ)

/-- One statement (`parse_Until`, xasm/motor/parse.c 155-180, and the handlers of the directives). `files` are the files
that can be included. -/
def step (files : List Char → Option (List (Item α))) (st : State α σ) : Outcome (Next α σ) :=
  match st.frames with
  | [] => .ub
  | f :: below =>
    let v : View := ⟨ownerArgs st.frames, f.unique⟩
    let go (items : List (Item α)) : Outcome (Next α σ) := .ok (.more { st with frames := { f with items := items } :: below })
    match f.items with
    -- `lexctx_EndCurrentBuffer` (xasm/motor/lexer_context.c 260-275)
    | [] => match f.kind with
      | .rept _ => .fail
      | _ => if below.isEmpty then .ok (.done st) else .ok (.more { st with frames := below })
    | i :: rest => match i with
      | .blank => go rest
      | .exec a => (sem.exec v a st.s).bind fun s => .ok (.more { st with s := s, frames := { f with items := rest } :: below })
      -- xasm/motor/parse_directive.c 589-653
      | .cond t a => (holds sem t v a st.s).bind fun (c, s) =>
          if c then .ok (.more { st with s := s, frames := { f with items := rest } :: below })
          else (skipItems sem isFalseBranch .newline rest).bind fun (found, rest) =>
            if !found && t.strict then .fail
            else .ok (.more { st with s := s, frames := { f with items := rest } :: below })
      -- `handleElse`, `handleEndc` (xasm/motor/parse_directive.c 685-695)
      | .else => (skipItems sem (· == .endc) .else rest).bind fun (_, rest) => go rest
      | .endc => go rest
      -- `handleRept`, `lexctx_ProcessRepeatBlock` (xasm/motor/parse_directive.c 553-567, xasm/motor/lexer_context.c 349-361)
      | .rept a => (sem.value v a st.s).bind fun (n, s) =>
          if n > 0 then
            .ok (.more { st with
              s := s, next := (st.next + 1) % W32,
              frames := ⟨.rept (n.toNat - 1), rest, [], st.next⟩ :: { f with items := rest } :: below })
          else if n < 0 then .ok (.more { st with s := s, frames := { f with items := rest } :: below })
          else (skipItems sem (· == .endr) .newline rest).bind fun (found, rest) =>
            if found then .ok (.more { st with s := s, frames := { f with items := rest } :: below }) else .fail
      -- `handleEndr`, `lexctx_EndReptBlock` (xasm/motor/parse_directive.c 119-131, xasm/motor/lexer_context.c 241-258)
      | .endr => match f.kind, below with
        | .rept (n + 1), g :: _ => .ok (.more { st with
              next := (st.next + 1) % W32, frames := { f with kind := .rept n, items := g.items, unique := st.next } :: below })
        | .rept 0, g :: below => .ok (.more { st with frames := { g with items := rest } :: below })
        | .rept _, [] => .ub
        | _, _ => go rest
      -- `handleRexit` (xasm/motor/parse_directive.c 133-145); behind `ENDR` a token is read before the context is left
      | .rexit => match f.kind, below with
        | .rept _, g :: below => (skipItems sem (· == .endr) (.other 2) rest).bind fun (found, rest) =>
            if found && rest.isEmpty then .fail
            else .ok (.more { st with frames := { g with items := rest } :: below })
        | .rept _, [] => .ub
        | _, _ => go rest
      -- `parse_SymbolDefinition` (xasm/motor/parse_symbol.c 120-136); a macro cannot be defined twice
      | .define name => (copyBody sem rest).bind fun (body, rest) =>
          .ok (.more { st with
            macros := fun n => if n = name ∧ st.macros n = none then some body else st.macros n,
            frames := { f with items := rest } :: below })
      -- `handleMexit` (xasm/motor/parse_directive.c 147-155): outside of a macro no token is read
      | .endm => match f.kind with
        | .macro => if below.isEmpty then .ok (.done st) else .ok (.more { st with frames := below })
        | _ => .ok (.more st)
      | .mexit => match f.kind with
        | .macro => if below.isEmpty then .ok (.done st) else .ok (.more { st with frames := below })
        | _ => .ok (.more st)
      -- `handleMacroInvocation`, `lexctx_ProcessMacro` (xasm/motor/parse.c 73-91, xasm/motor/lexer_context.c 363-386)
      | .call name a => match st.macros name with
        | none => .fail
        | some body => (sem.args v a st.s).bind fun (args, s) =>
            .ok (.more { st with
              s := s, next := (st.next + 1) % W32,
              frames := ⟨.macro, body, args, st.next⟩ :: { f with items := rest } :: below })
      -- `handleShift` (xasm/motor/parse_directive.c 569-587)
      | .shift a => (sem.value v a st.s).bind fun (n, s) =>
          .ok (.more { st with s := s, frames := shiftFrames n ({ f with items := rest } :: below) })
      -- `lexctx_ProcessIncludeFile` (xasm/motor/lexer_context.c 334-347)
      | .incl name => match files name with
        | none => .fail
        | some items => .ok (.more { st with
            next := (st.next + 1) % W32, frames := ⟨.file, items, [], st.next⟩ :: { f with items := rest } :: below })

/-- Some steps: whether the end was reached, and the state. -/
def run (files : List Char → Option (List (Item α))) : Nat → State α σ → Outcome (Bool × State α σ)
  | 0, st => .ok (false, st)
  | n + 1, st => (step sem files st).bind fun
    | .more st => run files n st
    | .done st => .ok (true, st)

end Verif.Flow
