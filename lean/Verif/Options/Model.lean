import Verif.Cpu.X65.Model
/-!
# Options and their stack

The options of the assembler are set on the command line and by `OPT`; `PUSHO` and `POPO` save and restore them. The part that
belongs to the processor is a parameter: its options, what one of them does, and what happens whenever the options have changed
(`onOptionsUpdated`), such as the definition of words.
-/
namespace Verif.Options

/-- The functions of the library that read numbers: `decimalToInt` and `hexToInt` (util, which is not in the checkout) give nothing
if the text is no number; `strtol` always gives a number. -/
structure Lib where
  dec : List Char → Option Int
  hex : List Char → Option Nat
  strtol : List Char → Int

/-- `SOptions` (xasm/motor/options.h 33-53) without the link. The first `disabledWarningsCount` elements of the array are a list.
Whether words may be labels and groups are created is set before the source is read and not by options. -/
structure Opts (M : Type) where
  big : Bool
  digits : List Char
  pixels : List Char
  fill : Nat
  align : Int
  disabled : List Nat
  debug : Bool
  machine : M

/-- The functions of `SConfiguration` that deal with options, and directives of the processor that set some (`D`). `E` is what
`onOptionsUpdated` changes besides the options. -/
structure Cfg (M E D : Type) where
  /-- The options, the characters for graphics, and the messages. -/
  parse : Lib → List Char → M × List Char → M × List Char × List Nat
  updated : M → E → Outcome (M × E)
  directive : D → M → M × List Nat

/-- `opt_Current` with the list behind it, the paths for files (xasm/motor/includes.c 32), what belongs to the processor, and the
numbers of the messages, the last one first. -/
structure State (M E : Type) where
  cur : Opts M
  saved : List (Opts M)
  paths : List (List Char)
  env : E
  messages : List Nat

variable {M E D : Type}

/-- `WARN_OPTION` and `WARN_OPTION_POP` (xasm/motor/errors.h 24-27). -/
abbrev warnOption : Nat := 1
abbrev warnPop : Nat := 2

/-- `WARN_MACHINE_UNKNOWN_OPTION` (xasm/motor/errors.h 32). -/
abbrev warnMachine : Nat := 7

/-- `warningEnabled`, `err_Warn` (xasm/motor/errors.c 279-298). -/
def warn (n : Nat) (s : State M E) : State M E := if n ∈ s.cur.disabled then s else {s with messages := n :: s.messages}

/-- `handleDisableWarning` (xasm/motor/options.c 35-44). The number is cut to 16 bits. -/
def disable (lib : Lib) (t : List Char) (o : Opts M) : Option (Opts M) :=
  if o.disabled.length < 32 then (lib.dec t).map fun n => {o with disabled := o.disabled ++ [(n % 65536).toNat]} else none

/-- `handleEndianness` (xasm/motor/options.c 53-65) with the character behind the letter, which is 0 at the end. -/
def endianness (t : List Char) (o : Opts M) : Option (Opts M) :=
  match t with
  | 'b' :: _ => some {o with big := true}
  | 'l' :: _ => some {o with big := false}
  | _ => none

/-- `handleBinaryLiteralChars` (xasm/motor/options.c 67-76). -/
def binary (t : List Char) (o : Opts M) : Option (Opts M) := if t.length = 2 then some {o with digits := t} else none

/-- `handleUnitializedFill` (xasm/motor/options.c 78-97). If `hexToInt` finds no number, the byte is that of a variable which has
not been set: this is undefined here. -/
def fill (lib : Lib) (t : List Char) (o : Opts M) : Outcome (Option (Opts M)) :=
  if (t.takeWhile fun c => c ≠ ' ' ∧ c ≠ '\t').length ≤ 2 then
    if t = ['?'] then .ok (some {o with fill := 0xFF})
    else match lib.hex t with
      | some v => .ok (some {o with fill := v % 256})
      | none => .ub
  else .ok none

/-- The option is set, or there is a warning. -/
def apply (o : Option (Opts M)) (s : State M E) : State M E :=
  match o with
  | some o => {s with cur := o}
  | none => warn warnOption s

/-- `inc_AddIncludePath` (xasm/motor/includes.c 104-119). An empty path has no last character. -/
def addPath (t : List Char) (s : State M E) : Outcome (State M E) :=
  match t.getLast? with
  | none => .ub
  | some c => .ok {s with paths := s.paths ++ [if c = '\\' ∨ c = '/' then t else t ++ ['/']]}

/-- The messages of a processor about one of its options: `WARN_MACHINE_UNKNOWN_OPTION` can be switched off, all others are errors. -/
def given (disabled ms : List Nat) : List Nat := ms.filter fun n => n ≠ warnMachine ∨ n ∉ disabled

/-- `opt_Parse` (xasm/motor/options.c 139-184). A number that cannot be read leaves the alignment as it is. -/
def parse (cfg : Cfg M E D) (lib : Lib) (t : List Char) (s : State M E) : Outcome (State M E) :=
  match t with
  | 'a' :: t => .ok (apply ((lib.dec t).map fun n => {s.cur with align := n}) s)
  | 'b' :: t => .ok (apply (binary t s.cur) s)
  | 'e' :: t => .ok (apply (endianness t s.cur) s)
  | 'g' :: _ => .ok {s with cur := {s.cur with debug := true}}
  | 'i' :: t => addPath t s
  | 'm' :: t =>
    let r := cfg.parse lib t (s.cur.machine, s.cur.pixels)
    .ok {s with cur := {s.cur with machine := r.1, pixels := r.2.1}, messages := given s.cur.disabled r.2.2 ++ s.messages}
  | 'w' :: t => .ok (apply (disable lib t s.cur) s)
  | 'z' :: t => (fill lib t s.cur).bind fun o => .ok (apply o s)
  | _ => .ok (warn warnOption s)

/-- `opt_Updated` (xasm/motor/options.c 218-221). -/
def updated (cfg : Cfg M E D) (s : State M E) : Outcome (State M E) :=
  (cfg.updated s.cur.machine s.env).bind fun r => .ok {s with cur := {s.cur with machine := r.1}, env := r.2}

def parseAll (cfg : Cfg M E D) (lib : Lib) : List (List Char) → State M E → Outcome (State M E)
  | [], s => .ok s
  | t :: ts, s => (parse cfg lib t s).bind fun s => parseAll cfg lib ts s

/-- What a source can do with options. -/
inductive Dir (D : Type) where
  | push
  | pop
  | opt (ts : List (List Char))
  | machine (d : D)

/-- `opt_Push`, `opt_Pop` (xasm/motor/options.c 117-137), `handleOpt` (xasm/motor/parse_directive.c 711-728) and the directives of
the processor. `copyOptions` (xasm/motor/options.c 107-115) copies everything; so do the functions of all processors, for
instance `x65_CopyOptions` (xasm/6502/x65_options.c 42-45). The texts of `OPT` are strings. -/
def step (cfg : Cfg M E D) (lib : Lib) (d : Dir D) (s : State M E) : Outcome (State M E) :=
  match d with
  | .push => .ok {s with saved := s.cur :: s.saved}
  | .pop =>
    match s.saved with
    | o :: os => updated cfg {s with cur := o, saved := os}
    | [] => .ok (warn warnPop s)
  | .opt ts => (parseAll cfg lib ts s).bind (updated cfg)
  | .machine d =>
    let r := cfg.directive d s.cur.machine
    .ok {s with cur := {s.cur with machine := r.1}, messages := r.2 ++ s.messages}

def run (cfg : Cfg M E D) (lib : Lib) : List (Dir D) → State M E → Outcome (State M E)
  | [], s => .ok s
  | d :: ds, s => (step cfg lib d s).bind fun s => run cfg lib ds s

/-! ### The 6502 and its successors -/

open Verif.Cpu

/-- The table of words with the last definition first, and `g_previousCpu`, `g_previousUndocumented`
(xasm/6502/x65_options.c 35-36). The table has hash chains in the program; each is the part of the list that has its hash. -/
structure Words where
  list : List (String × X65.T)
  cpu : X65.Cpu
  undocumented : Nat

/-- `lex_ConstantsDefineWords` (xasm/motor/lexer_constants.c 199-228). The assertions are left out. -/
def define (ws l : List (String × X65.T)) : List (String × X65.T) := ws.foldl (fun l w => w :: l) l

/-- `lex_ConstantsUndefineWords` (xasm/motor/lexer_constants.c 177-197). A word that is not found is an internal error. -/
def undefine : List (String × X65.T) → List (String × X65.T) → Outcome (List (String × X65.T))
  | [], l => .ok l
  | w :: ws, l => if w ∈ l then undefine ws (l.erase w) else .fail

/-- The words that belong to a processor (xasm/6502/x65_options.c 68-82). -/
def extra (c : X65.Cpu) (u : Nat) : List (String × X65.T) :=
  if c.is4510 then Verif.Cpu.X65.words4510 else if c = .c6502 then Verif.Cpu.X65.undocumented u else []

/-- `x65_OptionsUpdated` (xasm/6502/x65_options.c 63-90). -/
def x65Updated (o : X65.Opts) (w : Words) : Outcome (X65.Opts × Words) :=
  if w.cpu = o.cpu ∧ w.undocumented = o.undocumented then .ok (o, w)
  else
    (undefine (extra w.cpu w.undocumented) w.list).bind fun l =>
    .ok (if o.cpu.is4510 then o else {o with bp := 0}, ⟨define (extra o.cpu o.undocumented) l, o.cpu, o.undocumented⟩)

/-- The errors of the 6502 (xasm/6502/x65_errors.h 24-36), as numbers that are not those of warnings above. -/
abbrev x65Message : Nat := 1000

/-- The test behind the options `u` and `c` (xasm/6502/x65_options.c 136-141). -/
def x65Check (o : X65.Opts) : List Nat := if o.cpu ≠ .c6502 ∧ o.undocumented ≠ 0 then [x65Message] else []

/-- `x65_ParseOption` (xasm/6502/x65_options.c 92-142). All errors have one number here. -/
def x65Parse (lib : Lib) (t : List Char) (o : X65.Opts) : X65.Opts × List Nat :=
  match t with
  | [] => (o, [])
  | 'u' :: t =>
    let n := lib.strtol t
    if 0 ≤ n ∧ n ≤ 3 then
      let o := {o with undocumented := n.toNat}
      (o, x65Check o)
    else (o, [x65Message])
  | 'c' :: t =>
    match Verif.Cpu.X65.Cpu.ofNum (lib.strtol t) with
    | some c =>
      let o := {o with cpu := c, m16 := c = .c65816, x16 := c = .c65816, allowed := c.allowed, undocumented := 0}
      (o, x65Check o)
    | none => (o, [x65Message])
  | 's' :: t => if t.length = 1 then ({o with synthesized := t = ['1']}, []) else (o, [warnMachine])
  | _ => (o, [warnMachine])

/-- `BITS` with the values of its expressions, where there is one, and `SETBP`. -/
inductive X65Dir where
  | bits (m x : Option Int)
  | setBp (n : Int)

/-- `parseBitsWidth` (xasm/6502/x65_parse.c 34-50). -/
def x65Width (n : Int) : Bool × List Nat := (n = 16, if n = 8 ∨ n = 16 then [] else [x65Message])

/-- `parseBITS` and `SETBP` (xasm/6502/x65_parse.c 52-71, 102-121). -/
def x65Directive (d : X65Dir) (o : X65.Opts) : X65.Opts × List Nat :=
  match d with
  | .bits m x =>
    if o.cpu = .c65816 then
      ({o with m16 := (m.map fun n => (x65Width n).1).getD o.m16, x16 := (x.map fun n => (x65Width n).1).getD o.x16},
        (x.map fun n => (x65Width n).2).getD [] ++ (m.map fun n => (x65Width n).2).getD [])
    else (o, [x65Message])
  | .setBp n =>
    if o.cpu.is4510 then ({o with bp := n}, if n % 256 = 0 then [] else [x65Message]) else (o, [x65Message])

def x65 : Cfg X65.Opts Words X65Dir :=
  ⟨fun lib t o => let r := x65Parse lib t o.1; (r.1, o.2, r.2), x65Updated, x65Directive⟩

/-! ### The 680x0 -/

/-- `SMachineOptions` of the 680x0 (xasm/680x0/m68k_options.h 52-57); processors and coprocessors are bits, the platforms have the
numbers of the enumeration. -/
structure M68k where
  cpu : Nat
  fpu : Nat
  platform : Nat
  trackMovem : Bool

/-- The groups that exist, and how many errors `onOptionsUpdated` has reported. -/
structure Groups where
  names : List String
  errors : Nat

/-- The groups of a platform (xasm/680x0/m68k_symbols.c 53-74). -/
def platformGroups : Nat → List String
  | 1 => ["CODE_C", "DATA_C", "BSS_C"]
  | 3 => ["DATA_VA", "BSS_VA", "DATA_VB", "BSS_VB", "DATA_D", "BSS_D"]
  | _ => []

/-- The number of errors in `m68k_OptionsUpdated` (xasm/680x0/m68k_options.c 53-61). -/
def m68kErrors (o : M68k) : Nat :=
  (if o.fpu &&& 1 ≠ 0 ∧ o.cpu &&& 0x0C = 0 then 1 else 0) + (if o.fpu &&& 2 ≠ 0 ∧ o.cpu &&& 0x10 = 0 then 1 else 0) +
    (if o.fpu &&& 8 ≠ 0 ∧ o.cpu &&& 0x20 = 0 then 1 else 0)

/-- `m68k_OptionsUpdated` (xasm/680x0/m68k_options.c 51-64). A group is created once (`sym_CreateGroup`, xasm/motor/symbol.c
340-355); that its name may be in use is left out. -/
def m68kUpdated (o : M68k) (g : Groups) : Outcome (M68k × Groups) :=
  .ok (o, ⟨g.names ++ (platformGroups o.platform).filter (· ∉ g.names), g.errors + m68kErrors o⟩)

/-- `m68k_ParseOption` (xasm/680x0/m68k_options.c 66-167); the message is `WARN_MACHINE_UNKNOWN_OPTION`. -/
def m68kParse (t : List Char) (o : M68k) : M68k × List Nat :=
  match t with
  | [] => (o, [])
  | ['c', '0'] => ({o with cpu := 1}, [])
  | ['c', '1'] => ({o with cpu := 2}, [])
  | ['c', '2'] => ({o with cpu := 4}, [])
  | ['c', '3'] => ({o with cpu := 8}, [])
  | ['c', '4'] => ({o with cpu := 0x10}, [])
  | ['c', '6'] => ({o with cpu := 0x20}, [])
  | ['c', '8'] => ({o with cpu := 0x40}, [])
  | ['f', '1'] | ['f', '2'] | ['f', 'x'] => ({o with fpu := 1}, [])
  | ['f', '4'] => ({o with fpu := 2}, [])
  | ['f', '6'] => ({o with fpu := 8}, [])
  | ['f', '8'] => ({o with fpu := 0x20}, [])
  | ['g', 'a'] => ({o with platform := 1}, [])
  | ['g', 'f'] => ({o with platform := 3}, [])
  | ['g', 'g'] => ({o with platform := 0}, [])
  | ['g', 's'] => ({o with platform := 2}, [])
  | ['m', 'y'] | ['m', 'Y'] => ({o with trackMovem := true}, [])
  | ['m', 'n'] | ['m', 'N'] => ({o with trackMovem := false}, [])
  | _ => (o, [warnMachine])

/-- The directives for processors and coprocessors (xasm/680x0/m68k_parse_directive.c 31-77), with the bit that they set. -/
inductive M68kDir where
  | cpu (bit : Nat)
  | fpu (bit : Nat)

def m68kDirective : M68kDir → M68k → M68k × List Nat
  | .cpu b, o => ({o with cpu := b}, [])
  | .fpu b, o => ({o with fpu := b}, [])

def m68k : Cfg M68k Groups M68kDir :=
  ⟨fun _ t o => let r := m68kParse t o.1; (r.1, o.2, r.2), m68kUpdated, m68kDirective⟩

/-- `m68k_SetDefaults` (xasm/680x0/m68k_options.c 43-49), `m68k_DefineSymbols` (xasm/680x0/m68k_symbols.c 40-51) and `opt_Open`
(xasm/motor/options.c 186-206) with the configuration in xasm/680x0/m68k_main.c 30-37. -/
def m68kStart : State M68k Groups :=
  ⟨⟨true, ['0', '1'], ['0', '1', '2', '3'], 0xFF, 8, [], false, ⟨1, 0, 0, false⟩⟩, [], [], ⟨["CODE", "DATA", "BSS"], 0⟩, []⟩

end Verif.Options
