import Verif.Config.Model
/-!
# The command line of the linker (`xlink/main.c`)

An option is the text behind the dash. What a memory layout file sets up is a parameter, see `Verif/Layout`.
-/
namespace Verif.Config

/-- The variables that options set (xlink/main.c 58-70). `choice` stands for `g_targetDefined` (when there is one), the
memory map, `g_allowedFormats` and `g_cbmHeaderAddress`. -/
structure Opts where
  choice : Option Choice := none
  format : Option Format := none
  smart : Option (List Char) := none
  entry : Option (List Char) := none
  map : Option (List Char) := none
  list : Option (List Char) := none
  output : Option (List Char) := none

/-- `tolower` in the C locale. -/
def lower (c : Char) : Char := if 'A' ≤ c ∧ c ≤ 'Z' then Char.ofNat (c.toNat + 32) else c

/-- The part common to options `a`, `c` and `t`: there may be only one of them. -/
def setChoice (o : Opts) (ch : Outcome Choice) : Outcome Opts :=
  match o.choice with
  | some _ => .fail
  | none =>
    match ch with
    | .ok ch =>
      match ch.cfg with
      | .ok _ => .ok { o with choice := some ch, format := ch.format <|> o.format }
      | .fail => .fail
      | .ub => .ub
    | .fail => .fail
    | .ub => .ub

/-- An entry of a table of option names. -/
def named {α : Type} (t : List (String × α)) (name : List Char) : Outcome α :=
  match t.find? (fun x => x.1.toList == name) with
  | some x => .ok x.2
  | none => .fail

/-- An argument that must not be empty. -/
def nonEmpty (arg : List Char) (o : Opts) : Outcome Opts := if arg = [] then .fail else .ok o

/-- `handleOption` (xlink/main.c 470-563). `-h` prints a text and exits. `readLayout` is `mdef_Read`. -/
def handleOption (readLayout : List Char → Outcome Choice) (o : Opts) : List Char → Outcome Opts
  | [] => .fail
  | c :: arg =>
    match lower c with
    | 'a' => setChoice o (readLayout (arg.map lower))
    | 'c' => setChoice o (named configOption (arg.map lower))
    | 'e' => nonEmpty arg { o with entry := some arg }
    | 'f' =>
      match named formatOption (arg.map lower) with
      | .ok f => .ok { o with format := some f }
      | _ => .fail
    | 'l' => nonEmpty arg { o with list := some arg }
    | 'm' => nonEmpty arg { o with map := some arg }
    | 'o' => nonEmpty arg { o with output := some arg }
    | 's' => nonEmpty arg { o with smart := some arg, entry := o.entry <|> some arg }
    | 't' => setChoice o (named targetOption (arg.map lower))
    | _ => .fail

/-- The loop over the options (xlink/main.c 573-577). -/
def handleOptions (readLayout : List Char → Outcome Choice) : Opts → List (List Char) → Outcome Opts
  | o, [] => .ok o
  | o, a :: as =>
    match handleOption readLayout o a with
    | .ok o' => handleOptions readLayout o' as
    | .fail => .fail
    | .ub => .ub

/-- The checks that follow (xlink/main.c 579-589, 603-605). -/
def checkOptions (o : Opts) : Outcome (Cfg × Format) :=
  match o.choice with
  | none => .fail
  | some ch =>
    match ch.cfg with
    | .ok c =>
      match o.format with
      | none => .fail
      | some f =>
        if f ∉ ch.allowed then .fail
        else if supportsReloc f && (o.map.isSome || o.list.isSome) then .fail
        else if needsOverlay c && !supportsOverlay f then .fail
        else .ok (c, f)
    | .fail => .fail
    | .ub => .ub

/-- Can the memory map be used with the output format? `format` is the one of an option `-f` that comes later. -/
def accept (ch : Choice) (format : Option Format) : Outcome (Cfg × Format) :=
  checkOptions { choice := some ch, format := format <|> ch.format }

/-- Options and checks together. -/
def commandLine (readLayout : List Char → Outcome Choice) (args : List (List Char)) : Outcome (Opts × Cfg × Format) :=
  match handleOptions readLayout {} args with
  | .ok o =>
    match checkOptions o with
    | .ok r => .ok (o, r)
    | .fail => .fail
    | .ub => .ub
  | .fail => .fail
  | .ub => .ub

end Verif.Config
