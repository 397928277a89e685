import Verif.CInt
import Verif.Bytes
/-!
# The librarian (`xlib/library.c`, `xlib/main.c`)
-/
namespace Verif.Library

/-- `SModule` (xlib/module.h 26-31) without the link; a library is a list of modules. -/
structure Module where
  name : Bytes
  data : Bytes
  deriving Repr, DecidableEq

/-- `MAXNAMELENGTH` (xlib/module.h 24). -/
def maxName : Nat := 256

def isSlash (b : UInt8) : Bool := b == 0x2F || b == 0x5C

/-- `truncateFileName` (xlib/library.c 44-54): what follows the last `/` or `\`, at most 255 bytes. -/
def truncateName (src : Bytes) : Bytes :=
  ((src.reverse.takeWhile (fun b => !isSlash b)).reverse).take (maxName - 1)

/-- The loop of `readLib0` (xlib/library.c 65-83): modules until the file is exhausted. `size` in the C code is
the number of bytes that remain, here the list itself. `fuel` bounds the number of modules; each takes at
least five bytes. A read beyond the end of the file is `none`; so is a name of 256 bytes or more, which
`fgetsz` cuts off in an unspecified way. -/
def readModules : Nat → Bytes → Option (List Module)
  | _, [] => some []
  | 0, _ => none
  | fuel + 1, bs =>
    match getSz bs with
    | none => none
    | some (name, bs) =>
      if name.length ≥ maxName then none
      else
      match get32le bs with
      | none => none
      | some (len, bs) =>
        match getN len bs with
        | none => none
        | some (data, bs) =>
          match readModules fuel bs with
          | none => none
          | some ms => some (⟨name, data⟩ :: ms)

/-- `"XLB\0"` -/
def magic : Bytes := [0x58, 0x4C, 0x42, 0]

/-- `lib_Read` (xlib/library.c 90-119) and `readLib0` (56-88) on the contents of a file. An empty file is an
empty library; anything malformed is `none`. -/
def libRead (file : Bytes) : Option (List Module) :=
  if file = [] then some []
  else
    match getN 4 file with
    | none => none
    | some (id, bs) =>
      if id = magic then
        if bs = [] then some []
        else
          match get32le bs with
          | none => none
          | some (_, bs) => readModules bs.length bs
      else none

/-- One module as `lib_Write` writes it (xlib/library.c 131-133). -/
def writeModule (m : Module) : Bytes := putSz m.name ++ put32le m.data.length ++ m.data

/-- `lib_Write` (xlib/library.c 121-146); the count is patched in at the end. -/
def libWrite (lib : List Module) : Bytes :=
  magic ++ put32le lib.length ++ lib.flatMap writeModule

/-- `lib_Find` (xlib/library.c 148-161) for an already truncated name. -/
def find (name : Bytes) : List Module → Option Module
  | [] => none
  | m :: ms => if m.name = name then some m else find name ms

/-- Replacing the data of the first module with that name (xlib/library.c 176-186). -/
def replace (name data : Bytes) : List Module → List Module
  | [] => []
  | m :: ms => if m.name = name then ⟨name, data⟩ :: ms else m :: replace name data ms

/-- `lib_AddReplace` (xlib/library.c 163-192). `contents = none`: the file cannot be opened, which is silently
ignored. A new module is put in front. -/
def addReplace (filename : Bytes) (contents : Option Bytes) (lib : List Module) : List Module :=
  match contents with
  | none => lib
  | some data =>
    let name := truncateName filename
    match find name lib with
    | none => ⟨name, data⟩ :: lib
    | some _ => replace name data lib

/-- `lib_DeleteModule` (xlib/library.c 194-223) for a truncated name. After unlinking the found module the loop
still executes `pp = &(*pp)->nextModule` and evaluates `*pp`; if the module was the last of the list, `*pp`
is NULL and this reads through an invalid pointer: undefined behaviour. Not found is a fatal error. -/
def deleteModule (name : Bytes) : List Module → Outcome (List Module)
  | [] => .fail
  | m :: ms =>
    if m.name = name then
      match ms with
      | [] => .ub
      | _ :: _ => .ok ms
    else
      match deleteModule name ms with
      | .ok ms' => .ok (m :: ms')
      | .fail => .fail
      | .ub => .ub

/-- A librarian command (xlib/main.c 99-122). File contents are given with the file names. -/
inductive Cmd where
  | add (files : List (Bytes × Option Bytes))
  | delete (files : List Bytes)
  deriving Repr

/-- `handleDeleteCommand`'s loop (xlib/main.c 62-67). -/
def deleteAll : List Bytes → List Module → Outcome (List Module)
  | [], lib => .ok lib
  | f :: fs, lib =>
    match deleteModule (truncateName f) lib with
    | .ok lib' => deleteAll fs lib'
    | .fail => .fail
    | .ub => .ub

/-- Applying a command to a library in memory (xlib/main.c 50-68). -/
def apply (c : Cmd) (lib : List Module) : Outcome (List Module) :=
  match c with
  | .add files => .ok (files.foldl (fun l f => addReplace f.1 f.2 l) lib)
  | .delete files => deleteAll files lib

/-- One run of `xlib` (xlib/main.c 124-143): read the library file, apply the command, write it back. A
missing file is an empty one. A fatal error leaves the file alone. -/
def session (c : Cmd) (file : Bytes) : Outcome Bytes :=
  match libRead file with
  | none => .fail
  | some lib =>
    match apply c lib with
    | .ok lib' => .ok (libWrite lib')
    | .fail => .fail
    | .ub => .ub

/-- The extract command (xlib/main.c 77-97): the contents written for a module. -/
def extract (filename : Bytes) (file : Bytes) : Option Bytes :=
  match libRead file with
  | none => none
  | some lib => (find (truncateName filename) lib).map Module.data

end Verif.Library
