import Verif.Library.Model
/-!
# What the librarian is supposed to do

A library is a finite map from module names to contents. The name of a module is the last component of the
path of the file it came from.
-/
namespace Verif.Library

/-- `k` is the name under which the file `f` is stored: the part of the path after the last slash, of which the
first 255 bytes count. -/
def NameOf (f k : Bytes) : Prop :=
  ∃ dir base, f = dir ++ base ∧ (∀ b ∈ base, isSlash b = false) ∧
    (dir = [] ∨ ∃ d s, dir = d ++ [s] ∧ isSlash s = true) ∧ k = base.take 255

/-- A path is a C string. -/
def PathOk (f : Bytes) : Prop := (0 : UInt8) ∉ f

/-- Everything in the command can be stored: paths are C strings and files are shorter than 4 GiB. -/
def Cmd.Ok : Cmd → Prop
  | .add files => ∀ f ∈ files, PathOk f.1 ∧ ∀ d, f.2 = some d → d.length < 4294967296
  | .delete files => ∀ f ∈ files, PathOk f

/-- A module that the file format can hold. -/
def Module.Ok (m : Module) : Prop :=
  (0 : UInt8) ∉ m.name ∧ m.name.length < 256 ∧ m.data.length < 4294967296

/-- No two modules share a name. -/
def Distinct (lib : List Module) : Prop := (lib.map Module.name).Nodup

/-- The abstract library: the contents stored under each name. -/
abbrev Store := Bytes → Option Bytes

def Store.empty : Store := fun _ => none

/-- Change what is stored under one name. -/
def Store.set (s : Store) (k : Bytes) (v : Option Bytes) : Store := fun k' => if k' = k then v else s k'

/-- Adding files: each readable file is stored under its name, the last one winning. -/
def Store.addAll : List (Bytes × Option Bytes) → Store → Store
  | [], s => s
  | (_, none) :: fs, s => Store.addAll fs s
  | (f, some d) :: fs, s => Store.addAll fs (s.set (truncateName f) (some d))

/-- Deleting modules: each has to be there. -/
def Store.deleteAll : List Bytes → Store → Option Store
  | [], s => some s
  | f :: fs, s =>
    match s (truncateName f) with
    | none => none
    | some _ => Store.deleteAll fs (s.set (truncateName f) none)

/-- The effect of a command; `none` is an error message. -/
def Store.apply : Cmd → Store → Option Store
  | .add files, s => some (s.addAll files)
  | .delete files, s => s.deleteAll files

/-- The effect of a sequence of commands up to the first error. -/
def Store.run : List Cmd → Store → Option Store
  | [], s => some s
  | c :: cs, s =>
    match s.apply c with
    | none => none
    | some s' => Store.run cs s'

/-- Running `xlib` repeatedly on the same library file. -/
def sessions : List Cmd → Bytes → Outcome Bytes
  | [], file => .ok file
  | c :: cs, file =>
    match session c file with
    | .ok file' => sessions cs file'
    | .fail => .fail
    | .ub => .ub

/-- The library file `file` holds exactly the contents of `s`. -/
def Holds (file : Bytes) (s : Store) : Prop :=
  ∃ lib, libRead file = some lib ∧ Distinct lib ∧
    ∀ k v, (∃ m ∈ lib, m.name = k ∧ m.data = v) ↔ s k = some v

end Verif.Library
