import Verif.Object.Model
/-!
# The object file format

The seven versions of the format, following the comment at the top of `xlink/object.c` (lines 19-86), and what
the linker is supposed to know after reading such a file.
-/
namespace Verif.Object

/-! ### The format -/

/-- A field that exists from some version on. -/
def since (v v0 : Nat) (b : Bytes) : Bytes := if v ≥ v0 then b else []

/-- A symbol; imports, global (1) or local (4), have no value. -/
def encSymbol (v : Nat) (s : Symbol) : Bytes :=
  putSz s.name ++ put32le s.type ++ (if s.type = 1 ∨ s.type = 4 then [] else put32le s.value)
    ++ since v 5 (putOpt s.file ++ put32le s.line)

def encSection (v : Nat) (s : Section) : Bytes :=
  putOpt s.group ++ putSz s.name ++ putOpt s.bank ++ putOpt s.byteLoc
    ++ since v 1 (putOpt s.loc) ++ since v 3 (putOpt s.align) ++ since v 4 (putBool s.root)
    ++ since v 6 (putOpt s.page)
    ++ writeList (encSymbol v) s.symbols
    ++ since v 2 (writeList writeLine s.lines)
    ++ put32le s.size
    ++ writeBody s.body

def encode (v : Nat) (o : Obj) : Bytes :=
  [0x58, 0x4F, 0x42, byte v] ++ since v 1 (put8 o.wordSize)
    ++ since v 2 (writeList writeFile o.files) ++ writeList writeGroup o.groups
    ++ writeList (encSection v) o.sections

/-! ### What can be represented -/

abbrev Word (n : Nat) : Prop := n < 4294967296
def OptWord (n : Option Nat) : Prop := ∀ k, n = some k → k < 4294967295
abbrev Name (s : Bytes) : Prop := (0 : UInt8) ∉ s ∧ s.length < 256

structure FileInfo.Ok (f : FileInfo) : Prop where
  name : (0 : UInt8) ∉ f.name
  crc : Word f.crc

structure Group.Ok (g : Group) : Prop where
  name : Name g.name
  type : g.type < 2

/-- `n`: the number of source files of the object file. -/
structure Symbol.Ok (n : Nat) (s : Symbol) : Prop where
  name : Name s.name
  type : Word s.type
  value : Word s.value
  noValue : s.type = 1 ∨ s.type = 4 → s.value = 0
  file : ∀ f, s.file = some f → f < n
  line : Word s.line

structure LineMapping.Ok (n : Nat) (l : LineMapping) : Prop where
  file : l.file < n
  line : Word l.line
  offset : Word l.offset

structure Patch.Ok (p : Patch) : Prop where
  offset : Word p.offset
  type : Word p.type
  expr : Word p.expr.length

structure Section.Ok (n : Nat) (groups : List Group) (s : Section) : Prop where
  group : ∀ g, s.group = some g → g < groups.length
  name : Name s.name
  bank : OptWord s.bank
  byteLoc : OptWord s.byteLoc
  loc : OptWord s.loc
  align : OptWord s.align
  page : OptWord s.page
  symbols : ∀ x ∈ s.symbols, x.Ok n
  symbolCount : Word s.symbols.length
  lines : ∀ l ∈ s.lines, l.Ok n
  lineCount : Word s.lines.length
  size : Word s.size
  /-- text sections, and no other sections, have contents -/
  body : (∃ g id, s.group = some id ∧ groups[id]? = some g ∧ g.type = 0) ↔ s.body ≠ none
  data : ∀ d ps, s.body = some (d, ps) → d.length = s.size
  patches : ∀ d ps, s.body = some (d, ps) → Word ps.length ∧ ∀ p ∈ ps, p.Ok

/-- An object that fits into an object file. -/
structure Obj.Ok (o : Obj) : Prop where
  wordSize : o.wordSize < 256
  files : ∀ f ∈ o.files, f.Ok
  fileCount : Word o.files.length
  groups : ∀ g ∈ o.groups, g.Ok
  groupCount : o.groups.length < 4294967295
  sections : ∀ s ∈ o.sections, s.Ok o.files.length o.groups
  sectionCount : Word o.sections.length

/-! ### What the linker has to know after reading the file -/

/-- A symbol; `base` is the number of source files the linker knew before. -/
def loadSymbol (v base : Nat) (s : Symbol) : Symbol :=
  { s with
    file := if v ≥ 5 then s.file.map (· + base) else none
    line := if v ≥ 5 then s.line else 0 }

def loadLine (base : Nat) (l : LineMapping) : LineMapping := { l with file := l.file + base }

/-- Is this a text section of the group HOME, which is always in bank 0? -/
def isHome (g : Option Group) : Bool :=
  match g with
  | none => false
  | some g => g.type == 0 && g.name == homeName

/-- A section. A field that does not exist in this version of the format has its default. -/
def loadSection (v base wordSize fileId : Nat) (groups : List Group) (s : Section) : LSection where
  fileId := fileId
  wordSize := if v ≥ 1 then wordSize else 1
  group := s.group.bind (groups[·]?)
  name := s.name
  bank := if isHome (s.group.bind (groups[·]?)) then some 0 else s.bank
  byteLoc := s.byteLoc
  loc := if v ≥ 1 then s.loc else s.byteLoc
  align := if v ≥ 3 then s.align else none
  root := if v ≥ 4 then s.root else false
  page := if v ≥ 6 then s.page else none
  symbols := s.symbols.map (loadSymbol v base)
  lines := if v ≥ 2 then s.lines.map (loadLine base) else []
  size := s.size
  body := s.body

/-- The linker's knowledge after reading one more object file. -/
def load (v : Nat) (st : LState) (o : Obj) : LState where
  files := st.files ++ (if v ≥ 2 then o.files else [])
  sections := st.sections ++
    o.sections.map (loadSection v (if v ≥ 2 then st.files.length else 0) o.wordSize st.nextId o.groups)
  nextId := st.nextId + 1

end Verif.Object
