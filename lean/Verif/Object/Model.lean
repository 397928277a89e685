import Verif.CInt
import Verif.Parser
/-!
# Object files

The writer in the assembler (`xasm/motor/object.c`) and the reader in the linker (`xlink/object.c`). All
numbers are unsigned 32-bit words, a word of `0xFFFFFFFF` that means "none" is `Option.none`.
-/
namespace Verif.Object

/-! ### What is in an object file -/

/-- A source file (xlink/section.h 30-34). The `index` field is never used. -/
structure FileInfo where
  name : Bytes
  crc : Nat
  deriving Repr, DecidableEq

/-- A group (xlink/object.h 40-44): `type` 0 is text, 1 is bss. -/
structure Group where
  name : Bytes
  type : Nat
  data : Bool
  shared : Bool
  deriving Repr, DecidableEq

/-- A symbol of a section. `type`: 0 export, 1 import, 2 local, 3 local export, 4 local import. -/
structure Symbol where
  name : Bytes
  type : Nat
  value : Nat
  file : Option Nat
  line : Nat
  deriving Repr, DecidableEq

structure LineMapping where
  file : Nat
  line : Nat
  offset : Nat
  deriving Repr, DecidableEq

structure Patch where
  offset : Nat
  type : Nat
  expr : Bytes
  deriving Repr, DecidableEq

/-- A section as the assembler describes it; `body` are the contents and patches of a text section. -/
structure Section where
  group : Option Nat
  name : Bytes
  bank : Option Nat
  byteLoc : Option Nat
  loc : Option Nat
  align : Option Nat
  root : Bool
  page : Option Nat
  symbols : List Symbol
  lines : List LineMapping
  size : Nat
  body : Option (Bytes × List Patch)
  deriving Repr, DecidableEq

structure Obj where
  wordSize : Nat
  files : List FileInfo
  groups : List Group
  sections : List Section
  deriving Repr, DecidableEq

/-! ### The assembler's writer -/

/-- A number or -1. -/
def putOpt (n : Option Nat) : Bytes := put32le (n.getD U32MAX)

def putBool (b : Bool) : Bytes := put8 (if b then 1 else 0)

/-- The type word of a group (xasm/motor/object.c 386): `groupType | flags`; the bits are disjoint. -/
def Group.word (g : Group) : Nat :=
  g.type + (if g.data then 0x40000000 else 0) + (if g.shared then 0x20000000 else 0)

/-- `writeGroups` (xasm/motor/object.c 375-395). -/
def writeGroup (g : Group) : Bytes := putSz g.name ++ put32le g.word

/-- `writeFileNames` (xasm/motor/object.c 525-532). -/
def writeFile (f : FileInfo) : Bytes := putSz f.name ++ put32le f.crc

/-- Does the assembler write a value for a symbol of this type (xasm/motor/object.c 115-191: only the import
lists have none)? -/
def hasValue (type : Nat) : Bool := type != 1 && type != 4

/-- A symbol (xasm/motor/object.c 115-191, 414-428). -/
def writeSymbol (s : Symbol) : Bytes :=
  putSz s.name ++ put32le s.type ++ (if hasValue s.type then put32le s.value else [])
    ++ putOpt s.file ++ put32le s.line

/-- `writePatch` (xasm/motor/object.c 359-373). -/
def writePatch (p : Patch) : Bytes :=
  put32le p.offset ++ put32le p.type ++ put32le p.expr.length ++ p.expr

/-- `writeLineMappings` (xasm/motor/object.c 482-495). -/
def writeLine (l : LineMapping) : Bytes := put32le l.file ++ put32le l.line ++ put32le l.offset

/-- A list preceded by its length. -/
def writeList (w : α → Bytes) (l : List α) : Bytes := put32le l.length ++ l.flatMap w

/-- The contents and patches of a text section (xasm/motor/object.c 518-521, 464-480). -/
def writeBody : Option (Bytes × List Patch) → Bytes
  | none => []
  | some (data, patches) => data ++ writeList writePatch patches

/-- `writeSection` (xasm/motor/object.c 497-523) and `writeExportedConstantsSection` (397-438), the latter with
every optional field `none`, no lines, size 0 and no body. -/
def writeSection (s : Section) : Bytes :=
  putOpt s.group ++ putSz s.name ++ putOpt s.bank ++ putOpt s.byteLoc ++ putOpt s.loc ++ putOpt s.align
    ++ putBool s.root ++ putOpt s.page
    ++ writeList writeSymbol s.symbols
    ++ writeList writeLine s.lines
    ++ put32le s.size
    ++ writeBody s.body

/-- `obj_Write` (xasm/motor/object.c 536-573). -/
def writeObject (o : Obj) : Bytes :=
  [0x58, 0x4F, 0x42, 6] ++ put8 o.wordSize
    ++ writeList writeFile o.files ++ writeList writeGroup o.groups ++ writeList writeSection o.sections

/-! ### The linker's reader -/

/-- A section in the linker (xlink/section.h 42-77), as far as it is read from a file. -/
structure LSection where
  fileId : Nat
  wordSize : Nat
  group : Option Group
  name : Bytes
  bank : Option Nat
  byteLoc : Option Nat
  loc : Option Nat
  align : Option Nat
  root : Bool
  page : Option Nat
  symbols : List Symbol
  lines : List LineMapping
  size : Nat
  body : Option (Bytes × List Patch)
  deriving Repr, DecidableEq

/-- What the linker has read so far: `g_fileInfo`, `sect_Sections` and `g_fileId`. -/
structure LState where
  files : List FileInfo
  sections : List LSection
  nextId : Nat
  deriving Repr, DecidableEq

/-- A number or -1. -/
def optU32 : Parser (Option Nat) := do
  let n ← u32
  return (if n = U32MAX then none else some n)

/-- A list preceded by its length. -/
def listOf (p : Parser α) : Parser (List α) := do
  let n ← u32
  Parser.times n p

/-- `readGroup` (xlink/object.c 115-128). -/
def readGroup : Parser Group := do
  let nm ← name
  let t ← u32
  let data := t / 0x40000000 % 2 == 1
  let shared := t / 0x20000000 % 2 == 1
  return ⟨nm, t - (if data then 0x40000000 else 0) - (if shared then 0x20000000 else 0), data, shared⟩

/-- Does the linker expect a value in a symbol of this type (xlink/object.c 166-169)? -/
def readsValue (type : Nat) : Bool := !(type == 1 || type == 4)

/-- `readSymbol` (xlink/object.c 160-187); `base` is the index of the first source file of this object, `count`
the number of source files known. The assertion is a failure. -/
def readSymbol (version base count : Nat) : Parser Symbol := do
  let nm ← name
  let type ← u32
  let value ← (if readsValue type then u32 else pure 0)
  if version ≥ 5 then
    let file ← optU32
    let line ← u32
    match file with
    | none => return ⟨nm, type, value, none, line⟩
    | some f =>
      if add32 f base < count then return ⟨nm, type, value, some (add32 f base), line⟩ else Parser.fail
  else
    return ⟨nm, type, value, none, 0⟩

/-- `readPatch` (xlink/object.c 211-225). -/
def readPatch : Parser Patch := do
  let offset ← u32
  let type ← u32
  let size ← u32
  let expr ← raw size
  return ⟨offset, type, expr⟩

/-- `readLineMapping` (xlink/object.c 245-253). -/
def readLine (base count : Nat) : Parser LineMapping := do
  let f ← u32
  if add32 f base < count then
    let line ← u32
    let offset ← u32
    return ⟨add32 f base, line, offset⟩
  else Parser.fail

/-- `groups_GetGroup` (xlink/object.h 61-64). -/
def getGroup (groups : List Group) (id : Nat) : Option Group :=
  if id = U32MAX then none else groups[id]?

/-- `group_isText` (xlink/object.h 51-54). -/
def isText : Option Group → Bool
  | none => false
  | some g => g.type == 0

/-- "HOME" -/
def homeName : Bytes := [0x48, 0x4F, 0x4D, 0x45]

/-- `readSection` (xlink/object.c 269-312) and the loop body of `readSections` (318-331), which moves text
sections of the group HOME to bank 0. -/
def readSection (version base count wordSize fileId : Nat) (groups : List Group) : Parser LSection := do
  let gid ← u32
  let group := getGroup groups gid
  let nm ← name
  let bank ← optU32
  let byteLoc ← optU32
  let loc ← (if version ≥ 1 then optU32 else pure byteLoc)
  let align ← (if version ≥ 3 then optU32 else pure none)
  let root ← (if version ≥ 4 then (do let b ← u8; return b != 0) else pure false)
  let page ← (if version ≥ 6 then optU32 else pure none)
  let symbols ← listOf (readSymbol version base count)
  let lines ← (if version ≥ 2 then listOf (readLine base count) else pure [])
  let size ← u32
  let body ← (if isText group then (do
      let data ← raw size
      let patches ← listOf readPatch
      return some (data, patches))
    else pure none)
  let home := isText group && (group.map Group.name == some homeName)
  return ⟨fileId, wordSize, group, nm, if home then some 0 else bank, byteLoc, loc, align, root, page, symbols,
    lines, size, body⟩

/-- One entry of `readFileInfo` (xlink/object.c 356-358). -/
def readFile : Parser FileInfo := do
  let nm ← str
  let crc ← u32
  return ⟨nm, crc⟩

/-- `readXOB0`, `readXOB1` and `readXOBn` (xlink/object.c 372-392). -/
def readXOB (version : Nat) (st : LState) : Parser LState := do
  let wordSize ← (if version ≥ 1 then u8 else pure 1)
  let files ← (if version ≥ 2 then listOf readFile else pure [])
  let base := if version ≥ 2 then st.files.length else 0
  let groups ← listOf readGroup
  let sections ← listOf (readSection version base (st.files ++ files).length wordSize st.nextId groups)
  return ⟨st.files ++ files, st.sections ++ sections, st.nextId + 1⟩

/-- A counted loop over a state, the loop in `readXLB0`. -/
def repeatWith : Nat → (σ → Parser σ) → σ → Parser σ
  | 0, _, s => pure s
  | n + 1, p, s => do
    let s' ← p s
    repeatWith n p s'

/-- `readChunk` (xlink/object.c 410-464) and `readXLB0` (397-408). `depth` bounds the nesting of libraries. ELF
files are not modelled and, like unknown files, fail. -/
def readChunk : Nat → LState → Parser LState
  | 0, _ => Parser.fail
  | depth + 1, st => do
    let id ← raw 4
    match id with
    | [0x58, 0x4F, 0x42, 0] => readXOB 0 st
    | [0x58, 0x4F, 0x42, 1] => readXOB 1 st
    | [0x58, 0x4F, 0x42, 2] => readXOB 2 st
    | [0x58, 0x4F, 0x42, 3] => readXOB 3 st
    | [0x58, 0x4F, 0x42, 4] => readXOB 4 st
    | [0x58, 0x4F, 0x42, 5] => readXOB 5 st
    | [0x58, 0x4F, 0x42, 6] => readXOB 6 st
    | [0x58, 0x4C, 0x42, 0] => do
      let count ← u32
      repeatWith count (fun st => do
        let _ ← str
        let _ ← u32
        readChunk depth st) st
    | _ => Parser.fail

/-- The loop of `obj_Read` (xlink/object.c 489-490); `fuel` bounds the number of chunks, each of which takes at
least four bytes. -/
def readChunks (depth : Nat) : Nat → LState → Bytes → Option LState
  | _, st, [] => some st
  | 0, _, _ => none
  | fuel + 1, st, bs =>
    match (readChunk depth st).run bs with
    | none => none
    | some (st', r) => readChunks depth fuel st' r

/-- `obj_Read` (xlink/object.c 482-496) on the contents of a file. -/
def objRead (st : LState) (file : Bytes) : Option LState :=
  readChunks (file.length + 1) file.length st file

end Verif.Object
