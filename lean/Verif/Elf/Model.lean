import Verif.CInt
import Verif.Parser
import Verif.Expr.AsmSpec
/-!
# ELF object files

The assembler's writer (xasm/motor/elf.c) and the linker's reader (xlink/elf.c). A file is the list of its bytes; `fseek` and
`ftell` become positions in the list. Reading behind the end of the file, which yields arbitrary numbers in C, is an error in the model.

Simplifications: memory is always available; the hash table of symbols is the list of its symbols in the order in which both loops
of the writer visit them; the expressions of patches have been optimised, so that what is constant is a number.
-/
namespace Verif.Elf
open Verif.Expr (Src BinOp)

/-! ### Numbers -/

/-- `fput_half`, chosen in `elf_Write` (xasm/motor/elf.c 499). -/
def putHalf (be : Bool) (n : Nat) : Bytes := if be then put16be n else put16le n

/-- `fput_word`, chosen in `elf_Write` (xasm/motor/elf.c 500). -/
def putWord (be : Bool) (n : Nat) : Bytes := if be then put32be n else put32le n

/-- `fget_half`, chosen in `readHeader` (xlink/elf.c 322-334). -/
def half (be : Bool) : Parser Nat := ⟨if be then get16be else get16le⟩

/-- `fget_word`, chosen in `readHeader` (xlink/elf.c 322-334). -/
def word (be : Bool) : Parser Nat := ⟨if be then get32be else get32le⟩

/-- A section header (xasm/motor/elf.c 130-141; xlink/elf.c 122-132). -/
structure Shdr where
  name : Nat
  type : Nat
  flags : Nat
  addr : Nat
  offset : Nat
  size : Nat
  link : Nat
  info : Nat
  align : Nat
  entsize : Nat
  deriving DecidableEq, Repr

/-! ### What is written -/

/-- The type of a symbol as far as it matters here (`ESymbolType`). -/
inductive Kind where
  | label | equ | imported | global | other
  deriving DecidableEq, Repr

/-- A symbol of the assembler. `sec` is the number of its section in the list of sections; the Booleans are `SYMF_CONSTANT`,
`SYMF_RELOC`, `SYMF_USED`, `SYMF_EXPORT` and `SYMF_FILE_EXPORT` (xasm/motor/symbol.h 51-62). -/
structure ASym where
  name : Bytes
  kind : Kind
  sec : Nat
  value : Nat
  constant : Bool
  reloc : Bool
  used : Bool
  exported : Bool
  fileExport : Bool
  deriving DecidableEq, Repr

/-- A patch; `bytes` is the size of the number that it stands for. -/
structure APatch where
  offset : Nat
  bytes : Nat
  expr : Src
  deriving DecidableEq, Repr

/-- A section of the assembler (xasm/motor/section.h 32-61). `text` is a group of the type `GROUP_TEXT`, `isData` its flag `SYMF_DATA`;
`load` is `imagePosition` if `SECTF_LOADFIXED`, `align` if `SECTF_ALIGNED`. `data` are the `used` bytes of a text section, of `alloc`
that are allocated. -/
structure ASec where
  name : Bytes
  text : Bool
  isData : Bool
  load : Option Nat
  align : Option Nat
  used : Nat
  alloc : Nat
  data : Bytes
  patches : List APatch
  deriving DecidableEq, Repr

/-- What the assembler knows when it writes: the default alignment of the processor, the sections and the symbols. -/
structure Mod where
  sectionAlignment : Nat
  secs : List ASec
  syms : List ASym
  deriving DecidableEq, Repr

/-- `isImport`, `isSymbolic` (xasm/motor/expression.c 583-591). -/
def Kind.isImport (k : Kind) : Bool := k == .imported || k == .global
def Kind.isSymbolic (k : Kind) : Bool := k == .imported || k == .global || k == .label

/-- `getSymbolOffset` (xasm/motor/expression.c 593-631): the symbol and the offset. It calls itself through `expr_GetImportOffset`
(633-637), whatever the predicate is, which also clears the result, so that it is never set when a symbol is met. -/
def symOffset (syms : List ASym) (imports : Bool) : Src → Option (Nat × Nat)
  | .sym n =>
    match syms[n]? with
    | some y => if (if imports then y.kind.isImport else y.kind.isSymbolic) then some (n, 0) else none
    | none => none
  | .bin op a b =>
    if op = .add ∨ op = .sub then
      match symOffset syms true a, b with
      | some (n, off), .num c => some (n, if op = .add then add32 off (Expr.u32 c) else sub32 off (Expr.u32 c))
      | _, _ =>
        match symOffset syms true b, a with
        | some (n, off), .num c => some (n, if op = .add then add32 (Expr.u32 c) off else sub32 (Expr.u32 c) off)
        | _, _ => none
    else none
  | _ => none

/-- What is written so far: the file, the table of strings and the section headers. -/
structure W where
  file : Bytes
  strs : Bytes
  hdrs : List Shdr
  deriving DecidableEq, Repr

/-- `alignFile` (xasm/motor/elf.c 167-174); a remainder by zero is undefined. -/
def W.align (w : W) (n : Nat) : Outcome W :=
  if n = 0 then .ub
  else .ok { w with file := w.file ++ List.replicate (if w.file.length % n = 0 then 0 else n - w.file.length % n) 0 }

/-- `addString`, `addStringChars` (xasm/motor/elf.c 195-207): the offset of the string. -/
def W.addString (w : W) (s : Bytes) : Nat × W := (w.strs.length, { w with strs := w.strs ++ putSz s })

/-- `addSectionHeader` (xasm/motor/elf.c 181-187). -/
def W.addHeader (w : W) (h : Shdr) : W := { w with hdrs := w.hdrs ++ [h] }

def W.put (w : W) (bs : Bytes) : W := { w with file := w.file ++ bs }

/-- `writeElfHeader` (xasm/motor/elf.c 209-228) with the numbers that are known later: where the section headers are, how many, and
which has the strings. -/
def elfHeader (be : Bool) (shoff shnum shstrndx : Nat) : Bytes :=
  [0x7F, 0x45, 0x4C, 0x46, 1, if be then 2 else 1, 1, 0, 0, 0, 0, 0, 0, 0, 0, 0] ++
  (putHalf be 1 ++ (putHalf be 4 ++ (putWord be 1 ++ (putWord be 0 ++ (putWord be 0 ++ (putWord be shoff ++ (putWord be 0 ++
  (putHalf be 52 ++ (putHalf be 0 ++ (putHalf be 0 ++ (putHalf be 40 ++ (putHalf be shnum ++ putHalf be shstrndx))))))))))))

/-- `writeSymbolRaw` (xasm/motor/elf.c 230-238). -/
def symRecord (be : Bool) (name value info shndx : Nat) : Bytes :=
  putWord be name ++ (putWord be value ++ (putWord be 0 ++ (put8 info ++ (put8 0 ++ putHalf be shndx))))

def SHN_ABS : Nat := 0xFFF1

/-- The number of the header of section `i`: `section->id` (xasm/motor/elf.c 341), behind the empty header, `.symtab` and `.strtab`. -/
def secId (i : Nat) : Nat := 3 + i

/-- The condition of `writeLocalSymbols` (xasm/motor/elf.c 272-275). -/
def ASym.isLocal (y : ASym) : Bool :=
  (y.kind == .label || y.kind == .equ) && (y.reloc || y.used || y.fileExport) && !y.exported

/-- The condition of `writeGlobalSymbols` (xasm/motor/elf.c 249-252) without the test that the symbol is not yet written. -/
def ASym.isGlobal (y : ASym) : Bool :=
  (y.kind == .label || y.kind == .equ || y.kind == .imported || y.kind == .global) && (y.reloc || y.used || y.exported)

/-- The symbols that are written first, and those written then (xasm/motor/elf.c 268-285, 245-266). -/
def Mod.locals (M : Mod) : List ASym := M.syms.filter ASym.isLocal
def Mod.globals (M : Mod) : List ASym := M.syms.filter fun y => !y.isLocal && y.isGlobal

/-- `symbol->id` (xasm/motor/elf.c 261, 280): the number of the symbol in the table, 0 if it is not there. -/
def Mod.symId (M : Mod) (n : Nat) : Nat :=
  match M.syms[n]? with
  | none => 0
  | some y =>
    if y.isLocal then 1 + ((M.syms.take n).filter ASym.isLocal).length
    else if y.isGlobal then 1 + M.locals.length + ((M.syms.take n).filter fun y => !y.isLocal && y.isGlobal).length
    else 0

/-- The section of a symbol in the table (xasm/motor/elf.c 254-258, 277). A label that is not constant has a section. -/
def Mod.shndx (M : Mod) (y : ASym) : Outcome Nat :=
  if y.constant then .ok SHN_ABS
  else if y.kind = .global ∨ y.kind = .imported then .ok 0
  else if y.sec < M.secs.length then .ok (secId y.sec)
  else .ub

/-- `writeSymbol` (xasm/motor/elf.c 240-243) for all symbols of a list; `bind` is `STB_LOCAL` or `STB_GLOBAL`. -/
def writeSymbols (be : Bool) (M : Mod) (bind : Nat) : List ASym → W → Outcome W
  | [], w => .ok w
  | y :: ys, w =>
    (M.shndx y).bind fun k =>
      let (off, w) := w.addString y.name
      writeSymbols be M bind ys (w.put (symRecord be off y.value (bind * 16) k))

/-- Patches are cleared (xasm/motor/elf.c 345-348). Bytes between `used` and `alloc` are not written to the file. -/
def clear (alloc : Nat) (data : Bytes) : List APatch → Outcome Bytes
  | [] => .ok data
  | p :: ps =>
    if p.offset + 4 ≤ alloc then
      clear alloc ((((data.set p.offset 0).set (p.offset + 1) 0).set (p.offset + 2) 0).set (p.offset + 3) 0) ps
    else .ub

/-- `writeSection` (xasm/motor/elf.c 305-351). A section that is fixed at 0 is an error; nothing useful is written then. -/
def writeSection (M : Mod) (s : ASec) (w : W) : Outcome W :=
  if s.load = some 0 then .fail
  else
    let a := s.align.getD M.sectionAlignment
    (w.align a).bind fun w =>
      let (name, w) := w.addString s.name
      let off := if s.text then w.file.length else 0
      let flags := if s.text then (if s.isData then 3 else 6) else 3
      let w := w.addHeader ⟨name, if s.text then 1 else 8, flags, s.load.getD 0, off, s.used, 0, 0, a, 0⟩
      if s.text then (clear s.alloc s.data s.patches).bind fun d => .ok (w.put d)
      else .ok w

def writeSections (M : Mod) : List ASec → W → Outcome W
  | [], w => .ok w
  | s :: ss, w => (writeSection M s w).bind (writeSections M ss)

/-- `e_rela` (xasm/motor/elf.c 353-357). -/
structure Rela where
  offset : Nat
  info : Nat
  addend : Nat
  deriving DecidableEq, Repr

/-- The loop over the patches in `writeReloc` (xasm/motor/elf.c 372-387). -/
def relocs (M : Mod) : List APatch → Outcome (List Rela)
  | [] => .ok []
  | p :: ps =>
    match symOffset M.syms false p.expr with
    | none => .fail
    | some (n, add) => (relocs M ps).bind fun rs => .ok (⟨p.offset, (M.symId n * 256 + 1) % W32, add⟩ :: rs)

def Rela.put (be : Bool) (r : Rela) : Bytes := putWord be r.offset ++ (putWord be r.info ++ putWord be r.addend)

/-- `compare_rela` (xasm/motor/elf.c 359-362) for offsets below 2^31; `qsort` as some sorting of the list. -/
def sortRela (rs : List Rela) : List Rela := rs.mergeSort fun a b => a.offset ≤ b.offset

/-- `writeReloc` (xasm/motor/elf.c 364-418); `symbolSection` is 1. -/
def writeReloc (be : Bool) (M : Mod) (i : Nat) (s : ASec) (w : W) : Outcome W :=
  (w.align 4).bind fun w =>
    (relocs M s.patches).bind fun rs =>
      let off := w.file.length
      let w := w.put ((sortRela rs).flatMap (Rela.put be))
      let (name, w) := w.addString (s.name ++ [0x2E, 0x72, 0x65, 0x6C, 0x6F, 0x63])
      .ok (w.addHeader ⟨name, 4, 0, 0, off, w.file.length - off, 1, secId i, 0, 12⟩)

def writeRelocs (be : Bool) (M : Mod) : Nat → List ASec → W → Outcome W
  | _, [], w => .ok w
  | i, s :: ss, w => (writeReloc be M i s w).bind (writeRelocs be M (i + 1) ss)

/-- A section header in the file (xasm/motor/elf.c 440-450). -/
def Shdr.put (be : Bool) (h : Shdr) : Bytes :=
  putWord be h.name ++ (putWord be h.type ++ (putWord be h.flags ++ (putWord be h.addr ++ (putWord be h.offset ++ (putWord be h.size ++
  (putWord be h.link ++ (putWord be h.info ++ (putWord be h.align ++ putWord be h.entsize))))))))

/-- `writeSymbolSection` (xasm/motor/elf.c 287-303). -/
def writeSymbolSection (be : Bool) (M : Mod) (w : W) : Outcome W :=
  (w.align 4).bind fun w =>
    let off := w.file.length
    (writeSymbols be M 0 M.locals (w.put (symRecord be 0 0 0 0))).bind fun w =>
      (writeSymbols be M 1 M.globals w).bind fun w =>
        match w.hdrs[1]? with
        | none => .ub
        | some h => .ok { w with hdrs := w.hdrs.set 1 { h with offset := off, size := w.file.length - off, link := 2, info := 1 + M.locals.length } }

/-- `writeStrings` (xasm/motor/elf.c 420-432) without the number in the header of the file. -/
def writeStrings (w : W) : Outcome W :=
  (w.align 4).bind fun w =>
    match w.hdrs[2]? with
    | none => .ub
    | some h => .ok { w with file := w.file ++ w.strs, hdrs := w.hdrs.set 2 { h with offset := w.file.length, size := w.strs.length } }

/-- Storing bytes in the middle of the file. -/
def overwrite (file : Bytes) (pos : Nat) (bs : Bytes) : Bytes := file.take pos ++ (bs ++ file.drop (pos + bs.length))

/-- `writeSectionHeaders` (xasm/motor/elf.c 434-458), and the number of the table of strings in the header of the file (429-430). -/
def writeSectionHeaders (be : Bool) (w : W) : Outcome Bytes :=
  (w.align 4).bind fun w =>
    let file := w.file ++ w.hdrs.flatMap (Shdr.put be)
    .ok (overwrite (overwrite (overwrite file 50 (putHalf be 2)) 32 (putWord be w.file.length)) 48 (putHalf be w.hdrs.length))

/-- The state before the sections are written (xasm/motor/elf.c 462-466, 501-508). -/
def start (be : Bool) : W :=
  let w : W := ⟨elfHeader be 0 0 0, [0], [⟨0, 0, 0, 0, 0, 0, 0, 0, 0, 0⟩]⟩
  let (n, w) := w.addString [0x2E, 0x73, 0x79, 0x6D, 0x74, 0x61, 0x62]
  let w := w.addHeader ⟨n, 2, 0, 0, 0, 0, 0, 0, 0, 16⟩
  let (n, w) := w.addString [0x2E, 0x73, 0x74, 0x72, 0x74, 0x61, 0x62]
  w.addHeader ⟨n, 3, 0, 0, 0, 0, 0, 0, 0, 0⟩

/-- `elf_Write` (xasm/motor/elf.c 495-518) with `writeSections` (460-483). -/
def write (be : Bool) (M : Mod) : Outcome Bytes :=
  (writeSections M M.secs (start be)).bind fun w =>
    (writeSymbolSection be M w).bind fun w =>
      (writeRelocs be M 0 M.secs w).bind fun w =>
        (writeStrings w).bind (writeSectionHeaders be)

/-! ### What is read -/

/-- `fseek` and reading. -/
def rd (file : Bytes) (off : Nat) (p : Parser α) : Outcome α :=
  match p.run (file.drop off) with
  | some (a, _) => .ok a
  | none => .fail

/-- A loop that stores a result for each element. -/
def mapO (f : α → Outcome β) : List α → Outcome (List β)
  | [] => .ok []
  | a :: as => (f a).bind fun b => (mapO f as).bind fun bs => .ok (b :: bs)

/-- The numbers of `readHeader` (xlink/elf.c 338-350). -/
def headerNumbers (be : Bool) : Parser (Nat × Nat × Nat × Nat × Nat × Nat × Nat × Nat) := do
  let type ← half be
  let arch ← half be
  let version ← word be
  let _ ← word be
  let _ ← word be
  let shoff ← word be
  let _ ← word be
  let hdsize ← half be
  let _ ← half be
  let _ ← half be
  let entsize ← half be
  let shnum ← half be
  let strndx ← half be
  return (type, arch, version, shoff, hdsize, entsize, shnum, strndx)

def threeBytes : Parser (Nat × Nat × Nat) := do
  let a ← u8
  let b ← u8
  let c ← u8
  return (a, b, c)

/-- `readHeader` (xlink/elf.c 311-353): byte order, place, size and number of the section headers, and the number of the table of
strings. -/
def readHeader (file : Bytes) : Outcome (Bool × Nat × Nat × Nat × Nat) :=
  (rd file 4 threeBytes).bind fun (cls, endian, version) =>
    if cls ≠ 1 ∨ version ≠ 1 then .fail
    else if endian ≠ 1 ∧ endian ≠ 2 then .fail
    else
      let be := decide (endian = 2)
      (rd file 16 (headerNumbers be)).bind fun (type, arch, version, shoff, hdsize, entsize, shnum, strndx) =>
        if type = 1 ∧ version = 1 ∧ arch = 4 ∧ hdsize = 52 then .ok (be, shoff, entsize, shnum, strndx) else .fail

/-- One section header (xlink/elf.c 362-371). -/
def shdr (be : Bool) : Parser Shdr := do
  let name ← word be
  let type ← word be
  let flags ← word be
  let addr ← word be
  let offset ← word be
  let size ← word be
  let link ← word be
  let info ← word be
  let align ← word be
  let entsize ← word be
  return ⟨name, type, flags, addr, offset, size, link, info, align, entsize⟩

/-- `readSectionHeaders` (xlink/elf.c 355-375). -/
def readSectionHeaders (file : Bytes) (be : Bool) (shoff entsize shnum : Nat) : Outcome (List Shdr) :=
  mapO (fun i => rd file (shoff + i * entsize) (shdr be)) (List.range shnum)

/-- A symbol of the table (xlink/elf.c 55-66) as it is read. -/
structure ESym where
  nameIndex : Nat
  value : Nat
  bind : Nat
  type : Nat
  shndx : Nat
  deriving DecidableEq, Repr

/-- A symbol (xlink/elf.c 427-434). -/
def esym (be : Bool) : Parser ESym := do
  let name ← word be
  let value ← word be
  let _ ← word be
  let info ← u8
  let _ ← u8
  let shndx ← half be
  return ⟨name, value, info / 16, info % 16, shndx⟩

/-- A relocation (xlink/elf.c 104-112): `sym` is the number of the symbol. -/
structure ERela where
  offset : Nat
  sym : Nat
  type : Nat
  addend : Nat
  deriving DecidableEq, Repr

/-- A relocation (xlink/elf.c 456-461). -/
def erela (be : Bool) : Parser ERela := do
  let offset ← word be
  let info ← word be
  let addend ← word be
  return ⟨offset, info / 256, info % 256, addend⟩

/-- What a section header refers to. -/
inductive Body where
  | prog (data : Bytes)
  | strs (data : Bytes)
  | syms (l : List ESym)
  | rela (l : List ERela)
  | other
  deriving DecidableEq, Repr

def SHF_ALLOC : Nat := 2

/-- `readSections` (xlink/elf.c 377-515) for one header. A section with relocations without addends (`SHT_REL`) is undefined: the
number of its relocations is not set (617-634, `destTable->totalRelocations`), if it is not an error before. -/
def readBody (file : Bytes) (be : Bool) (h : Shdr) : Outcome Body :=
  if h.type = 1 then
    if h.flags &&& SHF_ALLOC ≠ 0 then (rd file h.offset (raw h.size)).bind fun d => .ok (.prog d) else .ok (.prog [])
  else if h.type = 8 then .ok (.prog [])
  else if h.type = 3 then (rd file h.offset (raw h.size)).bind fun d => .ok (.strs d)
  else if h.type = 2 then
    if h.entsize = 0 then .ub
    else (mapO (fun i => rd file (h.offset + i * h.entsize) (esym be)) (List.range (h.size / h.entsize))).bind fun l => .ok (.syms l)
  else if h.type = 4 then
    if h.entsize = 0 then .ub
    else (mapO (fun i => rd file (h.offset + i * h.entsize) (erela be)) (List.range (h.size / h.entsize))).bind fun l => .ok (.rela l)
  else if h.type = 9 then .ub
  else .ok .other

/-- `ElfHeader` (xlink/elf.c 145-149) with what the headers refer to. -/
structure Elf where
  strndx : Nat
  hdrs : List Shdr
  bodies : List Body
  deriving DecidableEq, Repr

/-- `getSectionHeader` (xlink/elf.c 517-526): the number of the header, or none. -/
def Elf.section (e : Elf) (i : Nat) : Outcome (Option Nat) :=
  if i = SHN_ABS then .ok none else if i ≥ e.hdrs.length then .fail else .ok (if i = 0 then none else some i)

/-- `getStringTable` (xlink/elf.c 528-536). -/
def Elf.strings (e : Elf) (i : Nat) : Outcome Bytes :=
  (e.section i).bind fun
    | none => .ub
    | some i =>
      match e.bodies[i]? with
      | some (.strs d) => .ok d
      | _ => .fail

/-- `getSymbolTable` (xlink/elf.c 538-545). -/
def Elf.symbols (e : Elf) (i : Nat) : Outcome (List ESym) :=
  (e.section i).bind fun
    | none => .ub
    | some i =>
      match e.bodies[i]? with
      | some (.syms l) => .ok l
      | _ => .fail

/-- `getString` (xlink/elf.c 555-561). A string that does not end in the table is undefined. -/
def getString (table : Bytes) (i : Nat) : Outcome Bytes :=
  if i ≥ table.length then .fail
  else
    match getSz (table.drop i) with
    | some (s, _) => .ok s
    | none => .ub

/-- A symbol with its name and its section. -/
structure RSym where
  name : Bytes
  sec : Option Nat
  sym : ESym
  deriving DecidableEq, Repr

/-- `resolveSymTabSection` (xlink/elf.c 572-586) for one symbol. -/
def Elf.resolveSym (e : Elf) (names : List Bytes) (table : Bytes) (y : ESym) : Outcome RSym :=
  (e.section y.shndx).bind fun s =>
    if y.type = 3 ∧ y.nameIndex = 0 then
      match s with
      | none => .ub
      | some i =>
        match names[i]? with
        | none => .ub
        | some n => .ok ⟨n, s, y⟩
    else (getString table y.nameIndex).bind fun n => .ok ⟨n, s, y⟩

/-- What a header refers to, with the references: the symbols; the section that is relocated, the table of symbols, and the relocations. -/
inductive RBody where
  | syms (l : List RSym)
  | rela (target : Option Nat) (symtab : Nat) (l : List ERela)
  | other
  deriving DecidableEq, Repr

/-- `resolveNamesAndIndices` (xlink/elf.c 588-598, 637-657) for one header. -/
def Elf.resolveBody (e : Elf) (names : List Bytes) (h : Shdr) (b : Body) : Outcome RBody :=
  match b with
  | .syms l => (e.strings h.link).bind fun t => (mapO (e.resolveSym names t) l).bind fun l => .ok (.syms l)
  | .rela l =>
    (e.section h.info).bind fun target =>
      (e.symbols h.link).bind fun ys =>
        if l.all fun r => decide (r.sym < ys.length) then .ok (.rela target h.link l) else .fail
  | _ => .ok .other

/-- A symbol of the linker (`SSymbol`, xlink/symbol.h 39-52); `type` 0 is an export, 1 an import, 3 a local export, 4 a local import. -/
structure XSym where
  name : Bytes
  type : Nat
  value : Nat
  resolved : Bool
  deriving DecidableEq, Repr

/-- A patch of the linker; `type` 4 is `PATCH_BE_32`. -/
structure XPatch where
  offset : Nat
  type : Nat
  expr : Bytes
  deriving DecidableEq, Repr

/-- The groups of ELF files (xlink/elf.c 39-41). -/
inductive Grp where
  | code | data | bss
  deriving DecidableEq, Repr

/-- A section of the linker. `loc` and `align` are none for -1; the fields that are always the same are left out (xlink/elf.c 844-873). -/
structure XSec where
  name : Bytes
  group : Grp
  loc : Option Nat
  align : Option Nat
  size : Nat
  data : Bytes
  symbols : List XSym
  patches : List XPatch
  deriving DecidableEq, Repr

/-- `sectionToXlink` (xlink/elf.c 815-874). -/
def sectionToXlink (h : Shdr) (name : Bytes) (b : Body) : Outcome (Option XSec) :=
  let mk (g : Grp) (d : Bytes) : XSec :=
    ⟨name.take 255, g, if h.addr = 0 then none else some h.addr, if h.align ≥ 2 then some h.align else none, h.size, d, [], []⟩
  if h.type = 1 then
    match b with
    | .prog d =>
      if h.flags &&& 6 = 6 then .ok (some (mk .code d))
      else if h.flags &&& 2 = 2 then .ok (some (mk .data d))
      else if h.flags &&& 0x20 ≠ 0 then .ok none
      else if h.flags = 0 then .ok none
      else .fail
    | _ => .ub
  else if h.type = 8 then
    if h.flags &&& 3 = 3 then .ok (some (mk .bss [])) else .fail
  else .ok none

/-- The sections made so far; `of` is `xlinkSection` of a header, `handle` is `xlinkSymbol` of a symbol: a section and a number in it. -/
structure X where
  secs : List XSec
  of : Nat → Option Nat
  handle : Nat → Nat → Option (Nat × Nat)

/-- `elfToXlink`, first loop (xlink/elf.c 878-881). -/
def sectionsToXlink : Nat → List (Shdr × Bytes × Body) → X → Outcome X
  | _, [], x => .ok x
  | i, (h, name, b) :: rest, x =>
    (sectionToXlink h name b).bind fun
      | none => sectionsToXlink (i + 1) rest x
      | some s => sectionsToXlink (i + 1) rest { x with secs := x.secs ++ [s], of := fun j => if j = i then some x.secs.length else x.of j }

/-- `addElfSymbolToProgbits` (xlink/elf.c 659-680), with the type. A name of 255 characters or more is not terminated. -/
def X.add (x : X) (k : Nat) (y : RSym) (type : Nat) (resolved : Bool) : Outcome (Nat × X) :=
  match x.secs[k]? with
  | none => .ub
  | some s =>
    if y.name.length < 255 then
      .ok (s.symbols.length, { x with secs := x.secs.set k { s with symbols := s.symbols ++ [⟨y.name, type, y.sym.value, resolved⟩] } })
    else .ub

def X.setHandle (x : X) (t i : Nat) (h : Nat × Nat) : X :=
  { x with handle := fun t' i' => if t' = t ∧ i' = i then some h else x.handle t' i' }

/-- Whether a header is one of a section with or without contents: only then is `data.progbits` what it says (xlink/elf.c 693, 727). -/
def isProg (hdrs : List Shdr) (i : Nat) : Bool :=
  match hdrs[i]? with
  | some h => h.type == 1 || h.type == 8
  | none => false

/-- `symbolsToXlink`, local symbols (xlink/elf.c 686-715). A symbol without a section is skipped before its number is looked at, so two of
the cases cannot occur. -/
def addLocal (hdrs : List Shdr) (t i : Nat) (y : RSym) (x : X) : Outcome X :=
  match y.sec with
  | none => .ok x
  | some j =>
    if isProg hdrs j then
      match x.of j with
      | none => .ok x
      | some k =>
        if y.sym.nameIndex = 0 ∧ y.sym.type ≠ 3 then .ok x
        else (x.add k y 3 (y.sym.type == 3)).bind fun (m, x) => .ok (x.setHandle t i (k, m))
    else .ub

/-- `symbolsToXlink`, global symbols (xlink/elf.c 717-738). The section of an absolute symbol is a null pointer. -/
def addGlobal (hdrs : List Shdr) (t i : Nat) (y : RSym) (x : X) : Outcome X :=
  if y.sym.nameIndex = 0 then .ok x
  else if y.sym.shndx = 0 then .ok x
  else
    match y.sec with
    | none => .ub
    | some j =>
      if isProg hdrs j then
        match x.of j with
        | none => .ub
        | some k => (x.add k y 0 (y.sym.shndx == SHN_ABS)).bind fun (m, x) => .ok (x.setHandle t i (k, m))
      else .ub

/-- A loop over the symbols of a table, from number `i` on. -/
def symLoop (f : Nat → RSym → X → Outcome X) : Nat → List RSym → X → Outcome X
  | _, [], x => .ok x
  | i, y :: ys, x => (f i y x).bind (symLoop f (i + 1) ys)

/-- `symbolsToXlink` (xlink/elf.c 682-739). -/
def symbolsToXlink (hdrs : List Shdr) (t : Nat) (h : Shdr) (ys : List RSym) (x : X) : Outcome X :=
  if h.info > ys.length then .ub
  else (symLoop (addLocal hdrs t) 1 ((ys.take h.info).drop 1) x).bind (symLoop (addGlobal hdrs t) h.info (ys.drop h.info))

/-- `g_relocExpr` with its numbers (xlink/elf.c 741-753, 801-811): 11 bytes, or 16 if it is relative. -/
def relocExpr (rel : Bool) (sym addend : Nat) : Bytes :=
  byte 31 :: (put32le sym ++ (byte 30 :: (put32le addend ++ (byte 1 :: (if rel then byte 30 :: (put32le 0 ++ [byte 32]) else [])))))

/-- One step of `relocsToXlink` (xlink/elf.c 761-812): the patch. `k` is the section, `j` its header, `t` the table of symbols. -/
def relocToXlink (k j t : Nat) (ys : List RSym) (r : ERela) (x : X) : Outcome (XPatch × X) :=
  if r.type = 1 ∨ r.type = 4 then
    if r.sym = 0 then .ub
    else
      match ys[r.sym]? with
      | none => .ub
      | some y =>
        (match x.handle t r.sym with
          | none =>
            if y.sym.shndx = 0 then (x.add k y 1 false).bind fun (m, x) => .ok (m, x.setHandle t r.sym (k, m))
            else if y.sec = some j then (x.add k y 4 false).bind fun (m, x) => .ok (m, x.setHandle t r.sym (k, m))
            else x.add k y (if y.sec = none then 1 else 4) false
          | some h =>
            if y.sec ≠ some j then x.add k y (if y.sec = none then 1 else 4) false
            else .ok (h.2, x)).bind fun (m, x) =>
          match x.secs[k]? with
          | none => .ub
          | some s => if m ≥ s.symbols.length then .fail else .ok (⟨r.offset, 4, relocExpr (r.type == 4) m r.addend⟩, x)
  else .fail

def relocLoop (k j t : Nat) (ys : List RSym) : List ERela → X → Outcome (List XPatch × X)
  | [], x => .ok ([], x)
  | r :: rs, x =>
    (relocToXlink k j t ys r x).bind fun (p, x) => (relocLoop k j t ys rs x).bind fun (ps, x) => .ok (p :: ps, x)

/-- `relocsToXlink` (xlink/elf.c 755-813) and the conditions of its call (893-896). -/
def relocsToXlink (hdrs : List Shdr) (bodies : List RBody) (target : Option Nat) (t : Nat) (l : List ERela) (x : X) : Outcome X :=
  match target with
  | none => .ub
  | some j =>
    match hdrs[j]? with
    | none => .ub
    | some h =>
      if (h.type = 1 ∨ h.type = 8) ∧ h.flags &&& SHF_ALLOC ≠ 0 then
        match x.of j, bodies[t]? with
        | some k, some (.syms ys) =>
          (relocLoop k j t ys l x).bind fun (ps, x) =>
            match x.secs[k]? with
            | none => .ub
            | some s => .ok { x with secs := x.secs.set k { s with patches := ps } }
        | _, _ => .ub
      else .ok x

/-- `elfToXlink`, second loop (xlink/elf.c 883-888). -/
def symTabs (hdrs : List Shdr) : Nat → List (Shdr × RBody) → X → Outcome X
  | _, [], x => .ok x
  | i, (h, .syms ys) :: rest, x => (symbolsToXlink hdrs i h ys x).bind (symTabs hdrs (i + 1) rest)
  | i, _ :: rest, x => symTabs hdrs (i + 1) rest x

/-- `elfToXlink`, third loop (xlink/elf.c 890-898). -/
def relaTabs (hdrs : List Shdr) (bodies : List RBody) : List RBody → X → Outcome X
  | [], x => .ok x
  | .rela target t l :: rest, x => (relocsToXlink hdrs bodies target t l x).bind (relaTabs hdrs bodies rest)
  | _ :: rest, x => relaTabs hdrs bodies rest x

/-- `elf_Read` (xlink/elf.c 901-923): the sections of the file. -/
def read (file : Bytes) : Outcome (List XSec) :=
  (readHeader file).bind fun (be, shoff, entsize, shnum, strndx) =>
    (readSectionHeaders file be shoff entsize shnum).bind fun hdrs =>
      (mapO (readBody file be) hdrs).bind fun bodies =>
        let e : Elf := ⟨strndx, hdrs, bodies⟩
        (e.strings strndx).bind fun table =>
          (mapO (fun h => getString table h.name) hdrs).bind fun names =>
            (mapO (fun (h, b) => e.resolveBody names h b) (hdrs.zip bodies)).bind fun rbodies =>
              (sectionsToXlink 0 (hdrs.zip (names.zip bodies)) ⟨[], fun _ => none, fun _ _ => none⟩).bind fun x =>
                (symTabs hdrs 0 (hdrs.zip rbodies) x).bind fun x =>
                  (relaTabs hdrs rbodies rbodies x).bind fun x => .ok x.secs

end Verif.Elf
