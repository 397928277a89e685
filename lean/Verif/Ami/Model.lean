import Verif.Expr.AsmSpec
import Verif.Container.Amiga
/-!
# Amiga executables and objects of the assembler (`xasm/motor/amigaobject.c`)

The file is a list of bytes to which is appended; `fseeko`, `fputbl`, `fseeko` is `store`. A block that turns out to be empty is taken back
by seeking to its start: what is written next, at least the end of the hunk, overwrites it, so such a block is not written here.
-/
namespace Verif.Ami
open Verif.Expr (ASym ASect Asm AExpr BinOp u32 sectionAndOffset)
open Verif.Container.Amiga (padded)

/-- A patch (xasm/motor/patch.h 38-46); `be32` is the type `PATCH_BE_32`. -/
structure Patch where
  offset : Nat
  be32 : Bool
  expr : AExpr
  deriving DecidableEq, Repr

/-- A section (xasm/motor/section.h 32-61). `text` is a group of the type `GROUP_TEXT`, `isData` and `shared` are flags of the group;
`sect` is what expressions know about it; `data` are the `used` bytes of a text section. -/
structure Sec where
  name : Bytes
  text : Bool
  isData : Bool
  shared : Bool
  sect : ASect
  used : Nat
  data : Bytes
  patches : List Patch
  deriving DecidableEq, Repr

/-- A symbol (xasm/motor/symbol.h 64-90); `exported` is `SYMF_EXPORT`. -/
structure Sym where
  name : Bytes
  exported : Bool
  sym : ASym
  deriving DecidableEq, Repr

/-- What the assembler knows: the sections, and the symbols in the order of the hash table. -/
structure Mod where
  secs : List Sec
  syms : List Sym
  deriving DecidableEq, Repr

/-- Symbols that expressions refer to exist. -/
def Mod.sym (M : Mod) (n : Nat) : Sym := M.syms[n]?.getD ⟨[], false, ⟨.undefined, none, 0⟩⟩

def Mod.asm (M : Mod) : Asm := ⟨fun n => (M.sym n).sym, M.secs.map Sec.sect⟩

/-- `expr_GetImportOffset` (xasm/motor/expression.c 593-637). -/
def importOffset (syms : Nat → ASym) : AExpr → Option (Nat × Nat)
  | .sym n => if (syms n).type = .imported ∨ (syms n).type = .global then some (n, 0) else none
  | .bin _ op a b =>
    if op = .add ∨ op = .sub then
      match importOffset syms a, b.cached with
      | some (n, o), some c => some (n, if op = .add then u32 (o + c) else u32 (o - c))
      | _, _ =>
        match importOffset syms b, a.cached with
        | some (n, o), some c => some (n, if op = .add then u32 (c + o) else u32 (c - o))
        | _, _ => none
    else none
  | _ => none

/-- What a patch refers to: a section or a symbol, and the offset. -/
inductive Target where
  | sec (k o : Nat)
  | imp (n o : Nat)
  deriving DecidableEq, Repr

/-- The list that a patch is moved to (xasm/motor/amigaobject.c 216-265); none if it stays, which is an error (267-270). -/
def target (M : Mod) (link : Bool) (p : Patch) : Option Target :=
  if p.be32 then
    match sectionAndOffset M.asm p.expr with
    | some (k, o) => some (.sec k o)
    | none => if link then (importOffset M.asm.syms p.expr).map fun (n, o) => .imp n o else none
  else none

/-- `patchesPerSection[i]`, in which patches are put in front (xasm/motor/amigaobject.c 222-242): offsets and values. -/
def groupOf (M : Mod) (link : Bool) (ps : List Patch) (i : Nat) : List (Nat × Nat) :=
  (ps.filterMap fun p =>
    match target M link p with
    | some (.sec k o) => if k = i then some (p.offset, o) else none
    | _ => none).reverse

/-- `importPatches` (xasm/motor/amigaobject.c 244-262): symbols, offsets and values. -/
def importsOf (M : Mod) (link : Bool) (ps : List Patch) : List (Nat × Nat × Nat) :=
  (ps.filterMap fun p =>
    match target M link p with
    | some (.imp n o) => some (n, p.offset, o)
    | _ => none).reverse

/-- Storing bytes in the middle of the file. -/
def store (file : Bytes) (pos : Nat) (bs : Bytes) : Bytes := file.take pos ++ (bs ++ file.drop (pos + bs.length))

/-- `fputstr` (xasm/motor/amigaobject.c 66-71) with `fputbuf` (56-64). -/
def fputstr (s : Bytes) (flags : Nat) : Bytes := put32be ((s.length + 3) / 4 ||| flags) ++ padded s

/-- The patches of a group (xasm/motor/amigaobject.c 180-189, 114-138): the value is stored in the hunk at `pos`, the offset is
appended. -/
def putPatches (pos : Nat) : List (Nat × Nat) → Bytes → Bytes
  | [], f => f
  | (off, v) :: ps, f => putPatches pos ps (store f (pos + off) (put32be v) ++ put32be off)

/-- The loop of `writeReloc32` (xasm/motor/amigaobject.c 168-193) from section `i` on. -/
def putGroups (pos : Nat) : Nat → List (List (Nat × Nat)) → Bytes → Bytes
  | _, [], f => f
  | i, g :: gs, f => putGroups pos (i + 1) gs (if g = [] then f else putPatches pos g (f ++ (put32be g.length ++ put32be i)))

/-- `writeReloc32` (xasm/motor/amigaobject.c 164-195). -/
def putReloc32 (pos : Nat) (gs : List (List (Nat × Nat))) (f : Bytes) : Bytes := putGroups pos 0 gs (f ++ put32be 0x3EC) ++ put32be 0

/-- The loop over imports of `writeExtHunk` (xasm/motor/amigaobject.c 103-145): all patches of the first symbol, then the rest. The first
argument is at least the length of the list. The number of patches is written at once instead of afterwards. -/
def putRefs (M : Mod) (pos : Nat) : Nat → List (Nat × Nat × Nat) → Bytes → Bytes
  | 0, _, f => f
  | _, [], f => f
  | k + 1, (n, off, v) :: rest, f =>
    let mine := ((n, off, v) :: rest).filter fun x => x.1 == n
    putRefs M pos k (rest.filter fun x => !(x.1 == n))
      (putPatches pos (mine.map Prod.snd) (f ++ (fputstr (M.sym n).name 0x81000000 ++ put32be mine.length)))

/-- The symbols of section `k`: labels, or exported labels. -/
def Mod.labels (M : Mod) (k : Nat) : List Sym := M.syms.filter fun y => y.sym.type.reloc && y.sym.sect == some k
def Mod.exports (M : Mod) (k : Nat) : List Sym := M.syms.filter fun y => y.sym.type.reloc && y.exported && y.sym.sect == some k

def putSyms (flags : Nat) (ys : List Sym) : Bytes := ys.flatMap fun y => fputstr y.name flags ++ put32be (u32 y.sym.value)

/-- `writeExtHunk` (xasm/motor/amigaobject.c 96-162). -/
def putExt (M : Mod) (k pos : Nat) (imports : List (Nat × Nat × Nat)) (f : Bytes) : Bytes :=
  if imports = [] ∧ M.exports k = [] then f
  else putRefs M pos imports.length imports (f ++ put32be 0x3EF) ++ (putSyms 0x01000000 (M.exports k) ++ put32be 0)

/-- `writeSymbolHunk` (xasm/motor/amigaobject.c 73-94). -/
def putLabels (M : Mod) (k : Nat) (f : Bytes) : Bytes :=
  if M.labels k = [] then f else f ++ (put32be 0x3F0 ++ (putSyms 0 (M.labels k) ++ put32be 0))

/-- `(usedSpace + 3) / 4`. -/
def longs (n : Nat) : Nat := (n + 3) % W32 / 4

/-- `writeSection` (xasm/motor/amigaobject.c 197-302) for section `k`; the processor supports the Amiga. -/
def putSection (M : Mod) (link debug : Bool) (k : Nat) (s : Sec) (f : Bytes) : Outcome Bytes :=
  let finish (f : Bytes) : Bytes := (if debug then putLabels M k f else f) ++ put32be 0x3F2
  if s.text then
    if s.patches.all fun p => (target M link p).isSome then
      let f := f ++ (put32be (if s.isData then 0x3EA else 0x3E9) ++ put32be (longs s.used))
      let pos := f.length
      let f := f ++ padded s.data
      let gs := (List.range M.secs.length).map (groupOf M link s.patches)
      let f := if gs.all List.isEmpty then f else putReloc32 pos gs f
      .ok (finish (if link then putExt M k pos (importsOf M link s.patches) f else f))
    else .fail
  else
    let f := f ++ (put32be 0x3EB ++ put32be (longs s.used))
    .ok (finish (if link then putExt M k 0 [] f else f))

/-- The loop of `ami_WriteObject` (xasm/motor/amigaobject.c 329-336) from section `k` on. -/
def putObject (M : Mod) : Nat → List Sec → Bytes → Outcome Bytes
  | _, [], f => .ok f
  | k, s :: ss, f => (putSection M true true k s (f ++ (put32be 0x3E8 ++ fputstr s.name 0))).bind (putObject M (k + 1) ss)

/-- `ami_WriteObject` (xasm/motor/amigaobject.c 316-340). -/
def writeObject (M : Mod) (source : Bytes) : Outcome Bytes := putObject M 0 M.secs (put32be 0x3E7 ++ fputstr source 0)

/-- The loop of `ami_WriteExecutable` (xasm/motor/amigaobject.c 365-370) from section `k` on. -/
def putExecutable (M : Mod) (debug : Bool) : Nat → List Sec → Bytes → Outcome Bytes
  | _, [], f => .ok f
  | k, s :: ss, f => (putSection M false debug k s f).bind (putExecutable M debug (k + 1) ss)

/-- A size in the header (xasm/motor/amigaobject.c 359-362). -/
def sizeWord (s : Sec) : Nat := if s.shared then longs s.used ||| 0x40000000 else longs s.used

/-- `ami_WriteExecutable` (xasm/motor/amigaobject.c 342-374) with `writeSectionNames` (304-314). -/
def writeExecutable (M : Mod) (debug : Bool) : Outcome Bytes :=
  putExecutable M debug 0 M.secs
    (put32be 0x3F3 ++ ((if debug then M.secs.flatMap fun s => fputstr s.name 0 else []) ++ (put32be 0 ++ (put32be M.secs.length ++ (put32be 0 ++
      (put32be ((M.secs.length + 4294967295) % W32) ++ M.secs.flatMap fun s => put32be (sizeWord s)))))))

end Verif.Ami
