import Verif.Elf.Model
/-!
# What an ELF object file has to say

The sections that the linker makes of a file stand for the sections of the assembler: the same name, kind, address, alignment, size and
contents; the labels of a section are defined in it, exported or for the same file only; every patch adds its offset to its
symbol, which is a label of the section or is imported by its name.
-/
namespace Verif.Elf
open Verif.Expr (Src)

/-- What the assembler guarantees: numbers are `uint32_t`; text sections have contents; patches are inside of their sections, below
2^31; labels that are not constant have a section and constants are no imports; names are C strings. -/
structure Mod.WF (M : Mod) : Prop where
  align : M.sectionAlignment < W32
  used : ∀ s ∈ M.secs, s.used < W32 ∧ (s.text = true → s.used ≤ s.alloc)
  load : ∀ s ∈ M.secs, ∀ a ∈ s.load, a < W32
  aligned : ∀ s ∈ M.secs, ∀ a ∈ s.align, a < W32
  data : ∀ s ∈ M.secs, s.text = true → s.data.length = s.used
  bss : ∀ s ∈ M.secs, s.text = false → s.patches = []
  patches : ∀ s ∈ M.secs, ∀ p ∈ s.patches, p.offset < s.used
  names : ∀ s ∈ M.secs, (0 : UInt8) ∉ s.name ∧ s.name.length < 255
  symNames : ∀ y ∈ M.syms, (0 : UInt8) ∉ y.name ∧ y.name.length < 255
  values : ∀ y ∈ M.syms, y.value < W32
  labels : ∀ y ∈ M.syms, y.kind = .label → y.constant = false ∧ y.reloc = true ∧ y.sec < M.secs.length
  equs : ∀ y ∈ M.syms, y.kind = .equ → y.constant = true
  imports : ∀ y ∈ M.syms, y.kind.isImport = true → y.constant = false ∧ y.reloc = true

/-- A number from which a symbol is subtracted. -/
def Reverse : Src → Prop
  | .bin .sub (.num _) _ => True
  | .bin _ a b => Reverse a ∨ Reverse b
  | _ => False

/-- The expressions that the format can express: no number from which a symbol is subtracted; numbers are 32 bits. -/
def Mod.Plain (M : Mod) : Prop := ∀ s ∈ M.secs, ∀ p ∈ s.patches, p.expr.Ok ∧ ¬ Reverse p.expr

/-- The file is not too large for the format: sizes are 32 bits, the numbers of sections and symbols 16 and 24 bits. -/
structure Mod.Small (M : Mod) : Prop where
  secs : 3 + 2 * M.secs.length < 0xFF00
  syms : M.syms.length < 0xFFFFFF

/-- The labels that are defined in section `k`, as the linker knows them: first those for this file only, then the exported ones. -/
def Mod.exports (M : Mod) (k : Nat) : List XSym :=
  ((M.syms.filter fun y => y.kind == .label && y.sec == k && !y.exported).map fun y => ⟨y.name, 3, y.value, false⟩) ++
  ((M.syms.filter fun y => y.kind == .label && y.sec == k && y.exported).map fun y => ⟨y.name, 0, y.value, false⟩)

/-- The symbol `e` of section `k` stands for the symbol `y` of the assembler: it is the definition, if the label is in this section;
or it imports the name, from this file or from another. -/
def Refers (k : Nat) (y : ASym) (e : XSym) : Prop :=
  e.name = y.name ∧
  if y.kind = .label then
    if y.sec = k then e = ⟨y.name, if y.exported then 0 else 3, y.value, false⟩ else e.type = 4
  else e.type = 1

/-- The contents without the bytes of the patches. -/
def Covered (s : ASec) (j : Nat) : Prop := ∃ p ∈ s.patches, p.offset ≤ j ∧ j < p.offset + 4

/-- Whatever address symbol `n` gets, the expression is worth that address plus `c`, modulo 2^32. -/
def Denotes (e : Src) (n : Nat) (c : Int) : Prop :=
  ∀ (fm : Expr.FMath) (now : Nat → Expr.ASym) (ρ : Expr.Den) (a : Int), ¬ (now n).type.constant → ρ.sym n = some a → Expr.I32 a →
    e.value fm Expr.wrap now ρ = some (Expr.toI32 (a + c))

/-- A patch of the assembler and one of the linker: at the same place, and 32 bits wide, symbol plus offset. -/
def SamePatch (M : Mod) (k : Nat) (syms : List XSym) (p : APatch) (q : XPatch) : Prop :=
  q.offset = p.offset ∧ q.type = 4 ∧ ∃ n c y m e, Denotes p.expr n c ∧ Expr.I32 c ∧ M.syms[n]? = some y ∧
    q.expr = (Expr.Tree.bin .add (.sym m) (.const c)).serialize ∧ syms[m]? = some e ∧ Refers k y e

/-- Section `k` of the linker is section `k` of the assembler. -/
structure SameSec (M : Mod) (k : Nat) (s : ASec) (x : XSec) : Prop where
  name : x.name = s.name
  group : x.group = if s.text then (if s.isData then .data else .code) else .bss
  loc : x.loc = s.load
  align : x.align = (let a := s.align.getD M.sectionAlignment; if a ≥ 2 then some a else none)
  size : x.size = s.used
  length : s.text = true → x.data.length = s.used
  data : ∀ j, ¬ Covered s j → s.text = true → x.data[j]? = s.data[j]?
  symbols : ∃ imps, x.symbols = M.exports k ++ imps ∧ imps.length ≤ s.patches.length ∧ ∀ e ∈ imps, e.type = 1 ∨ e.type = 4
  patches : ∃ ps, List.Perm ps s.patches ∧ ps.length = x.patches.length ∧
    ∀ (j : Nat) p q, ps[j]? = some p → x.patches[j]? = some q → SamePatch M k x.symbols p q

/-- The sections of the linker are those of the assembler. -/
def Same (M : Mod) (xs : List XSec) : Prop :=
  xs.length = M.secs.length ∧ ∀ k s x, M.secs[k]? = some s → xs[k]? = some x → SameSec M k s x

/-! ### The format -/

/-- Words of 32 bits in the byte order of the file. -/
def words (be : Bool) (l : List Nat) : Bytes := l.flatMap fun n => if be then put32be n else put32le n
def halves (be : Bool) (l : List Nat) : Bytes := l.flatMap fun n => if be then put16be n else put16le n

/-- What the System V ABI says about object files: the header of the file, of 52 bytes; behind it, somewhere, the headers of the sections of 40
bytes; the table of strings; the sections and their relocations, and where they are. -/
structure Format (be : Bool) (M : Mod) (file : Bytes) (shoff : Nat) (hdrs : List Shdr) (strs : Bytes) : Prop where
  ident : file.take 52 = [0x7F, 0x45, 0x4C, 0x46, 1, if be then 2 else 1, 1] ++ List.replicate 9 0 ++ halves be [1, 4] ++
    words be [1, 0, 0, shoff, 0] ++ halves be [52, 0, 0, 40, hdrs.length, 2]
  table : 52 ≤ shoff ∧ shoff ≤ file.length ∧ (hdrs.flatMap fun h => words be
    [h.name, h.type, h.flags, h.addr, h.offset, h.size, h.link, h.info, h.align, h.entsize]) <+: file.drop shoff
  number : hdrs.length = 3 + 2 * M.secs.length
  null : hdrs[0]? = some ⟨0, 0, 0, 0, 0, 0, 0, 0, 0, 0⟩
  symtab : ∃ off, hdrs[1]? = some ⟨1, 2, 0, 0, off, 16 * (1 + M.locals.length + M.globals.length), 2, 1 + M.locals.length, 0, 16⟩
  strtab : ∃ off, hdrs[2]? = some ⟨9, 3, 0, 0, off, strs.length, 0, 0, 0, 0⟩ ∧ strs <+: file.drop off
  strings : putSz [0x2E, 0x73, 0x79, 0x6D, 0x74, 0x61, 0x62] <+: strs.drop 1 ∧ putSz [0x2E, 0x73, 0x74, 0x72, 0x74, 0x61, 0x62] <+: strs.drop 9
  sections : ∀ (i : Nat) s, M.secs[i]? = some s → ∃ h : Shdr, hdrs[3 + i]? = some h ∧ putSz s.name <+: strs.drop h.name ∧
    (if s.text then h.type = 1 ∧ h.flags = (if s.isData then 3 else 6) else h.type = 8 ∧ h.flags = 3) ∧
    h.addr = s.load.getD 0 ∧ h.size = s.used ∧ h.align = s.align.getD M.sectionAlignment ∧
    (s.text = true → 52 ≤ h.offset ∧ h.offset % h.align = 0 ∧ h.offset + s.used ≤ file.length)
  relocs : ∀ (i : Nat) s, M.secs[i]? = some s → ∃ h : Shdr, hdrs[3 + M.secs.length + i]? = some h ∧
    putSz (s.name ++ [0x2E, 0x72, 0x65, 0x6C, 0x6F, 0x63]) <+: strs.drop h.name ∧ h.type = 4 ∧ h.flags = 0 ∧ h.size = 12 * s.patches.length ∧
    h.link = 1 ∧ h.info = 3 + i ∧ h.entsize = 12

end Verif.Elf
