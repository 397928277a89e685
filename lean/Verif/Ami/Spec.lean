import Verif.Ami.Model
import Verif.Expr.AsmReduce
/-!
# How AmigaDOS and a linker read hunk files

Written from the description of the format: the blocks of a hunk may follow in any order. The addresses of hunks, and of symbols of
other objects, are added to the longwords that are named in relocations and references.
-/
namespace Verif.Ami
open Verif.Expr (u32 FMath Den wrap AExpr I32)
open Verif.Container.Amiga (relocs)

/-- A name: the number of longwords is known; it ends at the first zero. -/
def name (n : Nat) (f : Bytes) : Option (Bytes × Bytes) := (getN (4 * n) f).map fun r => (r.1.takeWhile (· ≠ 0), r.2)

/-- Names with a value, up to a name without longwords. -/
def symbols : Nat → Bytes → Option (List (Bytes × Nat) × Bytes)
  | 0, _ => none
  | fuel + 1, f => do
    let (n, f) ← get32be f
    if n = 0 then some ([], f)
    else
      let (s, f) ← name n f
      let (v, f) ← get32be f
      let (r, f) ← symbols fuel f
      some ((s, v) :: r, f)

/-- An external symbol: defined at an offset of the hunk, or added to longwords of the hunk. -/
inductive Ext where
  | defn (name : Bytes) (offset : Nat)
  | ref32 (name : Bytes) (at_ : List Nat)
  deriving DecidableEq, Repr

def exts : Nat → Bytes → Option (List Ext × Bytes)
  | 0, _ => none
  | fuel + 1, f => do
    let (w, f) ← get32be f
    if w = 0 then some ([], f)
    else
      let (s, f) ← name (w % 16777216) f
      if w / 16777216 = 1 then
        let (v, f) ← get32be f
        let (r, f) ← exts fuel f
        some (.defn s v :: r, f)
      else if w / 16777216 = 0x81 then
        let (n, f) ← get32be f
        let (o, f) ← Container.Amiga.longs n f
        let (r, f) ← exts fuel f
        some (.ref32 s o :: r, f)
      else none

/-- What follows the contents of a hunk. -/
structure Tail where
  relocs : List (Nat × List Nat)
  exts : List Ext
  symbols : List (Bytes × Nat)
  deriving DecidableEq, Repr

/-- The blocks up to the end of the hunk, in any order. -/
def tail : Nat → Bytes → Option (Tail × Bytes)
  | 0, _ => none
  | fuel + 1, f => do
    let (w, f) ← get32be f
    if w = 0x3F2 then some (⟨[], [], []⟩, f)
    else if w = 0x3EC then
      let (r, f) ← relocs (f.length + 1) f
      let (t, f) ← tail fuel f
      some ({ t with relocs := r ++ t.relocs }, f)
    else if w = 0x3EF then
      let (r, f) ← exts (f.length + 1) f
      let (t, f) ← tail fuel f
      some ({ t with exts := r ++ t.exts }, f)
    else if w = 0x3F0 then
      let (r, f) ← symbols (f.length + 1) f
      let (t, f) ← tail fuel f
      some ({ t with symbols := r ++ t.symbols }, f)
    else none

/-- A hunk: code, data or nothing but memory; its size in longwords; its contents; what follows. -/
structure Hunk where
  kind : Nat
  longs : Nat
  data : Bytes
  tail : Tail
  deriving DecidableEq, Repr

def hunk (f : Bytes) : Option (Hunk × Bytes) := do
  let (kind, f) ← get32be f
  let (n, f) ← get32be f
  if kind = 0x3EB then
    let (t, f) ← tail (f.length + 1) f
    some (⟨kind, n, [], t⟩, f)
  else if kind = 0x3E9 ∨ kind = 0x3EA then
    let (d, f) ← getN (4 * n) f
    let (t, f) ← tail (f.length + 1) f
    some (⟨kind, n, d, t⟩, f)
  else none

/-- The hunks of an executable, and what the header says about their memory: chip memory or any, and the number of longwords. -/
def hunks : List Nat → Bytes → Option (List (Bool × Hunk) × Bytes)
  | [], f => some ([], f)
  | w :: ws, f => do
    let (h, f) ← hunk f
    if h.longs ≤ w % 1073741824 ∧ w < 2147483648 then
      let (r, f) ← hunks ws f
      some ((w / 1073741824 == 1, h) :: r, f)
    else none

/-- An executable: no resident libraries, all hunks, and nothing behind them. -/
def load (f : Bytes) : Option (List (Bool × Hunk)) := do
  let (l, f) ← Container.Amiga.longs 5 f
  match l with
  | [0x3F3, 0, n, 0, last] =>
    if n = last + 1 then
      let (ws, f) ← Container.Amiga.longs n f
      match hunks ws f with
      | some (hs, []) => some hs
      | _ => none
    else none
  | _ => none

/-- The hunks of an object, with their names, to the end of the file. -/
def objectHunks : Nat → Bytes → Option (List (Bytes × Hunk))
  | 0, _ => none
  | _, [] => some []
  | fuel + 1, f => do
    let (w, f) ← get32be f
    if w = 0x3E8 then
      let (n, f) ← get32be f
      let (s, f) ← name n f
      let (h, f) ← hunk f
      let r ← objectHunks fuel f
      some ((s, h) :: r)
    else none

/-- An object: its name and its hunks. -/
def object (f : Bytes) : Option (Bytes × List (Bytes × Hunk)) := do
  let (w, f) ← get32be f
  if w = 0x3E7 then
    let (n, f) ← get32be f
    let (s, f) ← name n f
    let r ← objectHunks (f.length + 1) f
    some (s, r)
  else none

/-! ### Memory -/

/-- A number is added to a longword. -/
def addLong (m : Bytes) (u : Nat × Int) : Option Bytes :=
  match get32be (m.drop u.1) with
  | some (w, _) => some (m.take u.1 ++ (put32be (u32 (w + u.2)) ++ m.drop (u.1 + 4)))
  | none => none

def Ext.updates (addr : Bytes → Int) : Ext → List (Nat × Int)
  | .defn _ _ => []
  | .ref32 s o => o.map fun x => (x, addr s)

/-- What is added to the contents: the addresses of hunks, and of symbols of other objects. -/
def Hunk.updates (h : Hunk) (base : Nat → Int) (addr : Bytes → Int) : List (Nat × Int) :=
  (h.tail.relocs.flatMap fun (j, o) => o.map fun x => (x, base j)) ++ h.tail.exts.flatMap (Ext.updates addr)

/-- The contents of the memory of a hunk. -/
def Hunk.memory (h : Hunk) (base : Nat → Int) (addr : Bytes → Int) : Option Bytes := (h.updates base addr).foldlM addLong h.data

/-! ### What is expected -/

/-- What the assembler guarantees: text sections have contents, patches are inside of them and do not overlap, expressions have been simplified; names
are C strings; sizes and numbers are 32 bits. -/
structure Mod.WF (M : Mod) : Prop where
  count : M.secs.length < W32
  used : ∀ s ∈ M.secs, s.used ≤ 0xFFFFFFFC
  data : ∀ s ∈ M.secs, s.text = true → s.data.length = s.used
  inside : ∀ s ∈ M.secs, ∀ p ∈ s.patches, p.offset + 4 ≤ s.used
  count32 : ∀ s ∈ M.secs, s.patches.length < W32
  apart : ∀ s ∈ M.secs, s.patches.Pairwise fun p q => p.offset + 4 ≤ q.offset ∨ q.offset + 4 ≤ p.offset
  plain : ∀ s ∈ M.secs, ∀ p ∈ s.patches, p.expr.Plain
  names : ∀ s ∈ M.secs, (0 : UInt8) ∉ s.name ∧ s.name.length < 67108861
  symNames : ∀ y ∈ M.syms, (0 : UInt8) ∉ y.name ∧ y.name ≠ [] ∧ y.name.length < 67108861

/-- Nothing but numbers is subtracted. -/
def Positive : AExpr → Prop
  | .bin _ op a b => (op = .sub → ∃ v, b = .const v) ∧ Positive a ∧ Positive b
  | _ => True

/-- The bytes of a patch. -/
def Covered (s : Sec) (j : Nat) : Prop := ∃ p ∈ s.patches, p.offset ≤ j ∧ j < p.offset + 4

/-- The memory holds the contents of the section, and the values of the expressions in the places of the patches. -/
structure Holds (fm : FMath) (ρ : Den) (s : Sec) (m : Bytes) : Prop where
  length : m.length = 4 * ((s.used + 3) / 4)
  bytes : ∀ j < s.used, ¬ Covered s j → m[j]? = s.data[j]?
  values : ∀ p ∈ s.patches, ∃ v, p.expr.den fm wrap ρ = some v ∧ (m.drop p.offset).take 4 = put32be (u32 v)

end Verif.Ami
