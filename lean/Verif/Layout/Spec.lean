import Verif.Config.Model
/-!
# Specification of memory layout files

Written from doc/LinkerMemoryLayoutFile.md: the words of a line, the expressions and what the directives define.
-/
namespace Verif.Layout
open Verif.Config (Format)
open Verif.Assign (Pool MGroup)

/-! ## Lines and their words -/

/-- Characters that separate words. -/
def Separator (c : Char) : Prop := c ∈ " \t\n$%+-*/()[]:@;,.".toList

instance (c : Char) : Decidable (Separator c) := by unfold Separator; infer_instance

/-- A name or number. -/
def Word (t : List Char) : Prop := t ≠ [] ∧ ∀ c ∈ t, ¬ Separator c

instance (t : List Char) : Decidable (Word t) := by unfold Word; infer_instance

/-- A punctuation mark. -/
def Mark (t : List Char) : Prop := ∃ c, t = [c] ∧ c ∈ "$%+-*/()[]:@,.".toList

def Blanks (s : List Char) : Prop := ∀ c ∈ s, c = ' ' ∨ c = '\t'

/-- How a line is written: its words and marks in order, with any number of blanks before each of them. Two words have
a blank between them, marks need none. At the end there may be blanks and a comment. -/
inductive Spells : List (List Char) → List Char → Prop where
  | done (b : List Char) : Blanks b → Spells [] b
  | comment (b c : List Char) : Blanks b → Spells [] (b ++ ';' :: c)
  | mark (b t : List Char) (ts : List (List Char)) (s : List Char) :
      Blanks b → Mark t → Spells ts s → Spells (t :: ts) (b ++ t ++ s)
  | word (b t : List Char) (ts : List (List Char)) (s : List Char) :
      Blanks b → Word t → (∀ c, s.head? = some c → Separator c) → Spells ts s → Spells (t :: ts) (b ++ t ++ s)

/-! ## Expressions -/

/-- The value of a digit. -/
def digitValue (c : Char) : Option Nat :=
  match "0123456789abcdef".toList.findIdx? (· == c) with
  | some i => some i
  | none => "0123456789ABCDEF".toList.findIdx? (· == c)

/-- The number that digits stand for. -/
def number (base : Nat) (ds : List Char) : Nat := ds.foldl (fun v c => v * base + (digitValue c).getD 0) 0

inductive Op where
  | add | sub | mul | div
  deriving Repr, DecidableEq

/-- Expressions as they are written. -/
inductive LExpr where
  | dec (ds : List Char)
  | hex (ds : List Char)
  /-- `@` -/
  | index
  | pos (e : LExpr)
  | neg (e : LExpr)
  | paren (e : LExpr)
  | bin (op : Op) (l r : LExpr)
  deriving Repr, DecidableEq

/-- How tightly the outermost operator binds. -/
def LExpr.level : LExpr → Nat
  | .bin .add _ _ | .bin .sub _ _ => 1
  | .bin .mul _ _ | .bin .div _ _ => 2
  | _ => 3

/-- The tree is the one that the text stands for: multiplication binds more tightly than addition, operators of the same
precedence are left associative, signs bind most tightly. Numbers have at least one digit. -/
def LExpr.Grammatical : LExpr → Prop
  | .dec ds => ds ≠ [] ∧ ∀ c ∈ ds, ∃ d, digitValue c = some d ∧ d < 10
  | .hex ds => ds ≠ [] ∧ ∀ c ∈ ds, ∃ d, digitValue c = some d ∧ d < 16
  | .index => True
  | .pos e => e.Grammatical ∧ e.level = 3
  | .neg e => e.Grammatical ∧ e.level = 3
  | .paren e => e.Grammatical
  | .bin op l r => l.Grammatical ∧ r.Grammatical ∧
      match op with
      | .add | .sub => 1 ≤ l.level ∧ 2 ≤ r.level
      | .mul | .div => 2 ≤ l.level ∧ 3 ≤ r.level

def Op.word : Op → List Char
  | .add => ['+'] | .sub => ['-'] | .mul => ['*'] | .div => ['/']

/-- The words of an expression. -/
def LExpr.words : LExpr → List (List Char)
  | .dec ds => [ds]
  | .hex ds => [['$'], ds]
  | .index => [['@']]
  | .pos e => ['+'] :: e.words
  | .neg e => ['-'] :: e.words
  | .paren e => ['('] :: e.words ++ [[')']]
  | .bin op l r => l.words ++ op.word :: r.words

/-- The 32-bit number with sign that has the same bits as `n`. -/
def signed (n : Nat) : Int := (((n : Int) + 2147483648) % 4294967296) - 2147483648

def fits (v : Int) : Option Int := if -2147483648 ≤ v ∧ v ≤ 2147483647 then some v else none

/-- The value of an expression: a 32-bit number with sign. There is none if an operation overflows or divides by zero.
Division rounds towards zero. `i` is the value of `@`. -/
def LExpr.value (i : Option Nat) : LExpr → Option Int
  | .dec ds => some (signed (number 10 ds))
  | .hex ds => some (signed (number 16 ds))
  | .index => i.map signed
  | .pos e => e.value i
  | .neg e => (e.value i).bind fun v => fits (-v)
  | .paren e => e.value i
  | .bin op l r => (l.value i).bind fun a => (r.value i).bind fun b =>
      match op with
      | .add => fits (a + b)
      | .sub => fits (a - b)
      | .mul => fits (a * b)
      | .div => if b = 0 then none else fits (a.tdiv b)

/-- How many operands the linker keeps at most. -/
def LExpr.depth : LExpr → Nat
  | .dec _ | .hex _ | .index => 1
  | .pos e => e.depth
  | .neg e => e.depth + 1
  | .paren e => e.depth
  | .bin _ l r => max l.depth (r.depth + 1)

/-- The unsigned 32-bit number with the same bits. -/
def unsigned (v : Int) : Nat := (v % 4294967296).toNat

/-- An expression that is written as intended, has the value `n` (unsigned) and is not too complex. -/
def LExpr.Is (i : Option Nat) (e : LExpr) (n : Nat) : Prop :=
  e.Grammatical ∧ e.depth ≤ 256 ∧ ∃ v, e.value i = some v ∧ n = unsigned v

/-! ### The ordinary value of an expression -/

/-- The value in unbounded integers. -/
def LExpr.exact (i : Nat) : LExpr → Option Int
  | .dec ds => some (number 10 ds)
  | .hex ds => some (number 16 ds)
  | .index => some i
  | .pos e => e.exact i
  | .neg e => (e.exact i).map fun v => -v
  | .paren e => e.exact i
  | .bin op l r => (l.exact i).bind fun a => (r.exact i).bind fun b =>
      match op with
      | .add => some (a + b)
      | .sub => some (a - b)
      | .mul => some (a * b)
      | .div => if b = 0 then none else some (a.tdiv b)

/-- No division. -/
def LExpr.NoDivision : LExpr → Prop
  | .dec _ | .hex _ | .index => True
  | .pos e | .neg e | .paren e => e.NoDivision
  | .bin op l r => op ≠ .div ∧ l.NoDivision ∧ r.NoDivision

/-- The numbers and all intermediate results are signed 32-bit numbers. -/
def LExpr.Small (i : Nat) : LExpr → Prop
  | .dec ds => number 10 ds < 2147483648
  | .hex ds => number 16 ds < 2147483648
  | .index => i < 2147483648
  | .pos e => e.Small i
  | .neg e => e.Small i ∧ ∀ v, e.exact i = some v → -v ≤ 2147483647
  | .paren e => e.Small i
  | .bin op l r => l.Small i ∧ r.Small i ∧
      ∀ v, (LExpr.bin op l r).exact i = some v → -2147483648 ≤ v ∧ v ≤ 2147483647

/-! ## Directives -/

/-- The parameters of a pool: address, bank, size, offset in the image and overlay. -/
structure Params where
  addr : LExpr
  bank : LExpr
  size : LExpr
  image : Option LExpr
  overlay : Option LExpr

/-- An expression that may be missing. -/
def optionalWords : Option LExpr → List (List Char)
  | some e => e.words
  | none => []

/-- A colon and a word or expression, which may be missing. -/
def colonWords : Option (List (List Char)) → List (List Char)
  | some ws => [':'] :: ws
  | none => []

def Params.words (p : Params) : List (List Char) :=
  p.addr.words ++ p.bank.words ++ p.size.words ++ optionalWords p.image ++ colonWords (p.overlay.map (·.words))

/-- No sign in front: it would be taken for an operator. -/
def LExpr.Unsigned (e : LExpr) : Prop := e.words.head? ≠ some ['+'] ∧ e.words.head? ≠ some ['-']

instance (e : LExpr) : Decidable e.Unsigned := by unfold LExpr.Unsigned; infer_instance

/-- Pool `q` is the one that the parameters describe. No offset, or the offset -1, means that the pool is not part of
the image; no overlay is the overlay -1. -/
structure Params.Describes (p : Params) (i : Option Nat) (q : Pool) : Prop where
  addr : p.addr.Is i q.base
  bank : ∃ n, p.bank.Is i n ∧ q.bank = signed n
  size : p.size.Is i q.size
  image : match p.image with
    | none => q.image = none
    | some e => ∃ n, e.Is i n ∧ q.image = if n = 4294967295 then none else some n
  overlay : match p.overlay with
    | none => q.overlay = 4294967295
    | some e => e.Is i q.overlay
  free : q.free = []
  bankUnsigned : p.bank.Unsigned
  sizeUnsigned : p.size.Unsigned
  imageUnsigned : ∀ e, p.image = some e → e.Unsigned

inductive Directive where
  | pool (name : List Char) (p : Params)
  | pools (name : List Char) (first last : LExpr) (p : Params)
  /-- The kind of a group means nothing to the linker. -/
  | group (name : List Char) (kind : Option (List Char)) (pools : List (List Char))
  | symbol (name : List Char) (e : LExpr)
  | groupStart (name group : List Char)
  | groupSize (name group : List Char)
  | formats (fs : List (List Char))
  /-- Formats, the last one of which is `CBM_PRG[e]`. -/
  | formatsCbm (fs : List (List Char)) (e : LExpr)

def Directive.words : Directive → List (List Char)
  | .pool name p => "POOL".toList :: name :: p.words
  | .pools name first last p =>
      "POOLS".toList :: name :: ['['] :: first.words ++ [':'] :: last.words ++ [']'] :: p.words
  | .group name kind ps => "GROUP".toList :: name :: colonWords (kind.map ([·])) ++ ps
  | .symbol name e => "SYMBOL".toList :: name :: e.words
  | .groupStart name g => ["SYMBOL".toList, name, g, ['.'], "start".toList]
  | .groupSize name g => ["SYMBOL".toList, name, g, ['.'], "size".toList]
  | .formats fs => "FORMATS".toList :: fs
  | .formatsCbm fs e => "FORMATS".toList :: fs ++ "CBM_PRG".toList :: ['['] :: e.words ++ [[']']]

/-- The names of formats in the documentation. -/
def formatMeaning : List (String × Format) :=
  [("BIN", .binary), ("GAME_BOY", .gameBoy), ("HUNK_EXE", .amigaExecutable), ("HUNK_OBJ", .amigaLinkObject),
   ("MEGA_DRIVE", .megaDrive), ("MASTER_SYSTEM", .masterSystem), ("HC800_KERNEL", .hc800Kernel), ("HC800", .hc800),
   ("PGZ", .pgz), ("KUP", .f256Kup), ("KUPP", .f256KupPad), ("COCO_QL", .cocoBin), ("MEGA65_PRG", .mega65Prg)]

/-- What the symbols of a layout file stand for. -/
inductive SymbolMeaning where
  | number (v : Int)
  | start (group : Nat)
  | size (group : Nat)
  deriving Repr, DecidableEq

/-- What a layout file defines: named lists of pools, groups of pools, symbols, the permitted formats and the address
in the header of Commodore programs. -/
structure Machine where
  pools : List (List Char × List Pool)
  groups : List (List Char × List (List Char))
  symbols : List (List Char × SymbolMeaning)
  formats : List Format
  header : Nat

def Machine.empty : Machine := ⟨[], [], [], [], 0⟩

/-- The names of formats that are known, and what they are. -/
inductive Formats : List (List Char) → List Format → Prop where
  | nil : Formats [] []
  | cons (n : String) (g : Format) (fs : List (List Char)) (gs : List Format) :
      (n, g) ∈ formatMeaning → Formats fs gs → Formats (n.toList :: fs) (g :: gs)

/-- `m'` is `m` with what the directive defines. Pools and groups are named once, and before they are used. -/
inductive Defines : Machine → Directive → Machine → Prop where
  | pool (m : Machine) (name : List Char) (p : Params) (q : Pool) :
      Word name → name ∉ m.pools.map (·.1) → p.Describes none q →
      Defines m (.pool name p) { m with pools := m.pools ++ [(name, [q])] }
  | pools (m : Machine) (name : List Char) (first last : LExpr) (p : Params) (a b : Nat) (qs : List Pool) :
      Word name → name ∉ m.pools.map (·.1) → first.Is none a → last.Is none b →
      a ≤ b → b < 4294967295 → b - a < 2147483647 → qs.length = b - a + 1 →
      (∀ (k : Nat) (q : Pool), qs[k]? = some q → p.Describes (some (a + k)) q) →
      Defines m (.pools name first last p) { m with pools := m.pools ++ [(name, qs)] }
  | group (m : Machine) (name : List Char) (kind : Option (List Char)) (ps : List (List Char)) :
      Word name → name.length < 256 → (∀ k, kind = some k → Word k) → ps ≠ [] → (∀ p ∈ ps, p ∈ m.pools.map (·.1)) →
      Defines m (.group name kind ps) { m with groups := m.groups ++ [(name, ps)] }
  | symbol (m : Machine) (name : List Char) (e : LExpr) (v : Int) :
      Word name → name.length < 256 → e.Grammatical → e.depth ≤ 256 → e.value none = some v →
      Defines m (.symbol name e) { m with symbols := m.symbols ++ [(name, .number v)] }
  | groupStart (m : Machine) (name g : List Char) (i : Nat) :
      Word name → name.length < 256 → Word g → (∃ c ∈ g, ∀ d, digitValue c = some d → 10 ≤ d) →
      (m.groups.map (·.1)).findIdx? (· == g) = some i → i < 2147483648 →
      Defines m (.groupStart name g) { m with symbols := m.symbols ++ [(name, .start i)] }
  | groupSize (m : Machine) (name g : List Char) (i : Nat) :
      Word name → name.length < 256 → Word g → (∃ c ∈ g, ∀ d, digitValue c = some d → 10 ≤ d) →
      (m.groups.map (·.1)).findIdx? (· == g) = some i → i < 2147483648 →
      Defines m (.groupSize name g) { m with symbols := m.symbols ++ [(name, .size i)] }
  | formats (m : Machine) (fs : List (List Char)) (gs : List Format) :
      fs ≠ [] → Formats fs gs → Defines m (.formats fs) { m with formats := m.formats ++ gs }
  | formatsCbm (m : Machine) (fs : List (List Char)) (gs : List Format) (e : LExpr) (n : Nat) :
      Formats fs gs → e.Is none n →
      Defines m (.formatsCbm fs e) { m with formats := m.formats ++ gs ++ [.cbmPrg], header := n % 65536 }

/-- A file: one directive or nothing on each line. -/
inductive File : Machine → List (List Char) → Machine → Prop where
  | done (m : Machine) : File m [] m
  | empty (m m' : Machine) (line : List Char) (lines : List (List Char)) :
      Spells [] line → File m lines m' → File m (line :: lines) m'
  | line (m m₁ m₂ : Machine) (d : Directive) (line : List Char) (lines : List (List Char)) :
      Spells d.words line → Defines m d m₁ → File m₁ lines m₂ → File m (line :: lines) m₂

/-- The positions of the pools with the given name, when all pools are numbered in the order of their definition. -/
def Machine.positions (m : Machine) (name : List Char) : Option (List Nat) :=
  match m.pools.findIdx? (fun x => x.1 == name), m.pools.find? (fun x => x.1 == name) with
  | some k, some x => some (List.range' ((m.pools.take k).map (·.2.length)).sum x.2.length)
  | _, _ => none

end Verif.Layout
