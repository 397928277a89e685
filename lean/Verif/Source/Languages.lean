import Verif.Source.Check
import Verif.Cpu.M6809.Model
import Verif.Cpu.Dcpu.Model
import Verif.Cpu.Mips.Model
import Verif.Cpu.Schip.Model
import Verif.Cpu.X65.Model
/-!
# C59: the languages of six assemblers

Lines are divided in the same way by all assemblers, and operators are written as documented.
-/
namespace Verif.Source

open Verif.Lexer
open Verif.Parse (Tok Toks Tree)
open Verif.Expr (BinOp UnOp)

/-- What of `SConfiguration` matters for words (xasm/motor/xasm.h 49-97), and the words of the processor. -/
structure Assembler where
  config : Config
  words : List (String × Nat)

/-- xasm/z80/z80_main.c 31-64. -/
def asmZ80 : Assembler := ⟨z80Config, Cpu.Z80.words⟩
/-- xasm/6809/m6809_main.c 33-48. -/
def asm6809 : Assembler := ⟨⟨1, true, [some "RB", some "RW", none, none], [some "DB", some "DW", none, none], [some "DS", none, none, none]⟩, Cpu.M6809.words⟩
/-- xasm/6502/x65_main.c 31-46, with the words for the processor at the start. -/
def asm6502 : Assembler :=
  ⟨⟨1, true, [some "RB", some "RW", some "RL", none], [some "DB", some "DW", some "DL", none], [some "DS", none, none, none]⟩,
    (Cpu.X65.words .default).reverse.map fun p => (p.1, p.2.num)⟩
/-- xasm/dcpu-16/dcpu16_main.c 31-46. -/
def asmDcpu : Assembler :=
  ⟨⟨2, false, [none, some "RW", some "RL", none], [none, some "DW", some "DL", none], [none, some "DSW", none, none]⟩, Cpu.Dcpu.words⟩
/-- xasm/mips/mips_main.c 31-46. -/
def asmMips : Assembler :=
  ⟨⟨1, false, [some "RB", some "RH", some "RW", none], [some "DB", some "DH", some "DW", none], [some "DSB", some "DSH", some "DSW", none]⟩,
    Cpu.Mips.words.map fun p => (p.1, p.2.num)⟩
/-- xasm/schip/schip_main.c 31-46. -/
def asmSchip : Assembler :=
  ⟨⟨1, false, [some "RB", some "RW", none, none], [some "DB", some "DW", none, none], [some "DSB", some "DSW", none, none]⟩,
    Cpu.Schip.words.map fun p => (p.1, p.2.num)⟩

def assemblers : List Assembler := [asmZ80, asm6809, asm6502, asmDcpu, asmMips, asmSchip]

def Assembler.all (a : Assembler) : List Word := allWords a.config a.words
def Assembler.env (a : Assembler) (S : List Char → Option (List Char)) : Env := ⟨table a.config a.words, S, options0⟩
def Assembler.language (a : Assembler) (S : List Char → Option (List Char)) : Language := ⟨a.all, S, options0⟩

/-- What is needed of the words. -/
def Assembler.ok (a : Assembler) : Bool := decide (GoodWords a.all) && a.all.all wordOk && standardOk a.all && Nat.ble (table a.config a.words).maxLength 9

theorem assemblers_ok : ∀ a ∈ assemblers, a.ok = true := by decide +kernel

/-- The operators and functions of doc/ReferenceOperators.md 9-20 and doc/IndexFunctions.md, and what they are; `~!` and `!` are
boolean not and bitwise or. -/
def operators : List (String × Tok) :=
  [("~", .cpl), ("+", .op .add), ("-", .op .sub), ("*", .op .mul), ("/", .op .div), ("~/", .op .mod), ("**", .op .fmul), ("//", .op .fdiv),
   ("<<", .op .asl), (">>", .op .asr), ("&", .op .and), ("^", .op .xor), ("|", .op .or), ("!", .op .or),
   ("~=", .op .ne), ("==", .op .eq), ("<=", .op .le), (">=", .op .ge), ("<", .op .lt), (">", .op .gt),
   ("&&", .op .boolAnd), ("||", .op .boolOr), ("~!", .not),
   ("sin", .fn .sin), ("cos", .fn .cos), ("tan", .fn .tan), ("asin", .fn .asin), ("acos", .fn .acos), ("atan", .fn .atan), ("atan2", .atan2)]

theorem operators_words : ∀ a ∈ assemblers, ∀ p ∈ operators, (named a.all p.1.toList).map (fun w => ofWord w.token) = some p.2 := by decide +kernel

theorem Assembler.holds (a : Assembler) : (table a.config a.words).Holds a.all := table_holds a.config a.words

attribute [local irreducible] Assembler.all Lexer.table

theorem Assembler.parts {a : Assembler} (h : a.ok = true) :
    GoodWords a.all ∧ a.all.all wordOk = true ∧ standardOk a.all = true ∧ (table a.config a.words).maxLength ≤ 9 := by
  unfold Assembler.ok at h
  simp only [Bool.and_eq_true, decide_eq_true_eq] at h
  exact ⟨h.1.1.1, h.1.1.2, h.1.2, Nat.le_of_ble_eq_true h.2⟩

theorem Assembler.regular {a : Assembler} (h : a.ok = true) (S : List Char → Option (List Char)) : Regular (a.language S) := regular_of (Assembler.parts h).2.1 S
theorem Assembler.standard {a : Assembler} (h : a.ok = true) (S : List Char → Option (List Char)) : Standard (a.language S) := standard_of (Assembler.parts h).2.2.1 S
theorem Assembler.is {a : Assembler} (h : a.ok = true) (S : List Char → Option (List Char)) : (a.env S).Is (a.language S) :=
  { words := a.holds, strings := rfl, opts := rfl, good := (Assembler.parts h).1,
    bin0 := (by decide : options0.bin0 ≠ nul), bin1 := (by decide : options0.bin1 ≠ nul) }

/-- **C59.** All these assemblers read a line whose tokens are separated as these tokens. -/
theorem C59_line {a : Assembler} (ha : a ∈ assemblers) {S : List Char → Option (List Char)} {n k A : Nat} {V rest : List Char} {ts : List Token} {v : Values} {b : Buffer}
    (h : Written (a.language S) n false V ts rest) (hS : ∀ t ∈ ts, contents S t = none) (hA : A + 9 ≤ stackSize) (hk : ts.length ≤ k) (hb : Pos v A b V 9) :
    ∃ b', parseLine (a.env S) n k true b = .ok (ts, b') ∧ Pos v A b' rest 9 :=
  have ho := assemblers_ok a ha
  C59_read (Assembler.is ho S) (Assembler.regular ho S) h hS (by decide) (Assembler.parts ho).2.2.2 hA hk hb

/-- **C59.** In all assemblers the operators are written as documented, and so are parentheses, the comma and brackets. -/
theorem C59_operators {a : Assembler} (ha : a ∈ assemblers) (S : List Char → Option (List Char)) :
    (∀ p ∈ operators, ∃ t, Spelling (a.language S) p.1.toList t ∧ ofToken t = p.2) ∧
    (∀ p ∈ [('(', Tok.lp), (')', .rp), (',', .comma), ('@', .at), ('[', .other 91), (']', .other 93)],
      Spelling (a.language S) [p.1] (.char p.1) ∧ ofToken (.char p.1) = p.2) := by
  constructor
  · intro p hp
    obtain ⟨w, hw, e⟩ := Option.map_eq_some_iff.1 (operators_words a ha p hp)
    exact ⟨.word w.token, .word hw, e⟩
  · have h2 : ∀ c ∈ ['(', ')', ',', '@', '[', ']'], Spelling (a.language S) [c] (.char c) := by
      intro c hc
      have h3 := (Assembler.standard (assemblers_ok a ha) S).chars c hc
      have h4 : ∀ c ∈ ['(', ')', ',', '@', '[', ']'], isStart c = false ∧ c ≠ '"' ∧ c ≠ '\'' ∧ c ≠ '*' ∧ c ≠ ';' ∧ isSpace c = false ∧
          (c ≠ '$' ∧ c ≠ '%' ∧ c ≠ '`' ∧ ¬('0' ≤ c ∧ c ≤ '9')) := by decide
      obtain ⟨a1, a2, a3, a4, a5, a6, a7⟩ := h4 c hc
      exact .char (by intro x hx; cases hx; exact a7) a1 h3 a2 a3 a4 a5 a6
    intro p hp
    simp only [List.mem_cons, List.not_mem_nil, or_false] at hp
    rcases hp with rfl | rfl | rfl | rfl | rfl | rfl <;> exact ⟨h2 _ (by decide), rfl⟩

/-- The hypotheses hold for a line of the MIPS assembler, in which `*` is an operator. -/
example : ∃ t, Spelling (asmMips.language fun _ => none) "**".toList t ∧ ofToken t = .op .fmul :=
  (C59_operators (by simp [assemblers]) _).1 ("**", .op .fmul) (by simp [operators])

end Verif.Source
