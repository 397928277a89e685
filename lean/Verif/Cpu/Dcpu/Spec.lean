import Verif.Parse.Spec
/-!
# Specification: the machine language of the DCPU-16

Version 1.1 of the DCPU-16 (doc/CpuDCPU.md 4 refers to it). An instruction is a word `bbbbbbaaaaaaoooo`, or `aaaaaaoooooo0000`
if it has one operand; the words that the operands need follow, that of `a` first.
-/
namespace Verif.Cpu.Dcpu

open Verif.Parse (Tree)

/-- Operands of the processor; `α` are numbers. -/
inductive Val (α : Type) where
  | reg (r : Nat)
  | ind (r : Nat)
  | idx (r : Nat) (n : α)
  | pop | peek | push | sp | pc | o
  | mem (n : α)
  | lit (n : α)
  deriving DecidableEq

/-- The instructions with two operands, in the order of their numbers from 1. -/
inductive Op where
  | set | add | sub | mul | div | mod | shl | shr | and | bor | xor | ife | ifn | ifg | ifb
  deriving DecidableEq

inductive Instr (α : Type) where
  | basic (op : Op) (a b : Val α)
  | jsr (a : Val α)
  deriving DecidableEq

/-- The operand for six bits, and the words that are left. -/
def decodeVal (c : Nat) (ws : List Nat) : Option (Val Nat × List Nat) :=
  if c < 0x08 then some (.reg c, ws)
  else if c < 0x10 then some (.ind (c - 0x08), ws)
  else if c < 0x18 then match ws with | w :: ws => some (.idx (c - 0x10) w, ws) | [] => none
  else if c = 0x18 then some (.pop, ws)
  else if c = 0x19 then some (.peek, ws)
  else if c = 0x1A then some (.push, ws)
  else if c = 0x1B then some (.sp, ws)
  else if c = 0x1C then some (.pc, ws)
  else if c = 0x1D then some (.o, ws)
  else if c = 0x1E then match ws with | w :: ws => some (.mem w, ws) | [] => none
  else if c = 0x1F then match ws with | w :: ws => some (.lit w, ws) | [] => none
  else if c < 0x40 then some (.lit (c - 0x20), ws)
  else none

/-- The instruction at the beginning of words, and the words that are left. -/
def decode : List Nat → Option (Instr Nat × List Nat)
  | [] => none
  | w :: ws =>
    if w % 16 = 0 then
      if w / 16 % 64 = 1 then (decodeVal (w / 1024) ws).map fun (a, ws) => (.jsr a, ws) else none
    else do
      let (a, ws) ← decodeVal (w / 16 % 64) ws
      let (b, ws) ← decodeVal (w / 1024) ws
      let op ← [Op.set, .add, .sub, .mul, .div, .mod, .shl, .shr, .and, .bor, .xor, .ife, .ifn, .ifg, .ifb][w % 16 - 1]?
      some (.basic op a b, ws)

/-- The operand with numbers of 16 bits. Offsets and literals may be signed. -/
def Val.machine : Val Int → Option (Val Nat)
  | .reg r => some (.reg r)
  | .ind r => some (.ind r)
  | .idx r n => if -32768 ≤ n ∧ n ≤ 65535 then some (.idx r (n % 65536).toNat) else none
  | .pop => some .pop | .peek => some .peek | .push => some .push | .sp => some .sp | .pc => some .pc | .o => some .o
  | .mem n => if 0 ≤ n ∧ n ≤ 65535 then some (.mem n.toNat) else none
  | .lit n => if -32768 ≤ n ∧ n ≤ 65535 then some (.lit (n % 65536).toNat) else none

/-- The operand with the values of its expressions. -/
def Val.eval {α : Type} (f : α → Option Int) : Val α → Option (Val Int)
  | .reg r => some (.reg r)
  | .ind r => some (.ind r)
  | .idx r n => (f n).map (.idx r)
  | .pop => some .pop | .peek => some .peek | .push => some .push | .sp => some .sp | .pc => some .pc | .o => some .o
  | .mem n => (f n).map .mem
  | .lit n => (f n).map .lit

/-- What an operand means to the processor, if its expressions have values that fit. -/
def Val.meaning {α : Type} (f : α → Option Int) (v : Val α) : Option (Val Nat) := (v.eval f).bind Val.machine

def Instr.meaning {α : Type} (f : α → Option Int) : Instr α → Option (Instr Nat)
  | .basic op a b => do
    let a ← a.meaning f
    let b ← b.meaning f
    some (.basic op a b)
  | .jsr a => (a.meaning f).map .jsr

/-- Operands as they are written. An offset may stand before or behind the register, or on both sides; those that use the
stack have two names. -/
inductive Opnd where
  | reg (r : Fin 8)
  | ind (r : Fin 8)
  | after (r : Fin 8) (t : Tree)
  | before (t : Tree) (r : Fin 8)
  | both (t : Tree) (r : Fin 8) (u : Tree)
  | pop (word : Bool) | peek (word : Bool) | push (word : Bool)
  | sp | pc | o
  | mem (t : Tree)
  | lit (t : Tree)

/-- What they mean. -/
def Opnd.val : Opnd → Val Tree
  | .reg r => .reg r
  | .ind r => .ind r
  | .after r t => .idx r t
  | .before t r => .idx r t
  | .both t r u => .idx r (.bin .add t u)
  | .pop _ => .pop | .peek _ => .peek | .push _ => .push
  | .sp => .sp | .pc => .pc | .o => .o
  | .mem t => .mem t
  | .lit t => .lit t

/-- The mnemonics. -/
def mnemonics : List (String × Op) :=
  [("SET", .set), ("ADD", .add), ("SUB", .sub), ("MUL", .mul), ("DIV", .div), ("MOD", .mod), ("SHL", .shl), ("SHR", .shr),
   ("AND", .and), ("BOR", .bor), ("XOR", .xor), ("IFE", .ife), ("IFN", .ifn), ("IFG", .ifg), ("IFB", .ifb)]

/-- The names of the registers. -/
def regName (r : Fin 8) : String := ["A", "B", "C", "X", "Y", "Z", "I", "J"].getD r ""

end Verif.Cpu.Dcpu
