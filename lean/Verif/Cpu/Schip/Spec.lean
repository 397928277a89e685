import Verif.Parse.Spec
/-!
# Specification: the machine language of CHIP-8 and SUPER-CHIP

`decode` is what the processor does with a word, `read` are the mnemonics in doc/CpuCHIP.md 10-60.
-/
namespace Verif.Cpu.Schip

open Verif.Parse (Tree)

/-- Instructions; `α` are immediate operands. -/
inductive Instr (α : Type) where
  | cls | ret | scr | scl | exit | low | high
  | scd (n : α)
  | jp (n : α) | call (n : α) | jpV0 (n : α) | ldI (n : α)
  | seImm (x : Nat) (n : α) | sneImm (x : Nat) (n : α) | ldImm (x : Nat) (n : α) | addImm (x : Nat) (n : α) | rnd (x : Nat) (n : α)
  | se (x y : Nat) | sne (x y : Nat) | ld (x y : Nat) | or (x y : Nat) | and (x y : Nat) | xor (x y : Nat) | add (x y : Nat)
  | sub (x y : Nat) | subn (x y : Nat)
  | shr (x : Nat) | shl (x : Nat)
  | drw (x y : Nat) (n : α)
  | skp (x : Nat) | sknp (x : Nat) | getDelay (x : Nat) | wkp (x : Nat) | setDelay (x : Nat) | setSound (x : Nat) | addI (x : Nat)
  | ldf (x : Nat) | ldf10 (x : Nat) | bcd (x : Nat) | store (x : Nat) | load (x : Nat) | saveFlags (x : Nat) | loadFlags (x : Nat)
  deriving DecidableEq

/-- The instruction that a word of machine language stands for. The second register of the shifts is not looked at. -/
def decode (w : Nat) : Option (Instr Nat) :=
  let x := w / 256 % 16
  let y := w / 16 % 16
  match w / 4096 with
  | 0 =>
    if w = 0xE0 then some .cls else if w = 0xEE then some .ret else if w / 16 = 0xC then some (.scd (w % 16))
    else if w = 0xFB then some .scr else if w = 0xFC then some .scl else if w = 0xFD then some .exit
    else if w = 0xFE then some .low else if w = 0xFF then some .high else none
  | 1 => some (.jp (w % 4096))
  | 2 => some (.call (w % 4096))
  | 3 => some (.seImm x (w % 256))
  | 4 => some (.sneImm x (w % 256))
  | 5 => if w % 16 = 0 then some (.se x y) else none
  | 6 => some (.ldImm x (w % 256))
  | 7 => some (.addImm x (w % 256))
  | 8 =>
    match w % 16 with
    | 0 => some (.ld x y) | 1 => some (.or x y) | 2 => some (.and x y) | 3 => some (.xor x y) | 4 => some (.add x y)
    | 5 => some (.sub x y) | 6 => some (.shr x) | 7 => some (.subn x y) | 14 => some (.shl x) | _ => none
  | 9 => if w % 16 = 0 then some (.sne x y) else none
  | 10 => some (.ldI (w % 4096))
  | 11 => some (.jpV0 (w % 4096))
  | 12 => some (.rnd x (w % 256))
  | 13 => some (.drw x y (w % 16))
  | 14 => if w % 256 = 0x9E then some (.skp x) else if w % 256 = 0xA1 then some (.sknp x) else none
  | 15 =>
    match w % 256 with
    | 0x07 => some (.getDelay x) | 0x0A => some (.wkp x) | 0x15 => some (.setDelay x) | 0x18 => some (.setSound x)
    | 0x1E => some (.addI x) | 0x29 => some (.ldf x) | 0x30 => some (.ldf10 x) | 0x33 => some (.bcd x) | 0x55 => some (.store x)
    | 0x65 => some (.load x) | 0x75 => some (.saveFlags x) | 0x85 => some (.loadFlags x) | _ => none
  | _ => none

/-- The instruction with operands that fit: addresses have 12 bits, bytes may be signed, the height of a sprite is at most
16, which is written as 0. -/
def Instr.machine : Instr Int → Option (Instr Nat)
  | .cls => some .cls | .ret => some .ret | .scr => some .scr | .scl => some .scl | .exit => some .exit | .low => some .low
  | .high => some .high
  | .scd n => if 0 ≤ n ∧ n ≤ 15 then some (.scd n.toNat) else none
  | .jp n => if 0 ≤ n ∧ n ≤ 4095 then some (.jp n.toNat) else none
  | .call n => if 0 ≤ n ∧ n ≤ 4095 then some (.call n.toNat) else none
  | .jpV0 n => if 0 ≤ n ∧ n ≤ 4095 then some (.jpV0 n.toNat) else none
  | .ldI n => if 0 ≤ n ∧ n ≤ 4095 then some (.ldI n.toNat) else none
  | .seImm x n => if -128 ≤ n ∧ n ≤ 255 then some (.seImm x (n % 256).toNat) else none
  | .sneImm x n => if -128 ≤ n ∧ n ≤ 255 then some (.sneImm x (n % 256).toNat) else none
  | .ldImm x n => if -128 ≤ n ∧ n ≤ 255 then some (.ldImm x (n % 256).toNat) else none
  | .addImm x n => if -128 ≤ n ∧ n ≤ 255 then some (.addImm x (n % 256).toNat) else none
  | .rnd x n => if -128 ≤ n ∧ n ≤ 255 then some (.rnd x (n % 256).toNat) else none
  | .drw x y n => if 0 ≤ n ∧ n ≤ 16 then some (.drw x y (n % 16).toNat) else none
  | .se x y => some (.se x y) | .sne x y => some (.sne x y) | .ld x y => some (.ld x y) | .or x y => some (.or x y)
  | .and x y => some (.and x y) | .xor x y => some (.xor x y) | .add x y => some (.add x y) | .sub x y => some (.sub x y)
  | .subn x y => some (.subn x y) | .shr x => some (.shr x) | .shl x => some (.shl x)
  | .skp x => some (.skp x) | .sknp x => some (.sknp x) | .getDelay x => some (.getDelay x) | .wkp x => some (.wkp x)
  | .setDelay x => some (.setDelay x) | .setSound x => some (.setSound x) | .addI x => some (.addI x) | .ldf x => some (.ldf x)
  | .ldf10 x => some (.ldf10 x) | .bcd x => some (.bcd x) | .store x => some (.store x) | .load x => some (.load x)
  | .saveFlags x => some (.saveFlags x) | .loadFlags x => some (.loadFlags x)

/-- The instruction with the values of its operands. -/
def Instr.eval {α : Type} (f : α → Option Int) : Instr α → Option (Instr Int)
  | .cls => some .cls | .ret => some .ret | .scr => some .scr | .scl => some .scl | .exit => some .exit | .low => some .low
  | .high => some .high
  | .scd n => (f n).map .scd
  | .jp n => (f n).map .jp
  | .call n => (f n).map .call
  | .jpV0 n => (f n).map .jpV0
  | .ldI n => (f n).map .ldI
  | .seImm x n => (f n).map (.seImm x)
  | .sneImm x n => (f n).map (.sneImm x)
  | .ldImm x n => (f n).map (.ldImm x)
  | .addImm x n => (f n).map (.addImm x)
  | .rnd x n => (f n).map (.rnd x)
  | .drw x y n => (f n).map (.drw x y)
  | .se x y => some (.se x y) | .sne x y => some (.sne x y) | .ld x y => some (.ld x y) | .or x y => some (.or x y)
  | .and x y => some (.and x y) | .xor x y => some (.xor x y) | .add x y => some (.add x y) | .sub x y => some (.sub x y)
  | .subn x y => some (.subn x y) | .shr x => some (.shr x) | .shl x => some (.shl x)
  | .skp x => some (.skp x) | .sknp x => some (.sknp x) | .getDelay x => some (.getDelay x) | .wkp x => some (.wkp x)
  | .setDelay x => some (.setDelay x) | .setSound x => some (.setSound x) | .addI x => some (.addI x) | .ldf x => some (.ldf x)
  | .ldf10 x => some (.ldf10 x) | .bcd x => some (.bcd x) | .store x => some (.store x) | .load x => some (.load x)
  | .saveFlags x => some (.saveFlags x) | .loadFlags x => some (.loadFlags x)

/-- The instructions that only SUPER-CHIP has. -/
def Instr.super {α : Type} : Instr α → Bool
  | .scr | .scl | .exit | .low | .high | .scd _ | .ldf10 _ | .saveFlags _ | .loadFlags _ => true
  | _ => false

/-- Operands. The registers from 10 on have two names. -/
inductive Opnd where
  | reg (x : Fin 16) (hex : Bool)
  | imm (t : Tree)
  | i | dt | st | ind | rpl
  | v0 (t : Tree)

/-- The names of the registers (doc/CpuCHIP.md 8). -/
def regName (x : Fin 16) (hex : Bool) : String :=
  let names := if hex then ["V0", "V1", "V2", "V3", "V4", "V5", "V6", "V7", "V8", "V9", "VA", "VB", "VC", "VD", "VE", "VF"]
    else ["V0", "V1", "V2", "V3", "V4", "V5", "V6", "V7", "V8", "V9", "V10", "V11", "V12", "V13", "V14", "V15"]
  names.getD x ""

/-- The mnemonics (doc/CpuCHIP.md 10-60) and what they mean. The documentation calls `SUBN` `SUB`, `LOW` `LO` and `HIGH` `HI`
and leaves out the operand of `SCD`. -/
inductive Means : String → List Opnd → Instr Tree → Prop
  | cls : Means "CLS" [] .cls
  | ret : Means "RET" [] .ret
  | scr : Means "SCR" [] .scr
  | scl : Means "SCL" [] .scl
  | exit : Means "EXIT" [] .exit
  | low : Means "LOW" [] .low
  | high : Means "HIGH" [] .high
  | scd (n : Tree) : Means "SCD" [.imm n] (.scd n)
  | jp (n : Tree) : Means "JP" [.imm n] (.jp n)
  | jpV0 (n : Tree) : Means "JP" [.v0 n] (.jpV0 n)
  | call (n : Tree) : Means "CALL" [.imm n] (.call n)
  | seImm (x : Fin 16) (h : Bool) (n : Tree) : Means "SE" [.reg x h, .imm n] (.seImm x n)
  | se (x : Fin 16) (h : Bool) (y : Fin 16) (h' : Bool) : Means "SE" [.reg x h, .reg y h'] (.se x y)
  | sneImm (x : Fin 16) (h : Bool) (n : Tree) : Means "SNE" [.reg x h, .imm n] (.sneImm x n)
  | sne (x : Fin 16) (h : Bool) (y : Fin 16) (h' : Bool) : Means "SNE" [.reg x h, .reg y h'] (.sne x y)
  | ldImm (x : Fin 16) (h : Bool) (n : Tree) : Means "LD" [.reg x h, .imm n] (.ldImm x n)
  | ld (x : Fin 16) (h : Bool) (y : Fin 16) (h' : Bool) : Means "LD" [.reg x h, .reg y h'] (.ld x y)
  | ldI (n : Tree) : Means "LD" [.i, .imm n] (.ldI n)
  | getDelay (x : Fin 16) (h : Bool) : Means "LD" [.reg x h, .dt] (.getDelay x)
  | setDelay (x : Fin 16) (h : Bool) : Means "LD" [.dt, .reg x h] (.setDelay x)
  | setSound (x : Fin 16) (h : Bool) : Means "LD" [.st, .reg x h] (.setSound x)
  | addImm (x : Fin 16) (h : Bool) (n : Tree) : Means "ADD" [.reg x h, .imm n] (.addImm x n)
  | add (x : Fin 16) (h : Bool) (y : Fin 16) (h' : Bool) : Means "ADD" [.reg x h, .reg y h'] (.add x y)
  | addI (x : Fin 16) (h : Bool) : Means "ADD" [.i, .reg x h] (.addI x)
  | or (x : Fin 16) (h : Bool) (y : Fin 16) (h' : Bool) : Means "OR" [.reg x h, .reg y h'] (.or x y)
  | and (x : Fin 16) (h : Bool) (y : Fin 16) (h' : Bool) : Means "AND" [.reg x h, .reg y h'] (.and x y)
  | xor (x : Fin 16) (h : Bool) (y : Fin 16) (h' : Bool) : Means "XOR" [.reg x h, .reg y h'] (.xor x y)
  | sub (x : Fin 16) (h : Bool) (y : Fin 16) (h' : Bool) : Means "SUB" [.reg x h, .reg y h'] (.sub x y)
  | subn (x : Fin 16) (h : Bool) (y : Fin 16) (h' : Bool) : Means "SUBN" [.reg x h, .reg y h'] (.subn x y)
  | shr (x : Fin 16) (h : Bool) : Means "SHR" [.reg x h] (.shr x)
  | shl (x : Fin 16) (h : Bool) : Means "SHL" [.reg x h] (.shl x)
  | rnd (x : Fin 16) (h : Bool) (n : Tree) : Means "RND" [.reg x h, .imm n] (.rnd x n)
  | drw (x : Fin 16) (h : Bool) (y : Fin 16) (h' : Bool) (n : Tree) : Means "DRW" [.reg x h, .reg y h', .imm n] (.drw x y n)
  | skp (x : Fin 16) (h : Bool) : Means "SKP" [.reg x h] (.skp x)
  | sknp (x : Fin 16) (h : Bool) : Means "SKNP" [.reg x h] (.sknp x)
  | wkp (x : Fin 16) (h : Bool) : Means "WKP" [.reg x h] (.wkp x)
  | ldf (x : Fin 16) (h : Bool) : Means "LDF" [.reg x h] (.ldf x)
  | ldf10 (x : Fin 16) (h : Bool) : Means "LDF10" [.reg x h] (.ldf10 x)
  | bcd (x : Fin 16) (h : Bool) : Means "BCD" [.reg x h] (.bcd x)
  | store (x : Fin 16) (h : Bool) : Means "LDM" [.ind, .reg x h] (.store x)
  | load (x : Fin 16) (h : Bool) : Means "LDM" [.reg x h, .ind] (.load x)
  | saveFlags (x : Fin 16) (h : Bool) : Means "LDM" [.rpl, .reg x h] (.saveFlags x)
  | loadFlags (x : Fin 16) (h : Bool) : Means "LDM" [.reg x h, .rpl] (.loadFlags x)

/-- The number of operands of the mnemonics. -/
def arity : List (String × Nat) :=
  [("CLS", 0), ("RET", 0), ("SCR", 0), ("SCL", 0), ("EXIT", 0), ("LOW", 0), ("HIGH", 0), ("SCD", 1), ("JP", 1), ("CALL", 1), ("SE", 2),
   ("SNE", 2), ("LD", 2), ("ADD", 2), ("OR", 2), ("AND", 2), ("XOR", 2), ("SUB", 2), ("SUBN", 2), ("SHR", 1), ("SHL", 1), ("RND", 2),
   ("DRW", 3), ("SKP", 1), ("SKNP", 1), ("WKP", 1), ("LDF", 1), ("LDF10", 1), ("BCD", 1), ("LDM", 2)]

end Verif.Cpu.Schip
