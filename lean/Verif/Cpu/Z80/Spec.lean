import Verif.Cpu.Z80.Model
import Verif.Cpu.X65.Values
/-!
# The instructions of the Z80 and of the Game Boy: specification

What the processors execute, how it is encoded, and how it is written. The encodings follow the tables of the manufacturers;
that they are the right ones is what the decoder (`Decode`) checks, which knows the opcodes by their bits.
-/
namespace Verif.Cpu.Z80

open Verif.Parse (Tok Toks Tree)
open Verif.Expr (Src FMath ASym Den Rng u32)
open Verif.Cpu.X65 (EndOfLine bytesAt)

/-! ### Instructions -/

inductive R8 where
  | b | c | d | e | h | l | a
  deriving DecidableEq

inductive Ix where
  | ix | iy
  deriving DecidableEq

/-- Where a byte is: in a register, at the address in `HL`, in half an index register, or at an index. -/
inductive Loc (α : Type) where
  | reg (x : R8)
  | hl
  | half (x : Ix) (high : Bool)
  | idx (x : Ix) (d : α)
  deriving DecidableEq

inductive P16 where
  | bc | de | hl | sp | af | ix | iy
  deriving DecidableEq

/-- Addresses in registers; those of the Game Boy are counted. -/
inductive Ptr where
  | bc | de | hlInc | hlDec
  deriving DecidableEq

inductive Cc where
  | nz | z | nc | c | po | pe | p | m
  deriving DecidableEq

inductive Alu where
  | add | adc | sub | sbc | and | xor | or | cp
  deriving DecidableEq

inductive Rot where
  | rlc | rrc | rl | rr | sla | sra | sll | srl | swap
  deriving DecidableEq

inductive BitOp where
  | bit | res | set
  deriving DecidableEq

/-- Instructions without operands. -/
inductive Imp where
  | nop | halt | stop | di | ei | rlca | rrca | rla | rra | daa | cpl | scf | ccf | exx | exAf | exDe | neg | reti | retn | rrd | rld
  | ldi | ldd | ldir | lddr | cpi | cpd | cpir | cpdr | ini | ind | inir | indr | outi | outd | otir | otdr
  deriving DecidableEq

inductive Instr (α : Type) where
  | ld (dst src : Loc α)
  | ldImm (dst : Loc α) (n : α)
  | ldAPtr (p : Ptr)
  | stAPtr (p : Ptr)
  | ldAMem (n : α)
  | stAMem (n : α)
  /-- Addresses in the last page. -/
  | ldAHigh (n : α)
  | stAHigh (n : α)
  /-- The address in the last page is in `C`. -/
  | ldAC
  | stAC
  | ldPair (p : P16) (n : α)
  | ldPairMem (p : P16) (n : α)
  | stPairMem (p : P16) (n : α)
  /-- `SP` becomes the pair. -/
  | ldSp (p : P16)
  /-- `HL` becomes `SP` and a displacement. -/
  | ldHlSp (d : α)
  | addSp (d : α)
  | ldAI | ldAR | ldIA | ldRA
  | push (p : P16)
  | pop (p : P16)
  | alu (op : Alu) (s : Loc α)
  | aluImm (op : Alu) (n : α)
  | inc (l : Loc α)
  | dec (l : Loc α)
  | inc16 (p : P16)
  | dec16 (p : P16)
  | add16 (d s : P16)
  | adc16 (s : P16)
  | sbc16 (s : P16)
  | rot (op : Rot) (l : Loc α)
  | bit (op : BitOp) (n : α) (l : Loc α)
  | jp (c : Option Cc) (n : α)
  | jpInd (p : P16)
  | jr (c : Option Cc) (n : α)
  | djnz (n : α)
  | call (c : Option Cc) (n : α)
  | ret (c : Option Cc)
  | rst (n : Nat)
  | im (n : Nat)
  | inC (x : Option R8)
  | outC (x : Option R8)
  | inA (n : α)
  | outA (n : α)
  | exSp (p : P16)
  | imp (i : Imp)
  deriving DecidableEq

/-! ### Which instructions there are -/

def Loc.on {α : Type} (cpu : Cpu) : Loc α → Bool
  | .reg _ | .hl => true
  | .half _ _ | .idx _ _ => cpu = .z80

def Loc.whole {α : Type} : Loc α → Bool
  | .half _ _ => false
  | _ => true

def P16.on (cpu : Cpu) : P16 → Bool
  | .ix | .iy => cpu = .z80
  | _ => true

/-- `HL` and what is in its place. -/
def P16.hlLike : P16 → Bool
  | .hl | .ix | .iy => true
  | _ => false

def Cc.on (cpu : Cpu) : Option Cc → Bool
  | some .po | some .pe | some .p | some .m => cpu = .z80
  | _ => true

/-- A byte is loaded from one place into another. Two halves are of the same register, and where there is a half there is
neither `H` nor `L` nor memory. -/
def ldOk {α : Type} : Loc α → Loc α → Bool
  | .reg _, .reg _ | .reg _, .hl | .hl, .reg _ | .reg _, .idx _ _ | .idx _ _, .reg _ => true
  | .half x _, .half y _ => x = y
  | .half _ _, .reg x | .reg x, .half _ _ => x ≠ .h && x ≠ .l
  | _, _ => false

def Imp.on : Cpu → Imp → Bool
  | .gb, i => i ∈ [.nop, .halt, .stop, .di, .ei, .rlca, .rrca, .rla, .rra, .daa, .cpl, .scf, .ccf, .reti]
  | .z80, i => i ≠ .stop

/-- The instruction is one of the processor. -/
def Instr.on {α : Type} (cpu : Cpu) : Instr α → Bool
  | .ld x y => ldOk x y && x.on cpu && y.on cpu
  | .ldImm x _ => x.on cpu
  | .ldAPtr p | .stAPtr p => match p with
    | .bc | .de => true
    | .hlInc | .hlDec => cpu = .gb
  | .ldAMem _ | .stAMem _ => true
  | .ldAHigh _ | .stAHigh _ | .ldAC | .stAC | .ldHlSp _ | .addSp _ => cpu = .gb
  | .ldPair p _ => p ≠ .af && p.on cpu
  | .ldPairMem p _ => p ≠ .af && cpu = .z80
  | .stPairMem p _ => p ≠ .af && cpu = .z80 || p = .sp
  | .ldSp p => p.hlLike && p.on cpu
  | .ldAI | .ldAR | .ldIA | .ldRA | .djnz _ | .inC _ | .outC _ | .inA _ | .outA _ => cpu = .z80
  | .im n => cpu = .z80 && n < 3
  | .push p | .pop p => p ≠ .sp && p.on cpu
  | .alu _ s => s.on cpu
  | .aluImm _ _ => true
  | .inc l | .dec l => l.on cpu
  | .inc16 p | .dec16 p => p ≠ .af && p.on cpu
  | .add16 d s => d.hlLike && d.on cpu && s ≠ .af && (!s.hlLike || s = d)
  | .adc16 s | .sbc16 s => cpu = .z80 && (s = .bc || s = .de || s = .hl || s = .sp)
  | .rot op l => l.whole && l.on cpu && match op with
    | .sll => cpu = .z80
    | .swap => cpu = .gb
    | _ => true
  | .bit _ _ l => l.whole && l.on cpu
  | .jp c _ | .call c _ | .ret c => Cc.on cpu c
  | .jpInd p => p.hlLike && p.on cpu
  | .jr c _ => Cc.on .gb c
  | .rst n => n ∈ [0, 8, 16, 24, 32, 40, 48, 56]
  | .exSp p => cpu = .z80 && p.hlLike
  | .imp i => i.on cpu

def Loc.split {α : Type} : Loc α → Bool
  | .half _ _ => true
  | _ => false

/-- Instructions that the manufacturer does not document. -/
def Instr.undoc {α : Type} : Instr α → Bool
  | .ld x y => x.split || y.split
  | .ldImm x _ | .alu _ x | .inc x | .dec x => x.split
  | .rot .sll _ | .inC none | .outC none => true
  | _ => false

/-! ### Encodings -/

/-- A byte of an instruction, or a number in it: a displacement, a byte with or without sign, the number of a port, two bytes
with or without sign, an address, a target of a relative jump, an address in the last page, and the number of a bit. -/
inductive Slot (α : Type) where
  | byte (n : Nat)
  | s8 (e : α)
  | n8 (e : α)
  | p8 (e : α)
  | n16 (e : α)
  | a16 (e : α)
  | rel (e : α)
  | hi (e : α)
  | bit (op : Nat) (e : α)
  deriving DecidableEq

def R8.code : R8 → Nat
  | .b => 0 | .c => 1 | .d => 2 | .e => 3 | .h => 4 | .l => 5 | .a => 7

def Ix.pre : Ix → Nat
  | .ix => 0xDD
  | .iy => 0xFD

def P16.pre {α : Type} : P16 → List (Slot α)
  | .ix => [.byte 0xDD]
  | .iy => [.byte 0xFD]
  | _ => []

def P16.code : P16 → Nat
  | .bc => 0 | .de => 1 | .hl | .ix | .iy => 2 | .sp | .af => 3

def Ptr.code : Ptr → Nat
  | .bc => 0 | .de => 1 | .hlInc => 2 | .hlDec => 3

def Cc.code : Cc → Nat
  | .nz => 0 | .z => 1 | .nc => 2 | .c => 3 | .po => 4 | .pe => 5 | .p => 6 | .m => 7

def Alu.code : Alu → Nat
  | .add => 0 | .adc => 1 | .sub => 2 | .sbc => 3 | .and => 4 | .xor => 5 | .or => 6 | .cp => 7

def Rot.code : Rot → Nat
  | .rlc => 0 | .rrc => 1 | .rl => 2 | .rr => 3 | .sla => 4 | .sra => 5 | .sll | .swap => 6 | .srl => 7

def BitOp.code : BitOp → Nat
  | .bit => 1 | .res => 2 | .set => 3

/-- The prefix, the three bits, and the displacement of a place. -/
def Loc.pre {α : Type} : Loc α → List (Slot α)
  | .half x _ | .idx x _ => [.byte x.pre]
  | _ => []

def Loc.code {α : Type} : Loc α → Nat
  | .reg x => x.code
  | .hl | .idx _ _ => 6
  | .half _ high => if high then 4 else 5

def Loc.disp {α : Type} : Loc α → List (Slot α)
  | .idx _ d => [.s8 d]
  | _ => []

/-- One prefix is enough for two places. -/
def ldPre {α : Type} (x y : Loc α) : List (Slot α) := if x.pre.isEmpty then y.pre else x.pre

def Imp.slots {α : Type} (cpu : Cpu) : Imp → List (Slot α)
  | .nop => [.byte 0x00]
  | .halt => [.byte 0x76]
  | .stop => [.byte 0x10, .byte 0x00]
  | .di => [.byte 0xF3]
  | .ei => [.byte 0xFB]
  | .rlca => [.byte 0x07]
  | .rrca => [.byte 0x0F]
  | .rla => [.byte 0x17]
  | .rra => [.byte 0x1F]
  | .daa => [.byte 0x27]
  | .cpl => [.byte 0x2F]
  | .scf => [.byte 0x37]
  | .ccf => [.byte 0x3F]
  | .exx => [.byte 0xD9]
  | .exAf => [.byte 0x08]
  | .exDe => [.byte 0xEB]
  | .neg => [.byte 0xED, .byte 0x44]
  | .reti => if cpu = .gb then [.byte 0xD9] else [.byte 0xED, .byte 0x4D]
  | .retn => [.byte 0xED, .byte 0x45]
  | .rrd => [.byte 0xED, .byte 0x67]
  | .rld => [.byte 0xED, .byte 0x6F]
  | .ldi => [.byte 0xED, .byte 0xA0]
  | .cpi => [.byte 0xED, .byte 0xA1]
  | .ini => [.byte 0xED, .byte 0xA2]
  | .outi => [.byte 0xED, .byte 0xA3]
  | .ldd => [.byte 0xED, .byte 0xA8]
  | .cpd => [.byte 0xED, .byte 0xA9]
  | .ind => [.byte 0xED, .byte 0xAA]
  | .outd => [.byte 0xED, .byte 0xAB]
  | .ldir => [.byte 0xED, .byte 0xB0]
  | .cpir => [.byte 0xED, .byte 0xB1]
  | .inir => [.byte 0xED, .byte 0xB2]
  | .otir => [.byte 0xED, .byte 0xB3]
  | .lddr => [.byte 0xED, .byte 0xB8]
  | .cpdr => [.byte 0xED, .byte 0xB9]
  | .indr => [.byte 0xED, .byte 0xBA]
  | .otdr => [.byte 0xED, .byte 0xBB]

/-- How an instruction is encoded. -/
def Instr.slots {α : Type} (cpu : Cpu) : Instr α → List (Slot α)
  | .ld x y => ldPre x y ++ .byte (0x40 + 8 * x.code + y.code) :: (x.disp ++ y.disp)
  | .ldImm x n => x.pre ++ .byte (0x06 + 8 * x.code) :: (x.disp ++ [.n8 n])
  | .ldAPtr p => [.byte (0x0A + 16 * p.code)]
  | .stAPtr p => [.byte (0x02 + 16 * p.code)]
  | .ldAMem n => [.byte (if cpu = .gb then 0xFA else 0x3A), .a16 n]
  | .stAMem n => [.byte (if cpu = .gb then 0xEA else 0x32), .a16 n]
  | .ldAHigh n => [.byte 0xF0, .hi n]
  | .stAHigh n => [.byte 0xE0, .hi n]
  | .ldAC => [.byte 0xF2]
  | .stAC => [.byte 0xE2]
  | .ldPair p n => p.pre ++ [.byte (0x01 + 16 * p.code), .n16 n]
  | .ldPairMem p n => if p.hlLike then p.pre ++ [.byte 0x2A, .a16 n] else [.byte 0xED, .byte (0x4B + 16 * p.code), .a16 n]
  | .stPairMem p n =>
    if cpu = .gb then [.byte 0x08, .a16 n]
    else if p.hlLike then p.pre ++ [.byte 0x22, .a16 n] else [.byte 0xED, .byte (0x43 + 16 * p.code), .a16 n]
  | .ldSp p => p.pre ++ [.byte 0xF9]
  | .ldHlSp d => [.byte 0xF8, .s8 d]
  | .addSp d => [.byte 0xE8, .s8 d]
  | .ldAI => [.byte 0xED, .byte 0x57]
  | .ldAR => [.byte 0xED, .byte 0x5F]
  | .ldIA => [.byte 0xED, .byte 0x47]
  | .ldRA => [.byte 0xED, .byte 0x4F]
  | .push p => p.pre ++ [.byte (0xC5 + 16 * p.code)]
  | .pop p => p.pre ++ [.byte (0xC1 + 16 * p.code)]
  | .alu op s => s.pre ++ .byte (0x80 + 8 * op.code + s.code) :: s.disp
  | .aluImm op n => [.byte (0xC6 + 8 * op.code), .n8 n]
  | .inc l => l.pre ++ .byte (0x04 + 8 * l.code) :: l.disp
  | .dec l => l.pre ++ .byte (0x05 + 8 * l.code) :: l.disp
  | .inc16 p => p.pre ++ [.byte (0x03 + 16 * p.code)]
  | .dec16 p => p.pre ++ [.byte (0x0B + 16 * p.code)]
  | .add16 d s => d.pre ++ [.byte (0x09 + 16 * s.code)]
  | .adc16 s => [.byte 0xED, .byte (0x4A + 16 * s.code)]
  | .sbc16 s => [.byte 0xED, .byte (0x42 + 16 * s.code)]
  | .rot op l => l.pre ++ .byte 0xCB :: (l.disp ++ [.byte (8 * op.code + l.code)])
  | .bit op n l => l.pre ++ .byte 0xCB :: (l.disp ++ [.bit (64 * op.code + l.code) n])
  | .jp none n => [.byte 0xC3, .a16 n]
  | .jp (some cc) n => [.byte (0xC2 + 8 * cc.code), .a16 n]
  | .jpInd p => p.pre ++ [.byte 0xE9]
  | .jr none n => [.byte 0x18, .rel n]
  | .jr (some cc) n => [.byte (0x20 + 8 * cc.code), .rel n]
  | .djnz n => [.byte 0x10, .rel n]
  | .call none n => [.byte 0xCD, .a16 n]
  | .call (some cc) n => [.byte (0xC4 + 8 * cc.code), .a16 n]
  | .ret none => [.byte 0xC9]
  | .ret (some cc) => [.byte (0xC0 + 8 * cc.code)]
  | .rst n => [.byte (0xC7 + n)]
  | .im n => [.byte 0xED, .byte (if n = 0 then 0x46 else if n = 1 then 0x56 else 0x5E)]
  | .inC x => [.byte 0xED, .byte (0x40 + 8 * (match x with | some x => x.code | none => 6))]
  | .outC x => [.byte 0xED, .byte (0x41 + 8 * (match x with | some x => x.code | none => 6))]
  | .inA n => [.byte 0xDB, .p8 n]
  | .outA n => [.byte 0xD3, .p8 n]
  | .exSp p => p.pre ++ [.byte 0xE3]
  | .imp i => i.slots cpu

/-! ### What is written -/

/-- Operands, with names for the expressions. -/
inductive Opv where
  | reg (x : Rg)
  | idx (x : Ix) (d : Option E)
  | imm (e : E)
  | ind (e : E)
  | spDisp (e : E)
  deriving DecidableEq

/-- A place for a byte; an index without displacement has 0. -/
def Opv.loc : Opv → Option (Loc E)
  | .reg .b => some (.reg .b)
  | .reg .c => some (.reg .c)
  | .reg .d => some (.reg .d)
  | .reg .e => some (.reg .e)
  | .reg .h => some (.reg .h)
  | .reg .l => some (.reg .l)
  | .reg .a => some (.reg .a)
  | .reg .hlInd => some .hl
  | .reg .ixh => some (.half .ix true)
  | .reg .ixl => some (.half .ix false)
  | .reg .iyh => some (.half .iy true)
  | .reg .iyl => some (.half .iy false)
  | .idx x d => some (.idx x (d.getD .zero))
  | _ => none

def Opv.pair : Opv → Option P16
  | .reg .bc => some .bc
  | .reg .de => some .de
  | .reg .hl => some .hl
  | .reg .sp => some .sp
  | .reg .af => some .af
  | .reg .ix => some .ix
  | .reg .iy => some .iy
  | _ => none

def Opv.cc : Opv → Option Cc
  | .reg .nz => some .nz
  | .reg .z => some .z
  | .reg .nc => some .nc
  | .reg .c => some .c
  | .reg .po => some .po
  | .reg .pe => some .pe
  | .reg .p => some .p
  | .reg .m => some .m
  | _ => none

def Opv.ptr : Opv → Option Ptr
  | .reg .bcInd => some .bc
  | .reg .deInd => some .de
  | .reg .hlInc => some .hlInc
  | .reg .hlDec => some .hlDec
  | _ => none

/-- The two bytes of a pair, the upper first. -/
def P16.bytes : P16 → Option (Loc E × Loc E)
  | .bc => some (.reg .b, .reg .c)
  | .de => some (.reg .d, .reg .e)
  | .hl => some (.reg .h, .reg .l)
  | .ix => some (.half .ix true, .half .ix false)
  | .iy => some (.half .iy true, .half .iy false)
  | .sp | .af => none

/-- The places of the two bytes of a word at an index, the lower first. -/
def words16 (x : Ix) : Option E → Loc E × Loc E
  | none => (.idx x .zero, .idx x .one)
  | some e => (.idx x e, .idx x (.next e))

/-- Arithmetic with `A`. -/
def semAlu (op : Alu) : Opv → Option (List (Instr E))
  | .imm e => some [.aluImm op e]
  | x => x.loc.map fun l => [.alu op l]

/-- `ADD HL,…` and so on. -/
def semAdd16 (f : P16 → P16 → Instr E) (x y : Opv) : Option (List (Instr E)) :=
  match x.pair, y.pair with
  | some p, some q => some [f p q]
  | _, _ => none

/-- A pair is loaded by the bytes; `HL` and the index registers cannot be mixed. -/
def semPairs (p q : P16) : Option (List (Instr E)) :=
  match p.bytes, q.bytes with
  | some (h, l), some (h', l') => if p.hlLike && q.hlLike && (p ≠ .hl || q ≠ .hl) then none else some [.ld h h', .ld l l']
  | _, _ => none

/-- On the Game Boy, addresses that are known to be in the last page are short. -/
def semLd (cpu : Cpu) (F : Facts) (x y : Opv) : Option (List (Instr E)) :=
  match x, y with
  | .reg .a, .reg .cInd | .reg .a, .reg .gbCInd => some [.ldAC]
  | .reg .cInd, .reg .a | .reg .gbCInd, .reg .a => some [.stAC]
  | .reg .a, .reg .i => some [.ldAI]
  | .reg .a, .reg .r => some [.ldAR]
  | .reg .i, .reg .a => some [.ldIA]
  | .reg .r, .reg .a => some [.ldRA]
  | .reg .a, .ind e => some [if cpu = .gb && F.high (some e) then .ldAHigh e else .ldAMem e]
  | .ind e, .reg .a => some [if cpu = .gb && F.high (some e) then .stAHigh e else .stAMem e]
  | .reg .hl, .spDisp e => some [.ldHlSp e]
  | x, .ind e => x.pair.map fun p => [.ldPairMem p e]
  | .ind e, y => y.pair.map fun p => [.stPairMem p e]
  | x, .imm e => match x.pair with
    | some p => some [.ldPair p e]
    | none => x.loc.map fun l => [.ldImm l e]
  | .reg .a, .reg y => match (Opv.reg y).ptr with
    | some p => some [.ldAPtr p]
    | none => (Opv.reg y).loc.map fun l => [.ld (.reg .a) l]
  | .reg x, .reg .a => match (Opv.reg x).ptr with
    | some p => some [.stAPtr p]
    | none => (Opv.reg x).loc.map fun l => [.ld l (.reg .a)]
  | .idx i d, y => match y.pair with
    | some p => p.bytes.map fun (h, l) => [.ld (words16 i d).1 l, .ld (words16 i d).2 h]
    | none => y.loc.map fun l => [.ld (.idx i (d.getD .zero)) l]
  | x, .idx i d => match x.pair with
    | some p => p.bytes.map fun (h, l) => [.ld l (words16 i d).1, .ld h (words16 i d).2]
    | none => x.loc.map fun l => [.ld l (.idx i (d.getD .zero))]
  | x, y => match x.pair, y.pair with
    | some .sp, some q => some [.ldSp q]
    | some p, some q => semPairs p q
    | none, none => match x.loc, y.loc with
      | some l, some l' => some [.ld l l']
      | _, _ => none
    | _, _ => none

/-- A pair is shifted by the bytes: one with the shift, the other through the carry. -/
def semShift (op : Rot) (left : Bool) (x : Opv) : Option (List (Instr E)) :=
  match x.pair with
  | some .hl | some .bc | some .de => (x.pair.bind P16.bytes).map fun (h, l) =>
    if left then [.rot op l, .rot .rl h] else [.rot op h, .rot .rr l]
  | some _ => none
  | none => x.loc.map fun l => [.rot op l]

def semEx (x y : Opv) : Option (List (Instr E)) :=
  match x, y with
  | .reg .de, .reg .hl => some [.imp .exDe]
  | .reg .af, .reg .afAlt => some [.imp .exAf]
  | .reg .spInd, y => y.pair.map fun p => [.exSp p]
  | _, _ => none

/-- The port is in `C`; `(BC)` is the same, because `B` is on the upper half of the address bus. -/
def Opv.port : Opv → Bool
  | .reg .cInd | .reg .bcInd => true
  | _ => false

def semIn : List Opv → Option (List (Instr E))
  | [.reg .a, .ind e] => some [.inA e]
  | [.reg x, y] => if y.port then match (Opv.reg x).loc with
    | some (.reg x) => some [.inC (some x)]
    | _ => none
    else none
  | [x] => if x.port then some [.inC none] else none
  | _ => none

def semOut (F : Facts) : List Opv → Option (List (Instr E))
  | [.ind e, .reg .a] => some [.outA e]
  | [x, .imm _] => if x = .reg .cInd && F.zeroB then some [.outC none] else none
  | [x, .reg y] => if x.port then match (Opv.reg y).loc with
    | some (.reg y) => some [.outC (some y)]
    | _ => none
    else none
  | _ => none

def semJump (f : Option Cc → E → Instr E) : List Opv → Option (List (Instr E))
  | [.imm e] => some [f none e]
  | [x, .imm e] => x.cc.map fun cc => [f (some cc) e]
  | _ => none

def semRot (op : Rot) (x : Opv) : Option (List (Instr E)) := x.loc.map fun l => [.rot op l]

def semBit (op : BitOp) : List Opv → Option (List (Instr E))
  | [.imm e, x] => x.loc.map fun l => [.bit op e l]
  | _ => none

/-- What a line means. `A` may be left out where there is one operand only. -/
def sem (cpu : Cpu) (F : Facts) : Mn → List Opv → Option (List (Instr E))
  | .adc, [.reg .hl, y] => y.pair.map fun p => [.adc16 p]
  | .sbc, [.reg .hl, y] => y.pair.map fun p => [.sbc16 p]
  | .add, [.reg .sp, .imm e] => some [.addSp e]
  | .add, [.reg .a, y] | .add, [y] => semAlu .add y
  | .add, [x, y] => semAdd16 .add16 x y
  | .adc, [.reg .a, y] | .adc, [y] => semAlu .adc y
  | .sub, [.reg .a, y] | .sub, [y] => semAlu .sub y
  | .sbc, [.reg .a, y] | .sbc, [y] => semAlu .sbc y
  | .and, [.reg .a, y] | .and, [y] => semAlu .and y
  | .xor, [.reg .a, y] | .xor, [y] => semAlu .xor y
  | .or, [.reg .a, y] | .or, [y] => semAlu .or y
  | .cp, [.reg .a, y] | .cp, [y] => semAlu .cp y
  | .bit, xs => semBit .bit xs
  | .res, xs => semBit .res xs
  | .set, xs => semBit .set xs
  | .call, xs => semJump .call xs
  | .jp, [.reg .hlInd] => some [.jpInd .hl]
  | .jp, [.idx .ix none] => some [.jpInd .ix]
  | .jp, [.idx .iy none] => some [.jpInd .iy]
  | .jp, xs => semJump .jp xs
  | .jr, xs => semJump .jr xs
  | .djnz, [.imm e] => some [.djnz e]
  | .inc, [x] => match x.pair with
    | some p => some [.inc16 p]
    | none => x.loc.map fun l => [.inc l]
  | .dec, [x] => match x.pair with
    | some p => some [.dec16 p]
    | none => x.loc.map fun l => [.dec l]
  | .ld, [x, y] => semLd cpu F x y
  | .ld, [y] => semLd cpu F (.reg .a) y
  | .ldd, [.reg .a, .reg .hlInd] | .ldd, [.reg .hlInd] => some [.ldAPtr .hlDec]
  | .ldd, [.reg .hlInd, .reg .a] => some [.stAPtr .hlDec]
  | .ldi, [.reg .a, .reg .hlInd] | .ldi, [.reg .hlInd] => some [.ldAPtr .hlInc]
  | .ldi, [.reg .hlInd, .reg .a] => some [.stAPtr .hlInc]
  | .ldh, [.reg .a, .ind e] | .ldh, [.ind e] => some [.ldAHigh e]
  | .ldh, [.ind e, .reg .a] => some [.stAHigh e]
  | .ldhl, [.reg .sp, .imm e] => some [.ldHlSp e]
  | .pop, [x] => x.pair.map fun p => [.pop p]
  | .push, [x] => x.pair.map fun p => [.push p]
  | .ret, [] => some [.ret none]
  | .ret, [x] => x.cc.map fun cc => [.ret (some cc)]
  | .rl, [x] => semRot .rl x
  | .rlc, [x] => semRot .rlc x
  | .rr, [x] => semRot .rr x
  | .rrc, [x] => semRot .rrc x
  | .swap, [x] => semRot .swap x
  | .sla, [x] => semShift .sla true x
  | .sll, [x] => semShift .sll true x
  | .sra, [x] => semShift .sra false x
  | .srl, [x] => semShift .srl false x
  | .rst, [.imm _] => match F.num with
    | some n => if 0 ≤ n ∧ n ≤ 56 ∧ n % 8 = 0 then some [.rst n.toNat] else none
    | none => none
  | .im, [.imm _] => match F.num with
    | some n => if 0 ≤ n ∧ n ≤ 2 then some [.im n.toNat] else none
    | none => none
  | .in, xs => semIn xs
  | .out, xs => semOut F xs
  | .ex, [x, y] => match semEx x y with
    | some is => some is
    | none => semEx y x
  | .ccf, [] => some [.imp .ccf]
  | .cpd, [] => some [.imp .cpd]
  | .cpdr, [] => some [.imp .cpdr]
  | .cpi, [] => some [.imp .cpi]
  | .cpir, [] => some [.imp .cpir]
  | .cpl, [] => some [.imp .cpl]
  | .daa, [] => some [.imp .daa]
  | .di, [] => some [.imp .di]
  | .ei, [] => some [.imp .ei]
  | .exx, [] => some [.imp .exx]
  | .halt, [] => some [.imp .halt]
  | .ind, [] => some [.imp .ind]
  | .indr, [] => some [.imp .indr]
  | .ini, [] => some [.imp .ini]
  | .inir, [] => some [.imp .inir]
  | .ldd, [] => some [.imp .ldd]
  | .lddr, [] => some [.imp .lddr]
  | .ldi, [] => some [.imp .ldi]
  | .ldir, [] => some [.imp .ldir]
  | .neg, [] => some [.imp .neg]
  | .nop, [] => some [.imp .nop]
  | .otdr, [] => some [.imp .otdr]
  | .otir, [] => some [.imp .otir]
  | .outd, [] => some [.imp .outd]
  | .outi, [] => some [.imp .outi]
  | .reti, [] => some [.imp .reti]
  | .retn, [] => some [.imp .retn]
  | .rla, [] => some [.imp .rla]
  | .rlca, [] => some [.imp .rlca]
  | .rld, [] => some [.imp .rld]
  | .rra, [] => some [.imp .rra]
  | .rrca, [] => some [.imp .rrca]
  | .rrd, [] => some [.imp .rrd]
  | .scf, [] => some [.imp .scf]
  | .stop, [] => some [.imp .stop]
  | _, _ => none

/-- With the options, there is an instruction; or there are two, where this is allowed. -/
def legal (o : Opts) (is : List (Instr E)) : Bool :=
  is.all (fun i => i.on o.cpu && (o.undoc || !i.undoc)) && (o.synth || is.length == 1)

end Verif.Cpu.Z80
