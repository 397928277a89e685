import Verif.Cpu.Z80.Spec
/-!
# A decoder for the Z80 and the Game Boy

It goes by the bits of the opcode (`x` = 7-6, `y` = 5-3, `z` = 2-0, `p` = 5-4, `q` = 3), as the processors do. It is
independent of the tables of the specification and is used to check them (`decode_slots`).
-/
namespace Verif.Cpu.Z80

/-! ### The decoder -/

/-- A byte with sign. -/
def sgn (n : Nat) : Int := if n < 128 then n else (n : Int) - 256

def r8 : Nat → R8
  | 0 => .b | 1 => .c | 2 => .d | 3 => .e | 4 => .h | 5 => .l | _ => .a

def pairOf (x : Option Ix) (last : P16) : Nat → P16
  | 0 => .bc
  | 1 => .de
  | 2 => match x with
    | none => .hl
    | some .ix => .ix
    | some .iy => .iy
  | _ => last

def hlOf (x : Option Ix) : P16 := pairOf x .sp 2

def ccOf : Nat → Cc
  | 0 => .nz | 1 => .z | 2 => .nc | 3 => .c | 4 => .po | 5 => .pe | 6 => .p | _ => .m

def aluOf : Nat → Alu
  | 0 => .add | 1 => .adc | 2 => .sub | 3 => .sbc | 4 => .and | 5 => .xor | 6 => .or | _ => .cp

def rotOf (cpu : Cpu) : Nat → Rot
  | 0 => .rlc | 1 => .rrc | 2 => .rl | 3 => .rr | 4 => .sla | 5 => .sra | 6 => if cpu = .gb then .swap else .sll | _ => .srl

def bitOf : Nat → BitOp
  | 1 => .bit | 2 => .res | _ => .set

/-- A register, or memory, and what follows. Behind a prefix, memory is at an index, and a half of the index register is in the
place of `H` and `L`. -/
def place (x : Option Ix) (n : Nat) (rest : List Nat) : Option (Loc Int × List Nat) :=
  if n = 6 then
    match x, rest with
    | none, rest => some (.hl, rest)
    | some i, d :: rest => some (.idx i (sgn d), rest)
    | some _, [] => none
  else match x with
    | none => some (.reg (r8 n), rest)
    | some i => if n = 4 then some (.half i true, rest) else if n = 5 then some (.half i false, rest) else some (.reg (r8 n), rest)

abbrev Decoded := Option (Instr Int × List Nat)

def with8 (rest : List Nat) (f : Nat → Instr Int) : Decoded :=
  match rest with
  | n :: rest => some (f n, rest)
  | [] => none

def with16 (rest : List Nat) (f : Int → Instr Int) : Decoded :=
  match rest with
  | l :: h :: rest => some (f (l + 256 * h), rest)
  | _ => none

/-- Opcodes 0x00 to 0x3F. -/
def block0 (cpu : Cpu) (x : Option Ix) (pc : Int) (y z : Nat) (rest : List Nat) : Decoded :=
  let p := y / 2
  let q := y % 2
  match z with
  | 0 => match y with
    | 0 => some (.imp .nop, rest)
    | 1 => match cpu with
      | .gb => with16 rest fun n => .stPairMem .sp n
      | .z80 => some (.imp .exAf, rest)
    | 2 => match cpu, rest with
      | .gb, 0 :: rest => some (.imp .stop, rest)
      | .gb, _ => none
      | .z80, rest => with8 rest fun n => .djnz (pc + 2 + sgn n)
    | 3 => with8 rest fun n => .jr none (pc + 2 + sgn n)
    | _ => with8 rest fun n => .jr (some (ccOf (y - 4))) (pc + 2 + sgn n)
  | 1 => match q with
    | 0 => with16 rest fun n => .ldPair (pairOf x .sp p) n
    | _ => some (.add16 (hlOf x) (pairOf x .sp p), rest)
  | 2 => match cpu, y with
    | _, 0 => some (.stAPtr .bc, rest)
    | _, 1 => some (.ldAPtr .bc, rest)
    | _, 2 => some (.stAPtr .de, rest)
    | _, 3 => some (.ldAPtr .de, rest)
    | .gb, 4 => some (.stAPtr .hlInc, rest)
    | .gb, 5 => some (.ldAPtr .hlInc, rest)
    | .gb, 6 => some (.stAPtr .hlDec, rest)
    | .gb, _ => some (.ldAPtr .hlDec, rest)
    | .z80, 4 => with16 rest fun n => .stPairMem (hlOf x) n
    | .z80, 5 => with16 rest fun n => .ldPairMem (hlOf x) n
    | .z80, 6 => with16 rest fun n => .stAMem n
    | .z80, _ => with16 rest fun n => .ldAMem n
  | 3 => match q with
    | 0 => some (.inc16 (pairOf x .sp p), rest)
    | _ => some (.dec16 (pairOf x .sp p), rest)
  | 4 => (place x y rest).map fun (l, rest) => (.inc l, rest)
  | 5 => (place x y rest).map fun (l, rest) => (.dec l, rest)
  | 6 => match place x y rest with
    | some (l, rest) => with8 rest fun n => .ldImm l n
    | none => none
  | _ => match y with
    | 0 => some (.imp .rlca, rest)
    | 1 => some (.imp .rrca, rest)
    | 2 => some (.imp .rla, rest)
    | 3 => some (.imp .rra, rest)
    | 4 => some (.imp .daa, rest)
    | 5 => some (.imp .cpl, rest)
    | 6 => some (.imp .scf, rest)
    | _ => some (.imp .ccf, rest)

/-- Opcodes 0x40 to 0x7F. Where there is memory, the other is a register even behind a prefix. -/
def block1 (x : Option Ix) (y z : Nat) (rest : List Nat) : Decoded :=
  if y = 6 ∧ z = 6 then some (.imp .halt, rest)
  else if y = 6 then (place x y rest).map fun (l, rest) => (.ld l (.reg (r8 z)), rest)
  else if z = 6 then (place x z rest).map fun (l, rest) => (.ld (.reg (r8 y)) l, rest)
  else match place x y [], place x z [] with
    | some (l, _), some (l', _) => some (.ld l l', rest)
    | _, _ => none

/-- Opcodes 0xC0 to 0xFF without the prefixes. -/
def block3 (cpu : Cpu) (x : Option Ix) (y z : Nat) (rest : List Nat) : Decoded :=
  let p := y / 2
  let q := y % 2
  let cc : Bool := y < 4 || cpu = .z80
  match z with
  | 0 => if cc then some (.ret (some (ccOf y)), rest) else match y with
    | 4 => with8 rest fun n => .stAHigh (0xFF00 + n)
    | 5 => with8 rest fun n => .addSp (sgn n)
    | 6 => with8 rest fun n => .ldAHigh (0xFF00 + n)
    | _ => with8 rest fun n => .ldHlSp (sgn n)
  | 1 => match q, p with
    | 0, _ => some (.pop (pairOf x .af p), rest)
    | _, 0 => some (.ret none, rest)
    | _, 1 => some (.imp (if cpu = .gb then .reti else .exx), rest)
    | _, 2 => some (.jpInd (hlOf x), rest)
    | _, _ => some (.ldSp (hlOf x), rest)
  | 2 => if cc then with16 rest fun n => .jp (some (ccOf y)) n else match y with
    | 4 => some (.stAC, rest)
    | 5 => with16 rest fun n => .stAMem n
    | 6 => some (.ldAC, rest)
    | _ => with16 rest fun n => .ldAMem n
  | 3 => match y with
    | 0 => with16 rest fun n => .jp none n
    | 6 => some (.imp .di, rest)
    | 7 => some (.imp .ei, rest)
    | _ => if cpu = .gb then none else match y with
      | 2 => with8 rest fun n => .outA n
      | 3 => with8 rest fun n => .inA n
      | 4 => some (.exSp (hlOf x), rest)
      | 5 => some (.imp .exDe, rest)
      | _ => none
  | 4 => if cc then with16 rest fun n => .call (some (ccOf y)) n else none
  | 5 => match q, p with
    | 0, _ => some (.push (pairOf x .af p), rest)
    | _, 0 => with16 rest fun n => .call none n
    | _, _ => none
  | 6 => with8 rest fun n => .aluImm (aluOf y) n
  | _ => some (.rst (8 * y), rest)

def main (cpu : Cpu) (x : Option Ix) (pc : Int) (op : Nat) (rest : List Nat) : Decoded :=
  let y := op / 8 % 8
  let z := op % 8
  match op / 64 with
  | 0 => block0 cpu x pc y z rest
  | 1 => block1 x y z rest
  | 2 => (place x z rest).map fun (l, rest) => (.alu (aluOf y) l, rest)
  | _ => block3 cpu x y z rest

/-- Behind 0xCB. -/
def bits (cpu : Cpu) (op : Nat) (l : Loc Int) : Instr Int :=
  match op / 64 with
  | 0 => .rot (rotOf cpu (op / 8 % 8)) l
  | x => .bit (bitOf x) ((op / 8 % 8 : Nat) : Int) l

/-- Behind 0xED. -/
def extended (op : Nat) (rest : List Nat) : Decoded :=
  let y := op / 8 % 8
  let z := op % 8
  let p := y / 2
  let q := y % 2
  match op / 64 with
  | 1 => match z with
    | 0 => some (.inC (if y = 6 then none else some (r8 y)), rest)
    | 1 => some (.outC (if y = 6 then none else some (r8 y)), rest)
    | 2 => match q with
      | 0 => some (.sbc16 (pairOf none .sp p), rest)
      | _ => some (.adc16 (pairOf none .sp p), rest)
    | 3 => match q with
      | 0 => with16 rest fun n => .stPairMem (pairOf none .sp p) n
      | _ => with16 rest fun n => .ldPairMem (pairOf none .sp p) n
    | 4 => some (.imp .neg, rest)
    | 5 => some (.imp (if y = 1 then .reti else .retn), rest)
    | 6 => match y % 4 with
      | 2 => some (.im 1, rest)
      | 3 => some (.im 2, rest)
      | _ => some (.im 0, rest)
    | _ => match y with
      | 0 => some (.ldIA, rest)
      | 1 => some (.ldRA, rest)
      | 2 => some (.ldAI, rest)
      | 3 => some (.ldAR, rest)
      | 4 => some (.imp .rrd, rest)
      | 5 => some (.imp .rld, rest)
      | _ => none
  | 2 => match y, z with
    | 4, 0 => some (.imp .ldi, rest)
    | 4, 1 => some (.imp .cpi, rest)
    | 4, 2 => some (.imp .ini, rest)
    | 4, 3 => some (.imp .outi, rest)
    | 5, 0 => some (.imp .ldd, rest)
    | 5, 1 => some (.imp .cpd, rest)
    | 5, 2 => some (.imp .ind, rest)
    | 5, 3 => some (.imp .outd, rest)
    | 6, 0 => some (.imp .ldir, rest)
    | 6, 1 => some (.imp .cpir, rest)
    | 6, 2 => some (.imp .inir, rest)
    | 6, 3 => some (.imp .otir, rest)
    | 7, 0 => some (.imp .lddr, rest)
    | 7, 1 => some (.imp .cpdr, rest)
    | 7, 2 => some (.imp .indr, rest)
    | 7, 3 => some (.imp .otdr, rest)
    | _, _ => none
  | _ => none

/-- Behind 0xDD 0xCB and 0xFD 0xCB. -/
def indexedBits (x : Ix) : List Nat → Decoded
  | d :: op :: rest => if op % 8 = 6 then some (bits .z80 op (.idx x (sgn d)), rest) else none
  | _ => none

/-- Behind 0xDD and 0xFD. -/
def indexed (x : Ix) (pc : Int) : List Nat → Decoded
  | op :: rest => if op = 0xCB then indexedBits x rest else main .z80 (some x) pc op rest
  | [] => none

/-- Behind 0xCB. -/
def prefixedBits (cpu : Cpu) : List Nat → Decoded
  | op :: rest => (place none (op % 8) rest).map fun (l, rest) => (bits cpu op l, rest)
  | [] => none

/-- Behind 0xED. -/
def prefixedExtended : List Nat → Decoded
  | op :: rest => extended op rest
  | [] => none

/-- One instruction at the address `pc`. -/
def decode (cpu : Cpu) (pc : Int) : List Nat → Decoded
  | op :: rest =>
    if op = 0xCB then prefixedBits cpu rest
    else if op = 0xED then if cpu = .z80 then prefixedExtended rest else none
    else if op = 0xDD then if cpu = .z80 then indexed .ix pc rest else none
    else if op = 0xFD then if cpu = .z80 then indexed .iy pc rest else none
    else main cpu none pc op rest
  | [] => none

/-! ### Numbers in instructions -/

/-- The kinds of numbers in instructions. -/
inductive Kind where
  | s8 | n8 | p8 | n16 | a16 | rel | hi | bit
  deriving DecidableEq

/-- What the processor makes of a number; nothing if there is no room for it. -/
def Kind.read (pc : Int) (k : Kind) (v : Int) : Option Int :=
  match k with
  | .s8 => if -128 ≤ v ∧ v ≤ 127 then some v else none
  | .n8 => if -128 ≤ v ∧ v ≤ 255 then some (v % 256) else none
  | .p8 => if 0 ≤ v ∧ v ≤ 255 then some v else none
  | .n16 => if -32768 ≤ v ∧ v ≤ 65535 then some (v % 65536) else none
  | .a16 => if 0 ≤ v ∧ v ≤ 65535 then some v else none
  | .rel => if -128 ≤ v - (pc + 2) ∧ v - (pc + 2) ≤ 127 then some v else none
  | .hi => if 0xFF00 ≤ v ∧ v ≤ 0xFFFF then some v else none
  | .bit => if 0 ≤ v ∧ v ≤ 7 then some v else none

def Loc.bind {α β : Type} (f : α → Option β) : Loc α → Option (Loc β)
  | .reg x => some (.reg x)
  | .hl => some .hl
  | .half x h => some (.half x h)
  | .idx x d => (f d).map (.idx x)

/-- The instruction with its numbers. -/
def Instr.bind {α β : Type} (f : Kind → α → Option β) : Instr α → Option (Instr β)
  | .ld x y => (x.bind (f .s8)).bind fun x => (y.bind (f .s8)).map fun y => .ld x y
  | .ldImm x n => (x.bind (f .s8)).bind fun x => (f .n8 n).map fun n => .ldImm x n
  | .ldAPtr p => some (.ldAPtr p)
  | .stAPtr p => some (.stAPtr p)
  | .ldAMem n => (f .a16 n).map .ldAMem
  | .stAMem n => (f .a16 n).map .stAMem
  | .ldAHigh n => (f .hi n).map .ldAHigh
  | .stAHigh n => (f .hi n).map .stAHigh
  | .ldAC => some .ldAC
  | .stAC => some .stAC
  | .ldPair p n => (f .n16 n).map (.ldPair p)
  | .ldPairMem p n => (f .a16 n).map (.ldPairMem p)
  | .stPairMem p n => (f .a16 n).map (.stPairMem p)
  | .ldSp p => some (.ldSp p)
  | .ldHlSp d => (f .s8 d).map .ldHlSp
  | .addSp d => (f .s8 d).map .addSp
  | .ldAI => some .ldAI
  | .ldAR => some .ldAR
  | .ldIA => some .ldIA
  | .ldRA => some .ldRA
  | .push p => some (.push p)
  | .pop p => some (.pop p)
  | .alu op s => (s.bind (f .s8)).map (.alu op)
  | .aluImm op n => (f .n8 n).map (.aluImm op)
  | .inc l => (l.bind (f .s8)).map .inc
  | .dec l => (l.bind (f .s8)).map .dec
  | .inc16 p => some (.inc16 p)
  | .dec16 p => some (.dec16 p)
  | .add16 d s => some (.add16 d s)
  | .adc16 s => some (.adc16 s)
  | .sbc16 s => some (.sbc16 s)
  | .rot op l => (l.bind (f .s8)).map (.rot op)
  | .bit op n l => (l.bind (f .s8)).bind fun l => (f .bit n).map fun n => .bit op n l
  | .jp c n => (f .a16 n).map (.jp c)
  | .jpInd p => some (.jpInd p)
  | .jr c n => (f .rel n).map (.jr c)
  | .djnz n => (f .rel n).map .djnz
  | .call c n => (f .a16 n).map (.call c)
  | .ret c => some (.ret c)
  | .rst n => some (.rst n)
  | .im n => some (.im n)
  | .inC x => some (.inC x)
  | .outC x => some (.outC x)
  | .inA n => (f .p8 n).map .inA
  | .outA n => (f .p8 n).map .outA
  | .exSp p => some (.exSp p)
  | .imp i => some (.imp i)

/-- The bytes of a part of an instruction at the address `pc`. -/
def Slot.bytes {α : Type} (val : α → Option Int) (pc : Int) : Slot α → Option (List Nat)
  | .byte n => some [n]
  | .s8 e => (val e).bind fun v => if -128 ≤ v ∧ v ≤ 127 then some [(v % 256).toNat] else none
  | .n8 e => (val e).bind fun v => if -128 ≤ v ∧ v ≤ 255 then some [(v % 256).toNat] else none
  | .p8 e => (val e).bind fun v => if 0 ≤ v ∧ v ≤ 255 then some [v.toNat] else none
  | .n16 e => (val e).bind fun v =>
    if -32768 ≤ v ∧ v ≤ 65535 then some [(v % 256).toNat, (v / 256 % 256).toNat] else none
  | .a16 e => (val e).bind fun v => if 0 ≤ v ∧ v ≤ 65535 then some [(v % 256).toNat, (v / 256).toNat] else none
  | .rel e => (val e).bind fun v =>
    if -128 ≤ v - (pc + 1) ∧ v - (pc + 1) ≤ 127 then some [((v - (pc + 1)) % 256).toNat] else none
  | .hi e => (val e).bind fun v => if 0xFF00 ≤ v ∧ v ≤ 0xFFFF then some [(v - 0xFF00).toNat] else none
  | .bit op e => (val e).bind fun v => if 0 ≤ v ∧ v ≤ 7 then some [op + 8 * v.toNat] else none

def Slot.size {α : Type} : Slot α → Nat
  | .n16 _ | .a16 _ => 2
  | _ => 1

/-- The bytes of several parts. -/
def slotBytes {α : Type} (val : α → Option Int) : Int → List (Slot α) → Option (List Nat)
  | _, [] => some []
  | pc, s :: ss => (s.bytes val pc).bind fun b => (slotBytes val (pc + s.size) ss).map fun bs => b ++ bs

end Verif.Cpu.Z80
