import Verif.Cpu.Mips.Model
/-!
# The instructions of the MIPS32 processors

The words of the instructions, taken from the manual of the processors (MIPS32 Architecture for Programmers, volume II), what an
instruction that is written down means, and the tokens that it is written with. The tables of the assembler are not used.
-/
namespace Verif.Cpu.Mips

open Verif.Parse (Tok Toks Tree)
open Verif.Expr (u32 toI32)

/-- Three registers. -/
inductive R3 where
  | add | addu | and | movn | movz | mul | nor | or | slt | sltu | sub | subu | xor
  deriving DecidableEq

/-- Shifts by a number in a register. -/
inductive SV where
  | rotrv | sllv | srav | srlv
  deriving DecidableEq

/-- Two registers and a number. -/
inductive I3 where
  | addi | addiu | andi | ori | slti | sltiu | xori
  deriving DecidableEq

/-- Branches that compare two registers. -/
inductive B2 where
  | beq | beql | bne | bnel
  deriving DecidableEq

/-- Branches that compare a register with zero. -/
inductive B1 where
  | bgez | bgezal | bgezall | bgezl | bgtz | bgtzl | blez | blezl | bltz | bltzal | bltzall | bltzl
  deriving DecidableEq

/-- Shifts by a constant. -/
inductive Sh where
  | rotr | sll | sra | srl
  deriving DecidableEq

/-- Loads and stores. -/
inductive Mem where
  | lb | lbu | lh | lhu | ll | lw | lwc1 | lwc2 | lwl | lwr | sb | sc | sh | sw | swc1 | swc2 | swl | swr
  deriving DecidableEq

/-- Products and quotients in `HI` and `LO`. -/
inductive D2 where
  | div | divu | madd | maddu | msub | msubu | mult | multu
  deriving DecidableEq

/-- A destination and a source. -/
inductive X2 where
  | rdpgpr | seb | seh | wrpgpr | wsbh
  deriving DecidableEq

/-- Traps that compare two registers. -/
inductive Tr where
  | teq | tge | tgeu | tlt | tltu | tne
  deriving DecidableEq

/-- Traps that compare a register with a number. -/
inductive Ti where
  | teqi | tgei | tgeiu | tlti | tltiu | tnei
  deriving DecidableEq

/-- Leading ones, leading zeros. -/
inductive Cn where
  | clo | clz
  deriving DecidableEq

inductive P0 where
  | deret | eret | tlbp | tlbr | tlbwi | tlbwr
  deriving DecidableEq

/-- Interrupts. -/
inductive In where
  | di | ei
  deriving DecidableEq

inductive Mf where
  | mfhi | mflo
  deriving DecidableEq

inductive J1 where
  | jr | jrhb | mthi | mtlo
  deriving DecidableEq

inductive Jp where
  | j | jal
  deriving DecidableEq

/-- An instruction: what is done, the numbers of the registers, and the numbers. The target of a branch is an address. -/
inductive Instr (α : Type) where
  | r3 (op : R3) (rd rs rt : Nat)
  | sv (op : SV) (rd rt rs : Nat)
  | i3 (op : I3) (rt rs : Nat) (imm : α)
  | b2 (op : B2) (rs rt : Nat) (target : α)
  | b1 (op : B1) (rs : Nat) (target : α)
  | sh (op : Sh) (rd rt : Nat) (sa : α)
  | mem (op : Mem) (rt : Nat) (offset : α) (base : Nat)
  | d2 (op : D2) (rs rt : Nat)
  | x2 (op : X2) (rd rt : Nat)
  | tr (op : Tr) (rs rt : Nat) (code : α)
  | ti (op : Ti) (rs : Nat) (imm : α)
  | cn (op : Cn) (rd rs : Nat)
  | p0 (op : P0)
  | int (op : In) (rt : Nat)
  | mf (op : Mf) (rd : Nat)
  | j1 (op : J1) (rs : Nat)
  | jp (op : Jp) (target : α)
  | lui (rt : Nat) (imm : α)
  deriving DecidableEq

/-! ### The words of the instructions -/

/-- The fields of a word. -/
structure Fields where
  op : Nat
  rs : Nat
  rt : Nat
  rd : Nat
  sa : Nat
  fn : Nat
  imm : Nat
  idx : Nat

def fields (w : Nat) : Fields :=
  ⟨w / 2 ^ 26 % 64, w / 2 ^ 21 % 32, w / 2 ^ 16 % 32, w / 2 ^ 11 % 32, w / 2 ^ 6 % 32, w % 64, w % 65536, w % 2 ^ 26⟩

/-- The number of sixteen bits with its sign. -/
def sext (n : Nat) : Int := if n < 32768 then n else n - 65536

/-- The target of a branch: the distance counts from the instruction after the branch. -/
def target (pc : Int) (imm : Nat) : Int := u32 (pc + 4 + 4 * sext imm)

/-- The target of a jump: the upper bits are those of the instruction after the jump. -/
def region (pc : Int) : Int := u32 (pc + 4) / 2 ^ 28

def decodeSpecial (F : Fields) : Option (Instr Int) :=
  match F.fn with
  | 0x00 => if F.rs = 0 then some (.sh .sll F.rd F.rt F.sa) else none
  | 0x02 => match F.rs with
    | 0 => some (.sh .srl F.rd F.rt F.sa)
    | 1 => some (.sh .rotr F.rd F.rt F.sa)
    | _ => none
  | 0x03 => if F.rs = 0 then some (.sh .sra F.rd F.rt F.sa) else none
  | 0x04 => if F.sa = 0 then some (.sv .sllv F.rd F.rt F.rs) else none
  | 0x06 => match F.sa with
    | 0 => some (.sv .srlv F.rd F.rt F.rs)
    | 1 => some (.sv .rotrv F.rd F.rt F.rs)
    | _ => none
  | 0x07 => if F.sa = 0 then some (.sv .srav F.rd F.rt F.rs) else none
  | 0x08 => if F.rt = 0 ∧ F.rd = 0 then
      match F.sa with
      | 0 => some (.j1 .jr F.rs)
      | 16 => some (.j1 .jrhb F.rs)
      | _ => none
    else none
  | 0x0A => if F.sa = 0 then some (.r3 .movz F.rd F.rs F.rt) else none
  | 0x0B => if F.sa = 0 then some (.r3 .movn F.rd F.rs F.rt) else none
  | 0x10 => if F.rs = 0 ∧ F.rt = 0 ∧ F.sa = 0 then some (.mf .mfhi F.rd) else none
  | 0x11 => if F.rt = 0 ∧ F.rd = 0 ∧ F.sa = 0 then some (.j1 .mthi F.rs) else none
  | 0x12 => if F.rs = 0 ∧ F.rt = 0 ∧ F.sa = 0 then some (.mf .mflo F.rd) else none
  | 0x13 => if F.rt = 0 ∧ F.rd = 0 ∧ F.sa = 0 then some (.j1 .mtlo F.rs) else none
  | 0x18 => if F.rd = 0 ∧ F.sa = 0 then some (.d2 .mult F.rs F.rt) else none
  | 0x19 => if F.rd = 0 ∧ F.sa = 0 then some (.d2 .multu F.rs F.rt) else none
  | 0x1A => if F.rd = 0 ∧ F.sa = 0 then some (.d2 .div F.rs F.rt) else none
  | 0x1B => if F.rd = 0 ∧ F.sa = 0 then some (.d2 .divu F.rs F.rt) else none
  | 0x20 => if F.sa = 0 then some (.r3 .add F.rd F.rs F.rt) else none
  | 0x21 => if F.sa = 0 then some (.r3 .addu F.rd F.rs F.rt) else none
  | 0x22 => if F.sa = 0 then some (.r3 .sub F.rd F.rs F.rt) else none
  | 0x23 => if F.sa = 0 then some (.r3 .subu F.rd F.rs F.rt) else none
  | 0x24 => if F.sa = 0 then some (.r3 .and F.rd F.rs F.rt) else none
  | 0x25 => if F.sa = 0 then some (.r3 .or F.rd F.rs F.rt) else none
  | 0x26 => if F.sa = 0 then some (.r3 .xor F.rd F.rs F.rt) else none
  | 0x27 => if F.sa = 0 then some (.r3 .nor F.rd F.rs F.rt) else none
  | 0x2A => if F.sa = 0 then some (.r3 .slt F.rd F.rs F.rt) else none
  | 0x2B => if F.sa = 0 then some (.r3 .sltu F.rd F.rs F.rt) else none
  | 0x30 => some (.tr .tge F.rs F.rt (32 * F.rd + F.sa : Nat))
  | 0x31 => some (.tr .tgeu F.rs F.rt (32 * F.rd + F.sa : Nat))
  | 0x32 => some (.tr .tlt F.rs F.rt (32 * F.rd + F.sa : Nat))
  | 0x33 => some (.tr .tltu F.rs F.rt (32 * F.rd + F.sa : Nat))
  | 0x34 => some (.tr .teq F.rs F.rt (32 * F.rd + F.sa : Nat))
  | 0x36 => some (.tr .tne F.rs F.rt (32 * F.rd + F.sa : Nat))
  | _ => none

def decodeRegimm (pc : Int) (F : Fields) : Option (Instr Int) :=
  match F.rt with
  | 0x00 => some (.b1 .bltz F.rs (target pc F.imm))
  | 0x01 => some (.b1 .bgez F.rs (target pc F.imm))
  | 0x02 => some (.b1 .bltzl F.rs (target pc F.imm))
  | 0x03 => some (.b1 .bgezl F.rs (target pc F.imm))
  | 0x08 => some (.ti .tgei F.rs (sext F.imm))
  | 0x09 => some (.ti .tgeiu F.rs (sext F.imm))
  | 0x0A => some (.ti .tlti F.rs (sext F.imm))
  | 0x0B => some (.ti .tltiu F.rs (sext F.imm))
  | 0x0C => some (.ti .teqi F.rs (sext F.imm))
  | 0x0E => some (.ti .tnei F.rs (sext F.imm))
  | 0x10 => some (.b1 .bltzal F.rs (target pc F.imm))
  | 0x11 => some (.b1 .bgezal F.rs (target pc F.imm))
  | 0x12 => some (.b1 .bltzall F.rs (target pc F.imm))
  | 0x13 => some (.b1 .bgezall F.rs (target pc F.imm))
  | _ => none

def decodeCop0 (F : Fields) : Option (Instr Int) :=
  match F.rs with
  | 0x0A => if F.sa = 0 ∧ F.fn = 0 then some (.x2 .rdpgpr F.rd F.rt) else none
  | 0x0E => if F.sa = 0 ∧ F.fn = 0 then some (.x2 .wrpgpr F.rd F.rt) else none
  | 0x0B => if F.rd = 12 ∧ F.sa = 0 then
      match F.fn with
      | 0x00 => some (.int .di F.rt)
      | 0x20 => some (.int .ei F.rt)
      | _ => none
    else none
  | 0x10 => if F.rt = 0 ∧ F.rd = 0 ∧ F.sa = 0 then
      match F.fn with
      | 0x01 => some (.p0 .tlbr)
      | 0x02 => some (.p0 .tlbwi)
      | 0x06 => some (.p0 .tlbwr)
      | 0x08 => some (.p0 .tlbp)
      | 0x18 => some (.p0 .eret)
      | 0x1F => some (.p0 .deret)
      | _ => none
    else none
  | _ => none

def decodeSpecial2 (F : Fields) : Option (Instr Int) :=
  match F.fn with
  | 0x00 => if F.rd = 0 ∧ F.sa = 0 then some (.d2 .madd F.rs F.rt) else none
  | 0x01 => if F.rd = 0 ∧ F.sa = 0 then some (.d2 .maddu F.rs F.rt) else none
  | 0x02 => if F.sa = 0 then some (.r3 .mul F.rd F.rs F.rt) else none
  | 0x04 => if F.rd = 0 ∧ F.sa = 0 then some (.d2 .msub F.rs F.rt) else none
  | 0x05 => if F.rd = 0 ∧ F.sa = 0 then some (.d2 .msubu F.rs F.rt) else none
  | 0x20 => if F.rt = F.rd ∧ F.sa = 0 then some (.cn .clz F.rd F.rs) else none
  | 0x21 => if F.rt = F.rd ∧ F.sa = 0 then some (.cn .clo F.rd F.rs) else none
  | _ => none

def decodeSpecial3 (F : Fields) : Option (Instr Int) :=
  match F.fn with
  | 0x20 => if F.rs = 0 then
      match F.sa with
      | 0x02 => some (.x2 .wsbh F.rd F.rt)
      | 0x10 => some (.x2 .seb F.rd F.rt)
      | 0x18 => some (.x2 .seh F.rd F.rt)
      | _ => none
    else none
  | _ => none

/-- The instruction with the given fields at an address (the manual, appendix A). -/
def decodeF (pc : Int) (F : Fields) : Option (Instr Int) :=
  match F.op with
  | 0x00 => decodeSpecial F
  | 0x01 => decodeRegimm pc F
  | 0x02 => some (.jp .j (2 ^ 28 * region pc + 4 * F.idx))
  | 0x03 => some (.jp .jal (2 ^ 28 * region pc + 4 * F.idx))
  | 0x04 => some (.b2 .beq F.rs F.rt (target pc F.imm))
  | 0x05 => some (.b2 .bne F.rs F.rt (target pc F.imm))
  | 0x06 => if F.rt = 0 then some (.b1 .blez F.rs (target pc F.imm)) else none
  | 0x07 => if F.rt = 0 then some (.b1 .bgtz F.rs (target pc F.imm)) else none
  | 0x08 => some (.i3 .addi F.rt F.rs (sext F.imm))
  | 0x09 => some (.i3 .addiu F.rt F.rs (sext F.imm))
  | 0x0A => some (.i3 .slti F.rt F.rs (sext F.imm))
  | 0x0B => some (.i3 .sltiu F.rt F.rs (sext F.imm))
  | 0x0C => some (.i3 .andi F.rt F.rs F.imm)
  | 0x0D => some (.i3 .ori F.rt F.rs F.imm)
  | 0x0E => some (.i3 .xori F.rt F.rs F.imm)
  | 0x0F => if F.rs = 0 then some (.lui F.rt F.imm) else none
  | 0x10 => decodeCop0 F
  | 0x14 => some (.b2 .beql F.rs F.rt (target pc F.imm))
  | 0x15 => some (.b2 .bnel F.rs F.rt (target pc F.imm))
  | 0x16 => if F.rt = 0 then some (.b1 .blezl F.rs (target pc F.imm)) else none
  | 0x17 => if F.rt = 0 then some (.b1 .bgtzl F.rs (target pc F.imm)) else none
  | 0x1C => decodeSpecial2 F
  | 0x1F => decodeSpecial3 F
  | 0x20 => some (.mem .lb F.rt (sext F.imm) F.rs)
  | 0x21 => some (.mem .lh F.rt (sext F.imm) F.rs)
  | 0x22 => some (.mem .lwl F.rt (sext F.imm) F.rs)
  | 0x23 => some (.mem .lw F.rt (sext F.imm) F.rs)
  | 0x24 => some (.mem .lbu F.rt (sext F.imm) F.rs)
  | 0x25 => some (.mem .lhu F.rt (sext F.imm) F.rs)
  | 0x26 => some (.mem .lwr F.rt (sext F.imm) F.rs)
  | 0x28 => some (.mem .sb F.rt (sext F.imm) F.rs)
  | 0x29 => some (.mem .sh F.rt (sext F.imm) F.rs)
  | 0x2A => some (.mem .swl F.rt (sext F.imm) F.rs)
  | 0x2B => some (.mem .sw F.rt (sext F.imm) F.rs)
  | 0x2E => some (.mem .swr F.rt (sext F.imm) F.rs)
  | 0x30 => some (.mem .ll F.rt (sext F.imm) F.rs)
  | 0x31 => some (.mem .lwc1 F.rt (sext F.imm) F.rs)
  | 0x32 => some (.mem .lwc2 F.rt (sext F.imm) F.rs)
  | 0x38 => some (.mem .sc F.rt (sext F.imm) F.rs)
  | 0x39 => some (.mem .swc1 F.rt (sext F.imm) F.rs)
  | 0x3A => some (.mem .swc2 F.rt (sext F.imm) F.rs)
  | _ => none

def decodeAt (pc : Int) (w : Nat) : Option (Instr Int) := decodeF pc (fields w)

/-! ### What an instruction means -/

def within (lo hi : Int) (v : Int) : Option Int := if lo ≤ v ∧ v ≤ hi then some v else none

/-- A branch reaches the addresses that are multiples of four away from the next instruction, up to 2^17 bytes; distances are
taken round the address space. The target is an address. -/
def reach (pc : Int) (v : Int) : Option Int :=
  let d := toI32 (v - (pc + 4))
  if d % 4 = 0 ∧ -131072 ≤ d ∧ d ≤ 131068 then some (u32 v) else none

/-- A jump reaches the addresses of words in the same 256 MB as the next instruction. -/
def near (pc : Int) (v : Int) : Option Int :=
  if v % 4 = 0 ∧ (u32 v : Int) / 2 ^ 28 = region pc then some (u32 v) else none

/-- Whether the processor takes the number with its sign. -/
def I3.signed : I3 → Bool
  | .andi | .ori | .xori => false
  | _ => true

/-- The instruction at an address if every number has a value that the processor can have in this place. -/
def Instr.meaning {α : Type} (f : α → Option Int) (pc : Int) : Instr α → Option (Instr Int)
  | .r3 op rd rs rt => some (.r3 op rd rs rt)
  | .sv op rd rt rs => some (.sv op rd rt rs)
  | .i3 op rt rs imm => ((f imm).bind (if op.signed then within (-32768) 32767 else within 0 65535)).map (.i3 op rt rs)
  | .b2 op rs rt t => ((f t).bind (reach pc)).map (.b2 op rs rt)
  | .b1 op rs t => ((f t).bind (reach pc)).map (.b1 op rs)
  | .sh op rd rt sa => ((f sa).bind (within 0 31)).map (.sh op rd rt)
  | .mem op rt off base => ((f off).bind (within (-32768) 32767)).map fun o => .mem op rt o base
  | .d2 op rs rt => some (.d2 op rs rt)
  | .x2 op rd rt => some (.x2 op rd rt)
  | .tr op rs rt code => ((f code).bind (within 0 1023)).map (.tr op rs rt)
  | .ti op rs imm => ((f imm).bind (within (-32768) 32767)).map (.ti op rs)
  | .cn op rd rs => some (.cn op rd rs)
  | .p0 op => some (.p0 op)
  | .int op rt => some (.int op rt)
  | .mf op rd => some (.mf op rd)
  | .j1 op rs => some (.j1 op rs)
  | .jp op t => ((f t).bind (near pc)).map (.jp op)
  | .lui rt imm => ((f imm).bind (within 0 65535)).map (.lui rt)

/-! ### How an instruction is written -/

/-- A register, by its number or by its name. -/
structure Reg where
  num : Fin 32
  named : Bool := false
  deriving DecidableEq

/-- `R0` to `R31`, and the names of the manual. -/
def Reg.text (r : Reg) : String :=
  if r.named then
    match r.num.val with
    | 0 => "ZERO" | 1 => "AT" | 2 => "V0" | 3 => "V1" | 4 => "A0" | 5 => "A1" | 6 => "A2" | 7 => "A3"
    | 8 => "T0" | 9 => "T1" | 10 => "T2" | 11 => "T3" | 12 => "T4" | 13 => "T5" | 14 => "T6" | 15 => "T7"
    | 16 => "S0" | 17 => "S1" | 18 => "S2" | 19 => "S3" | 20 => "S4" | 21 => "S5" | 22 => "S6" | 23 => "S7"
    | 24 => "T8" | 25 => "T9" | 26 => "K0" | 27 => "K1" | 28 => "GP" | 29 => "SP" | 30 => "FP" | _ => "RA"
  else "R" ++ toString r.num.val

def Reg.tok (r : Reg) : Tok := Mips.tok r.text

def R3.text : R3 → String
  | .add => "ADD" | .addu => "ADDU" | .and => "AND" | .movn => "MOVN" | .movz => "MOVZ" | .mul => "MUL" | .nor => "NOR"
  | .or => "OR" | .slt => "SLT" | .sltu => "SLTU" | .sub => "SUB" | .subu => "SUBU" | .xor => "XOR"

def SV.text : SV → String
  | .rotrv => "ROTRV" | .sllv => "SLLV" | .srav => "SRAV" | .srlv => "SRLV"

def I3.text : I3 → String
  | .addi => "ADDI" | .addiu => "ADDIU" | .andi => "ANDI" | .ori => "ORI" | .slti => "SLTI" | .sltiu => "SLTIU" | .xori => "XORI"

def B2.text : B2 → String
  | .beq => "BEQ" | .beql => "BEQL" | .bne => "BNE" | .bnel => "BNEL"

def B1.text : B1 → String
  | .bgez => "BGEZ" | .bgezal => "BGEZAL" | .bgezall => "BGEZALL" | .bgezl => "BGEZL" | .bgtz => "BGTZ" | .bgtzl => "BGTZL"
  | .blez => "BLEZ" | .blezl => "BLEZL" | .bltz => "BLTZ" | .bltzal => "BLTZAL" | .bltzall => "BLTZALL" | .bltzl => "BLTZL"

def Sh.text : Sh → String
  | .rotr => "ROTR" | .sll => "SLL" | .sra => "SRA" | .srl => "SRL"

def Mem.text : Mem → String
  | .lb => "LB" | .lbu => "LBU" | .lh => "LH" | .lhu => "LHU" | .ll => "LL" | .lw => "LW" | .lwc1 => "LWC1" | .lwc2 => "LWC2"
  | .lwl => "LWL" | .lwr => "LWR" | .sb => "SB" | .sc => "SC" | .sh => "SH" | .sw => "SW" | .swc1 => "SWC1" | .swc2 => "SWC2"
  | .swl => "SWL" | .swr => "SWR"

def D2.text : D2 → String
  | .div => "DIV" | .divu => "DIVU" | .madd => "MADD" | .maddu => "MADDU" | .msub => "MSUB" | .msubu => "MSUBU" | .mult => "MULT"
  | .multu => "MULTU"

def X2.text : X2 → String
  | .rdpgpr => "RDPGPR" | .seb => "SEB" | .seh => "SEH" | .wrpgpr => "WRPGPR" | .wsbh => "WSBH"

def Tr.text : Tr → String
  | .teq => "TEQ" | .tge => "TGE" | .tgeu => "TGEU" | .tlt => "TLT" | .tltu => "TLTU" | .tne => "TNE"

def Ti.text : Ti → String
  | .teqi => "TEQI" | .tgei => "TGEI" | .tgeiu => "TGEIU" | .tlti => "TLTI" | .tltiu => "TLTIU" | .tnei => "TNEI"

def Cn.text : Cn → String
  | .clo => "CLO" | .clz => "CLZ"

def P0.text : P0 → String
  | .deret => "DERET" | .eret => "ERET" | .tlbp => "TLBP" | .tlbr => "TLBR" | .tlbwi => "TLBWI" | .tlbwr => "TLBWR"

def In.text : In → String
  | .di => "DI" | .ei => "EI"

def Mf.text : Mf → String
  | .mfhi => "MFHI" | .mflo => "MFLO"

def J1.text : J1 → String
  | .jr => "JR" | .jrhb => "JR.HB" | .mthi => "MTHI" | .mtlo => "MTLO"

def Jp.text : Jp → String
  | .j => "J" | .jal => "JAL"

/-- Instructions as the manual writes them. -/
inductive Written where
  | r3 (op : R3) (rd rs rt : Reg)
  | sv (op : SV) (rd rt rs : Reg)
  | i3 (op : I3) (rt rs : Reg) (imm : Tree)
  | b2 (op : B2) (rs rt : Reg) (target : Tree)
  | b1 (op : B1) (rs : Reg) (target : Tree)
  | b (target : Tree)
  | bal (target : Tree)
  | sh (op : Sh) (rd rt : Reg) (sa : Tree)
  | mem (op : Mem) (rt : Reg) (offset : Tree) (base : Reg)
  | d2 (op : D2) (rs rt : Reg)
  | x2 (op : X2) (rd rt : Reg)
  | tr (op : Tr) (rs rt : Reg) (code : Option Tree)
  | ti (op : Ti) (rs : Reg) (imm : Tree)
  | cn (op : Cn) (rd rs : Reg)
  | p0 (op : P0)
  | ehb
  | nop
  | ssnop
  | int (op : In) (rt : Option Reg)
  | mf (op : Mf) (rd : Reg)
  | j1 (op : J1) (rs : Reg)
  | jp (op : Jp) (target : Tree)
  | lui (rt : Reg) (imm : Tree)

/-- The tokens of an instruction. -/
def Written.toks : Written → Toks
  | .r3 op rd rs rt => [tok op.text, rd.tok, .comma, rs.tok, .comma, rt.tok]
  | .sv op rd rt rs => [tok op.text, rd.tok, .comma, rt.tok, .comma, rs.tok]
  | .i3 op rt rs imm => [tok op.text, rt.tok, .comma, rs.tok, .comma] ++ imm.toks
  | .b2 op rs rt t => [tok op.text, rs.tok, .comma, rt.tok, .comma] ++ t.toks
  | .b1 op rs t => [tok op.text, rs.tok, .comma] ++ t.toks
  | .b t => tok "B" :: t.toks
  | .bal t => tok "BAL" :: t.toks
  | .sh op rd rt sa => [tok op.text, rd.tok, .comma, rt.tok, .comma] ++ sa.toks
  | .mem op rt off base => [tok op.text, rt.tok, .comma] ++ off.toks ++ [.lp, base.tok, .rp]
  | .d2 op rs rt => [tok op.text, rs.tok, .comma, rt.tok]
  | .x2 op rd rt => [tok op.text, rd.tok, .comma, rt.tok]
  | .tr op rs rt none => [tok op.text, rs.tok, .comma, rt.tok]
  | .tr op rs rt (some code) => [tok op.text, rs.tok, .comma, rt.tok, .comma] ++ code.toks
  | .ti op rs imm => [tok op.text, rs.tok, .comma] ++ imm.toks
  | .cn op rd rs => [tok op.text, rd.tok, .comma, rs.tok]
  | .p0 op => [tok op.text]
  | .ehb => [tok "EHB"]
  | .nop => [tok "NOP"]
  | .ssnop => [tok "SSNOP"]
  | .int op none => [tok op.text]
  | .int op (some rt) => [tok op.text, rt.tok]
  | .mf op rd => [tok op.text, rd.tok]
  | .j1 op rs => [tok op.text, rs.tok]
  | .jp op t => tok op.text :: t.toks
  | .lui rt imm => [tok "LUI", rt.tok, .comma] ++ imm.toks

/-- The instruction that is written: `B` is `BEQ R0,R0`, `BAL` is `BGEZAL R0`, and `NOP`, `SSNOP` and `EHB` are shifts of
register 0. -/
def Written.instr : Written → Instr Tree
  | .r3 op rd rs rt => .r3 op rd.num rs.num rt.num
  | .sv op rd rt rs => .sv op rd.num rt.num rs.num
  | .i3 op rt rs imm => .i3 op rt.num rs.num imm
  | .b2 op rs rt t => .b2 op rs.num rt.num t
  | .b1 op rs t => .b1 op rs.num t
  | .b t => .b2 .beq 0 0 t
  | .bal t => .b1 .bgezal 0 t
  | .sh op rd rt sa => .sh op rd.num rt.num sa
  | .mem op rt off base => .mem op rt.num off base.num
  | .d2 op rs rt => .d2 op rs.num rt.num
  | .x2 op rd rt => .x2 op rd.num rt.num
  | .tr op rs rt code => .tr op rs.num rt.num (code.getD (.num 0))
  | .ti op rs imm => .ti op rs.num imm
  | .cn op rd rs => .cn op rd.num rs.num
  | .p0 op => .p0 op
  | .ehb => .sh .sll 0 0 (.num 3)
  | .nop => .sh .sll 0 0 (.num 0)
  | .ssnop => .sh .sll 0 0 (.num 1)
  | .int op rt => .int op ((rt.map fun r => r.num.val).getD 0)
  | .mf op rd => .mf op rd.num
  | .j1 op rs => .j1 op rs.num
  | .jp op t => .jp op t
  | .lui rt imm => .lui rt.num imm

/-- The expression in an instruction can be read. -/
def Written.Readable : Written → Prop
  | .i3 _ _ _ t | .mem _ _ t _ | .ti _ _ t | .lui _ t | .tr _ _ _ (some t) => Cpu.Readable 2 t
  | .b2 _ _ _ t | .b1 _ _ t | .b t | .bal t | .jp _ t => Cpu.Readable 4 t
  | .sh _ _ _ t => Cpu.Readable 1 t
  | _ => True

/-- What a branch reaches is where the processor goes. -/
theorem reach_target {pc v t : Int} (h : reach pc v = some t) : ∃ d : Int, t = u32 (pc + 4 + 4 * d) ∧ -32768 ≤ d ∧ d ≤ 32767 := by
  unfold reach at h
  simp only at h
  split at h
  · rename_i hd
    cases h
    refine ⟨toI32 (v - (pc + 4)) / 4, ?_, by omega, by omega⟩
    have : 4 * (toI32 (v - (pc + 4)) / 4) = toI32 (v - (pc + 4)) := by omega
    rw [this]
    unfold toI32 u32
    omega
  · cases h

end Verif.Cpu.Mips
