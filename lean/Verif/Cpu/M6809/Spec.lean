import Verif.Cpu.M6809.Model
import Verif.Cpu.X65.Lemmas
/-!
# The instructions of the 6809

The specification is a disassembler, written after the data sheet of the processor: what the bytes mean where they stand. Addresses
are numbers of 16 bits.
-/
set_option linter.constructorNameAsVariable false

namespace Verif.Cpu.M6809

open Verif.Parse (Tok Toks Tree)
open Verif.Expr (Src FMath ASym Den BinOp u32 wrap)
open Verif.Cpu.X65 (EndOfLine)

/-- The instructions of the processor. The assembler does not know `LSRA` and `LSRB`. -/
inductive Op where
  | mn (m : Mn)
  | lsra
  | lsrb
  deriving DecidableEq

/-- What follows the opcode. -/
inductive Fmt where
  | inh | imm8 | imm16 | dir | ext | idx | rel8 | rel16 | pair
  /-- A list of registers, among them the stack pointer that is not used. -/
  | list (other : R)
  deriving DecidableEq

/-! ### The opcodes -/

/-- A row of the map of opcodes. -/
abbrev Row := List (Option (Op × Fmt))

def unary : List (Option Mn) :=
  [some .neg, none, none, some .com, some .lsr, none, some .ror, some .asr, some .asl, some .rol, some .dec, none, some .inc,
   some .tst, some .jmp, some .clr]

def onA : List (Option Op) :=
  [some (.mn .nega), none, none, some (.mn .coma), some .lsra, none, some (.mn .rora), some (.mn .asra), some (.mn .asla),
   some (.mn .rola), some (.mn .deca), none, some (.mn .inca), some (.mn .tsta), none, some (.mn .clra)]

def onB : List (Option Op) :=
  [some (.mn .negb), none, none, some (.mn .comb), some .lsrb, none, some (.mn .rorb), some (.mn .asrb), some (.mn .aslb),
   some (.mn .rolb), some (.mn .decb), none, some (.mn .incb), some (.mn .tstb), none, some (.mn .clrb)]

def row (f : Fmt) (l : List (Option Mn)) : Row := l.map (·.map fun m => (.mn m, f))

def row1 : Row :=
  [none, none, some (.mn .nop, .inh), some (.mn .sync, .inh), none, none, some (.mn .lbra, .rel16), some (.mn .lbsr, .rel16),
   none, some (.mn .daa, .inh), some (.mn .orcc, .imm8), none, some (.mn .andcc, .imm8), some (.mn .sex, .inh),
   some (.mn .exg, .pair), some (.mn .tfr, .pair)]

def branches : List (Option Mn) :=
  [some .bra, some .brn, some .bhi, some .bls, some .bhs, some .blo, some .bne, some .beq, some .bvc, some .bvs, some .bpl,
   some .bmi, some .bge, some .blt, some .bgt, some .ble]

def row3 : Row :=
  [some (.mn .leax, .idx), some (.mn .leay, .idx), some (.mn .leas, .idx), some (.mn .leau, .idx), some (.mn .pshs, .list .u),
   some (.mn .puls, .list .u), some (.mn .pshu, .list .s), some (.mn .pulu, .list .s), none, some (.mn .rts, .inh),
   some (.mn .abx, .inh), some (.mn .rti, .inh), some (.mn .cwai, .imm8), some (.mn .mul, .inh), none, some (.mn .swi, .inh)]

/-- The last four rows of a half: immediate, direct, indexed, extended. Some instructions have no immediate operand. -/
def quarter (imm : Row) (l : List (Option Mn)) : List (Option (Op × Fmt)) := imm ++ row .dir l ++ row .idx l ++ row .ext l

def half8 : List (Option Mn) :=
  [some .suba, some .cmpa, some .sbca, some .subd, some .anda, some .bita, some .lda, some .sta, some .eora, some .adca,
   some .ora, some .adda, some .cmpx, some .jsr, some .ldx, some .stx]

def imm8 : Row :=
  [some (.mn .suba, .imm8), some (.mn .cmpa, .imm8), some (.mn .sbca, .imm8), some (.mn .subd, .imm16), some (.mn .anda, .imm8),
   some (.mn .bita, .imm8), some (.mn .lda, .imm8), none, some (.mn .eora, .imm8), some (.mn .adca, .imm8), some (.mn .ora, .imm8),
   some (.mn .adda, .imm8), some (.mn .cmpx, .imm16), some (.mn .bsr, .rel8), some (.mn .ldx, .imm16), none]

def halfC : List (Option Mn) :=
  [some .subb, some .cmpb, some .sbcb, some .addd, some .andb, some .bitb, some .ldb, some .stb, some .eorb, some .adcb,
   some .orb, some .addb, some .ldd, some .std, some .ldu, some .stu]

def immC : Row :=
  [some (.mn .subb, .imm8), some (.mn .cmpb, .imm8), some (.mn .sbcb, .imm8), some (.mn .addd, .imm16), some (.mn .andb, .imm8),
   some (.mn .bitb, .imm8), some (.mn .ldb, .imm8), none, some (.mn .eorb, .imm8), some (.mn .adcb, .imm8), some (.mn .orb, .imm8),
   some (.mn .addb, .imm8), some (.mn .ldd, .imm16), none, some (.mn .ldu, .imm16), none]

/-- The opcodes without prefix, 0x00 to 0xFF. -/
def page0 : List (Option (Op × Fmt)) :=
  row .dir unary ++ row1 ++ row .rel8 branches ++ row3 ++ onA.map (·.map (·, .inh)) ++ onB.map (·.map (·, .inh)) ++
  row .idx unary ++ row .ext unary ++ quarter imm8 half8 ++ quarter immC halfC

/-- The opcodes of an instruction with 16 bits: immediate, direct, indexed, extended. -/
def four (b : Nat) (m : Mn) : List (Nat × Op × Fmt) := [(b, .mn m, .imm16), (b + 0x10, .mn m, .dir), (b + 0x20, .mn m, .idx), (b + 0x30, .mn m, .ext)]

/-- The opcodes behind 0x10. -/
def page1 : List (Nat × Op × Fmt) :=
  [(0x21, .mn .lbrn, .rel16), (0x22, .mn .lbhi, .rel16), (0x23, .mn .lbls, .rel16), (0x24, .mn .lbhs, .rel16),
   (0x25, .mn .lblo, .rel16), (0x26, .mn .lbne, .rel16), (0x27, .mn .lbeq, .rel16), (0x28, .mn .lbvc, .rel16),
   (0x29, .mn .lbvs, .rel16), (0x2A, .mn .lbpl, .rel16), (0x2B, .mn .lbmi, .rel16), (0x2C, .mn .lbge, .rel16),
   (0x2D, .mn .lblt, .rel16), (0x2E, .mn .lbgt, .rel16), (0x2F, .mn .lble, .rel16), (0x3F, .mn .swi2, .inh)] ++
  four 0x83 .cmpd ++ four 0x8C .cmpy ++ four 0x8E .ldy ++ (four 0x8F .sty).tail ++ four 0xCE .lds ++ (four 0xCF .sts).tail

/-- The opcodes behind 0x11. -/
def page2 : List (Nat × Op × Fmt) := [(0x3F, .mn .swi3, .inh)] ++ four 0x83 .cmpu ++ four 0x8C .cmps

/-- The opcode at the beginning, and what follows it. -/
def opcode : List Nat → Option ((Op × Fmt) × List Nat)
  | 0x10 :: b :: rest => (page1.find? (·.1 == b)).map (·.2, rest)
  | 0x11 :: b :: rest => (page2.find? (·.1 == b)).map (·.2, rest)
  | b :: rest => (page0[b]?).join.map (·, rest)
  | [] => none

/-! ### Operands -/

/-- The places that an operand can name. -/
inductive Ea where
  | addr (n : Nat)
  /-- In the direct page. -/
  | dir (b : Nat)
  /-- A register and an offset. -/
  | off (r : R) (n : Nat)
  | inc1 (r : R) | inc2 (r : R) | dec1 (r : R) | dec2 (r : R)
  /-- A register and an accumulator. -/
  | acc (a r : R)
  /-- An address that is relative to the program counter. -/
  | pcr (n : Nat)
  deriving DecidableEq

inductive Arg where
  | none
  | imm (n : Nat)
  /-- An operand in memory, or one whose address is in memory. -/
  | mem (ind : Bool) (a : Ea)
  | target (n : Nat)
  | pair (a b : R)
  | list (rs : List R)
  deriving DecidableEq

structure Ins where
  op : Op
  arg : Arg
  deriving DecidableEq

/-- An address, of 16 bits. -/
def a16 (v : Int) : Nat := (v % 65536).toNat

/-- A byte with a sign. -/
def s8 (b : Nat) : Int := if b < 128 then b else b - 256

def index (p : Nat) : R := match p / 32 % 4 with
  | 0 => .x
  | 1 => .y
  | 2 => .u
  | _ => .s

/-- The post byte and what follows it; `next` is the address of the next instruction. -/
def postByte (next : Int) (p : Nat) (rest : List Nat) : Option Arg :=
  let r := index p
  let ind := p / 16 % 2 == 1
  if p < 128 then
    if rest = [] then some (.mem false (.off r (a16 (if p % 32 < 16 then (p % 32 : Nat) else (p % 32 : Nat) - 32)))) else none
  else match p % 16, rest with
    | 0, [] => if ind then none else some (.mem false (.inc1 r))
    | 1, [] => some (.mem ind (.inc2 r))
    | 2, [] => if ind then none else some (.mem false (.dec1 r))
    | 3, [] => some (.mem ind (.dec2 r))
    | 4, [] => some (.mem ind (.off r 0))
    | 5, [] => some (.mem ind (.acc .b r))
    | 6, [] => some (.mem ind (.acc .a r))
    | 8, [a] => some (.mem ind (.off r (a16 (s8 a))))
    | 9, [a, b] => some (.mem ind (.off r (256 * a + b)))
    | 11, [] => some (.mem ind (.acc .d r))
    | 12, [a] => some (.mem ind (.pcr (a16 (next + s8 a))))
    | 13, [a, b] => some (.mem ind (.pcr (a16 (next + (256 * a + b : Nat)))))
    | 15, [a, b] => if ind then some (.mem true (.addr (256 * a + b))) else none
    | _, _ => none

/-- The registers of `EXG` and `TFR`. -/
def pairReg : Nat → Option R
  | 0 => some .d | 1 => some .x | 2 => some .y | 3 => some .u | 4 => some .s | 5 => some .pcr
  | 8 => some .a | 9 => some .b | 10 => some .ccr | 11 => some .dpr
  | _ => none

/-- The registers of a list, from the lowest bit. -/
def listRegs (other : R) : List R := [.ccr, .a, .b, .dpr, .x, .y, other, .pcr]

/-- Those whose bits are set. -/
def selected : Nat → List R → List R
  | _, [] => []
  | p, r :: rs => if p % 2 = 1 then r :: selected (p / 2) rs else selected (p / 2) rs

/-- What follows the opcode. Registers of different size cannot be exchanged. -/
def operand (next : Int) : Fmt → List Nat → Option Arg
  | .inh, [] => some .none
  | .imm8, [a] => some (.imm a)
  | .imm16, [a, b] => some (.imm (256 * a + b))
  | .dir, [a] => some (.mem false (.dir a))
  | .ext, [a, b] => some (.mem false (.addr (256 * a + b)))
  | .idx, p :: rest => postByte next p rest
  | .rel8, [a] => some (.target (a16 (next + s8 a)))
  | .rel16, [a, b] => some (.target (a16 (next + (256 * a + b : Nat))))
  | .pair, [p] => (pairReg (p / 16)).bind fun a => (pairReg (p % 16)).bind fun b =>
      if p / 16 < 8 ↔ p % 16 < 8 then some (.pair a b) else none
  | .list other, [p] => some (.list (selected p (listRegs other)))
  | _, _ => none

/-- The instruction that is at an address. -/
def decode (pc : Int) (bs : List Nat) : Option Ins :=
  (opcode bs).bind fun ((o, f), rest) => (operand (pc + bs.length) f rest).map (⟨o, ·⟩)

/-- With a known direct page, addresses in it are addresses. -/
def Ea.at (dp : Option Nat) : Ea → Ea
  | .dir b => match dp with
    | some d => .addr (d + b)
    | none => .dir b
  | a => a

def Arg.at (dp : Option Nat) : Arg → Arg
  | .mem i a => .mem i (a.at dp)
  | x => x

def Ins.at (dp : Option Nat) (x : Ins) : Ins := ⟨x.op, x.arg.at dp⟩

/-! ### Lines -/

/-- `<` or `>` before an expression. -/
inductive Force where
  | no | lt | gt
  deriving DecidableEq

/-- The operands that are written. -/
inductive Opnd where
  | none
  /-- `#n` -/
  | imm (t : Tree)
  /-- `n`, `<n`, `>n`, or in brackets -/
  | addr (ind : Bool) (f : Force) (t : Tree)
  /-- `n,R` -/
  | off (ind : Bool) (f : Force) (t : Tree) (r : R)
  /-- `,R` -/
  | zero (ind : Bool) (r : R)
  /-- `,R+`, `,R++`, `,-R`, `,--R` -/
  | inc1 (ind : Bool) (r : R) | inc2 (ind : Bool) (r : R) | dec1 (ind : Bool) (r : R) | dec2 (ind : Bool) (r : R)
  /-- `A,R` -/
  | acc (ind : Bool) (a r : R)
  /-- `n,PCR` -/
  | pcr (ind : Bool) (f : Force) (t : Tree)
  | pair (a b : R)
  | list (rs : List R)

def R.tok (r : R) : Tok := .other r.num
def Mn.tok (m : Mn) : Tok := .other m.num

def Force.toks : Force → Toks
  | .no => []
  | .lt => [.op .lt]
  | .gt => [.op .gt]

/-- In brackets. -/
def brackets (ind : Bool) (toks : Toks) : Toks := if ind then .other 91 :: (toks ++ [.other 93]) else toks

def commaList : List R → Toks
  | [] => []
  | [r] => [r.tok]
  | r :: rs => r.tok :: .comma :: commaList rs

def Opnd.toks : Opnd → Toks
  | .none => []
  | .imm t => .other 35 :: t.toks
  | .addr i f t => brackets i (f.toks ++ t.toks)
  | .off i f t r => brackets i (f.toks ++ t.toks ++ [.comma, r.tok])
  | .zero i r => brackets i [.comma, r.tok]
  | .inc1 i r => brackets i [.comma, r.tok, .op .add]
  | .inc2 i r => brackets i [.comma, r.tok, .op .add, .op .add]
  | .dec1 i r => brackets i [.comma, .op .sub, r.tok]
  | .dec2 i r => brackets i [.comma, .op .sub, .op .sub, r.tok]
  | .acc i a r => brackets i [a.tok, .comma, r.tok]
  | .pcr i f t => brackets i (f.toks ++ t.toks ++ [.comma, R.pcr.tok])
  | .pair a b => [a.tok, .comma, b.tok]
  | .list rs => commaList rs

/-- The registers before which an offset can stand. -/
def R.isIndex : R → Bool
  | .x | .y | .u | .s => true
  | _ => false

def R.isAcc : R → Bool
  | .a | .b | .d => true
  | _ => false

/-- The expression of an operand. -/
def Opnd.tree : Opnd → Option Tree
  | .imm t | .addr _ _ t | .off _ _ t _ | .pcr _ _ t => some t
  | _ => Option.none

/-- The registers can be written in their places. -/
def Opnd.Placed : Opnd → Prop
  | .off _ _ _ r | .zero _ r | .inc1 _ r | .inc2 _ r | .dec1 _ r | .dec2 _ r => r.isIndex = true
  | .acc _ a r => a.isAcc = true ∧ r.isIndex = true
  | _ => True

/-- Expressions that can be read, and registers that can be written in their places. -/
structure Opnd.Good (x : Opnd) : Prop where
  readable : ∀ t, x.tree = some t → Readable 2 t
  regs : x.Placed

/-! ### What lines mean -/

/-- All opcodes: the bytes and what they are. -/
def opcodes : List (List Nat × Op × Fmt) :=
  page0.zipIdx.filterMap (fun (e, b) => e.map ([b], ·)) ++ page1.map (fun (b, e) => ([0x10, b], e)) ++ page2.map (fun (b, e) => ([0x11, b], e))

/-- The opcode of an instruction with a format. -/
def code (m : Mn) (f : Fmt) : Option (List Nat) := (opcodes.find? fun e => e.2 == (.mn m, f)).map (·.1)

/-- The processor has the instruction in this format. -/
def takes (m : Mn) (f : Fmt) : Bool := (code m f).isSome

/-- Numbers with or without sign. -/
def fit8 (v : Int) : Option Nat := if -128 ≤ v ∧ v ≤ 255 then some (v % 256).toNat else none
def fit16 (v : Int) : Option Nat := if -32768 ≤ v ∧ v ≤ 65535 then some (a16 v) else none

/-- The length of an instruction with a format and `n` bytes of operand. -/
def next (m : Mn) (f : Fmt) (pc : Int) (n : Nat) : Int := pc + ((code m f).getD []).length + n

/-- A distance of 8 or 16 bits. The latter reaches all addresses. -/
def near8 (v next : Int) : Option Nat := if -128 ≤ v - next ∧ v - next ≤ 127 then some (a16 v) else none
def near16 (v next : Int) : Option Nat := if -32768 ≤ v - next ∧ v - next ≤ 65535 then some (a16 v) else none

/-- What an operand means for an instruction, if the value of its expression is `v`. There is no meaning if the processor does not
have the instruction with such an operand, or if the value is too large. -/
def meaning (m : Mn) (x : Opnd) (v : Option Int) (dp : Option Nat) (pc : Int) : Option Arg :=
  match x with
  | .none => if takes m .inh then some .none else none
  | .imm _ =>
    if takes m .imm8 then v.bind fun v => (fit8 v).map .imm
    else if takes m .imm16 then v.bind fun v => (fit16 v).map .imm
    else none
  | .addr false f _ =>
    if takes m .rel8 then v.bind fun v => (near8 v (next m .rel8 pc 1)).map .target
    else if takes m .rel16 then v.bind fun v => (near16 v (next m .rel16 pc 2)).map .target
    else if takes m .ext then
      if f = .lt then v.map fun v => .mem false ((Ea.dir (v % 256).toNat).at dp)
      else v.bind fun v => (fit16 v).map fun n => .mem false (.addr n)
    else none
  | .addr true _ _ => if takes m .idx then v.bind fun v => (fit16 v).map fun n => .mem true (.addr n) else none
  | .off i f _ r =>
    if takes m .idx then v.bind fun v =>
      if f = .lt then if -128 ≤ v ∧ v ≤ 127 then some (.mem i (.off r (a16 v))) else none
      else (fit16 v).map fun n => .mem i (.off r n)
    else none
  | .zero i r => if takes m .idx then some (.mem i (.off r 0)) else none
  | .inc1 i r => if takes m .idx && !i then some (.mem false (.inc1 r)) else none
  | .inc2 i r => if takes m .idx then some (.mem i (.inc2 r)) else none
  | .dec1 i r => if takes m .idx && !i then some (.mem false (.dec1 r)) else none
  | .dec2 i r => if takes m .idx then some (.mem i (.dec2 r)) else none
  | .acc i a r => if takes m .idx then some (.mem i (.acc a r)) else none
  | .pcr i f _ =>
    if takes m .idx then v.bind fun v =>
      if f = .lt then (near8 v (next m .idx pc 2)).map fun n => .mem i (.pcr n)
      else (near16 v (next m .idx pc 3)).map fun n => .mem i (.pcr n)
    else none
  | .pair a b =>
    if takes m .pair then if wide a = wide b then some (.pair a b) else none else none
  | .list rs =>
    if takes m (.list .u) then inList .u rs
    else if takes m (.list .s) then inList .s rs
    else none
where
  wide : R → Bool
    | .a | .b | .ccr | .dpr => false
    | _ => true
  inList (other : R) (rs : List R) : Option Arg :=
    if rs.all (listRegs other).contains then some (.list ((listRegs other).filter rs.contains)) else none

/-- The processor has the instruction with such an operand. -/
def Opnd.legal (m : Mn) : Opnd → Bool
  | .none => takes m .inh
  | .imm _ => takes m .imm8 || takes m .imm16
  | .addr false _ _ => takes m .rel8 || takes m .rel16 || takes m .ext
  | .addr true _ _ | .off .. | .zero .. | .inc2 .. | .dec2 .. | .acc .. | .pcr .. => takes m .idx
  | .inc1 i _ | .dec1 i _ => takes m .idx && !i
  | .pair a b => takes m .pair && meaning.wide a == meaning.wide b
  | .list rs => takes m (.list .u) && rs.all (listRegs .u).contains || takes m (.list .s) && rs.all (listRegs .s).contains

/-! ### Bytes in the section -/

/-- The bytes of a number, the highest first (`ASM_BIG_ENDIAN`, xasm/6809/m6809_main.c 35). -/
def be : Nat → Nat → List Nat
  | 0, _ => []
  | n + 1, c => be n (c / 256) ++ [c % 256]

/-- The bytes of the items. Each stands behind the ones before it. -/
def bytesAt (fm : FMath) (now : Nat → ASym) (ρ : Den) : List Item → Option (List Nat)
  | [] => some []
  | i :: is => (i.code fm wrap now ρ).bind fun c =>
    (bytesAt fm now {ρ with pc := ρ.pc + i.size} is).map fun bs => be i.size c ++ bs

end Verif.Cpu.M6809
