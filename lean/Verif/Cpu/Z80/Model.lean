import Verif.Cpu.Common
/-!
# The instructions of the Z80 and of the Game Boy

The parser of instructions, xasm/z80/z80_parse.c. The handlers of the instructions do not look into the expressions of the
operands, except for whether they are constant; they are modelled on names for the expressions (`E`), and what they put into
the section is a list of calls in which these names occur.
-/
namespace Verif.Cpu.Z80

open Verif.Parse (Tok Toks Tree)
open Verif.Expr (Src BinOp u32)

/-- The mnemonics, `ETargetToken` (xasm/z80/z80_tokens.h 23-94). -/
inductive Mn where
  | adc | add | and | bit | call | ccf | cp | cpd | cpdr | cpi | cpir | cpl | daa | dec | di | djnz | ei | ex | exx | halt | im
  | in | inc | ind | indr | ini | inir | jp | jr | ld | ldd | lddr | ldi | ldir | ldh | ldhl | neg | nop | or | otdr | otir | out
  | outd | outi | pop | push | res | ret | reti | retn | rl | rla | rlc | rlca | rld | rr | rra | rrc | rrca | rrd | rst | sbc | scf
  | set | sla | sll | sra | srl | stop | sub | swap | xor
  deriving DecidableEq

/-- The registers, some addresses in registers, and the conditions, `ETargetToken` (xasm/z80/z80_tokens.h 96-139). -/
inductive Rg where
  | b | c | d | e | h | l | hlInd | a | ixh | ixl | iyh | iyl | bc | de | hl | sp | ix | iy | cInd | gbCInd | spInd | bcInd | deInd
  | hlInc | hlDec | af | afAlt | i | r | nz | z | nc | po | pe | p | m
  deriving DecidableEq

def Mn.num (m : Mn) : Nat := 6000 + m.ctorIdx
def Rg.num (x : Rg) : Nat := 6072 + x.ctorIdx

/-- `T_SYM_SET` (xasm/motor/tokens.h 91). -/
def symSet : Nat := 352

/-- `g_tokens` (xasm/z80/z80_tokens.c 29-155), and `SET` (xasm/motor/tokens.c 39-165). -/
def words : List (String × Nat) :=
  [("ADC", Mn.adc.num), ("ADD", Mn.add.num), ("AND", Mn.and.num), ("BIT", Mn.bit.num), ("CALL", Mn.call.num), ("CCF", Mn.ccf.num),
   ("CPL", Mn.cpl.num), ("CP", Mn.cp.num), ("CPD", Mn.cpd.num), ("CPDR", Mn.cpdr.num), ("CPI", Mn.cpi.num), ("CPIR", Mn.cpir.num),
   ("DAA", Mn.daa.num), ("DEC", Mn.dec.num), ("DI", Mn.di.num), ("DJNZ", Mn.djnz.num), ("EI", Mn.ei.num), ("EX", Mn.ex.num),
   ("EXX", Mn.exx.num), ("HALT", Mn.halt.num), ("IM", Mn.im.num), ("IN", Mn.in.num), ("INC", Mn.inc.num), ("IND", Mn.ind.num),
   ("INDR", Mn.indr.num), ("INI", Mn.ini.num), ("INIR", Mn.inir.num), ("JP", Mn.jp.num), ("JR", Mn.jr.num), ("LD", Mn.ld.num),
   ("LDD", Mn.ldd.num), ("LDDR", Mn.lddr.num), ("LDI", Mn.ldi.num), ("LDIR", Mn.ldir.num), ("LDH", Mn.ldh.num),
   ("LDIO", Mn.ldh.num), ("LDHL", Mn.ldhl.num), ("NEG", Mn.neg.num), ("NOP", Mn.nop.num), ("OR", Mn.or.num), ("OTDR", Mn.otdr.num),
   ("OTIR", Mn.otir.num), ("OUT", Mn.out.num), ("OUTD", Mn.outd.num), ("OUTI", Mn.outi.num), ("POP", Mn.pop.num),
   ("PUSH", Mn.push.num), ("RES", Mn.res.num), ("RET", Mn.ret.num), ("RETI", Mn.reti.num), ("RETN", Mn.retn.num), ("RL", Mn.rl.num),
   ("RLA", Mn.rla.num), ("RLC", Mn.rlc.num), ("RLD", Mn.rld.num), ("RLCA", Mn.rlca.num), ("RR", Mn.rr.num), ("RRA", Mn.rra.num),
   ("RRC", Mn.rrc.num), ("RRD", Mn.rrd.num), ("RRCA", Mn.rrca.num), ("RST", Mn.rst.num), ("SBC", Mn.sbc.num), ("SCF", Mn.scf.num),
   ("SET", symSet),
   ("SLA", Mn.sla.num), ("SLL", Mn.sll.num), ("SRA", Mn.sra.num), ("SRL", Mn.srl.num), ("STOP", Mn.stop.num), ("SUB", Mn.sub.num),
   ("SWAP", Mn.swap.num), ("XOR", Mn.xor.num),
   ("NZ", Rg.nz.num), ("Z", Rg.z.num), ("NC", Rg.nc.num), ("PO", Rg.po.num), ("PE", Rg.pe.num), ("P", Rg.p.num), ("M", Rg.m.num),
   ("[HL]", Rg.hlInd.num), ("(HL)", Rg.hlInd.num), ("[HL+]", Rg.hlInc.num), ("(HL+)", Rg.hlInc.num), ("[HL-]", Rg.hlDec.num),
   ("(HL-)", Rg.hlDec.num), ("HL", Rg.hl.num), ("AF", Rg.af.num), ("AF'", Rg.afAlt.num), ("[BC]", Rg.bcInd.num),
   ("(BC)", Rg.bcInd.num), ("BC", Rg.bc.num), ("[DE]", Rg.deInd.num), ("(DE)", Rg.deInd.num), ("DE", Rg.de.num),
   ("[SP]", Rg.spInd.num), ("(SP)", Rg.spInd.num), ("SP", Rg.sp.num), ("IX", Rg.ix.num), ("IY", Rg.iy.num), ("A", Rg.a.num),
   ("B", Rg.b.num), ("[C]", Rg.cInd.num), ("(C)", Rg.cInd.num), ("[$FF00+C]", Rg.gbCInd.num), ("($FF00+C)", Rg.gbCInd.num),
   ("C", Rg.c.num), ("D", Rg.d.num), ("E", Rg.e.num), ("H", Rg.h.num), ("L", Rg.l.num), ("IXH", Rg.ixh.num), ("IXL", Rg.ixl.num),
   ("IYH", Rg.iyh.num), ("IYL", Rg.iyl.num), ("I", Rg.i.num), ("R", Rg.r.num)]

/-- The token of a word. -/
def tok (w : String) : Tok :=
  match words.find? (·.1 == w) with
  | some p => .other p.2
  | none => .sym w.toList

inductive Cpu where
  | gb | z80
  deriving DecidableEq

/-- `CPUF_GB`, `CPUF_Z80` (xasm/z80/z80_options.h 25-26). -/
def Cpu.flag : Cpu → Nat
  | .gb => 1
  | .z80 => 2

/-- `SMachineOptions` (xasm/z80/z80_options.h 28-32). -/
structure Opts where
  cpu : Cpu
  synth : Bool
  undoc : Bool
  deriving DecidableEq

/-! ### Addressing modes -/

/-! `MODE_NONE` … `MODE_GROUP_IXYLH` (xasm/z80/z80_parse.c 117-146). -/
namespace M
def none : Nat := 0x00000001
def a : Nat := 0x00000002
def cInd : Nat := 0x00000004
def de : Nat := 0x00000008
def hl : Nat := 0x00000010
def sp : Nat := 0x00000020
def af : Nat := 0x00000040
def afSec : Nat := 0x00000080
def bcInd : Nat := 0x00000100
def deInd : Nat := 0x00000200
def hlInd : Nat := 0x00000400
def hlDec : Nat := 0x00000800
def hlInc : Nat := 0x00001000
def spInd : Nat := 0x00002000
def ixInd : Nat := 0x00004000
def iyInd : Nat := 0x00008000
def spDisp : Nat := 0x00010000
def ixDisp : Nat := 0x00020000
def iyDisp : Nat := 0x00040000
def d : Nat := 0x00080000
def ss : Nat := 0x00100000
def ssAf : Nat := 0x00200000
def rr : Nat := 0x00400000
def ghl : Nat := 0x00800000
def imm : Nat := 0x01000000
def immInd : Nat := 0x02000000
def ccGb : Nat := 0x04000000
def ccZ80 : Nat := 0x08000000
def control : Nat := 0x10000000
def half : Nat := 0x20000000
/-- `MODE_GROUP_EX` … `MODE_GROUP_I_IND_DISP` (xasm/z80/z80_parse.c 227-230). -/
def ex : Nat := spInd ||| af ||| afSec ||| de ||| ghl
def gix : Nat := ixInd ||| ixDisp
def giy : Nat := iyInd ||| iyDisp
def gi : Nat := gix ||| giy
end M

/-- The expressions of the operands: that of the first and of the second operand, `0`, `1`, and the next number. -/
inductive E where
  | a | b | zero | one
  | next (e : E)
  deriving DecidableEq

/-- `SAddressingMode` (xasm/z80/z80_parse.c 94-104). The enumerations are bytes, -1 is 255. `registerD` may have no value:
the variables of `z80_ParseInstruction` are not initialised. The other registers are only read for modes from the table, they
are 255 for the other modes. -/
structure Am where
  mode : Nat := 0
  e : Option E := none
  cpu : Nat := 3
  d : Option Nat := none
  ss : Nat := 255
  rr : Nat := 255
  hl : Nat := 255
  f : Nat := 255
  ctrl : Nat := 255
  deriving DecidableEq

/-- `g_addressModes` (xasm/z80/z80_parse.c 177-225). -/
def Rg.am : Rg → Am
  | .b => {mode := M.d, d := some 0}
  | .c => {mode := M.d ||| M.ccGb ||| M.ccZ80, d := some 1, f := 3}
  | .d => {mode := M.d, d := some 2}
  | .e => {mode := M.d, d := some 3}
  | .h => {mode := M.d, d := some 4}
  | .l => {mode := M.d, d := some 5}
  | .hlInd => {mode := M.hlInd ||| M.d, d := some 6}
  | .a => {mode := M.a ||| M.d, d := some 7}
  | .ixh => {mode := M.half, cpu := 2, d := some 4, hl := 0xDD}
  | .ixl => {mode := M.half, cpu := 2, d := some 5, hl := 0xDD}
  | .iyh => {mode := M.half, cpu := 2, d := some 4, hl := 0xFD}
  | .iyl => {mode := M.half, cpu := 2, d := some 5, hl := 0xFD}
  | .bc => {mode := M.ss ||| M.ssAf, d := some 255, ss := 0}
  | .de => {mode := M.de ||| M.ss ||| M.ssAf, d := some 255, ss := 1}
  | .hl => {mode := M.hl ||| M.ss ||| M.ssAf ||| M.ghl, d := some 255, ss := 2, hl := 0}
  | .sp => {mode := M.sp ||| M.ss, d := some 255, ss := 3}
  | .ix => {mode := M.ghl, cpu := 2, d := some 255, ss := 2, hl := 0xDD}
  | .iy => {mode := M.ghl, cpu := 2, d := some 255, ss := 2, hl := 0xFD}
  | .cInd => {mode := M.cInd, d := some 255}
  | .gbCInd => {mode := M.cInd, cpu := 1, d := some 255}
  | .spInd => {mode := M.spInd, d := some 255}
  | .bcInd => {mode := M.bcInd ||| M.cInd ||| M.rr, d := some 255, rr := 0}
  | .deInd => {mode := M.deInd ||| M.rr, d := some 255, rr := 1}
  | .hlInc => {mode := M.hlInc ||| M.rr, cpu := 1, d := some 255, rr := 2}
  | .hlDec => {mode := M.hlDec ||| M.rr, cpu := 1, d := some 255, rr := 3}
  | .af => {mode := M.af ||| M.ssAf, d := some 255, ss := 3}
  | .afAlt => {mode := M.afSec, cpu := 2, d := some 255}
  | .i => {mode := M.control, cpu := 2, d := some 255, ctrl := 0}
  | .r => {mode := M.control, cpu := 2, d := some 255, ctrl := 1}
  | .nz => {mode := M.ccGb ||| M.ccZ80, d := some 255, f := 0}
  | .z => {mode := M.ccGb ||| M.ccZ80, d := some 255, f := 1}
  | .nc => {mode := M.ccGb ||| M.ccZ80, d := some 255, f := 2}
  | .po => {mode := M.ccZ80, cpu := 2, d := some 255, f := 4}
  | .pe => {mode := M.ccZ80, cpu := 2, d := some 255, f := 5}
  | .p => {mode := M.ccZ80, cpu := 2, d := some 255, f := 6}
  | .m => {mode := M.ccZ80, cpu := 2, d := some 255, f := 7}

/-- The tokens in their order. -/
def Rg.all : List Rg :=
  [.b, .c, .d, .e, .h, .l, .hlInd, .a, .ixh, .ixl, .iyh, .iyl, .bc, .de, .hl, .sp, .ix, .iy, .cInd, .gbCInd, .spInd, .bcInd, .deInd,
   .hlInc, .hlDec, .af, .afAlt, .i, .r, .nz, .z, .nc, .po, .pe, .p, .m]

/-- A mode, and the expression of the operand. -/
abbrev Operand := Am × Option Src

/-- `EXPR_PARENS`. -/
def isParens : Src → Bool
  | .parens _ => true
  | _ => false

/-- `createExpression8S` (xasm/z80/z80_parse.c 280-283). -/
def signed (s : Src) : Src := checkRange s (-128) 127

/-- `parse_AddrMode` behind a parenthesis or a bracket, up to the indices (xasm/z80/z80_parse.c 1131-1160). `close` is the
token at the end. It is not an index if there is no result. -/
def indexMode (C : Ctx) (x : E) (close : Tok) : Toks → Outcome (Option (Operand × Toks))
  | .other n :: rest =>
    if n = Rg.ix.num ∨ n = Rg.iy.num then
      if rest.head? = some (.op .add) ∨ rest.head? = some (.op .sub) then
        (expr C 1 rest).bind fun
          | (some s, t :: rest) =>
            if t = close then
              .ok (some (({mode := if n = Rg.ix.num then M.ixDisp else M.iyDisp, e := some x, d := some 6}, some (signed s)), rest))
            else .fail
          | _ => .fail
      else match rest with
        | t :: rest =>
          if t = close then .ok (some (({mode := if n = Rg.ix.num then M.ixInd else M.iyInd}, none), rest)) else .fail
        | [] => .fail
    else .ok none
  | _ => .ok none

/-- An operand that is an expression (xasm/z80/z80_parse.c 1180-1199). -/
def exprMode (C : Ctx) (x : E) (toks : Toks) : Outcome (Option Operand × Toks) :=
  (expr C 2 toks).bind fun
    | (some s, rest) => .ok (some ({mode := if isParens s then M.immInd else M.imm, e := some x}, some s), rest)
    | (none, _) => .ok (none, toks)

/-- `parse_AddrMode` (xasm/z80/z80_parse.c 1106-1200); `x` names the expression of the operand. Where it returns `false`
without a message because the registers are not those of the processor (1123-1124), the caller has one. -/
def addrMode (C : Ctx) (o : Opts) (x : E) (toks : Toks) : Outcome (Option Operand × Toks) :=
  match toks with
  | .other n :: rest =>
    if Rg.b.num ≤ n ∧ n ≤ Rg.m.num then
      if n = Rg.sp.num ∧ (rest.head? = some (.op .add) ∨ rest.head? = some (.op .sub)) then
        (expr C 1 rest).bind fun
          | (some s, rest) => .ok (some ({mode := M.spDisp, e := some x}, some (signed s)), rest)
          | (none, _) => .fail
      else match Rg.all[n - Rg.b.num]? with
        | some reg =>
          if reg.am.mode &&& M.half ≠ 0 then
            if o.cpu = .z80 ∧ o.undoc = true then .ok (some (reg.am, none), rest) else .fail
          else .ok (some (reg.am, none), rest)
        | none => .ub
    else if n = 91 then
      (indexMode C x (.other 93) rest).bind fun
        | some (m, rest) => .ok (some m, rest)
        | none => (expr C 2 rest).bind fun
          | (some s, .other 93 :: rest) => .ok (some ({mode := M.immInd, e := some x}, some s), rest)
          | _ => exprMode C x toks
    else exprMode C x toks
  | .lp :: rest => (indexMode C x .rp rest).bind fun
    | some (m, rest) => .ok (some m, rest)
    | none => exprMode C x toks
  | _ => exprMode C x toks

/-! ### Handlers -/

/-- What the handlers put into the section: a byte, an expression as it is, or an expression that is made by
`createExpression8SU`, `8U`, `8S`, `16U`, `16SU`, `PCRel`, `ImmHi`, and that of `handleBit`. -/
inductive Call where
  | const (v : Nat)
  | plain (e : E)
  | su8 (e : E)
  | u8 (e : E)
  | s8 (e : E)
  | u16 (e : E)
  | su16 (e : E)
  | rel (e : E)
  | hi (e : E)
  | bit (op : Nat) (e : E)
  deriving DecidableEq

abbrev Calls := Outcome (List Call)

/-- The handlers of the instructions. -/
inductive Handler where
  | adc | add | alu | bit | call | implied | dec | djnz | ex | im | in | jp | jr | ld | ldd | ldh | ldhl | out | pop | ret | reti
  | rotate | rst | sbc | sla | sll | sra | srl | stop
  deriving DecidableEq

/-- `SInstruction` (xasm/z80/z80_parse.c 106-113). -/
structure Instruction where
  cpu : Nat
  pre : Nat
  op : Nat
  modes1 : Nat
  modes2 : Nat
  handler : Handler

def has (a b : Nat) : Bool := a &&& b != 0

/-- What is known about the expressions of the two operands when the instruction is read: the value of the first, whether they
are in the last page (xasm/z80/z80_parse.c 545-546, 561-562), and whether the second is 0 (990). -/
structure Facts where
  num : Option Int
  highA : Bool
  highB : Bool
  zeroB : Bool
  deriving DecidableEq

/-- `LD` asks this for addresses, which are expressions of the program. -/
def Facts.high (F : Facts) : Option E → Bool
  | some .a => F.highA
  | some .b => F.highB
  | _ => false

/-- `expr_IsConstant` and `value.integer`, for the expressions of the operands. -/
def facts (known : Src → Option Int) (a b : Option Src) : Facts where
  num := a.bind known
  highA := last (a.bind known)
  highB := last (b.bind known)
  zeroB := decide (b.bind known = some 0)
where
  last : Option Int → Bool
    | some v => 0xFF00 ≤ v && v ≤ 0xFFFF
    | none => false

/-- The operands of the eight arithmetic instructions. -/
def aluModes : Nat := M.d ||| M.imm ||| M.gi ||| M.half

/-- `g_instructions` (xasm/z80/z80_parse.c 1014-1104). The rotations have handlers of their own that only warn about `A`
(822-848). -/
def Mn.entry : Mn → Instruction
  | .adc => ⟨3, 0xED, 0x08, M.a ||| M.hl, M.d ||| M.imm ||| M.gi ||| M.ss ||| M.half, .adc⟩
  | .add => ⟨3, 0x00, 0x00, M.a ||| M.ghl ||| M.sp, M.d ||| M.imm ||| M.ss ||| M.ghl ||| M.gi ||| M.half, .add⟩
  | .and => ⟨3, 0x00, 0x20, M.a, aluModes, .alu⟩
  | .bit => ⟨3, 0x00, 0x40, M.imm, M.d ||| M.gi, .bit⟩
  | .call => ⟨3, 0x00, 0xCD, M.ccZ80 ||| M.imm, M.imm ||| M.none, .call⟩
  | .ccf => ⟨3, 0x00, 0x3F, 0, 0, .implied⟩
  | .cp => ⟨3, 0x00, 0x38, M.a, aluModes, .alu⟩
  | .cpd => ⟨2, 0xED, 0xA9, 0, 0, .implied⟩
  | .cpdr => ⟨2, 0xED, 0xB9, 0, 0, .implied⟩
  | .cpi => ⟨2, 0xED, 0xA1, 0, 0, .implied⟩
  | .cpir => ⟨2, 0xED, 0xB1, 0, 0, .implied⟩
  | .cpl => ⟨3, 0x00, 0x2F, 0, 0, .implied⟩
  | .daa => ⟨3, 0x00, 0x27, 0, 0, .implied⟩
  | .dec => ⟨3, 0x00, 0x01, M.ss ||| M.d ||| M.gi ||| M.ghl, 0, .dec⟩
  | .di => ⟨3, 0x00, 0xF3, 0, 0, .implied⟩
  | .djnz => ⟨2, 0x00, 0x10, M.imm, 0, .djnz⟩
  | .ei => ⟨3, 0x00, 0xFB, 0, 0, .implied⟩
  | .ex => ⟨2, 0x00, 0x00, M.ex, M.ex, .ex⟩
  | .exx => ⟨2, 0x00, 0xD9, 0, 0, .implied⟩
  | .halt => ⟨3, 0x00, 0x76, 0, 0, .implied⟩
  | .im => ⟨2, 0xED, 0x46, M.imm, 0, .im⟩
  | .in => ⟨2, 0xED, 0x40, M.d ||| M.cInd, M.immInd ||| M.cInd ||| M.none, .in⟩
  | .inc => ⟨3, 0x00, 0x00, M.ss ||| M.d ||| M.gi ||| M.ghl ||| M.half, 0, .dec⟩
  | .ind => ⟨2, 0xED, 0xAA, 0, 0, .implied⟩
  | .indr => ⟨2, 0xED, 0xBA, 0, 0, .implied⟩
  | .ini => ⟨2, 0xED, 0xA2, 0, 0, .implied⟩
  | .inir => ⟨2, 0xED, 0xB2, 0, 0, .implied⟩
  | .jp => ⟨3, 0x00, 0xC3, M.ccZ80 ||| M.imm ||| M.hlInd ||| M.ixInd ||| M.iyInd, M.imm ||| M.none, .jp⟩
  | .jr => ⟨3, 0x00, 0x00, M.ccGb ||| M.imm, M.imm ||| M.none, .jr⟩
  | .ld => ⟨3, 0x00, 0x00,
      M.a ||| M.cInd ||| M.hl ||| M.sp ||| M.ghl ||| M.control ||| M.d ||| M.rr ||| M.ss ||| M.immInd ||| M.gi ||| M.half,
      M.a ||| M.cInd ||| M.hl ||| M.sp ||| M.ghl ||| M.control ||| M.spDisp ||| M.d ||| M.rr ||| M.immInd ||| M.imm ||| M.ss |||
        M.gi ||| M.half, .ld⟩
  | .ldd => ⟨3, 0x00, 0x32, M.none ||| M.a ||| M.hlInd, M.none ||| M.a ||| M.hlInd, .ldd⟩
  | .lddr => ⟨2, 0xED, 0xB8, 0, 0, .implied⟩
  | .ldi => ⟨3, 0x00, 0x22, M.none ||| M.a ||| M.hlInd, M.none ||| M.a ||| M.hlInd, .ldd⟩
  | .ldir => ⟨2, 0xED, 0xB0, 0, 0, .implied⟩
  | .ldh => ⟨1, 0x00, 0xE0, M.immInd ||| M.a, M.immInd ||| M.a, .ldh⟩
  | .ldhl => ⟨1, 0x00, 0xF8, M.sp, M.imm, .ldhl⟩
  | .neg => ⟨2, 0xED, 0x44, 0, 0, .implied⟩
  | .nop => ⟨3, 0x00, 0x00, 0, 0, .implied⟩
  | .or => ⟨3, 0x00, 0x30, M.a, aluModes, .alu⟩
  | .otdr => ⟨2, 0xED, 0xBB, 0, 0, .implied⟩
  | .otir => ⟨2, 0xED, 0xB3, 0, 0, .implied⟩
  | .out => ⟨2, 0xED, 0x41, M.immInd ||| M.cInd, M.d ||| M.imm, .out⟩
  | .outd => ⟨2, 0xED, 0xAB, 0, 0, .implied⟩
  | .outi => ⟨2, 0xED, 0xA3, 0, 0, .implied⟩
  | .pop => ⟨3, 0x00, 0xC1, M.ssAf ||| M.ghl, 0, .pop⟩
  | .push => ⟨3, 0x00, 0xC5, M.ssAf ||| M.ghl, 0, .pop⟩
  | .res => ⟨3, 0x00, 0x80, M.imm, M.d ||| M.gi, .bit⟩
  | .ret => ⟨3, 0x00, 0xC0, M.none ||| M.ccZ80, 0, .ret⟩
  | .reti => ⟨3, 0xED, 0x4D, 0, 0, .reti⟩
  | .retn => ⟨2, 0xED, 0x45, 0, 0, .implied⟩
  | .rl => ⟨3, 0x00, 0x10, M.d ||| M.gi, 0, .rotate⟩
  | .rla => ⟨3, 0x00, 0x17, 0, 0, .implied⟩
  | .rlc => ⟨3, 0x00, 0x00, M.d ||| M.gi, 0, .rotate⟩
  | .rlca => ⟨3, 0x00, 0x07, 0, 0, .implied⟩
  | .rld => ⟨2, 0xED, 0x6F, 0, 0, .implied⟩
  | .rr => ⟨3, 0x00, 0x18, M.d ||| M.gi, 0, .rotate⟩
  | .rra => ⟨3, 0x00, 0x1F, 0, 0, .implied⟩
  | .rrc => ⟨3, 0x00, 0x08, M.d ||| M.gi, 0, .rotate⟩
  | .rrca => ⟨3, 0x00, 0x0F, 0, 0, .implied⟩
  | .rrd => ⟨2, 0xED, 0x67, 0, 0, .implied⟩
  | .rst => ⟨3, 0x00, 0xC7, M.imm, 0, .rst⟩
  | .sbc => ⟨3, 0x00, 0x18, M.a ||| M.hl, M.d ||| M.imm ||| M.gi ||| M.ss ||| M.half, .sbc⟩
  | .scf => ⟨3, 0x00, 0x37, 0, 0, .implied⟩
  | .set => ⟨3, 0x00, 0xC0, M.imm, M.d ||| M.gi, .bit⟩
  | .sla => ⟨3, 0x00, 0x20, M.ss ||| M.d ||| M.gi, 0, .sla⟩
  | .sll => ⟨2, 0x00, 0x30, M.ss ||| M.d ||| M.gi, 0, .sll⟩
  | .sra => ⟨3, 0x00, 0x28, M.ss ||| M.d ||| M.gi, 0, .sra⟩
  | .srl => ⟨3, 0x00, 0x38, M.ss ||| M.d ||| M.gi, 0, .srl⟩
  | .stop => ⟨1, 0x00, 0x10, 0, 0, .stop⟩
  | .sub => ⟨3, 0x00, 0x10, M.a, aluModes, .alu⟩
  | .swap => ⟨1, 0x00, 0x30, M.d, 0, .rotate⟩
  | .xor => ⟨3, 0x00, 0x28, M.a, aluModes, .alu⟩

/-- An expression that may be missing: `expr_CheckRange` reports an error for a null pointer
(xasm/motor/expression.c 357-368). -/
def need (e : Option E) (f : E → Call) (before : List Call) : Calls :=
  match e with
  | some e => .ok (before ++ [f e])
  | none => .fail

/-- A register that may have no value. -/
def reg (d : Option Nat) (f : Nat → Calls) : Calls :=
  match d with
  | some d => f d
  | none => .ub

/-- `outputIXIY` (xasm/z80/z80_parse.c 305-321). -/
def outputIXIY (m : Am) (op : Nat) : List Call :=
  (if has m.mode M.half then .const (if m.hl = 0xDD then 0xDD else 0xFD)
    else .const (if has m.mode M.gix then 0xDD else 0xFD)) :: .const op ::
  (if has m.mode M.gi then
    match m.e with
    | some e => [.plain e]
    | none => [.const 0]
  else [])

/-- `outputGroupHL` (xasm/z80/z80_parse.c 323-327). -/
def outputGroupHL (m : Am) : List Call := if has m.mode M.ghl && m.hl != 0 then [.const m.hl] else []

/-- `handleAlu` (xasm/z80/z80_parse.c 329-356). -/
def handleAlu (o : Opts) (i : Instruction) (m1 m2 : Am) : Calls :=
  if has m1.mode M.a then
    if o.cpu = .z80 && has m2.mode M.gi then .ok (outputIXIY m2 (0x86 ||| i.op))
    else if has m2.mode (M.d ||| M.half) then
      reg m2.d fun d =>
        if has m2.mode M.half then .ok (outputIXIY m2 (0x80 ||| i.op ||| d)) else .ok [.const (0x80 ||| i.op ||| d)]
    else if has m2.mode M.imm then need m2.e .su8 [.const (0xC6 ||| i.op)]
    else .fail
  else .fail

/-- `handleAlu16bit` (xasm/z80/z80_parse.c 358-378); nothing if it returns `false`. -/
def handleAlu16 (pre op : Nat) (m1 m2 : Am) : Option Calls :=
  if has m1.mode M.ghl && has m2.mode (M.ss ||| M.ghl) then
    if has m2.mode M.ghl && m1.hl != m2.hl then some .fail
    else some (.ok ((if pre != 0 then [.const pre] else if m1.hl != 0 then [.const m1.hl] else []) ++
      [.const (op ||| m2.ss * 16 % 256)]))
  else none

/-- `handleAdc`, `handleSbc` (xasm/z80/z80_parse.c 380-394). -/
def handleAdcSbc (op : Nat) (o : Opts) (i : Instruction) (m1 m2 : Am) : Calls :=
  match (if o.cpu = .z80 then handleAlu16 0xED op m1 m2 else none) with
  | some r => r
  | none => handleAlu o i m1 m2

/-- `handleAdd` (xasm/z80/z80_parse.c 396-408). -/
def handleAdd (o : Opts) (i : Instruction) (m1 m2 : Am) : Calls :=
  match handleAlu16 0 0x09 m1 m2 with
  | some r => r
  | none =>
    if o.cpu = .gb && has m1.mode M.sp && has m2.mode M.imm then need m2.e .su8 [.const 0xE8]
    else handleAlu o i m1 m2

/-- `handleBit` (xasm/z80/z80_parse.c 410-434). The register that is not initialised is not used if there is an index. -/
def handleBit (o : Opts) (i : Instruction) (m1 m2 : Am) : Calls :=
  if has m2.mode M.gi then
    if o.cpu = .z80 then need m1.e (.bit (i.op ||| 6)) (outputIXIY m2 0xCB) else .fail
  else reg m2.d fun d => need m1.e (.bit (d ||| i.op)) [.const 0xCB]

/-- `handleCall` (xasm/z80/z80_parse.c 436-454). -/
def handleCall (o : Opts) (i : Instruction) (m1 m2 : Am) : Calls :=
  if has m1.mode M.imm && m2.mode == 0 then need m1.e .u16 [.const i.op]
  else if has m1.mode M.ccZ80 && has m2.mode M.imm then
    if o.cpu = .gb && !has m1.mode M.ccGb then .fail
    else need m2.e .u16 [.const (i.op &&& (0xFF ^^^ 0x19) ||| m1.f * 8 % 256)]
  else .fail

/-- `handleJp` (xasm/z80/z80_parse.c 456-472). -/
def handleJp (o : Opts) (i : Instruction) (m1 m2 : Am) : Calls :=
  if has m1.mode M.hlInd && m2.mode == 0 then .ok [.const 0xE9]
  else if o.cpu = .z80 && has m1.mode M.ixInd && m2.mode == 0 then .ok [.const 0xDD, .const 0xE9]
  else if o.cpu = .z80 && has m1.mode M.iyInd && m2.mode == 0 then .ok [.const 0xFD, .const 0xE9]
  else handleCall o i m1 m2

/-- `handleImplied` (xasm/z80/z80_parse.c 474-481). -/
def handleImplied (i : Instruction) : Calls := .ok ((if i.pre != 0 then [.const i.pre] else []) ++ [.const i.op])

/-- `handleDec` (xasm/z80/z80_parse.c 483-500). -/
def handleDec (i : Instruction) (m1 : Am) : Calls :=
  if has m1.mode (M.ss ||| M.ghl) then
    .ok (outputGroupHL m1 ++ [.const (0x03 ||| i.op * 8 % 256 ||| m1.ss * 16 % 256)])
  else if has m1.mode M.gi then .ok (outputIXIY m1 (0x04 ||| i.op ||| 6 * 8))
  else reg m1.d fun d =>
    if has m1.mode M.half then .ok (outputIXIY m1 (0x04 ||| i.op ||| d * 8)) else .ok [.const (0x04 ||| i.op ||| d * 8 % 256)]

/-- `handleJr` (xasm/z80/z80_parse.c 502-516). -/
def handleJr (m1 m2 : Am) : Calls :=
  if has m1.mode M.imm && m2.mode == 0 then need m1.e .rel [.const 0x18]
  else if has m1.mode M.ccGb && has m2.mode M.imm then need m2.e .rel [.const (0x20 ||| m1.f * 8 % 256)]
  else .fail

/-- `g_registerPairsSS`, `g_registerPairsIX`, `g_registerPairsIY` and `groupHLPairs` (xasm/z80/z80_parse.c 148-175). -/
def pairSS : Nat → Option (Rg × Rg)
  | 0 => some (.b, .c)
  | 1 => some (.d, .e)
  | 2 => some (.h, .l)
  | _ => none

def pairHL (hl : Nat) : Option (Rg × Rg) :=
  if hl = 0xDD then some (.ixh, .ixl) else if hl = 0xFD then some (.iyh, .iyl) else pairSS 2


/-- One call after another, as long as they succeed. -/
def both (x y : Calls) : Calls := x.bind fun a => y.bind fun b => .ok (a ++ b)

/-- A pair of registers; there is one for every register that the handler allows. -/
def pair (p : Option (Rg × Rg)) (f : Rg × Rg → Calls) : Calls :=
  match p with
  | some p => f p
  | none => .ub

/-- The index for the upper byte (xasm/z80/z80_parse.c 666-672, 685-690). -/
def plusOne (m : Am) : Am := {m with e := some (match m.e with | none => .one | some e => .next e)}

/-- `handleLd` (xasm/z80/z80_parse.c 518-701). It calls itself for the instructions that are made of two; the number of
calls that may be nested comes first. -/
def handleLd (o : Opts) (F : Facts) : Nat → Am → Am → Calls
  | 0, _, _ => .ub
  | n + 1, m1, m2 =>
    if has m1.mode (M.d ||| M.half) && has m2.mode (M.d ||| M.half) && (m1.d != some 6 || m2.d != some 6) then
      if has m1.mode M.half && has m2.mode M.half && m1.hl != m2.hl then .fail
      else reg m1.d fun d1 => reg m2.d fun d2 =>
        let op := 0x40 ||| d1 * 8 % 256 ||| d2
        if has m1.mode M.half then .ok (outputIXIY m1 op)
        else if has m2.mode M.half then .ok (outputIXIY m2 op)
        else .ok [.const op]
    else if has m1.mode M.a && has m2.mode M.rr then .ok [.const (0x0A ||| m2.rr * 16 % 256)]
    else if has m1.mode M.a && has m2.mode M.immInd then
      if o.cpu = .gb && F.high m2.e then need m2.e .hi [.const 0xF0]
      else need m2.e .u16 [.const (if o.cpu = .gb then 0xFA else 0x3A)]
    else if has m1.mode (M.d ||| M.half) && has m2.mode M.imm then
      reg m1.d fun d1 =>
        need m2.e .su8 ((if has m1.mode M.half then [.const (if m1.hl = 0xDD then 0xDD else 0xFD)] else []) ++
          [.const (0x06 ||| d1 * 8 % 256)])
    else if has m1.mode M.immInd && has m2.mode M.a then
      if o.cpu = .gb && F.high m1.e then need m1.e .hi [.const 0xE0]
      else need m1.e .u16 [.const (if o.cpu = .gb then 0xEA else 0x32)]
    else if has m1.mode M.sp && has m2.mode M.ghl then .ok (outputGroupHL m2 ++ [.const 0xF9])
    else if has m1.mode M.rr && has m2.mode M.a then .ok [.const (0x02 ||| m1.rr * 16 % 256)]
    else if has m1.mode (M.ss ||| M.ghl) && has m2.mode M.imm then
      need m2.e .su16 (outputGroupHL m1 ++ [.const (0x01 ||| m1.ss * 16 % 256)])
    else if o.cpu = .gb && has m1.mode M.a && has m2.mode M.cInd then .ok [.const 0xF2]
    else if o.cpu = .gb && has m1.mode M.hl && has m2.mode M.spDisp then need m2.e .plain [.const 0xF8]
    else if o.cpu = .gb && has m1.mode M.cInd && has m2.mode M.a then .ok [.const 0xE2]
    else if o.cpu = .gb && has m1.mode M.immInd && has m2.mode M.sp then need m1.e .u16 [.const 0x08]
    else if o.cpu = .z80 && has m1.mode M.immInd && has m2.mode (M.ss ||| M.ghl) then
      need m1.e .u16 (if m2.ss = 2 then outputGroupHL m2 ++ [.const 0x22]
        else [.const 0xED, .const (0x43 ||| m2.ss * 16 % 256)])
    else if o.cpu = .z80 && has m1.mode M.gi && has m2.mode M.d then
      reg m2.d fun d2 => .ok (outputIXIY m1 (0x70 ||| d2))
    else if o.cpu = .z80 && has m1.mode M.gi && has m2.mode M.imm then need m2.e .su8 (outputIXIY m1 0x36)
    else if o.cpu = .z80 && has m1.mode M.d && has m2.mode M.gi then
      reg m1.d fun d1 => .ok (outputIXIY m2 (0x46 ||| d1 * 8 % 256))
    else if o.cpu = .z80 && has m1.mode M.a && has m2.mode M.control then
      .ok [.const 0xED, .const (0x57 ||| m2.ctrl * 8 % 256)]
    else if o.cpu = .z80 && has m1.mode M.control && has m2.mode M.a then
      .ok [.const 0xED, .const (0x47 ||| m1.ctrl * 8 % 256)]
    else if o.cpu = .z80 && has m1.mode (M.ss ||| M.ghl) && has m2.mode M.immInd then
      need m2.e .u16 (if m1.ss = 2 then outputGroupHL m1 ++ [.const 0x2A]
        else [.const 0xED, .const (0x4B ||| m1.ss * 16 % 256)])
    else if has m1.mode M.ss && m1.ss ≤ 2 && has m2.mode M.ss && m2.ss ≤ 2 then
      if o.synth then
        pair (pairSS m1.ss) fun p => pair (pairSS m2.ss) fun q =>
          both (handleLd o F n p.1.am q.1.am) (handleLd o F n p.2.am q.2.am)
      else .fail
    else if has m1.mode M.ghl && has m2.mode M.ss && m2.ss ≤ 1 then
      if o.synth && o.undoc then
        pair (pairHL m1.hl) fun p => pair (pairSS m2.ss) fun q =>
          both (handleLd o F n p.1.am q.1.am) (handleLd o F n p.2.am q.2.am)
      else .fail
    else if has m1.mode M.ss && m1.ss ≤ 1 && has m2.mode M.ghl then
      if o.synth && o.undoc then
        pair (pairSS m1.ss) fun p => pair (pairHL m2.hl) fun q =>
          both (handleLd o F n p.1.am q.1.am) (handleLd o F n p.2.am q.2.am)
      else .fail
    else if has m1.mode M.ss && m1.ss ≤ 2 && has m2.mode M.gi then
      if o.synth then
        pair (pairSS m1.ss) fun p => both (handleLd o F n p.2.am m2) (handleLd o F n p.1.am (plusOne m2))
      else .fail
    else if has m1.mode M.gi && has m2.mode M.ss && m2.ss ≤ 2 then
      if o.synth then
        pair (pairSS m2.ss) fun p => both (handleLd o F n m1 p.2.am) (handleLd o F n (plusOne m1) p.1.am)
      else .fail
    else .fail

/-- `handleLdd` (xasm/z80/z80_parse.c 703-718). -/
def handleLdd (o : Opts) (i : Instruction) (m1 m2 : Am) : Calls :=
  if o.cpu = .gb && has m1.mode M.a && has m2.mode M.hlInd then .ok [.const (i.op ||| 0x08)]
  else if o.cpu = .gb && has m1.mode M.hlInd && has m2.mode M.a then .ok [.const i.op]
  else if o.cpu = .z80 && m1.mode == 0 && m2.mode == 0 then .ok [.const 0xED, .const (0xA0 ||| (i.op &&& 0x10) / 2)]
  else .fail

/-- `handleLdh` (xasm/z80/z80_parse.c 720-733). -/
def handleLdh (i : Instruction) (m1 m2 : Am) : Calls :=
  if has m1.mode M.a && has m2.mode M.immInd then need m2.e .hi [.const (i.op ||| 0x10)]
  else if has m1.mode M.immInd && has m2.mode M.a then need m1.e .hi [.const i.op]
  else .fail

/-- `handlePop` (xasm/z80/z80_parse.c 743-750). -/
def handlePop (i : Instruction) (m1 : Am) : Calls := .ok (outputGroupHL m1 ++ [.const (i.op ||| m1.ss * 16 % 256)])

/-- `handleRotate` (xasm/z80/z80_parse.c 752-762). -/
def handleRotate (i : Instruction) (m1 : Am) : Calls :=
  reg m1.d fun d => .ok ((if has m1.mode M.gi then outputIXIY m1 0xCB else [.const 0xCB]) ++ [.const (d ||| i.op)])

/-- `handle16BitShifts` (xasm/z80/z80_parse.c 764-775). -/
def handle16BitShifts (o : Opts) (i1 : Mn) (r1 : Rg) (i2 : Mn) (r2 : Rg) : Calls :=
  if o.synth then both (handleRotate i1.entry r1.am) (handleRotate i2.entry r2.am) else .fail

/-- `handleSRx` (xasm/z80/z80_parse.c 777-786). -/
def handleSRx (m : Mn) (o : Opts) (i : Instruction) (m1 : Am) : Calls :=
  if has m1.mode M.ss && m1.ss ≤ 2 then pair (pairSS m1.ss) fun p => handle16BitShifts o m p.1 .rr p.2
  else handleRotate i m1

/-- `handleSLx` (xasm/z80/z80_parse.c 788-797). -/
def handleSLx (m : Mn) (o : Opts) (i : Instruction) (m1 : Am) : Calls :=
  if has m1.mode M.ss && m1.ss ≤ 2 then pair (pairSS m1.ss) fun p => handle16BitShifts o m p.2 .rl p.1
  else handleRotate i m1

/-- `handleRet` (xasm/z80/z80_parse.c 850-860). -/
def handleRet (m1 : Am) : Calls := .ok [.const (if has m1.mode M.ccZ80 then 0xC0 ||| m1.f * 8 % 256 else 0xC9)]

/-- `handleRst` (xasm/z80/z80_parse.c 862-877). -/
def handleRst (F : Facts) (i : Instruction) : Calls :=
  match F.num with
  | some v => if u32 v = u32 v &&& 0x38 then .ok [.const (i.op ||| u32 v)] else .fail
  | none => .fail

/-- `handleEx` (xasm/z80/z80_parse.c 893-915). -/
def handleEx (o : Opts) (m1 m2 : Am) : Calls :=
  let both (a b : Nat) : Bool := has m1.mode a && has m2.mode b || has m1.mode b && has m2.mode a
  if o.cpu ≠ .z80 then .fail
  else if both M.spInd M.ghl then .ok (outputGroupHL (if has m1.mode M.ghl then m1 else m2) ++ [.const 0xE3])
  else if both M.af M.afSec then .ok [.const 0x08]
  else if both M.de M.hl then .ok [.const 0xEB]
  else .fail

/-- `handleIm` (xasm/z80/z80_parse.c 917-942). -/
def handleIm (F : Facts) : Calls :=
  match F.num with
  | some 0 => .ok [.const 0xED, .const 0x46]
  | some 1 => .ok [.const 0xED, .const 0x56]
  | some 2 => .ok [.const 0xED, .const 0x5E]
  | _ => .fail

/-- `handleInOut` (xasm/z80/z80_parse.c 944-960). -/
def handleInOut (i : Instruction) (m1 m2 : Am) : Calls :=
  if has m1.mode M.cInd then reg m2.d fun d => .ok [.const i.pre, .const (i.op ||| d * 8)]
  else if has m2.mode (M.a ||| M.none) then need m1.e .u8 [.const (0xDB ^^^ (i.op &&& 1) * 8)]
  else .fail

/-- `handleIn` (xasm/z80/z80_parse.c 962-979). Behind `IN (C)` it returns `false` without an error; the line goes on as
behind an instruction then (xasm/motor/parse.c 155-180). -/
def handleIn (o : Opts) (i : Instruction) (m1 m2 : Am) : Calls :=
  if has m1.mode M.d && m1.d == some 6 then .fail
  else if has m1.mode M.cInd then
    if m2.mode != 0 then .fail else if o.undoc then .ok [.const 0xED, .const 0x70] else .fail
  else handleInOut i m2 m1

/-- `handleOut` (xasm/z80/z80_parse.c 981-1001). -/
def handleOut (o : Opts) (F : Facts) (i : Instruction) (m1 m2 : Am) : Calls :=
  if has m2.mode M.d && m2.d == some 6 then .fail
  else if m1.mode == M.cInd && has m2.mode M.imm then
    if o.undoc then (if F.zeroB then .ok [.const 0xED, .const 0x71] else .fail) else .fail
  else handleInOut i m1 m2

/-- The handlers; also `handleLdhl` (xasm/z80/z80_parse.c 735-741), `handleSRA` … `handleSLL` (799-820), `handleStop`
(879-884), `handleDjnz` (886-891) and `handleReti` (1003-1012). -/
def Handler.run (o : Opts) (F : Facts) (i : Instruction) (m1 m2 : Am) : Handler → Calls
  | .adc => handleAdcSbc 0x4A o i m1 m2
  | .add => handleAdd o i m1 m2
  | .alu => handleAlu o i m1 m2
  | .bit => handleBit o i m1 m2
  | .call => handleCall o i m1 m2
  | .implied => handleImplied i
  | .dec => handleDec i m1
  | .djnz => need m1.e .rel [.const i.op]
  | .ex => handleEx o m1 m2
  | .im => handleIm F
  | .in => handleIn o i m1 m2
  | .jp => handleJp o i m1 m2
  | .jr => handleJr m1 m2
  | .ld => handleLd o F 2 m1 m2
  | .ldd => handleLdd o i m1 m2
  | .ldh => handleLdh i m1 m2
  | .ldhl => need m2.e .s8 [.const i.op]
  | .out => handleOut o F i m1 m2
  | .pop => handlePop i m1
  | .ret => handleRet m1
  | .reti => if o.cpu = .gb then .ok [.const 0xD9] else handleImplied i
  | .rotate => handleRotate i m1
  | .rst => handleRst F i
  | .sbc => handleAdcSbc 0x42 o i m1 m2
  | .sla => handleSLx .sla o i m1
  | .sll => if o.undoc then handleSLx .sll o i m1 else .fail
  | .sra => handleSRx .sra o i m1
  | .srl => handleSRx .srl o i m1
  | .stop => .ok [.const 0x10, .const 0x00]

/-! ### Instructions -/

/-- A mode is allowed (xasm/z80/z80_parse.c 1246-1249). -/
def allowed (mode modes : Nat) : Bool := has mode modes || mode == 0 && (modes == 0 || has modes M.none)

/-- The operands are checked, and the handler is called (xasm/z80/z80_parse.c 1246-1262). -/
def dispatch (o : Opts) (F : Facts) (i : Instruction) (m1 m2 : Am) : Calls :=
  if allowed m1.mode i.modes1 && allowed m2.mode i.modes2 then
    if has o.cpu.flag i.cpu && has o.cpu.flag m1.cpu && has o.cpu.flag m2.cpu then i.handler.run o F i m1 m2
    else .fail
  else .fail

/-- The first operand is left out (xasm/z80/z80_parse.c 1234-1240). -/
def implicitA : Am := {mode := M.a ||| M.d, d := some 7}

/-- The operands (xasm/z80/z80_parse.c 1226-1245): modes, expressions and the rest. -/
def operands (C : Ctx) (o : Opts) (i : Instruction) (toks : Toks) : Outcome (Operand × Operand × Toks) :=
  if i.modes1 = 0 then .ok (({}, none), ({}, none), toks)
  else (addrMode C o .a toks).bind fun
    | (none, rest) => .ok (({}, none), ({}, none), rest)
    | (some x, .comma :: rest) => (addrMode C o .b rest).bind fun
      | (some y, rest) => .ok (x, y, rest)
      | (none, _) => .fail
    | (some x, rest) =>
      if i.modes2 != 0 && has i.modes1 M.a && has i.modes2 x.1.mode then .ok ((implicitA, x.2), x, rest)
      else .ok (x, ({}, none), rest)

/-- An expression of the operands. `createExpression8S` of the next number (xasm/z80/z80_parse.c 666-672). -/
def E.src (a b : Option Src) : E → Option Src
  | .a => a
  | .b => b
  | .zero => some (.num 0)
  | .one => some (.num 1)
  | .next e => (e.src a b).map fun s => signed (.bin .add s (.num 1))

/-- The calls put numbers and expressions into the section (xasm/z80/z80_parse.c 251-303, 427-431). An expression that is
named by the handlers exists. -/
def Call.item (a b : Option Src) : Call → Outcome Item
  | .const v => .ok (.const 1 v)
  | .plain e => out e fun s => .expr 1 s
  | .su8 e => out e fun s => .expr 1 (checkRange s (-128) 255)
  | .u8 e => out e fun s => .expr 1 (checkRange s 0 255)
  | .s8 e => out e fun s => .expr 1 (signed s)
  | .u16 e => out e fun s => .expr 2 (checkRange s 0 65535)
  | .su16 e => out e fun s => .expr 2 (checkRange s (-32768) 65535)
  | .rel e => out e fun s => .expr 1 (signed (.pcRel (-1) s))
  | .hi e => out e fun s => .expr 1 (.bin .and (checkRange s 0xFF00 0xFFFF) (.num 0xFF))
  | .bit op e => out e fun s => .expr 1 (.bin .or (.num op) (.bin .asl (checkRange s 0 7) (.num 3)))
where
  out (e : E) (f : Src → Item) : Outcome Item :=
    match e.src a b with
    | some s => .ok (f s)
    | none => .ub

def items (a b : Option Src) : List Call → Outcome (List Item)
  | [] => .ok []
  | c :: cs => (c.item a b).bind fun i => (items a b cs).bind fun is => .ok (i :: is)

/-- `translateToken` (xasm/z80/z80_parse.c 1202-1205). -/
def translate (n : Nat) : Nat := if n = symSet then Mn.set.num else n

/-- The mnemonics in their order. -/
def Mn.all : List Mn :=
  [.adc, .add, .and, .bit, .call, .ccf, .cp, .cpd, .cpdr, .cpi, .cpir, .cpl, .daa, .dec, .di, .djnz, .ei, .ex, .exx, .halt, .im,
   .in, .inc, .ind, .indr, .ini, .inir, .jp, .jr, .ld, .ldd, .lddr, .ldi, .ldir, .ldh, .ldhl, .neg, .nop, .or, .otdr, .otir, .out,
   .outd, .outi, .pop, .push, .res, .ret, .reti, .retn, .rl, .rla, .rlc, .rlca, .rld, .rr, .rra, .rrc, .rrca, .rrd, .rst, .sbc,
   .scf, .set, .sla, .sll, .sra, .srl, .stop, .sub, .swap, .xor]

/-- `z80_ParseInstruction` (xasm/z80/z80_parse.c 1207-1273). Nothing if it is not an instruction. -/
def instr (C : Ctx) (o : Opts) : Toks → Outcome (Option (List Item × Toks))
  | .other n :: toks =>
    if Mn.adc.num ≤ translate n ∧ translate n ≤ Mn.xor.num then
      match Mn.all[translate n - Mn.adc.num]? with
      | some m => (operands C o m.entry toks).bind fun (x, y, rest) =>
        (dispatch o (facts C.known x.2 y.2) m.entry x.1 y.1).bind fun cs =>
          (items x.2 y.2 cs).bind fun is => .ok (some (is, rest))
      | none => .ub
    else .ok none
  | _ => .ok none

end Verif.Cpu.Z80
