import Verif.Cpu.Common
/-!
# The parser of the instructions of the 6809

xasm/6809. The modes are sets of bits as in the program. An error that is reported is a failure; this includes a mode that is
refused (`MERROR_ILLEGAL_ADDRMODE`) and an expression that is missing when it is put out (`assertExpression`,
xasm/motor/expression.c 118-137). Reserved words as names in expressions are not modelled (Verif/Parse/Model.lean).
-/
namespace Verif.Cpu.M6809

open Verif.Parse (Tok Toks)
open Verif.Expr (Src BinOp u32)

/-- The instructions, in the order of the tokens (xasm/6809/m6809_tokens.h 25-174). -/
inductive Mn where
  | abx | adca | adcb | adda | addb | addd | anda | andb | andcc | asl | asla | aslb | asr | asra | asrb | bra | brn
  | bhi | bls | bhs | blo | bne | beq | bvc | bvs | bpl | bmi | bge | blt | bgt | ble | bsr | lbra | lbrn | lbhi | lbls
  | lbhs | lblo | lbne | lbeq | lbvc | lbvs | lbpl | lbmi | lbge | lblt | lbgt | lble | lbsr | bita | bitb | clr | clra
  | clrb | cmpa | cmpb | cmpd | cmpx | cmpy | cmpu | cmps | com | coma | comb | cwai | daa | dec | deca | decb | eora
  | eorb | exg | inc | inca | incb | jmp | jsr | lda | ldb | ldd | ldx | ldy | ldu | lds | leax | leay | leau | leas
  | lsr | mul | neg | nega | negb | ora | orb | orcc | pshs | pshu | puls | pulu | rol | rola | rolb | ror | rora
  | rorb | rti | rts | sbca | sbcb | sex | sta | stb | std | stx | sty | stu | sts | suba | subb | subd | swi | swi2
  | swi3 | sync | tfr | tst | tsta | tstb | nop
  deriving DecidableEq

/-- The registers, behind the instructions; `X`, `Y`, `U`, `S` have to be in this order (m6809_tokens.h 178-189). -/
inductive R where
  | a | b | d | pcr | ccr | dpr | x | y | u | s
  deriving DecidableEq

def Mn.num (m : Mn) : Nat := 6000 + m.ctorIdx
def R.num (r : R) : Nat := 6130 + r.ctorIdx
/-- `T_6809_SETDP` (m6809_tokens.h 192). -/
def setdpNum : Nat := 6140

/-- The words (xasm/6809/m6809_tokens.c 25-195). -/
def words : List (String × Nat) := [
  ("ABX", Mn.abx.num), ("ADCA", Mn.adca.num), ("ADCB", Mn.adcb.num), ("ADDA", Mn.adda.num), ("ADDB", Mn.addb.num),
  ("ADDD", Mn.addd.num), ("ANDA", Mn.anda.num), ("ANDB", Mn.andb.num), ("ANDCC", Mn.andcc.num), ("ASL", Mn.asl.num),
  ("LSL", Mn.asl.num), ("ASLA", Mn.asla.num), ("LSLA", Mn.asla.num), ("ASLB", Mn.aslb.num), ("LSLB", Mn.aslb.num),
  ("ASR", Mn.asr.num), ("ASRA", Mn.asra.num), ("ASRB", Mn.asrb.num), ("NOP", Mn.nop.num), ("BRA", Mn.bra.num),
  ("BRN", Mn.brn.num), ("BHI", Mn.bhi.num), ("BLS", Mn.bls.num), ("BCC", Mn.bhs.num), ("BHS", Mn.bhs.num),
  ("BCS", Mn.blo.num), ("BLO", Mn.blo.num), ("BNE", Mn.bne.num), ("BEQ", Mn.beq.num), ("BVC", Mn.bvc.num),
  ("BVS", Mn.bvs.num), ("BPL", Mn.bpl.num), ("BMI", Mn.bmi.num), ("BGE", Mn.bge.num), ("BLT", Mn.blt.num),
  ("BGT", Mn.bgt.num), ("BLE", Mn.ble.num), ("BSR", Mn.bsr.num), ("LBRA", Mn.lbra.num), ("LBRN", Mn.lbrn.num),
  ("LBHI", Mn.lbhi.num), ("LBLS", Mn.lbls.num), ("LBCC", Mn.lbhs.num), ("LBHS", Mn.lbhs.num), ("LBCS", Mn.lblo.num),
  ("LBLO", Mn.lblo.num), ("LBNE", Mn.lbne.num), ("LBEQ", Mn.lbeq.num), ("LBVC", Mn.lbvc.num), ("LBVS", Mn.lbvs.num),
  ("LBPL", Mn.lbpl.num), ("LBMI", Mn.lbmi.num), ("LBGE", Mn.lbge.num), ("LBLT", Mn.lblt.num), ("LBGT", Mn.lbgt.num),
  ("LBLE", Mn.lble.num), ("LBSR", Mn.lbsr.num), ("BITA", Mn.bita.num), ("BITB", Mn.bitb.num), ("CLR", Mn.clr.num),
  ("CLRA", Mn.clra.num), ("CLRB", Mn.clrb.num), ("CMPA", Mn.cmpa.num), ("CMPB", Mn.cmpb.num), ("CMPD", Mn.cmpd.num),
  ("CMPX", Mn.cmpx.num), ("CMPY", Mn.cmpy.num), ("CMPU", Mn.cmpu.num), ("CMPS", Mn.cmps.num), ("COM", Mn.com.num),
  ("COMA", Mn.coma.num), ("COMB", Mn.comb.num), ("CWAI", Mn.cwai.num), ("DAA", Mn.daa.num), ("DEC", Mn.dec.num),
  ("DECA", Mn.deca.num), ("DECB", Mn.decb.num), ("EORA", Mn.eora.num), ("EORB", Mn.eorb.num), ("EXG", Mn.exg.num),
  ("INC", Mn.inc.num), ("INCA", Mn.inca.num), ("INCB", Mn.incb.num), ("JMP", Mn.jmp.num), ("JSR", Mn.jsr.num),
  ("LDA", Mn.lda.num), ("LDB", Mn.ldb.num), ("LDD", Mn.ldd.num), ("LDX", Mn.ldx.num), ("LDY", Mn.ldy.num),
  ("LDU", Mn.ldu.num), ("LDS", Mn.lds.num), ("LEAX", Mn.leax.num), ("LEAY", Mn.leay.num), ("LEAU", Mn.leau.num),
  ("LEAS", Mn.leas.num), ("LSR", Mn.lsr.num), ("MUL", Mn.mul.num), ("NEG", Mn.neg.num), ("NEGA", Mn.nega.num),
  ("NEGB", Mn.negb.num), ("ORA", Mn.ora.num), ("ORB", Mn.orb.num), ("ORCC", Mn.orcc.num), ("PSHS", Mn.pshs.num),
  ("PSHU", Mn.pshu.num), ("PULS", Mn.puls.num), ("PULU", Mn.pulu.num), ("ROL", Mn.rol.num), ("ROLA", Mn.rola.num),
  ("ROLB", Mn.rolb.num), ("ROR", Mn.ror.num), ("RORA", Mn.rora.num), ("RORB", Mn.rorb.num), ("RTI", Mn.rti.num),
  ("RTS", Mn.rts.num), ("SBCA", Mn.sbca.num), ("SBCB", Mn.sbcb.num), ("SEX", Mn.sex.num), ("STA", Mn.sta.num),
  ("STB", Mn.stb.num), ("STD", Mn.std.num), ("STX", Mn.stx.num), ("STY", Mn.sty.num), ("STU", Mn.stu.num),
  ("STS", Mn.sts.num), ("SUBA", Mn.suba.num), ("SUBB", Mn.subb.num), ("SUBD", Mn.subd.num), ("SWI", Mn.swi.num),
  ("SWI2", Mn.swi2.num), ("SWI3", Mn.swi3.num), ("SYNC", Mn.sync.num), ("TFR", Mn.tfr.num), ("TST", Mn.tst.num),
  ("TSTA", Mn.tsta.num), ("TSTB", Mn.tstb.num), ("A", R.a.num), ("B", R.b.num), ("D", R.d.num), ("PCR", R.pcr.num),
  ("CCR", R.ccr.num), ("DPR", R.dpr.num), ("X", R.x.num), ("Y", R.y.num), ("U", R.u.num), ("S", R.s.num),
  ("SETDP", setdpNum)]

/-! ### Modes -/

/-! xasm/6809/m6809_parse.h 33-54 -/
namespace M
def none : Nat := 0x1
def imm : Nat := 0x2
def address : Nat := 0x4
def extended : Nat := 0x8
def direct : Nat := 0x10
def r5 : Nat := 0x20
def inc1 : Nat := 0x40
def inc2 : Nat := 0x80
def dec1 : Nat := 0x100
def dec2 : Nat := 0x200
def r : Nat := 0x400
def ra : Nat := 0x800
def rb : Nat := 0x1000
def r8 : Nat := 0x2000
def r16 : Nat := 0x4000
def rd : Nat := 0x8000
def pc8 : Nat := 0x10000
def pc16 : Nat := 0x20000
def extInd : Nat := 0x40000
def ind : Nat := 0x80000
def listS : Nat := 0x100000
def listU : Nat := 0x200000

/-- `MODE_ALL_INDEXED` (m6809_parse.h 56-59). -/
def indexed : Nat := r5 ||| inc1 ||| inc2 ||| dec1 ||| dec2 ||| r ||| ra ||| rb ||| r8 ||| r16 ||| rd ||| pc8 ||| pc16 ||| extInd ||| ind
/-- `MODE_ALLOWED_INDIRECT` (m6809_parse.h 60-63). -/
def indirect : Nat := address ||| extended ||| inc2 ||| dec2 ||| r ||| ra ||| rb ||| r8 ||| r16 ||| rd ||| pc8 ||| pc16

/-! xasm/6809/m6809_parse_instr.c 34-36 -/
def p : Nat := imm ||| address ||| direct ||| extended ||| indexed
def q : Nat := address ||| direct ||| extended ||| indexed
def t : Nat := indexed
end M

/-- A test of bits, as in `allowedModes & MODE_IMMEDIATE`. -/
def has (modes bits : Nat) : Bool := modes &&& bits != 0

/-- `SAddressingMode` (m6809_parse.h 65-70) without `offset_kind`, which is not used. The post byte is nothing as long as it is
not set. -/
structure Am where
  mode : Nat
  post : Option Nat
  e : Option Src
  deriving DecidableEq

/-- What the parser of modes returns; `false` is followed by an error (m6809_parse_instr.c 414-416) and is a failure. -/
abbrev Read := Outcome (Am × Toks)

/-- `parseExpressionMode`, behind the `#` (xasm/6809/m6809_parse_addrmode.c 29-38). -/
def exprMode (C : Ctx) (mode : Nat) (toks : Toks) : Read :=
  (expr C 2 toks).bind fun
    | (some s, rest) => .ok (⟨mode, none, some s⟩, rest)
    | (none, _) => .fail

/-- `X`, `Y`, `U` or `S`, as bits of the post byte: `r >= 0 && r <= 3` and `r <<= 5` (m6809_parse_addrmode.c 45-49, 141-151, 239-241). -/
def indexReg (n : Nat) : Option Nat := if R.x.num ≤ n ∧ n ≤ R.s.num then some ((n - R.x.num) <<< 5) else none

/-- `parseRegisterIndexed`, behind the accumulator (m6809_parse_addrmode.c 40-56). -/
def accMode (mode post : Nat) : Toks → Read
  | .comma :: .other n :: rest =>
    match indexReg n with
    | some r => .ok (⟨mode, some (post ||| r), none⟩, rest)
    | none => .fail
  | _ => .fail

/-- `parseRegisterListBit` (m6809_parse_addrmode.c 58-86). The own stack is an error. -/
def listBit (A : Nat) (n : Nat) : Outcome Nat :=
  if n = R.ccr.num then .ok 0x01
  else if n = R.a.num then .ok 0x02
  else if n = R.b.num then .ok 0x04
  else if n = R.dpr.num then .ok 0x08
  else if n = R.x.num then .ok 0x10
  else if n = R.y.num then .ok 0x20
  else if n = R.pcr.num then .ok 0x80
  else if n = (if has A M.listS then R.s.num else R.u.num) then .ok 0x40
  else if n = (if has A M.listS then R.u.num else R.s.num) then .fail
  else .ok 0

/-- The loop over the registers of a list (m6809_parse_addrmode.c 118-125). -/
def regList (A : Nat) (bits : Nat) : Toks → Outcome (Nat × Toks)
  | .other n :: rest => (listBit A n).bind fun b =>
    if b = 0 then .ok (bits, .other n :: rest)
    else match rest with
      | .comma :: rest => regList A (bits ||| b) rest
      | rest => .ok (bits ||| b, rest)
  | toks => .ok (bits, toks)

/-- The loops that count signs (m6809_parse_addrmode.c 135-139, 145-149). -/
def signs (o : BinOp) : Toks → Nat × Toks
  | .op p :: rest => if p = o then ((signs o rest).1 + 1, (signs o rest).2) else (0, .op p :: rest)
  | toks => (0, toks)

/-- `,R` with signs, behind the comma (m6809_parse_addrmode.c 135-176). -/
def autoMode (A : Nat) (toks : Toks) : Read :=
  match (signs .sub toks).2 with
  | .other n :: rest =>
    match indexReg n with
    | none => .fail
    | some r =>
      let minus := (signs .sub toks).1
      let plus := (signs .add rest).1
      let rest := (signs .add rest).2
      if minus = 0 ∧ plus = 1 ∧ has A M.inc1 then .ok (⟨M.inc1, some (0x80 ||| r), none⟩, rest)
      else if minus = 0 ∧ plus = 2 ∧ has A M.inc2 then .ok (⟨M.inc2, some (0x81 ||| r), none⟩, rest)
      else if minus = 1 ∧ plus = 0 ∧ has A M.dec1 then .ok (⟨M.dec1, some (0x82 ||| r), none⟩, rest)
      else if minus = 2 ∧ plus = 0 ∧ has A M.dec2 then .ok (⟨M.dec2, some (0x83 ||| r), none⟩, rest)
      else if minus = 0 ∧ plus = 0 ∧ has A M.r then .ok (⟨M.r, some (0x84 ||| r), none⟩, rest)
      else .fail
  | _ => .fail

/-- `>` and then `<` before an expression: extended or 16 bits, direct or 8 bits (m6809_parse_addrmode.c 191-201). -/
def «prefix» : Toks → Bool × Bool × Toks
  | .op .gt :: .op .lt :: rest => (true, true, rest)
  | .op .gt :: rest => (true, false, rest)
  | .op .lt :: rest => (false, true, rest)
  | toks => (false, false, toks)

/-- The size of an offset that is known (m6809_parse_addrmode.c 229-237). -/
inductive Width where
  | w5 | w8 | w16
  deriving DecidableEq

def width (v : Int) : Option Width :=
  if -16 ≤ v ∧ v ≤ 15 then some .w5
  else if -128 ≤ v ∧ v ≤ 127 then some .w8
  else if -32768 ≤ v ∧ v ≤ 32767 then some .w16
  else none

/-- An offset before a register (m6809_parse_addrmode.c 225-266). The register is part of the post byte only for 5 bits. -/
def offsetMode (C : Ctx) (A : Nat) (ext dir : Bool) (e : Option Src) (n : Nat) : Option Am :=
  let known := if !dir && !ext then (e.bind C.known).bind width else none
  let force5 := known == some .w5
  let force8 := dir || known == some .w8
  let force16 := ext || known == some .w16
  match indexReg n with
  | none => none
  | some r =>
    if has A M.r5 && force5 then
      if e.bind C.known = some 0 then some ⟨M.r, some (r ||| 0x84), e⟩
      else (e.bind C.known).map fun v => ⟨M.r5, some (r ||| (u32 v &&& 0x1F)), e⟩
    else if has A M.r8 && (force8 || force5) then some ⟨M.r8, some 0x88, e⟩
    else if has A M.r16 && (force16 || force8 || force5) then some ⟨M.r16, some 0x89, e⟩
    else none

/-- What is left when there is no offset: an address or nothing (m6809_parse_addrmode.c 271-288). `start` are the tokens to which
`lex_Goto` returns. The mode without operand is not initialised in the program; the handlers for which it is allowed
do not use it. -/
def plainMode (A : Nat) (ext dir : Bool) (e : Option Src) (rest start : Toks) : Read :=
  if has A M.extended && ext then .ok (⟨M.extended, none, e⟩, rest)
  else if has A M.direct && dir then .ok (⟨M.direct, none, e⟩, rest)
  else if has A M.address && e.isSome then .ok (⟨M.address, none, e⟩, rest)
  else if has A M.none then .ok (⟨M.none, none, none⟩, start)
  else .fail

/-- An expression and what follows it (m6809_parse_addrmode.c 203-288). -/
def memMode (C : Ctx) (A : Nat) (start : Toks) : Read :=
  let ext := («prefix» start).1
  let dir := («prefix» start).2.1
  (expr C 2 («prefix» start).2.2).bind fun (e, rest) =>
    if has A (M.r5 ||| M.r8 ||| M.r16 ||| M.pc8 ||| M.pc16) then
      match rest with
      | .comma :: .other n :: rest =>
        if n = R.pcr.num then
          if has A M.pc8 && dir then .ok (⟨M.pc8, some 0x8C, e⟩, rest)
          else if has A M.pc16 then .ok (⟨M.pc16, some 0x8D, e⟩, rest)
          else .fail
        else match offsetMode C A ext dir e n with
          | some am => .ok (am, rest)
          | none => plainMode A ext dir e (.other n :: rest) start
      | .comma :: rest => plainMode A ext dir e rest start
      | rest => plainMode A ext dir e rest start
    else plainMode A ext dir e rest start

/-- `m6809_ParseAddressingMode` behind the tests for `#` and `[` (m6809_parse_addrmode.c 113-288). -/
def core (C : Ctx) (A : Nat) (toks : Toks) : Read :=
  if has A (M.listS ||| M.listU) then
    (regList A 0 toks).bind fun (bits, rest) => .ok (⟨A &&& (M.listS ||| M.listU), some bits, none⟩, rest)
  else match toks with
    | .comma :: rest =>
      if has A (M.inc1 ||| M.inc2 ||| M.dec1 ||| M.dec2 ||| M.r) then autoMode A rest else memMode C A toks
    | .other n :: rest =>
      if has A M.ra && n == R.a.num then accMode M.ra 0x86 rest
      else if has A M.rb && n == R.b.num then accMode M.rb 0x85 rest
      else if has A M.rd && n == R.d.num then accMode M.rd 0x8B rest
      else memMode C A toks
    | _ => memMode C A toks

/-- What `[` and `]` do with a mode (m6809_parse_addrmode.c 100-106). -/
def bracketed (am : Am) : Outcome Am :=
  if has am.mode (M.address ||| M.extended) then .ok ⟨M.extInd ||| M.ind, some 0x9F, am.e⟩
  else match am.post with
    | some b => .ok ⟨am.mode ||| M.ind, some (b ||| 0x10), am.e⟩
    | none => .ub

/-- `m6809_ParseAddressingMode` (m6809_parse_addrmode.c 88-289). The modes that are allowed in brackets do not contain those with
`#` or `[`. -/
def addrMode (C : Ctx) (A : Nat) (toks : Toks) : Read :=
  if has A M.imm ∧ toks.head? = some (.other 35) then exprMode C M.imm toks.tail
  else if has A M.ind ∧ toks.head? = some (.other 91) then
    (core C M.indirect toks.tail).bind fun
      | (am, .other 93 :: rest) => (bracketed am).bind fun am => .ok (am, rest)
      | _ => .fail
  else core C A toks

/-! ### Handlers -/

/-- The calls of the handlers: a byte, the expression in 8 or 16 bits, its low byte, the distance in 8 or 16 bits, the post byte. -/
inductive Call where
  | const (b : Nat)
  | e8
  | e16
  | low8
  | rel8
  | rel16
  | post
  deriving DecidableEq

/-- What is put into the section. `outputExpr8`, `outputExpr16` (m6809_parse_instr.c 44-52); the others in 54-242. -/
def Call.item (am : Am) : Call → Outcome Item
  | .const b => .ok (.const 1 b)
  | .e8 => out fun s => .expr 1 (checkRange s (-128) 255)
  | .e16 => out fun s => .expr 2 (checkRange s (-32768) 65535)
  | .low8 => out fun s => .expr 1 (checkRange (.bin .and s (.num 0xFF)) (-128) 255)
  | .rel8 => out fun s => .expr 1 (checkRange (.pcRel (-1) s) (-128) 255)
  | .rel16 => out fun s => .expr 2 (checkRange (.pcRel (-2) s) (-32768) 65535)
  | .post => match am.post with
    | some b => .ok (.const 1 b)
    | none => .ub
where
  out (f : Src → Item) : Outcome Item := match am.e with
    | some s => .ok (f s)
    | none => .fail

def emit (am : Am) : List Call → Outcome (List Item)
  | [] => .ok []
  | c :: cs => (c.item am).bind fun i => (emit am cs).bind fun is => .ok (i :: is)

/-- What a handler returns and what it calls. -/
abbrev Calls := Bool × List Call

/-- `emitIndexed` (m6809_parse_instr.c 54-71). -/
def emitIndexed (mode : Nat) : Calls :=
  if has mode M.r8 then (true, [.post, .e8])
  else if has mode (M.r16 ||| M.extInd) then (true, [.post, .e16])
  else if has mode M.pc8 then (true, [.post, .rel8])
  else if has mode M.pc16 then (true, [.post, .rel16])
  else (false, [.post])

/-- `emitOpcode` (m6809_parse_instr.c 73-88): it returns `false` for all indexed modes. -/
def emitOpcode (base mode direct extended indexed : Nat) : Calls :=
  if mode = M.direct then (true, [.const (base ||| direct), .low8])
  else if mode = M.extended then (true, [.const (base ||| extended), .e16])
  else if has mode M.indexed then (false, .const (base ||| indexed) :: (emitIndexed mode).2)
  else (false, [])

/-- `handleOpcodeP8` (m6809_parse_instr.c 95-104). -/
def handleP8 (base mode : Nat) : Calls :=
  if mode = M.imm then (true, [.const base, .e8]) else emitOpcode base mode 0x10 0x30 0x20

/-- `handleOpcodeP16` (m6809_parse_instr.c 112-121). -/
def handleP16 (base mode : Nat) : Calls :=
  if mode = M.imm then (true, [.const base, .e16]) else emitOpcode base mode 0x10 0x30 0x20

/-- The handlers (m6809_parse_instr.c 90-242). -/
inductive Handler where
  | implied | implied1 | implied2 | p8 | p16 | p16a | p16b | q | t16 | imm8 | bcc | lbcc | lbra | stack | regToReg
  deriving DecidableEq

/-- The handlers that do not read registers. -/
def Handler.run (base mode : Nat) : Handler → Calls
  | .implied => (true, [.const base])
  | .implied1 => (true, [.const 0x10, .const base])
  | .implied2 => (true, [.const 0x11, .const base])
  | .p8 => handleP8 base mode
  | .p16 => handleP16 base mode
  | .p16a => ((handleP16 base mode).1, .const 0x10 :: (handleP16 base mode).2)
  | .p16b => ((handleP16 base mode).1, .const 0x11 :: (handleP16 base mode).2)
  | .q => emitOpcode base mode 0x00 0x70 0x60
  | .t16 => ((emitIndexed mode).1, .const base :: (emitIndexed mode).2)
  | .imm8 => (true, [.const base, .e8])
  | .bcc => (true, [.const base, .rel8])
  | .lbcc => (true, [.const 0x10, .const base, .rel16])
  | .lbra => (true, [.const base, .rel16])
  | .stack => (true, [.const base, .post])
  | .regToReg => (true, [])

/-- `parseExgRegister` (m6809_parse_instr.c 184-209). -/
def exgReg (n : Nat) : Option Nat :=
  if n = R.d.num then some 0x0
  else if n = R.x.num then some 0x1
  else if n = R.y.num then some 0x2
  else if n = R.u.num then some 0x3
  else if n = R.s.num then some 0x4
  else if n = R.pcr.num then some 0x5
  else if n = R.a.num then some 0x8
  else if n = R.b.num then some 0x9
  else if n = R.ccr.num then some 0xA
  else if n = R.dpr.num then some 0xB
  else none

/-- `handleRegToReg` (m6809_parse_instr.c 211-235). -/
def regToReg (base : Nat) : Toks → Outcome (List Item × Toks)
  | .other n :: .comma :: .other k :: rest =>
    match exgReg n, exgReg k with
    | some a, some b =>
      if a &&& 0x8 = b &&& 0x8 then .ok ([.const 1 base, .const 1 ((a <<< 4) ||| b)], rest) else .fail
    | _, _ => .fail
  | _ => .fail

/-- `SParser` (m6809_parse_instr.c 38-42). -/
structure Entry where
  base : Nat
  allowed : Nat
  handler : Handler
  deriving DecidableEq

/-- `g_instructionHandlers` (m6809_parse_instr.c 244-394). -/
def table : List Entry := [
  ⟨0x3A, M.none, .implied⟩, ⟨0x89, M.p, .p8⟩, ⟨0xC9, M.p, .p8⟩, ⟨0x8B, M.p, .p8⟩, ⟨0xCB, M.p, .p8⟩, ⟨0xC3, M.p, .p16⟩,
  ⟨0x84, M.p, .p8⟩, ⟨0xC4, M.p, .p8⟩, ⟨0x1C, M.imm, .imm8⟩, ⟨0x08, M.q, .q⟩, ⟨0x48, M.none, .implied⟩,
  ⟨0x58, M.none, .implied⟩, ⟨0x07, M.q, .q⟩, ⟨0x47, M.none, .implied⟩, ⟨0x57, M.none, .implied⟩,
  ⟨0x20, M.address, .bcc⟩, ⟨0x21, M.address, .bcc⟩, ⟨0x22, M.address, .bcc⟩, ⟨0x23, M.address, .bcc⟩,
  ⟨0x24, M.address, .bcc⟩, ⟨0x25, M.address, .bcc⟩, ⟨0x26, M.address, .bcc⟩, ⟨0x27, M.address, .bcc⟩,
  ⟨0x28, M.address, .bcc⟩, ⟨0x29, M.address, .bcc⟩, ⟨0x2A, M.address, .bcc⟩, ⟨0x2B, M.address, .bcc⟩,
  ⟨0x2C, M.address, .bcc⟩, ⟨0x2D, M.address, .bcc⟩, ⟨0x2E, M.address, .bcc⟩, ⟨0x2F, M.address, .bcc⟩,
  ⟨0x8D, M.address, .bcc⟩, ⟨0x16, M.address, .lbra⟩, ⟨0x21, M.address, .lbcc⟩, ⟨0x22, M.address, .lbcc⟩,
  ⟨0x23, M.address, .lbcc⟩, ⟨0x24, M.address, .lbcc⟩, ⟨0x25, M.address, .lbcc⟩, ⟨0x26, M.address, .lbcc⟩,
  ⟨0x27, M.address, .lbcc⟩, ⟨0x28, M.address, .lbcc⟩, ⟨0x29, M.address, .lbcc⟩, ⟨0x2A, M.address, .lbcc⟩,
  ⟨0x2B, M.address, .lbcc⟩, ⟨0x2C, M.address, .lbcc⟩, ⟨0x2D, M.address, .lbcc⟩, ⟨0x2E, M.address, .lbcc⟩,
  ⟨0x2F, M.address, .lbcc⟩, ⟨0x17, M.address, .lbra⟩, ⟨0x85, M.p, .p8⟩, ⟨0xC5, M.p, .p8⟩, ⟨0x0F, M.q, .q⟩,
  ⟨0x4F, M.none, .implied⟩, ⟨0x5F, M.none, .implied⟩, ⟨0x81, M.p, .p8⟩, ⟨0xC1, M.p, .p8⟩, ⟨0x83, M.p, .p16a⟩,
  ⟨0x8C, M.p, .p16⟩, ⟨0x8C, M.p, .p16a⟩, ⟨0x83, M.p, .p16b⟩, ⟨0x8C, M.p, .p16b⟩, ⟨0x03, M.q, .q⟩,
  ⟨0x43, M.none, .implied⟩, ⟨0x53, M.none, .implied⟩, ⟨0x3C, M.imm, .imm8⟩, ⟨0x19, M.none, .implied⟩, ⟨0x0A, M.q, .q⟩,
  ⟨0x4A, M.none, .implied⟩, ⟨0x5A, M.none, .implied⟩, ⟨0x88, M.p, .p8⟩, ⟨0xC8, M.p, .p8⟩, ⟨0x1E, M.none, .regToReg⟩,
  ⟨0x0C, M.q, .q⟩, ⟨0x4C, M.none, .implied⟩, ⟨0x5C, M.none, .implied⟩, ⟨0x0E, M.q, .q⟩, ⟨0x8D, M.q, .p16⟩,
  ⟨0x86, M.p, .p8⟩, ⟨0xC6, M.p, .p8⟩, ⟨0xCC, M.p, .p16⟩, ⟨0x8E, M.p, .p16⟩, ⟨0x8E, M.p, .p16a⟩, ⟨0xCE, M.p, .p16⟩,
  ⟨0xCE, M.p, .p16a⟩, ⟨0x30, M.t, .t16⟩, ⟨0x31, M.t, .t16⟩, ⟨0x33, M.t, .t16⟩, ⟨0x32, M.t, .t16⟩, ⟨0x04, M.q, .q⟩,
  ⟨0x3D, M.none, .implied⟩, ⟨0x00, M.q, .q⟩, ⟨0x40, M.none, .implied⟩, ⟨0x50, M.none, .implied⟩, ⟨0x8A, M.p, .p8⟩,
  ⟨0xCA, M.p, .p8⟩, ⟨0x1A, M.imm, .imm8⟩, ⟨0x34, (M.imm ||| M.listU), .stack⟩, ⟨0x36, (M.imm ||| M.listS), .stack⟩,
  ⟨0x35, (M.imm ||| M.listU), .stack⟩, ⟨0x37, (M.imm ||| M.listS), .stack⟩, ⟨0x09, M.p, .q⟩, ⟨0x49, M.none, .implied⟩,
  ⟨0x59, M.none, .implied⟩, ⟨0x06, M.p, .q⟩, ⟨0x46, M.none, .implied⟩, ⟨0x56, M.none, .implied⟩,
  ⟨0x3B, M.none, .implied⟩, ⟨0x39, M.none, .implied⟩, ⟨0x82, M.p, .p8⟩, ⟨0xC2, M.p, .p8⟩, ⟨0x1D, M.none, .implied⟩,
  ⟨0x87, M.q, .p8⟩, ⟨0xC7, M.q, .p8⟩, ⟨0xCD, M.q, .p16⟩, ⟨0x8F, M.q, .p16⟩, ⟨0x8F, M.q, .p16a⟩, ⟨0xCF, M.q, .p16⟩,
  ⟨0xCF, M.q, .p16a⟩, ⟨0x80, M.p, .p8⟩, ⟨0xC0, M.p, .p8⟩, ⟨0x83, M.p, .p16⟩, ⟨0x3F, M.none, .implied⟩,
  ⟨0x3F, M.none, .implied1⟩, ⟨0x3F, M.none, .implied2⟩, ⟨0x13, M.none, .implied⟩, ⟨0x1F, M.none, .regToReg⟩,
  ⟨0x0D, M.q, .q⟩, ⟨0x4D, M.none, .implied⟩, ⟨0x5D, M.none, .implied⟩, ⟨0x12, M.none, .implied⟩]

/-- What the parser of instructions returns, what it puts out, the base of the direct page and the tokens that are left. -/
structure Res where
  done : Bool
  items : List Item
  dp : Option Nat
  rest : Toks
  deriving DecidableEq

/-- `MODE_ADDRESS` becomes direct or extended (m6809_parse_instr.c 405-412). `dp` is `g_dp_base`, nothing if it is unknown. -/
def resolve (C : Ctx) (dp : Option Nat) (am : Am) : Am :=
  if am.mode = M.address then
    match dp, am.e.bind C.known with
    | some d, some v => if u32 v &&& 0xFF00 = d then {am with mode := M.direct} else {am with mode := M.extended}
    | _, _ => {am with mode := M.extended}
  else am

/-- The part of `m6809_ParseIntegerInstruction` behind the token (m6809_parse_instr.c 403-413). -/
def handle (C : Ctx) (dp : Option Nat) (p : Entry) (toks : Toks) : Outcome Res :=
  (addrMode C p.allowed toks).bind fun (am, rest) =>
    let am := resolve C dp am
    if p.handler = .regToReg then (regToReg p.base rest).bind fun (is, rest) => .ok ⟨true, is, dp, rest⟩
    else (emit am (p.handler.run p.base am.mode).2).bind fun is => .ok ⟨(p.handler.run p.base am.mode).1, is, dp, rest⟩

/-- `m6809_ParseIntegerInstruction` (m6809_parse_instr.c 396-420). -/
def integer (C : Ctx) (dp : Option Nat) : Toks → Outcome Res
  | .other n :: rest =>
    if Mn.abx.num ≤ n ∧ n ≤ Mn.nop.num then
      match table[n - Mn.abx.num]? with
      | some p => handle C dp p rest
      | none => .ub
    else .ok ⟨false, [], dp, .other n :: rest⟩
  | toks => .ok ⟨false, [], dp, toks⟩

/-- `handleSETDP`, `m6809_ParseDirective` (xasm/6809/m6809_parse_directive.c 32-69), behind the items that are there already. -/
def directive (C : Ctx) (r : Res) : Outcome Res :=
  match r.rest with
  | .other n :: rest =>
    if n = setdpNum then
      (expr C 2 rest).bind fun
        | (none, rest) => .ok ⟨true, r.items, none, rest⟩
        | (some s, rest) =>
          match C.known s with
          | some v => if 0 ≤ v ∧ v ≤ 0xFF then .ok ⟨true, r.items, some (v.toNat <<< 8), rest⟩ else .fail
          | none => .fail
    else .ok r
  | _ => .ok r

/-- `m6809_ParseInstruction` (xasm/6809/m6809_parse.c 36-44). -/
def instr (C : Ctx) (dp : Option Nat) (toks : Toks) : Outcome Res :=
  (integer C dp toks).bind fun r => if r.done then .ok r else directive C r

end Verif.Cpu.M6809
