import Verif.Cpu.Common
/-!
# Instructions of CHIP-8 and SUPER-CHIP
-/
namespace Verif.Cpu.Schip

open Verif.Parse (Tok Toks)
open Verif.Expr (Src)

/-- `ETargetToken` (xasm/schip/schip_tokens.h 22-103), in the order of the enumeration. -/
inductive T where
  | bcd | ldf | ldf10 | shl | sknp | skp | shr | wkp
  | and | or | sub | subn | xor
  | drw | ld | ldm | add | se | sne | rnd | scrd | jp | call
  | cls | exit | lo | hi | ret | scrr | scrl
  | v0 | v1 | v2 | v3 | v4 | v5 | v6 | v7 | v8 | v9 | v10 | v11 | v12 | v13 | v14 | v15
  | dt | st | i | iInd | rpl
  deriving DecidableEq

/-- The numbers of the tokens: `T_CHIP_BCD` is 6000 (xasm/schip/schip_tokens.h 24). -/
def T.num (t : T) : Nat := 6000 + t.ctorIdx

/-- `g_tokens` (xasm/schip/schip_tokens.c 24-87). -/
def words : List (String × T) :=
  [("BCD", .bcd), ("LDF", .ldf), ("LDF10", .ldf10), ("SHL", .shl), ("SKNP", .sknp), ("SKP", .skp), ("SHR", .shr), ("WKP", .wkp),
   ("AND", .and), ("OR", .or), ("SUB", .sub), ("SUBN", .subn), ("XOR", .xor), ("DRW", .drw), ("LD", .ld), ("LDM", .ldm),
   ("ADD", .add), ("SE", .se), ("SNE", .sne), ("RND", .rnd), ("SCD", .scrd), ("JP", .jp), ("CALL", .call), ("CLS", .cls),
   ("EXIT", .exit), ("LOW", .lo), ("HIGH", .hi), ("RET", .ret), ("SCR", .scrr), ("SCL", .scrl),
   ("V0", .v0), ("V1", .v1), ("V2", .v2), ("V3", .v3), ("V4", .v4), ("V5", .v5), ("V6", .v6), ("V7", .v7),
   ("V8", .v8), ("V9", .v9), ("V10", .v10), ("V11", .v11), ("V12", .v12), ("V13", .v13), ("V14", .v14), ("V15", .v15),
   ("VA", .v10), ("VB", .v11), ("VC", .v12), ("VD", .v13), ("VE", .v14), ("VF", .v15),
   ("DT", .dt), ("ST", .st), ("I", .i), ("(I)", .iInd), ("RPL", .rpl)]

/-- The token of a word: the lexer looks it up in `g_tokens`; other words are names. The words of all processors are not
in the list (xasm/motor/tokens.c 39-165); none of the words here is among them. -/
def tok (w : String) : Tok :=
  match words.find? (·.1 == w) with
  | some p => .other p.2.num
  | none => .sym w.toList

/-- `MODE_REG` and so on (xasm/schip/schip_parse_instr.c 38-45). -/
abbrev mREG : Nat := 0x01
abbrev mIMM : Nat := 0x02
abbrev mI : Nat := 0x04
abbrev mDT : Nat := 0x08
abbrev mST : Nat := 0x10
abbrev mIIND : Nat := 0x20
abbrev mIMMV0 : Nat := 0x40
abbrev mRPL : Nat := 0x80

/-- `CPUF_CHIP8`, `CPUF_SCHIP`, `CPUF_ALL` (xasm/schip/schip_options.h 25-28). -/
abbrev cpuCHIP8 : Nat := 1
abbrev cpuSCHIP : Nat := 2
abbrev cpuALL : Nat := 3

/-- `SAddressMode` (xasm/schip/schip_parse_instr.c 49-53). -/
structure AddressMode where
  mode : Nat
  reg : Nat
  expr : Option Src
  deriving DecidableEq

/-- `getRegister` (xasm/schip/schip_parse_instr.c 63-73). -/
def getRegister : Toks → Nat × Toks
  | .other n :: rest => if T.v0.num ≤ n ∧ n ≤ T.v15.num then (n - T.v0.num, rest) else (0xFF, .other n :: rest)
  | toks => (0xFF, toks)

/-- `parseAddressMode` (xasm/schip/schip_parse_instr.c 75-114) and `schip_ParseExpressionU12` (xasm/schip/schip_parse.c
31-41). The address mode is zero before; the flag tells whether there is an operand. -/
def addressMode (C : Ctx) (toks : Toks) : Outcome (Bool × AddressMode × Toks) :=
  match getRegister toks with
  | (r, rest) =>
    if r ≠ 0xFF then
      match rest with
      | .op .add :: rest' =>
        if r = 0 then (expr C 1 rest').bind fun
          | (some s, rest'') => .ok (true, ⟨mIMMV0, r, some (checkRange s 0 4095)⟩, rest'')
          | (none, rest'') => .ok (false, ⟨mREG, r, none⟩, rest'')
        else .ok (false, ⟨mREG, r, none⟩, rest)
      | _ => .ok (true, ⟨mREG, r, none⟩, rest)
    else
      let other := (expr C 1 toks).bind fun
        | (some s, rest) => .ok (true, ⟨mIMM, r, some s⟩, rest)
        | (none, rest) => .ok (false, ⟨0, r, none⟩, rest)
      match toks with
      | .other n :: rest =>
        if n = T.i.num then .ok (true, ⟨mI, r, none⟩, rest)
        else if n = T.rpl.num then .ok (true, ⟨mRPL, r, none⟩, rest)
        else if n = T.dt.num then .ok (true, ⟨mDT, r, none⟩, rest)
        else if n = T.st.num then .ok (true, ⟨mST, r, none⟩, rest)
        else if n = T.iInd.num then .ok (true, ⟨mIIND, r, none⟩, rest)
        else other
      | _ => other

/-- `expr_CheckRange`; a null pointer is a fatal error (xasm/motor/expression.c 73-88, 118-127, 357-368). -/
def check (e : Option Src) (low high : Int) : Outcome Src :=
  match e with
  | some s => .ok (checkRange s low high)
  | none => .fail

/-- `handleModeReg` (xasm/schip/schip_parse_instr.c 116-120). -/
def modeReg (m1 : AddressMode) (opcode : Nat) : Outcome (List Item) := .ok [.const 2 (opcode ||| (m1.reg <<< 8))]

/-- `handleModeRegReg` (xasm/schip/schip_parse_instr.c 122-126). -/
def modeRegReg (m1 m2 : AddressMode) (opcode : Nat) : Outcome (List Item) :=
  .ok [.const 2 (opcode ||| (m1.reg <<< 8) ||| (m2.reg <<< 4))]

/-- `handleModeImm12` (xasm/schip/schip_parse_instr.c 128-132). -/
def modeImm12 (m1 : AddressMode) (opcode : Nat) : Outcome (List Item) :=
  (check m1.expr 0 4095).bind fun e => .ok [.expr 2 (.bin .or (.num opcode) e)]

/-- `handleDRW` (xasm/schip/schip_parse_instr.c 134-139). -/
def drw (m1 m2 m3 : AddressMode) (opcode : Nat) : Outcome (List Item) :=
  (check m3.expr 0 16).bind fun e =>
    .ok [.expr 2 (.bin .or (.num (opcode ||| (m1.reg <<< 8) ||| (m2.reg <<< 4) : Nat)) (.bin .and e (.num 15)))]

/-- `handleSCRD`, `requireSCHIP` (xasm/schip/schip_parse_instr.c 55-61, 141-148). The expression of the third operand is used. -/
def scrd (cpu : Nat) (m3 : AddressMode) (opcode : Nat) : Outcome (List Item) :=
  if cpu &&& cpuSCHIP = 0 then .fail
  else (check m3.expr 0 15).bind fun e => .ok [.expr 2 (.bin .or (.num opcode) e)]

/-- `handleModeRegImm` (xasm/schip/schip_parse_instr.c 150-155). -/
def modeRegImm (m1 m2 : AddressMode) (opcode : Nat) : Outcome (List Item) :=
  (check m2.expr (-128) 255).bind fun e =>
    .ok [.expr 2 (.bin .or (.num (opcode ||| (m1.reg <<< 8) : Nat)) (.bin .and e (.num 255)))]

/-- `handleLD` (xasm/schip/schip_parse_instr.c 157-178). -/
def ld (m1 m2 : AddressMode) : Outcome (List Item) :=
  if m1.mode = mREG ∧ m2.mode = mIMM then modeRegImm m1 m2 0x6000
  else if m1.mode = mREG ∧ m2.mode = mREG then modeRegReg m1 m2 0x8000
  else if m1.mode = mI ∧ m2.mode = mIMM then modeImm12 m2 0xA000
  else if m1.mode = mREG ∧ m2.mode = mDT then modeReg m1 0xF007
  else if m1.mode = mDT ∧ m2.mode = mREG then modeReg m2 0xF015
  else if m1.mode = mST ∧ m2.mode = mREG then modeReg m2 0xF018
  else .fail

/-- `handleLDM` (xasm/schip/schip_parse_instr.c 180-195). -/
def ldm (m1 m2 : AddressMode) : Outcome (List Item) :=
  if m1.mode = mREG ∧ m2.mode = mIIND then modeReg m1 0xF065
  else if m1.mode = mIIND ∧ m2.mode = mREG then modeReg m2 0xF055
  else if m1.mode = mREG ∧ m2.mode = mRPL then modeReg m1 0xF085
  else if m1.mode = mRPL ∧ m2.mode = mREG then modeReg m2 0xF075
  else .fail

/-- `handleADD` (xasm/schip/schip_parse_instr.c 197-209). -/
def add (m1 m2 : AddressMode) : Outcome (List Item) :=
  if m1.mode = mREG ∧ m2.mode = mREG then modeRegReg m1 m2 0x8004
  else if m1.mode = mREG ∧ m2.mode = mIMM then modeRegImm m1 m2 0x7000
  else if m1.mode = mI ∧ m2.mode = mREG then modeReg m2 0xF01E
  else .fail

/-- `handleSkips` (xasm/schip/schip_parse_instr.c 211-222). -/
def skips (m1 m2 : AddressMode) (opcode : Nat) : Outcome (List Item) :=
  if m1.mode = mREG ∧ m2.mode = mIMM then modeRegImm m1 m2 opcode
  else if m1.mode = mREG ∧ m2.mode = mREG then modeRegReg m1 m2 (if opcode = 0x3000 then 0x5000 else 0x9000)
  else .fail

/-- `handleJP` (xasm/schip/schip_parse_instr.c 224-233). -/
def jp (m1 : AddressMode) : Outcome (List Item) :=
  if m1.mode = mIMM then modeImm12 m1 0x1000
  else if m1.mode = mIMMV0 then modeImm12 m1 0xB000
  else .fail

/-- The handlers. -/
inductive Handler where
  | reg | regReg | drw | ld | ldm | add | skips | regImm | scrd | jp | imm12 | none

/-- A call of a handler; `handleModeNone` is in xasm/schip/schip_parse_instr.c 235-239. -/
def Handler.run (h : Handler) (cpu : Nat) (m1 m2 m3 : AddressMode) (opcode : Nat) : Outcome (List Item) :=
  match h with
  | .reg => modeReg m1 opcode
  | .regReg => modeRegReg m1 m2 opcode
  | .drw => Schip.drw m1 m2 m3 opcode
  | .ld => Schip.ld m1 m2
  | .ldm => Schip.ldm m1 m2
  | .add => Schip.add m1 m2
  | .skips => Schip.skips m1 m2 opcode
  | .regImm => modeRegImm m1 m2 opcode
  | .scrd => Schip.scrd cpu m3 opcode
  | .jp => Schip.jp m1
  | .imm12 => modeImm12 m1 opcode
  | .none => .ok [.const 2 opcode]

/-- `SInstruction` (xasm/schip/schip_parse_instr.c 243-250). -/
structure Entry where
  cpu : Nat
  mode1 : Nat
  mode2 : Nat
  mode3 : Nat
  opcode : Nat
  handler : Handler

/-- `instructionHandlers` (xasm/schip/schip_parse_instr.c 252-294). -/
def table : List Entry :=
  [⟨cpuALL, mREG, 0, 0, 0xF033, .reg⟩, ⟨cpuALL, mREG, 0, 0, 0xF029, .reg⟩, ⟨cpuSCHIP, mREG, 0, 0, 0xF030, .reg⟩,
   ⟨cpuALL, mREG, 0, 0, 0x800E, .reg⟩, ⟨cpuALL, mREG, 0, 0, 0xE0A1, .reg⟩, ⟨cpuALL, mREG, 0, 0, 0xE09E, .reg⟩,
   ⟨cpuALL, mREG, 0, 0, 0x8006, .reg⟩, ⟨cpuALL, mREG, 0, 0, 0xF00A, .reg⟩,
   ⟨cpuALL, mREG, mREG, 0, 0x8002, .regReg⟩, ⟨cpuALL, mREG, mREG, 0, 0x8001, .regReg⟩, ⟨cpuALL, mREG, mREG, 0, 0x8005, .regReg⟩,
   ⟨cpuALL, mREG, mREG, 0, 0x8007, .regReg⟩, ⟨cpuALL, mREG, mREG, 0, 0x8003, .regReg⟩,
   ⟨cpuALL, mREG, mREG, mIMM, 0xD000, .drw⟩,
   ⟨cpuALL, mREG ||| mI ||| mDT ||| mST, mREG ||| mIMM ||| mDT, 0, 0, .ld⟩,
   ⟨cpuALL, mREG ||| mIIND ||| mRPL, mREG ||| mIIND ||| mRPL, 0, 0, .ldm⟩,
   ⟨cpuALL, mREG ||| mI, mREG ||| mIMM, 0, 0, .add⟩,
   ⟨cpuALL, mREG, mREG ||| mIMM, 0, 0x3000, .skips⟩, ⟨cpuALL, mREG, mREG ||| mIMM, 0, 0x4000, .skips⟩,
   ⟨cpuALL, mREG, mIMM, 0, 0xC000, .regImm⟩,
   ⟨cpuSCHIP, mIMM, 0, 0, 0x00C0, .scrd⟩,
   ⟨cpuALL, mIMM ||| mIMMV0, 0, 0, 0x1000, .jp⟩,
   ⟨cpuALL, mIMM, 0, 0, 0x2000, .imm12⟩,
   ⟨cpuALL, 0, 0, 0, 0x00E0, .none⟩, ⟨cpuSCHIP, 0, 0, 0, 0x00FD, .none⟩, ⟨cpuSCHIP, 0, 0, 0, 0x00FE, .none⟩,
   ⟨cpuSCHIP, 0, 0, 0, 0x00FF, .none⟩, ⟨cpuALL, 0, 0, 0, 0x00EE, .none⟩, ⟨cpuSCHIP, 0, 0, 0, 0x00FB, .none⟩,
   ⟨cpuSCHIP, 0, 0, 0, 0x00FC, .none⟩]

/-- `{0, 0, NULL}` (xasm/schip/schip_parse_instr.c 306-308). -/
def noMode : AddressMode := ⟨0, 0, none⟩

/-- The operands of an instruction (xasm/schip/schip_parse_instr.c 306-323). If an operand is missing, the handler is called
nevertheless. -/
def operands (C : Ctx) (e : Entry) (toks : Toks) : Outcome (AddressMode × AddressMode × AddressMode × Toks) :=
  if e.mode1 = 0 then .ok (noMode, noMode, noMode, toks) else
  (addressMode C toks).bind fun (good, m1, toks) =>
  if !good then .ok (m1, noMode, noMode, toks) else
  if e.mode1 &&& m1.mode = 0 then .fail else
  if e.mode2 = 0 then .ok (m1, noMode, noMode, toks) else
  (comma toks).bind fun toks =>
  (addressMode C toks).bind fun (good, m2, toks) =>
  if !good then .ok (m1, m2, noMode, toks) else
  if e.mode2 &&& m2.mode = 0 then .fail else
  if e.mode3 = 0 then .ok (m1, m2, noMode, toks) else
  (comma toks).bind fun toks =>
  (addressMode C toks).bind fun (good, m3, toks) =>
  if !good then .ok (m1, m2, m3, toks) else
  if e.mode3 &&& m3.mode = 0 then .fail else
  .ok (m1, m2, m3, toks)

/-- `schip_ParseIntegerInstruction` (xasm/schip/schip_parse_instr.c 296-329); nothing if there is no instruction. `cpu` is
the option `-mc`. -/
def instr (cpu : Nat) (C : Ctx) : Toks → Outcome (Option (List Item × Toks))
  | .other n :: rest =>
    if T.bcd.num ≤ n ∧ n ≤ T.scrl.num then
      match table[n - T.bcd.num]? with
      | none => .ub
      | some e =>
        if e.cpu &&& cpu = 0 then .fail
        else (operands C e rest).bind fun (m1, m2, m3, rest) =>
          (e.handler.run cpu m1 m2 m3 e.opcode).bind fun items => .ok (some (items, rest))
    else .ok none
  | _ => .ok none

end Verif.Cpu.Schip
