import Verif.Cpu.Common
/-!
# Instructions of the MIPS32
-/
namespace Verif.Cpu.Mips

open Verif.Parse (Tok Toks)
open Verif.Expr (Src toI32)

/-- `ETargetToken` (xasm/mips/mips_tokens.h 22-294), in the order of the enumeration. -/
inductive T where
  | add | addu | and | movn | movz | mul | nor | or | rotrv | sllv | slt | sltu | srav | srlv | sub | subu | xor | addi
  | addiu | andi | ori | slti | sltiu | xori | beq | beql | bne | bnel | bgez | bgezal | bgezall | bgezl | bgtz | bgtzl
  | blez | blezl | bltz | bltzal | bltzall | bltzl | b | bal | rotr | sll | sra | srl | lb | lbu | lh | lhu | ll | lw
  | lwc1 | lwc2 | lwl | lwr | sb | sc | sh | sw | swc1 | swc2 | swl | swr | div | divu | madd | maddu | msub | msubu
  | mult | mulu | rdpgpr | seb | seh | wrpgpr | wsbh | teq | tge | tgeu | tlt | tltu | tne | teqi | tgei | tgeiu | tlti
  | tltiu | tnei | clo | clz | deret | ehb | eret | nop | ssnop | tlbp | tlbr | tlbwi | tlbwr | di | ei | mfhi | mflo | jr
  | jrhb | mthi | mtlo | j | jal | lui | jalr | jalrhb | ext | ins | «break» | cache | cfc1 | cfc2 | cop2 | ctc1 | ctc2
  | mfc0 | mfc1 | mfc2 | mtc0 | mtc1 | mtc2 | pref | prefx | rdhwr | sdbbp | sync | synci | syscall | wait | r0 | r1 | r2
  | r3 | r4 | r5 | r6 | r7 | r8 | r9 | r10 | r11 | r12 | r13 | r14 | r15 | r16 | r17 | r18 | r19 | r20 | r21 | r22 | r23
  | r24 | r25 | r26 | r27 | r28 | r29 | r30 | r31 | mips32r1 | mips32r2
  deriving DecidableEq

/-- The numbers of the tokens: `T_MIPS_ADD` is 6000 (xasm/mips/mips_tokens.h 23). -/
def T.num (t : T) : Nat := 6000 + t.ctorIdx

/-- `g_tokens` (xasm/mips/mips_tokens.c 25-227). -/
def words : List (String × T) :=
  [("ADD", .add), ("ADDU", .addu), ("AND", .and), ("MOVN", .movn), ("MOVZ", .movz), ("MUL", .mul), ("NOR", .nor),
   ("OR", .or), ("ROTRV", .rotrv), ("SLLV", .sllv), ("SLT", .slt), ("SLTU", .sltu), ("SRAV", .srav), ("SRLV", .srlv),
   ("SUB", .sub), ("SUBU", .subu), ("XOR", .xor), ("ADDI", .addi), ("ADDIU", .addiu), ("ANDI", .andi), ("ORI", .ori),
   ("SLTI", .slti), ("SLTIU", .sltiu), ("XORI", .xori), ("BEQ", .beq), ("BEQL", .beql), ("BNE", .bne), ("BNEL", .bnel),
   ("BGEZ", .bgez), ("BGEZAL", .bgezal), ("BGEZALL", .bgezall), ("BGEZL", .bgezl), ("BGTZ", .bgtz), ("BGTZL", .bgtzl),
   ("BLEZ", .blez), ("BLEZL", .blezl), ("BLTZ", .bltz), ("BLTZAL", .bltzal), ("BLTZALL", .bltzall), ("BLTZL", .bltzl),
   ("B", .b), ("BAL", .bal), ("ROTR", .rotr), ("SLL", .sll), ("SRA", .sra), ("SRL", .srl), ("LB", .lb), ("LBU", .lbu),
   ("LH", .lh), ("LHU", .lhu), ("LL", .ll), ("LW", .lw), ("LWC1", .lwc1), ("LWC2", .lwc2), ("LWL", .lwl), ("LWR", .lwr),
   ("SB", .sb), ("SC", .sc), ("SH", .sh), ("SW", .sw), ("SWC1", .swc1), ("SWC2", .swc2), ("SWL", .swl), ("SWR", .swr),
   ("DIV", .div), ("DIVU", .divu), ("MADD", .madd), ("MADDU", .maddu), ("MSUB", .msub), ("MSUBU", .msubu), ("MULT", .mult),
   ("MULU", .mulu), ("RDPGPR", .rdpgpr), ("SEB", .seb), ("SEH", .seh), ("WRPGPR", .wrpgpr), ("WSBH", .wsbh), ("TEQ", .teq),
   ("TGE", .tge), ("TGEU", .tgeu), ("TLT", .tlt), ("TLTU", .tltu), ("TNE", .tne), ("TEQI", .teqi), ("TGEI", .tgei),
   ("TGEIU", .tgeiu), ("TLTI", .tlti), ("TLTIU", .tltiu), ("TNEI", .tnei), ("CLO", .clo), ("CLZ", .clz), ("DERET", .deret),
   ("EHB", .ehb), ("ERET", .eret), ("NOP", .nop), ("SSNOP", .ssnop), ("TLBP", .tlbp), ("TLBR", .tlbr), ("TLBWI", .tlbwi),
   ("TLBWR", .tlbwr), ("DI", .di), ("EI", .ei), ("MFHI", .mfhi), ("MFLO", .mflo), ("MTHI", .mthi), ("MTLO", .mtlo),
   ("J", .j), ("JAL", .jal), ("JALR", .jalr), ("JALR.HB", .jalrhb), ("JR", .jr), ("JR.HB", .jrhb), ("LUI", .lui),
   ("R0", .r0), ("R1", .r1), ("R2", .r2), ("R3", .r3), ("R4", .r4), ("R5", .r5), ("R6", .r6), ("R7", .r7), ("R8", .r8),
   ("R9", .r9), ("R10", .r10), ("R11", .r11), ("R12", .r12), ("R13", .r13), ("R14", .r14), ("R15", .r15), ("R16", .r16),
   ("R17", .r17), ("R18", .r18), ("R19", .r19), ("R20", .r20), ("R21", .r21), ("R22", .r22), ("R23", .r23), ("R24", .r24),
   ("R25", .r25), ("R26", .r26), ("R27", .r27), ("R28", .r28), ("R29", .r29), ("R30", .r30), ("R31", .r31), ("ZERO", .r0),
   ("AT", .r1), ("V0", .r2), ("V1", .r3), ("A0", .r4), ("A1", .r5), ("A2", .r6), ("A3", .r7), ("T0", .r8), ("T1", .r9),
   ("T2", .r10), ("T3", .r11), ("T4", .r12), ("T5", .r13), ("T6", .r14), ("T7", .r15), ("S0", .r16), ("S1", .r17),
   ("S2", .r18), ("S3", .r19), ("S4", .r20), ("S5", .r21), ("S6", .r22), ("S7", .r23), ("T8", .r24), ("T9", .r25),
   ("K0", .r26), ("K1", .r27), ("GP", .r28), ("SP", .r29), ("FP", .r30), ("RA", .r31), ("MIPS32R1", .mips32r1),
   ("MIPS32", .mips32r2), ("MIPS32R2", .mips32r2)]

/-- The token of a word. None of the words of all processors is among them (xasm/motor/tokens.c 39-165). -/
def tok (w : String) : Tok :=
  match words.find? (·.1 == w) with
  | some p => .other p.2.num
  | none => .sym w.toList

/-- What a handler leaves: the items and the rest of the tokens; nothing if it returns `false` without a message. -/
abbrev Result := Outcome (Option (List Item × Toks))

/-- `expectRegister`, `getRegister` (xasm/mips/mips_parse_instr.c 33-53). The reported error is a failure. -/
def reg : Toks → Outcome (Nat × Toks)
  | .other n :: rest => if T.r0.num ≤ n ∧ n ≤ T.r31.num then .ok (n - T.r0.num, rest) else .fail
  | _ => .fail

/-- A register and a comma. -/
def regComma (toks : Toks) : Outcome (Nat × Toks) :=
  (reg toks).bind fun (r, rest) => (comma rest).bind fun rest => .ok (r, rest)

/-- `parse_ExpressionS16` (xasm/motor/parse_expression.c 677-688). -/
def s16 (C : Ctx) (toks : Toks) : Outcome (Option Src × Toks) :=
  (expr C 2 toks).bind fun (s, rest) => .ok (s.map fun s => .bin .and (checkRange s (-32768) 32767) (.num 0xFFFF), rest)

/-- `parse_ExpressionU16` (xasm/motor/parse_expression.c 690-701). -/
def u16 (C : Ctx) (toks : Toks) : Outcome (Option Src × Toks) :=
  (expr C 2 toks).bind fun (s, rest) => .ok (s.map fun s => checkRange s 0 65535, rest)

/-- `expr_Or` with a constant, `sect_OutputExpr32`. -/
def or32 (s : Src) (c : Nat) : List Item := [.expr 4 (.bin .or s (.num (toI32 c)))]

/-- The opcode in a table. The handlers look whether the token is in their range; it always is. -/
def opcode {α : Type} (first : T) (table : List α) (n : Nat) (f : α → Result) : Result :=
  if first.num ≤ n then
    match table[n - first.num]? with
    | some a => f a
    | none => .ok none
  else .ok none

/-- `s_InstructionsRRR` (xasm/mips/mips_parse_instr.c 55-73). -/
def tableRRR : List Nat :=
  [0x00000020, 0x00000021, 0x00000024, 0x0000000B, 0x0000000A, 0x70000002, 0x00000027, 0x00000025, 0x00000046, 0x00000004,
   0x0000002A, 0x0000002B, 0x00000007, 0x00000006, 0x00000022, 0x00000023, 0x00000026]

/-- `handleIntegerInstructionRRR` (xasm/mips/mips_parse_instr.c 75-105). -/
def rrr (n : Nat) (toks : Toks) : Result :=
  opcode .add tableRRR n fun op =>
  (regComma toks).bind fun (rd, toks) => (regComma toks).bind fun (rs, toks) => (reg toks).bind fun (rt, toks) =>
  .ok (some ([.const 4 (op ||| (rs <<< 21) ||| (rt <<< 16) ||| (rd <<< 11))], toks))

/-- `g_RRIInstructions` (xasm/mips/mips_parse_instr.c 107-120). -/
def tableRRI : List (Nat × Bool) :=
  [(0x20000000, true), (0x24000000, true), (0x30000000, false), (0x34000000, false), (0x28000000, true),
   (0x2C000000, false), (0x38000000, false)]

/-- `handleIntegerInstructionRRI` (xasm/mips/mips_parse_instr.c 122-158). Without an expression nothing is put out, and there
is no message. -/
def rri (C : Ctx) (n : Nat) (toks : Toks) : Result :=
  opcode .addi tableRRI n fun (op, signed) =>
  (regComma toks).bind fun (rt, toks) => (regComma toks).bind fun (rs, toks) =>
  (if signed then s16 C toks else u16 C toks).bind fun
    | (some s, toks) => .ok (some (or32 s ((rs <<< 21) ||| (rt <<< 16) ||| op), toks))
    | (none, toks) => .ok (some ([], toks))

/-- `g_branchInstructions` (xasm/mips/mips_parse_instr.c 160-190). -/
def tableBranch : List (Nat × Nat) :=
  [(2, 0x10000000), (2, 0x50000000), (2, 0x14000000), (2, 0x54000000), (1, 0x04010000), (1, 0x04110000), (1, 0x04130000),
   (1, 0x04030000), (1, 0x1C000000), (1, 0x5C000000), (1, 0x18000000), (1, 0x58000000), (1, 0x04000000), (1, 0x04100000),
   (1, 0x04120000), (1, 0x02020000), (0, 0x10000000), (0, 0x04110000)]

/-- The expression of a branch (xasm/mips/mips_parse_instr.c 223-227). -/
def distance (s : Src) : Src := .bin .and (checkRange (.bin .asr (.pcRel (-4) s) (.num 2)) (-32768) 32767) (.num 0xFFFF)

/-- `handleBranch` (xasm/mips/mips_parse_instr.c 192-240). -/
def branch (C : Ctx) (n : Nat) (toks : Toks) : Result :=
  opcode .beq tableBranch n fun (count, op) =>
  (if 1 ≤ count then regComma toks else .ok (0, toks)).bind fun (rs, toks) =>
  (if 2 ≤ count then regComma toks else .ok (0, toks)).bind fun (rt, toks) =>
  (expr C 4 toks).bind fun
    | (some s, toks) => .ok (some (or32 (distance s) (op ||| (rs <<< 21) ||| (rt <<< 16)), toks))
    | (none, _) => .fail

/-- `g_shiftInstructions` (xasm/mips/mips_parse_instr.c 242-247). -/
def tableShift : List Nat := [0x00200002, 0x00000000, 0x00000003, 0x00000002]

/-- `handleShift` (xasm/mips/mips_parse_instr.c 249-288). -/
def shift (C : Ctx) (n : Nat) (toks : Toks) : Result :=
  opcode .rotr tableShift n fun op =>
  (regComma toks).bind fun (rd, toks) => (regComma toks).bind fun (rt, toks) =>
  (expr C 1 toks).bind fun
    | (some s, toks) => .ok (some (or32 (.bin .asl (checkRange s 0 31) (.num 6)) (op ||| (rt <<< 16) ||| (rd <<< 11)), toks))
    | (none, _) => .fail

/-- `g_loadStoreInstructions` (xasm/mips/mips_parse_instr.c 290-309). -/
def tableLoadStore : List Nat :=
  [0x80000000, 0x90000000, 0x84000000, 0x94000000, 0xC0000000, 0x8C000000, 0xC4000000, 0xC8000000, 0x88000000, 0x98000000,
   0xA0000000, 0xE0000000, 0xA4000000, 0xAC000000, 0xE4000000, 0xE8000000, 0xA8000000, 0xB8000000]

/-- `parse_ExpectChar` with parentheses (xasm/motor/parse.c 122-131). -/
def expect (t : Tok) : Toks → Outcome Toks
  | x :: rest => if x = t then .ok rest else .fail
  | [] => .fail

/-- `handleLoadStore` (xasm/mips/mips_parse_instr.c 311-344). -/
def loadStore (C : Ctx) (n : Nat) (toks : Toks) : Result :=
  opcode .lb tableLoadStore n fun op =>
  (regComma toks).bind fun (rt, toks) => (s16 C toks).bind fun
    | (some s, toks) => (expect .lp toks).bind fun toks => (reg toks).bind fun (base, toks) => (expect .rp toks).bind fun toks =>
      .ok (some (or32 s (op ||| (base <<< 21) ||| (rt <<< 16)), toks))
    | (none, _) => .fail

/-- `g_RSRTInstructions` (xasm/mips/mips_parse_instr.c 346-355). -/
def tableRSRT : List Nat :=
  [0x0000001A, 0x0000001B, 0x70000000, 0x70000001, 0x70000004, 0x70000005, 0x00000018, 0x00000019]

/-- `handleIntegerInstructionRSRT` (xasm/mips/mips_parse_instr.c 357-379). -/
def rsrt (n : Nat) (toks : Toks) : Result :=
  opcode .div tableRSRT n fun op =>
  (regComma toks).bind fun (rs, toks) => (reg toks).bind fun (rt, toks) =>
  .ok (some ([.const 4 (op ||| (rs <<< 21) ||| (rt <<< 16))], toks))

/-- `g_RDRTInstructions` (xasm/mips/mips_parse_instr.c 381-387). -/
def tableRDRT : List Nat := [0x41400000, 0x7C000420, 0x7C000620, 0x41C00000, 0x7C0000A0]

/-- `handleIntegerInstructionRDRT` (xasm/mips/mips_parse_instr.c 389-411). -/
def rdrt (n : Nat) (toks : Toks) : Result :=
  opcode .rdpgpr tableRDRT n fun op =>
  (regComma toks).bind fun (rd, toks) => (reg toks).bind fun (rt, toks) =>
  .ok (some ([.const 4 (op ||| (rd <<< 11) ||| (rt <<< 16))], toks))

/-- `g_RSRTCodeInstructions` (xasm/mips/mips_parse_instr.c 413-420). -/
def tableCode : List Nat := [0x00000034, 0x00000030, 0x00000031, 0x00000032, 0x00000033, 0x00000036]

/-- `handleIntegerInstructionRSRTCode` (xasm/mips/mips_parse_instr.c 422-465). -/
def rsrtCode (C : Ctx) (n : Nat) (toks : Toks) : Result :=
  opcode .teq tableCode n fun op =>
  (regComma toks).bind fun (rs, toks) => (reg toks).bind fun (rt, toks) =>
  match toks with
  | .comma :: toks => (expr C 2 toks).bind fun
    | (some s, toks) => .ok (some (or32 (.bin .asl (checkRange s 0 1023) (.num 6)) (op ||| (rs <<< 21) ||| (rt <<< 16)), toks))
    | (none, _) => .fail
  | toks => .ok (some ([.const 4 (op ||| (rs <<< 21) ||| (rt <<< 16))], toks))

/-- `g_RIInstructions` (xasm/mips/mips_parse_instr.c 467-474). -/
def tableRI : List (Nat × Bool) :=
  [(0x040C0000, true), (0x04080000, true), (0x04090000, false), (0x040A0000, true), (0x040B0000, false), (0x040E0000, true)]

/-- `handleIntegerInstructionRI` (xasm/mips/mips_parse_instr.c 476-499). -/
def ri (C : Ctx) (n : Nat) (toks : Toks) : Result :=
  opcode .teqi tableRI n fun (op, signed) =>
  (regComma toks).bind fun (rs, toks) =>
  (if signed then s16 C toks else u16 C toks).bind fun
    | (some s, toks) => .ok (some (or32 s (op ||| (rs <<< 21)), toks))
    | (none, _) => .fail

/-- `g_RDRSRTCopyInstructions` (xasm/mips/mips_parse_instr.c 501-504). -/
def tableCopy : List Nat := [0x70000021, 0x70000020]

/-- `handleIntegerInstructionRDRSRTCopy` (xasm/mips/mips_parse_instr.c 506-529). -/
def rdrsCopy (n : Nat) (toks : Toks) : Result :=
  opcode .clo tableCopy n fun op =>
  (regComma toks).bind fun (rd, toks) => (reg toks).bind fun (rs, toks) =>
  .ok (some ([.const 4 (op ||| (rd <<< 11) ||| (rs <<< 21) ||| (rd <<< 16))], toks))

/-- `g_noParameterInstructions` (xasm/mips/mips_parse_instr.c 531-541). -/
def tableNone : List Nat :=
  [0x4200001F, 0x000000C0, 0x42000018, 0x00000000, 0x00000040, 0x42000008, 0x42000001, 0x42000002, 0x42000006]

/-- `handleIntegerNoParameter` (xasm/mips/mips_parse_instr.c 543-555). -/
def noParameter (n : Nat) (toks : Toks) : Result :=
  opcode .deret tableNone n fun op => .ok (some ([.const 4 op], toks))

/-- `g_RTInstructions` (xasm/mips/mips_parse_instr.c 557-560). -/
def tableRT : List Nat := [0x41606000, 0x41606020]

/-- `handleIntegerRT` (xasm/mips/mips_parse_instr.c 562-579): the register may be missing. -/
def regRT (n : Nat) (toks : Toks) : Result :=
  opcode .di tableRT n fun op =>
  match reg toks with
  | .ok (rt, toks) => .ok (some ([.const 4 (op ||| (rt <<< 16))], toks))
  | _ => .ok (some ([.const 4 (op ||| (0 <<< 16))], toks))

/-- `g_RDInstructions` (xasm/mips/mips_parse_instr.c 581-584). -/
def tableRD : List Nat := [0x00000010, 0x00000012]

/-- `handleIntegerRD` (xasm/mips/mips_parse_instr.c 586-602). -/
def regRD (n : Nat) (toks : Toks) : Result :=
  opcode .mfhi tableRD n fun op =>
  (reg toks).bind fun (rd, toks) => .ok (some ([.const 4 (op ||| (rd <<< 11))], toks))

/-- `g_RSInstructions` (xasm/mips/mips_parse_instr.c 604-609). -/
def tableRS : List Nat := [0x00000008, 0x00000408, 0x00000011, 0x00000013]

/-- `handleIntegerRS` (xasm/mips/mips_parse_instr.c 611-627). -/
def regRS (n : Nat) (toks : Toks) : Result :=
  opcode .jr tableRS n fun op =>
  (reg toks).bind fun (rs, toks) => .ok (some ([.const 4 (op ||| (rs <<< 21))], toks))

/-- `g_jumpAbsInstructions` (xasm/mips/mips_parse_instr.c 629-632). -/
def tableJump : List Nat := [0x08000000, 0x0C000000]

/-- `handleIntegerJumpAbs` (xasm/mips/mips_parse_instr.c 634-652). -/
def jump (C : Ctx) (n : Nat) (toks : Toks) : Result :=
  opcode .j tableJump n fun op =>
  (expr C 4 toks).bind fun
    | (some s, toks) => .ok (some (or32 (.bin .and (.bin .asr s (.num 2)) (.num 0x03FFFFFF)) op, toks))
    | (none, _) => .fail

/-- `handleLUI` (xasm/mips/mips_parse_instr.c 654-673). Without an expression nothing is put out, and there is no message. -/
def lui (C : Ctx) (toks : Toks) : Result :=
  (regComma toks).bind fun (rd, toks) => (u16 C toks).bind fun
    | (some s, toks) => .ok (some (or32 s ((15 <<< 26) ||| (rd <<< 16)), toks))
    | (none, toks) => .ok (some ([], toks))

inductive Handler where
  | rrr | rri | branch | shift | loadStore | rsrt | rdrt | rsrtCode | ri | rdrsCopy | none | rt | rd | rs | jump | lui
  deriving DecidableEq

def Handler.run (C : Ctx) (h : Handler) (n : Nat) (toks : Toks) : Result :=
  match h with
  | .rrr => Mips.rrr n toks
  | .rri => Mips.rri C n toks
  | .branch => Mips.branch C n toks
  | .shift => Mips.shift C n toks
  | .loadStore => Mips.loadStore C n toks
  | .rsrt => Mips.rsrt n toks
  | .rdrt => Mips.rdrt n toks
  | .rsrtCode => Mips.rsrtCode C n toks
  | .ri => Mips.ri C n toks
  | .rdrsCopy => Mips.rdrsCopy n toks
  | .none => Mips.noParameter n toks
  | .rt => Mips.regRT n toks
  | .rd => Mips.regRD n toks
  | .rs => Mips.regRS n toks
  | .jump => Mips.jump C n toks
  | .lui => Mips.lui C toks

/-- `g_mnemonicHandlers` (xasm/mips/mips_parse_instr.c 677-804). -/
def handlers : List Handler :=
  [.rrr, .rrr, .rrr, .rrr, .rrr, .rrr, .rrr, .rrr, .rrr, .rrr, .rrr, .rrr, .rrr, .rrr, .rrr, .rrr, .rrr, .rri, .rri, .rri,
   .rri, .rri, .rri, .rri, .branch, .branch, .branch, .branch, .branch, .branch, .branch, .branch, .branch, .branch,
   .branch, .branch, .branch, .branch, .branch, .branch, .branch, .branch, .shift, .shift, .shift, .shift, .loadStore,
   .loadStore, .loadStore, .loadStore, .loadStore, .loadStore, .loadStore, .loadStore, .loadStore, .loadStore, .loadStore,
   .loadStore, .loadStore, .loadStore, .loadStore, .loadStore, .loadStore, .loadStore, .rsrt, .rsrt, .rsrt, .rsrt, .rsrt,
   .rsrt, .rsrt, .rsrt, .rdrt, .rdrt, .rdrt, .rdrt, .rdrt, .rsrtCode, .rsrtCode, .rsrtCode, .rsrtCode, .rsrtCode, .rsrtCode,
   .ri, .ri, .ri, .ri, .ri, .ri, .rdrsCopy, .rdrsCopy, .none, .none, .none, .none, .none, .none, .none, .none, .none, .rt,
   .rt, .rd, .rd, .rs, .rs, .rs, .rs, .jump, .jump, .lui]

/-- `mips_ParseIntegerInstruction` (xasm/mips/mips_parse_instr.c 806-813); nothing if there is no instruction. The option `-mc` is
not looked at. -/
def instr (C : Ctx) : Toks → Result
  | .other n :: rest =>
    if T.add.num ≤ n ∧ n ≤ T.lui.num then
      match handlers[n - T.add.num]? with
      | some h => h.run C n rest
      | none => .ub
    else .ok none
  | _ => .ok none

end Verif.Cpu.Mips
