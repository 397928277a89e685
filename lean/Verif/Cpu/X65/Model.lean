import Verif.Cpu.Common
/-!
# Instructions of the 6502 and its successors

The parser reads an operand, which gives an addressing mode and up to three expressions, and the handler of the instruction
puts out bytes according to the mode. The modes are bits of a word.
-/
namespace Verif.Cpu.X65

open Verif.Parse (Tok Toks)
open Verif.Expr (Src)

/-- `ETargetToken` (xasm/6502/x65_tokens.h 24-260), in the order of the enumeration; undocumented instructions have a `u` in
front. -/
inductive T where
  | adc | and | asl | bit | bpl | bmi | bvc | bvs | bcc | bcs | bne | beq | brk | cmp | cpx | cpy | dec | eor | clc | sec
  | cli | sei | clv | cld | sed | inc | jmp | jsr | lda | ldx | ldy | lsr | nop | ora | tax | txa | dex | inx | tay | tya
  | dey | iny | rol | ror | rti | rts | sbc | sta | txs | tsx | pha | pla | php | plp | stx | sty | uaac | uaax | uarr
  | uasr | uatx | uaxa | uaxs | udcp | udop | uisc | ukil | ular | ulax | urla | urra | uslo | usre | usxa | usya | utop
  | uxaa | uxas | bra | dea | ina | phx | phy | plx | ply | stz | trb | tsb | stp | wai | bbr | bbr0 | bbr1 | bbr2 | bbr3
  | bbr4 | bbr5 | bbr6 | bbr7 | bbs | bbs0 | bbs1 | bbs2 | bbs3 | bbs4 | bbs5 | bbs6 | bbs7 | rmb | rmb0 | rmb1 | rmb2
  | rmb3 | rmb4 | rmb5 | rmb6 | rmb7 | smb | smb0 | smb1 | smb2 | smb3 | smb4 | smb5 | smb6 | smb7 | brl | cop | jml | jsl
  | mvn | mvp | pea | pei | per | phb | phd | phk | plb | pld | rep | rtl | sep | tcd | tcs | tdc | tsc | txy | tyx | wdm
  | xba | xce | asr | asw | bsr | cle | cpz | dew | dez | inw | inz | lbcc | lbcs | lbeq | lbmi | lbne | lbpl | lbra
  | lbvc | lbvs | ldz | map | neg | phw | phz | plz | row | see | tab | taz | tba | tsy | tys | tza | adcq | andq | aslq
  | asrq | bitq | cmpq | deq | eorq | inq | ldq | lsrq | orq | rolq | rorq | sbcq | stq | regA | regX | regY | regS | regZ
  | regQ | bits | setbp
  deriving DecidableEq

/-- The numbers of the tokens: `T_6502_ADC` is 6000 (xasm/6502/x65_tokens.h 25). -/
def T.num (t : T) : Nat := 6000 + t.ctorIdx

/-! ### Words -/

/-- `g_tokens` (xasm/6502/x65_tokens.c 106-179). -/
def words6502 : List (String × T) :=
  [("ADC", .adc), ("AND", .and), ("ASL", .asl), ("BIT", .bit), ("BPL", .bpl), ("BMI", .bmi), ("BVC", .bvc), ("BVS", .bvs),
   ("BCC", .bcc), ("BLT", .bcc), ("BCS", .bcs), ("BGE", .bcs), ("BNE", .bne), ("BEQ", .beq), ("BRK", .brk), ("CMP", .cmp),
   ("CPX", .cpx), ("CPY", .cpy), ("DEC", .dec), ("EOR", .eor), ("CLC", .clc), ("SEC", .sec), ("CLI", .cli), ("SEI", .sei),
   ("CLV", .clv), ("CLD", .cld), ("SED", .sed), ("INC", .inc), ("JMP", .jmp), ("JSR", .jsr), ("LDA", .lda), ("LDX", .ldx),
   ("LDY", .ldy), ("LSR", .lsr), ("NOP", .nop), ("ORA", .ora), ("TAX", .tax), ("TXA", .txa), ("DEX", .dex), ("INX", .inx),
   ("TAY", .tay), ("TYA", .tya), ("DEY", .dey), ("INY", .iny), ("ROL", .rol), ("ROR", .ror), ("RTI", .rti), ("RTS", .rts),
   ("SBC", .sbc), ("STA", .sta), ("TXS", .txs), ("TSX", .tsx), ("PHA", .pha), ("PLA", .pla), ("PHP", .php), ("PLP", .plp),
   ("STX", .stx), ("STY", .sty), ("A", .regA), ("X", .regX), ("Y", .regY)]

/-- `g_C02Instructions` (xasm/6502/x65_tokens.c 184-242). -/
def words65C02 : List (String × T) :=
  [("BRA", .bra), ("DEA", .dea), ("INA", .ina), ("PHX", .phx), ("PHY", .phy), ("PLX", .plx), ("PLY", .ply), ("STZ", .stz),
   ("TRB", .trb), ("TSB", .tsb), ("BBR", .bbr), ("BBR0", .bbr0), ("BBR1", .bbr1), ("BBR2", .bbr2), ("BBR3", .bbr3),
   ("BBR4", .bbr4), ("BBR5", .bbr5), ("BBR6", .bbr6), ("BBR7", .bbr7), ("BBS", .bbs), ("BBS0", .bbs0), ("BBS1", .bbs1),
   ("BBS2", .bbs2), ("BBS3", .bbs3), ("BBS4", .bbs4), ("BBS5", .bbs5), ("BBS6", .bbs6), ("BBS7", .bbs7), ("RMB", .rmb),
   ("RMB0", .rmb0), ("RMB1", .rmb1), ("RMB2", .rmb2), ("RMB3", .rmb3), ("RMB4", .rmb4), ("RMB5", .rmb5), ("RMB6", .rmb6),
   ("RMB7", .rmb7), ("SMB", .smb), ("SMB0", .smb0), ("SMB1", .smb1), ("SMB2", .smb2), ("SMB3", .smb3), ("SMB4", .smb4),
   ("SMB5", .smb5), ("SMB6", .smb6), ("SMB7", .smb7), ("STP", .stp), ("WAI", .wai)]

/-- `g_65816Instructions` (xasm/6502/x65_tokens.c 244-277). -/
def words65816 : List (String × T) :=
  [("BRL", .brl), ("COP", .cop), ("JML", .jml), ("JSL", .jsl), ("MVN", .mvn), ("MVP", .mvp), ("PEA", .pea), ("PEI", .pei),
   ("PER", .per), ("PHB", .phb), ("PHD", .phd), ("PHK", .phk), ("PLB", .plb), ("PLD", .pld), ("REP", .rep), ("RTL", .rtl),
   ("SEP", .sep), ("TCD", .tcd), ("TCS", .tcs), ("TDC", .tdc), ("TSC", .tsc), ("TXY", .txy), ("TYX", .tyx), ("WDM", .wdm),
   ("XBA", .xba), ("XCE", .xce), ("S", .regS), ("BITS", .bits)]

/-- `g_4510Instructions` (xasm/6502/x65_tokens.c 279-340). -/
def words4510 : List (String × T) :=
  [("ASR", .asr), ("ASW", .asw), ("BSR", .bsr), ("CLE", .cle), ("CPZ", .cpz), ("DEW", .dew), ("DEZ", .dez), ("EOM", .nop),
   ("INW", .inw), ("INZ", .inz), ("LBCC", .lbcc), ("LBLT", .lbcc), ("LBCS", .lbcs), ("LBGE", .lbcs), ("LBEQ", .lbeq),
   ("LBMI", .lbmi), ("LBNE", .lbne), ("LBPL", .lbpl), ("LBRA", .lbra), ("LBVC", .lbvc), ("LBVS", .lbvs), ("LDZ", .ldz),
   ("MAP", .map), ("NEG", .neg), ("PHW", .phw), ("PHZ", .phz), ("PLZ", .plz), ("ROW", .row), ("SEE", .see), ("TAB", .tab),
   ("TAZ", .taz), ("TBA", .tba), ("TSY", .tsy), ("TYS", .tys), ("TZA", .tza), ("ADCQ", .adcq), ("ANDQ", .andq),
   ("ASLQ", .aslq), ("ASRQ", .asrq), ("BITQ", .bitq), ("CMPQ", .cmpq), ("DEQ", .deq), ("EORQ", .eorq), ("INQ", .inq),
   ("LDQ", .ldq), ("LSRQ", .lsrq), ("ORQ", .orq), ("ROLQ", .rolq), ("RORQ", .rorq), ("SBCQ", .sbcq), ("STQ", .stq),
   ("SETBP", .setbp), ("Z", .regZ), ("Q", .regQ), ("SP", .regS)]

/-- `g_undocumentedInstructions` (xasm/6502/x65_tokens.c 25-104, 181-182). -/
def undocumented : Nat → List (String × T)
  | 1 =>
  [("AAC", .uaac), ("AAX", .uaax), ("ARR", .uarr), ("ASR", .uasr), ("ATX", .uatx), ("AXA", .uaxa), ("AXS", .uaxs),
   ("DCP", .udcp), ("DOP", .udop), ("ISC", .uisc), ("KIL", .ukil), ("LAR", .ular), ("LAX", .ulax), ("RLA", .urla),
   ("RRA", .urra), ("SLO", .uslo), ("SRE", .usre), ("SXA", .usxa), ("SYA", .usya), ("TOP", .utop), ("XAA", .uxaa),
   ("XAS", .uxas)]
  | 2 =>
  [("ANC", .uaac), ("SAX", .uaax), ("ARR", .uarr), ("ASR", .uasr), ("LXA", .uatx), ("SHA", .uaxa), ("SBX", .uaxs),
   ("DCP", .udcp), ("DOP", .udop), ("ISB", .uisc), ("JAM", .ukil), ("LAE", .ular), ("LAX", .ulax), ("RLA", .urla),
   ("RRA", .urra), ("SLO", .uslo), ("SRE", .usre), ("SHX", .usxa), ("SHY", .usya), ("TOP", .utop), ("ANE", .uxaa),
   ("SHS", .uxas)]
  | 3 =>
  [("ANC", .uaac), ("AXS", .uaax), ("ARR", .uarr), ("ALR", .uasr), ("OAL", .uatx), ("AXA", .uaxa), ("SAX", .uaxs),
   ("DCM", .udcp), ("SKB", .udop), ("INS", .uisc), ("HLT", .ukil), ("LAS", .ular), ("LAX", .ulax), ("RLA", .urla),
   ("RRA", .urra), ("ASO", .uslo), ("LSE", .usre), ("XAS", .usxa), ("SAY", .usya), ("SKW", .utop), ("XAA", .uxaa),
   ("TAS", .uxas)]
  | _ => []

/-! ### Modes and options -/

/-! The modes (xasm/6502/x65_parse.h 27-65). -/

abbrev M.none : Nat := 0x1
abbrev M.imm : Nat := 0x2
abbrev M.zp : Nat := 0x4
abbrev M.zpX : Nat := 0x8
abbrev M.zpY : Nat := 0x10
abbrev M.abs : Nat := 0x20
abbrev M.absX : Nat := 0x40
abbrev M.absY : Nat := 0x80
abbrev M.indZpX : Nat := 0x100
abbrev M.indZpY : Nat := 0x200
abbrev M.a : Nat := 0x400
abbrev M.indAbs : Nat := 0x800
abbrev M.zpAbs : Nat := 0x1000
abbrev M.bitZp : Nat := 0x2000
abbrev M.bitZpAbs : Nat := 0x4000
abbrev M.indZp : Nat := 0x8000
abbrev M.indAbsX : Nat := 0x10000
abbrev M.immImm : Nat := 0x20000
abbrev M.dispS : Nat := 0x40000
abbrev M.longIndZp : Nat := 0x80000
abbrev M.longAbs : Nat := 0x100000
abbrev M.indDispSY : Nat := 0x200000
abbrev M.longIndZpY : Nat := 0x400000
abbrev M.longAbsX : Nat := 0x800000
abbrev M.longIndAbs : Nat := 0x1000000
abbrev M.indZpZ : Nat := 0x2000000
abbrev M.absX45 : Nat := 0x4000000
abbrev M.absY45 : Nat := 0x8000000
abbrev M.indZpZQuad : Nat := 0x10000000
abbrev M.indZpQuad : Nat := 0x20000000
abbrev M.q : Nat := 0x40000000

/-- `MODE_6502` (xasm/6502/x65_parse.h 67-69). -/
def M.set6502 : Nat := M.none ||| M.imm ||| M.zp ||| M.zpX ||| M.zpY ||| M.abs ||| M.absX ||| M.absY ||| M.indZpX ||| M.indZpY ||| M.a |||
  M.indAbs

/-- `MODE_65C02` (xasm/6502/x65_parse.h 70). -/
def M.set65C02 : Nat := M.set6502 ||| M.indZp ||| M.indAbsX

/-- `MODE_65C02S` (xasm/6502/x65_parse.h 71). -/
def M.set65C02S : Nat := M.set65C02 ||| M.zpAbs ||| M.bitZp ||| M.bitZpAbs

/-- `MODE_65816` (xasm/6502/x65_parse.h 72-74). -/
def M.set65816 : Nat := M.set65C02 ||| M.dispS ||| M.longIndZp ||| M.longAbs ||| M.indDispSY ||| M.longIndZpY ||| M.longAbsX ||| M.longIndAbs

/-- `MODE_4510` (xasm/6502/x65_parse.h 75-77). -/
def M.set4510 : Nat := M.set6502 ||| M.indAbsX ||| M.zpAbs ||| M.bitZp ||| M.bitZpAbs ||| M.indZpZ ||| M.indDispSY ||| M.absX45 ||| M.absY45

/-- `MODE_45GS02` (xasm/6502/x65_parse.h 78). -/
def M.set45GS02 : Nat := M.set4510 ||| M.indZpZQuad ||| M.indZpQuad ||| M.q

/-- `ECpu6502` (xasm/6502/x65_options.h 25-33). -/
inductive Cpu where
  | c6502 | c65C02 | c65C02S | c65816 | c4510 | c45GS02
  deriving DecidableEq

/-- The 4510 and its successor (`MOPT_CPU_4510 | MOPT_CPU_45GS02`). -/
def Cpu.is4510 : Cpu → Bool
  | .c4510 | .c45GS02 => true
  | _ => false

/-- `g_allowedModes` (xasm/6502/x65_options.c 38-40). -/
def Cpu.allowed : Cpu → Nat
  | .c6502 => M.set6502
  | .c65C02 => M.set65C02
  | .c65C02S => M.set65C02S
  | .c65816 => M.set65816
  | .c4510 => M.set4510
  | .c45GS02 => M.set45GS02

/-- `SMachineOptions` (xasm/6502/x65_options.h 35-43). -/
structure Opts where
  undocumented : Nat
  cpu : Cpu
  synthesized : Bool
  m16 : Bool
  x16 : Bool
  allowed : Nat
  bp : Int

/-- An option: `u`, `c` and `s` with what `strtol` reads, or whether the text is `1`. -/
inductive Opt where
  | undocumented (n : Int)
  | cpu (n : Int)
  | synthesized (one : Bool)

/-- `x65_SetDefault` (xasm/6502/x65_options.c 52-61). -/
def Opts.default : Opts :=
  {undocumented := 0, cpu := .c6502, synthesized := false, m16 := false, x16 := false, allowed := M.set6502, bp := 0}

/-- The processor with a number, `1 << n` (xasm/6502/x65_options.c 111). -/
def Cpu.ofNum (n : Int) : Option Cpu :=
  if n = 0 then some .c6502 else if n = 1 then some .c65C02 else if n = 2 then some .c65C02S else if n = 3 then some .c65816
  else if n = 4 then some .c4510 else if n = 5 then some .c45GS02 else none

/-- `x65_ParseOption` (xasm/6502/x65_options.c 92-142). A message is a failure. -/
def Opts.parse (o : Opts) (x : Opt) : Outcome Opts :=
  match x with
  | .undocumented n =>
    if 0 ≤ n ∧ n ≤ 3 then if o.cpu ≠ .c6502 ∧ n ≠ 0 then .fail else .ok {o with undocumented := n.toNat} else .fail
  | .cpu n =>
    match Cpu.ofNum n with
    | some c => .ok {o with cpu := c, m16 := c = .c65816, x16 := c = .c65816, allowed := c.allowed, undocumented := 0}
    | none => .fail
  | .synthesized one => .ok {o with synthesized := one}

/-- `x65_OptionsUpdated` (xasm/6502/x65_options.c 63-90): the words are those of `words` below, and the base page is put back.
If neither the processor nor the words have changed, nothing happens; the base page is that of the processor then. -/
def Opts.updated (o : Opts) : Opts := if o.cpu.is4510 then o else {o with bp := 0}

/-- `parseBitsWidth` (xasm/6502/x65_parse.c 34-50). -/
def bitsWidth (n : Int) : Outcome Bool := if n = 8 then .ok false else if n = 16 then .ok true else .fail

/-- `parseBITS` (xasm/6502/x65_parse.c 52-71, 102-108): the values of the expressions, where there is one. -/
def Opts.bits (o : Opts) (m x : Option Int) : Outcome Opts :=
  if o.cpu = .c65816 then
    (match m with | some n => bitsWidth n | none => .ok o.m16).bind fun m16 =>
    (match x with | some n => bitsWidth n | none => .ok o.x16).bind fun x16 => .ok {o with m16 := m16, x16 := x16}
  else .fail

/-- `SETBP` (xasm/6502/x65_parse.c 109-120). -/
def Opts.setBp (o : Opts) (n : Int) : Outcome Opts :=
  if o.cpu.is4510 then if n % 256 = 0 then .ok {o with bp := n} else .fail else .fail

/-- The words that are defined: `x65_DefineTokens` (xasm/6502/x65_tokens.c 342-347) and `x65_OptionsUpdated`
(xasm/6502/x65_options.c 63-90), which defines the words of the processor after it has removed those of the previous one. -/
def words (o : Opts) : List (String × T) :=
  (if o.cpu.is4510 then words4510 else if o.cpu = .c6502 then X65.undocumented o.undocumented else []) ++
    words6502 ++ words65C02 ++ words65816

/-- The token of a word. None of the words of all processors is among them (xasm/motor/tokens.c 39-165). -/
def tok (o : Opts) (w : String) : Tok :=
  match (words o).find? (·.1 == w) with
  | some p => .other p.2.num
  | none => .sym w.toList

/-! ### The parser of addressing modes -/

/-- `EImmediateSize` (xasm/6502/x65_parse.h 88-95). -/
inductive Imm where
  | none | bits8 | bits16 | bits32 | acc | index
  deriving DecidableEq

/-- `SAddressingMode` (xasm/6502/x65_parse.h 80-86). -/
structure Am where
  mode : Nat
  e : Option Src := none
  e2 : Option Src := none
  e3 : Option Src := none
  forced : Bool := false

/-- `modes & allowedModes`, as a condition. -/
def has (allowed modes : Nat) : Bool := allowed &&& modes != 0

/-- What a part of the parser of modes gives: nothing if it goes back to the beginning of the operand. -/
abbrev Mode := Outcome (Option (Am × Toks))

/-- The next part of the parser, if this one has found nothing. -/
def orElse (x : Mode) (y : Mode) : Mode := x.bind fun
  | some r => .ok (some r)
  | none => y

/-- `maskExpression` (xasm/6502/x65_parse_addrmode.c 36-39). -/
def maskExpr (imm16 : Bool) (s : Src) : Src := .bin .and s (.num (if imm16 then 0xFFFF else 0xFF))

/-- `parseImmExpression` (xasm/6502/x65_parse_addrmode.c 41-68). Behind a prefix an expression that is missing is reported by
`assertExpressions` (xasm/motor/expression.c 118-127), which ends the assembly. -/
def immediate (C : Ctx) (imm16 : Bool) : Toks → Outcome (Option Src × Toks)
  | .op .lt :: .op .gt :: toks => (expr C 2 toks).bind fun
    | (some s, rest) =>
      .ok (some (maskExpr imm16 (.bin .or (.bin .asl s (.num 8)) (.bin .asr (.bin .and s (.num 0xFF00)) (.num 8)))), rest)
    | (none, _) => .fail
  | .op .lt :: toks => (expr C 2 toks).bind fun
    | (some s, rest) => .ok (some (maskExpr imm16 s), rest)
    | (none, _) => .fail
  | .op .gt :: toks => (expr C 2 toks).bind fun
    | (some s, rest) => .ok (some (maskExpr imm16 (.bin .asr s (.num 8))), rest)
    | (none, _) => .fail
  | .op .xor :: toks => (expr C 2 toks).bind fun
    | (some s, rest) => .ok (some (maskExpr imm16 (.bin .asr s (.num 16))), rest)
    | (none, _) => .fail
  | toks => expr C 2 toks

/-- The size of immediate operands (xasm/6502/x65_parse_addrmode.c 74-87). -/
def Imm.is16 (o : Opts) : Imm → Bool
  | .bits16 => true
  | .acc => o.m16
  | .index => o.x16
  | _ => false

/-- One or two immediate operands (xasm/6502/x65_parse_addrmode.c 111-132), behind the `#`. Returning `false` makes the caller
report an error. -/
def immMode (C : Ctx) (allowed : Nat) (imm16 : Bool) (toks : Toks) : Mode :=
  (immediate C imm16 toks).bind fun
    | (none, _) => .fail
    | (some s, rest) =>
      if has allowed M.immImm then
        match rest with
        | .comma :: .other 35 :: rest => (immediate C imm16 rest).bind fun
          | (some s2, rest) => .ok (some ({mode := M.immImm, e := s, e2 := s2}, rest))
          | (none, _) => .fail
        | .comma :: _ => .fail
        | _ => .ok (some ({mode := M.imm, e := s}, rest))
      else .ok (some ({mode := M.imm, e := s}, rest))

/-- `(n,X)`, `(n,S),Y`, `(n),Y` and `(n),Z` (xasm/6502/x65_parse_addrmode.c 134-178). -/
def parenMode (C : Ctx) (allowed : Nat) : Toks → Mode
  | .lp :: toks =>
    if has allowed (M.indZpX ||| M.indZpY ||| M.indZpZ ||| M.indAbsX ||| M.indDispSY) then
      (expr C 2 toks).bind fun
        | (some s, .comma :: .other n :: rest) =>
          if n = T.regX.num then
            match rest with
            | .rp :: rest => .ok (some ({mode := allowed &&& (M.indZpX ||| M.indAbsX), e := s}, rest))
            | _ => .fail
          else if n = T.regS.num then
            match rest with
            | .rp :: .comma :: .other n :: rest =>
              if n = T.regY.num then .ok (some ({mode := M.indDispSY, e := s}, rest)) else .ok none
            | .rp :: .comma :: _ => .ok none
            | _ => .fail
          else .ok none
        | (some s, .rp :: .comma :: .other n :: rest) =>
          if n = T.regY.num then .ok (some ({mode := M.indZpY, e := s}, rest))
          else if n = T.regZ.num ∧ has allowed M.indZpZ then .ok (some ({mode := M.indZpZ, e := s}, rest))
          else .ok none
        | _ => .ok none
    else .ok none
  | _ => .ok none

/-- Whether a value that is known is in the zero page (xasm/6502/x65_parse_addrmode.c 214-216, 266-267, 369). -/
def inPage (o : Opts) (a : Int) : Bool := o.bp ≤ a && a ≤ o.bp + 255

/-- … of an expression. -/
def knownZp (C : Ctx) (o : Opts) (s : Src) : Bool := (C.known s).any (inPage o)

/-- Operands in brackets (xasm/6502/x65_parse_addrmode.c 180-225). -/
def bracketMode (C : Ctx) (o : Opts) (allowed : Nat) : Toks → Mode
  | .other 91 :: toks =>
    if has allowed (M.longIndZp ||| M.longIndZpY ||| M.longIndAbs ||| M.indZpQuad ||| M.indZpZQuad) then
      let (zp, abs2, toks) := match toks with
        | .op .lt :: toks => (true, false, toks)
        | .op .or :: toks => (false, true, toks)
        | toks => (false, false, toks)
      let forced := zp || abs2
      (expr C 2 toks).bind fun
        | (some s, .other 93 :: .comma :: .other n :: rest) =>
          if n = T.regY.num then .ok (some ({mode := M.longIndZpY, e := s, forced := forced}, rest))
          else if n = T.regZ.num then .ok (some ({mode := M.indZpZQuad, e := s, forced := forced}, rest))
          else .ok none
        | (some _, .other 93 :: .comma :: _) => .ok none
        | (some s, .other 93 :: rest) =>
          let page := if zp || (!abs2 && knownZp C o s) then M.indZpQuad ||| M.longIndZp else M.longIndAbs
          .ok (some ({mode := page &&& allowed, e := s, forced := forced}, rest))
        | _ => .ok none
    else .ok none
  | _ => .ok none

/-- `(n)` (xasm/6502/x65_parse_addrmode.c 227-239). -/
def indirectMode (C : Ctx) (allowed : Nat) : Toks → Mode
  | .lp :: toks =>
    if has allowed (M.indAbs ||| M.indZp) then
      (expr C 2 toks).bind fun
        | (some s, .rp :: rest) => .ok (some ({mode := M.indAbs, e := s}, rest))
        | _ => .ok none
    else .ok none
  | _ => .ok none

/-- `EXPR_PARENS`. -/
def isParens : Src → Bool
  | .parens _ => true
  | _ => false

/-- The sizes that a prefix forces. -/
inductive Force where
  | no | zp | abs2 | abs3
  deriving DecidableEq

/-- The prefix of an address (xasm/6502/x65_parse_addrmode.c 247-259). -/
def prefixOf (o : Opts) : Toks → Force × Toks
  | .op .lt :: toks => (.zp, toks)
  | .op .or :: toks => if o.cpu = .c65816 then (.abs2, toks) else (.no, .op .or :: toks)
  | .op .gt :: toks => if o.cpu = .c65816 then (.abs3, toks) else (.no, .op .gt :: toks)
  | toks => (.no, toks)

/-- The modes of the operands that begin with an address (xasm/6502/x65_parse_addrmode.c 241-242). -/
def M.memory : Nat :=
  M.zp ||| M.zpX ||| M.zpY ||| M.abs ||| M.absX ||| M.absY ||| M.zpAbs ||| M.bitZpAbs ||| M.bitZp ||| M.dispS ||| M.longAbsX |||
  M.absX45 ||| M.absY45

/-- The operands that begin with an address, after the first expression `s` (xasm/6502/x65_parse_addrmode.c 262-321). If a
value is known and too large for a forced size, `expr_CheckRange` has reported it. -/
def addressMode (C : Ctx) (o : Opts) (allowed : Nat) (f : Force) (s : Src) (rest : Toks) : Mode :=
  let s := if f = .zp then checkRange s 0 0xFF else s
  let forced := f != .no
  let zp := knownZp C o s || f = .zp
  let abs3 := (f != .zp && f != .abs2 && (C.known s).any fun a => 0 ≤ a && a < 16777216) || f = .abs3
  let done (mode : Nat) (rest : Toks) : Mode := .ok (some ({mode := mode, e := s, forced := forced}, rest))
  match rest with
  | .comma :: rest =>
    if rest.head? = some (.other T.regX.num) then
      done (if zp && has allowed M.zpX then M.zpX else if abs3 && has allowed M.longAbsX then M.longAbsX
        else (M.absX ||| M.absX45) &&& allowed) rest.tail
    else if rest.head? = some (.other T.regY.num) then
      done (if zp && has allowed M.zpY then M.zpY else (M.absY ||| M.absY45) &&& allowed) rest.tail
    else if rest.head? = some (.other T.regS.num) then
      done M.dispS rest.tail
    else (expr C 2 rest).bind fun
      | (some s2, .comma :: rest) => (expr C 2 rest).bind fun
        | (some s3, rest) => .ok (some ({mode := M.bitZpAbs, e := s, e2 := s2, e3 := s3, forced := forced}, rest))
        | (none, _) => .ok none
      | (some s2, rest) => .ok (some ({mode := allowed &&& (M.bitZp ||| M.zpAbs), e := s, e2 := s2, forced := forced}, rest))
      | (none, _) => .ok none
  | rest =>
    if has allowed M.zp && zp then done M.zp rest
    else if has allowed M.longAbs && abs3 then done M.longAbs rest
    else if has allowed M.abs then done M.abs rest
    else .ok none

/-- The operands that begin with an address (xasm/6502/x65_parse_addrmode.c 241-325). -/
def memoryMode (C : Ctx) (o : Opts) (allowed : Nat) (toks : Toks) : Mode :=
  if has allowed M.memory then
    (expr C 2 (prefixOf o toks).2).bind fun
      | (some s, rest) => if isParens s then .ok none else addressMode C o allowed (prefixOf o toks).1 s rest
      | (none, _) => .ok none
  else .ok none

/-- No operand (xasm/6502/x65_parse_addrmode.c 327-339). -/
def noMode (allowed : Nat) (toks : Toks) : Mode :=
  if allowed = 0 ∨ has allowed M.none then .ok (some ({mode := M.none}, toks))
  else if has allowed M.a then .ok (some ({mode := M.a}, toks))
  else .ok none

/-- `x65_ParseAddressingModeCore` (xasm/6502/x65_parse_addrmode.c 70-340). -/
def core (C : Ctx) (o : Opts) (allowed : Nat) (imm : Imm) (toks : Toks) : Mode :=
  if has allowed M.a ∧ toks.head? = some (.other T.regA.num) then .ok (some ({mode := M.a}, toks.tail))
  else if has allowed M.q ∧ toks.head? = some (.other T.regQ.num) then .ok (some ({mode := M.q}, toks.tail))
  else if has allowed (M.imm ||| M.immImm) ∧ toks.head? = some (.other 35) then immMode C allowed (imm.is16 o) toks.tail
  else
    orElse (parenMode C allowed toks) <| orElse (bracketMode C o allowed toks) <| orElse (indirectMode C allowed toks) <|
    orElse (memoryMode C o allowed toks) <| noMode allowed toks

/-- `HANDLE_MODES` (xasm/6502/x65_parse_addrmode.c 342-345). -/
def M.handle : Nat :=
  M.abs ||| M.absX ||| M.absY ||| M.indAbs ||| M.indAbsX ||| M.indZpZ ||| M.indZpZQuad ||| M.indZpQuad ||| M.indZpX ||| M.indZpY |||
  M.zpAbs ||| M.bitZpAbs ||| M.zp ||| M.zpX ||| M.zpY ||| M.longIndZp ||| M.longIndAbs

/-- `ZP_MODES` (xasm/6502/x65_parse_addrmode.c 346-348). -/
def M.page : Nat :=
  M.indZpZ ||| M.indZpZQuad ||| M.indZpQuad ||| M.indZpX ||| M.indZpY ||| M.zpAbs ||| M.bitZpAbs ||| M.zp ||| M.zpX ||| M.zpY |||
  M.indZpQuad ||| M.longIndZp

/-- The mode for an address in the zero page (xasm/6502/x65_parse_addrmode.c 377-416); nothing if the mode stays as it is. -/
def zpMode (allowed mode : Nat) : Option Nat :=
  if mode = M.abs then if has allowed M.zp then some M.zp else none
  else if mode = M.absX then if has allowed M.zpX then some M.zpX else none
  else if mode = M.absY then if has allowed M.zpY then some M.zpY else none
  else if mode = M.indAbs then if has allowed M.indZp then some M.indZp else none
  else if mode = M.longIndAbs then if has allowed M.longIndZp then some M.longIndZp else none
  else if mode ∈ [M.indZpZ, M.indZpZQuad, M.indZpQuad, M.indZpX, M.indZpY, M.zpAbs, M.bitZpAbs, M.zp, M.zpX, M.zpY] then some mode
  else none

/-- `expr_And` with `0xFF` (xasm/6502/x65_parse_addrmode.c 418). -/
def maskZp (s : Src) : Src := .bin .and s (.num 0xFF)

/-- `x65_ParseAddressingMode` (xasm/6502/x65_parse_addrmode.c 350-424). `junk` is what `value.integer` of an expression that is
not constant contains: the lower half of an address, or something calculated from such. -/
def addrMode (C : Ctx) (junk : Src → Int) (o : Opts) (allowed : Nat) (imm : Imm) (toks : Toks) : Mode :=
  (core C o allowed imm toks).bind fun
    | none => .ok none
    | some (am, rest) =>
      if am.forced ∨ ¬ has am.mode M.handle ∨ am.e.bind C.known = none then
        if am.mode = 0 then .ok none else .ok (some (am, rest))
      else
        let second := am.mode = M.bitZp ∨ am.mode = M.bitZpAbs
        match if second then am.e2 else am.e with
        | none => .ub
        | some s =>
          if inPage o ((C.known s).getD (junk s)) then
            match zpMode allowed am.mode with
            | none => .ok (some (am, rest))
            | some m =>
              if second then .ok (some ({am with mode := m, e2 := some (maskZp s)}, rest))
              else .ok (some ({am with mode := m, e := some (maskZp s)}, rest))
          else if has am.mode M.page then .fail
          else .ok (some (am, rest))

/-! ### Handlers -/

/-- The expressions of a mode. -/
inductive Fld where
  | e | e2 | e3
  deriving DecidableEq

/-- The calls of the handlers that put something out. -/
inductive Call where
  /-- `sect_OutputConst8` -/
  | const (b : Nat)
  /-- `x65_OutputU8Expression` (xasm/6502/x65_parse_instr.c 81-88) -/
  | u8 (f : Fld)
  /-- `x65_OutputSU8Expression` (xasm/6502/x65_parse_instr.c 71-79) -/
  | su8 (f : Fld)
  /-- `x65_OutputU16Expression` (xasm/6502/x65_parse_instr.c 61-69) -/
  | u16 (f : Fld)
  /-- `x65_OutputSU16Expression` (xasm/6502/x65_parse_instr.c 51-59) -/
  | su16 (f : Fld)
  /-- `x65_OutputLongInstruction` (xasm/6502/x65_parse_instr.c 90-93) -/
  | long (op : Nat)
  /-- the distance of a branch (xasm/6502/x65_parse_instr.c 303-310, 489-495, 504-510) -/
  | rel8 (f : Fld)
  /-- `sect_OutputExpr16(expr_PcRelative(…, -1))` (xasm/6502/x65_parse_instr_65816.c 43) -/
  | rel16 (f : Fld)
  /-- the distance of a long branch (xasm/6502/x65_parse_instr_4510.c 177-184) -/
  | lrel16 (f : Fld)
  /-- the opcode with the number of a bit (xasm/6502/x65_parse_instr.c 483-486, 517-520) -/
  | bitOp (base : Nat)
  /-- `sect_OutputExpr8` -/
  | raw8 (f : Fld)
  /-- `sect_OutputExpr8(expr_CheckRange(…, -128, 0xFF))` (xasm/6502/x65_parse_instr_65816.c 73) -/
  | s8 (f : Fld)
  /-- a byte of an operand with four bytes (xasm/6502/x65_parse_instr_4510.c 224-230) -/
  | byte (shift : Nat)
  deriving DecidableEq

/-- What the calls put out. -/
def Call.item (am : Am) (c : Call) : Outcome Item :=
  let get (f : Fld) : Option Src := match f with
    | .e => am.e
    | .e2 => am.e2
    | .e3 => am.e3
  let on (f : Fld) (n : Nat) (g : Src → Src) : Outcome Item := match get f with
    | some s => .ok (.expr n (g s))
    | none => .fail
  match c with
  | .const b => .ok (.const 1 b)
  | .u8 f => on f 1 fun s => checkRange s 0 255
  | .su8 f => on f 1 fun s => .bin .and (checkRange s (-128) 255) (.num 0xFF)
  | .u16 f => on f 2 fun s => .bin .and (checkRange s 0 65535) (.num 0xFFFF)
  | .su16 f => on f 2 fun s => .bin .and (checkRange s (-32768) 65535) (.num 0xFFFF)
  | .long op => on .e 4 fun s => .bin .or (.bin .asl s (.num 8)) (.num op)
  | .rel8 f => on f 1 fun s => checkRange (.pcRel (-1) s) (-128) 127
  | .rel16 f => on f 2 fun s => .pcRel (-1) s
  | .lrel16 f => on f 2 fun s => checkRange (.pcRel (-1) s) (-32768) 32767
  | .bitOp base => on .e 1 fun s => .bin .or (.num base) (.bin .asl (checkRange s 0 7) (.num 4))
  | .raw8 f => on f 1 fun s => s
  | .s8 f => on f 1 fun s => checkRange s (-128) 0xFF
  | .byte n => on .e 1 fun s => .bin .and (if n = 0 then s else .bin .asr s (.num n)) (.num 0xFF)

/-- What several calls put out. -/
def emit (am : Am) : List Call → Outcome (List Item)
  | [] => .ok []
  | c :: cs => (c.item am).bind fun i => (emit am cs).bind fun is => .ok (i :: is)

/-- What a handler does: the calls, or nothing if it returns `false` without a message. A message is a failure. -/
abbrev Calls := Outcome (Option (List Call))

/-- An opcode and what follows. -/
def op (b : Nat) (cs : List Call) : Calls := .ok (some (.const b :: cs))

/-- `handleStandardAll` (xasm/6502/x65_parse_instr.c 95-178). -/
def handleAll (o : Opts) (base mode : Nat) : Calls :=
  if mode = M.indZpX then op (base ||| 0x00) [.u8 .e]
  else if mode = M.dispS then op (base ||| 0x02) [.u8 .e]
  else if mode = M.zp then op (base ||| 0x04) [.u8 .e]
  else if mode = M.longIndZp then op (base ||| 0x06) [.u8 .e]
  else if mode = M.imm then op (base ||| 0x08) [if o.m16 then .su16 .e else .su8 .e]
  else if mode = M.abs then op (base ||| 0x0C) [.u16 .e]
  else if mode = M.longAbs then .ok (some [.long (base ||| 0x0E)])
  else if mode = M.indZpY then op (base ||| 0x10) [.u8 .e]
  else if mode = M.indZp then op ((base + 1) ||| 0x10) [.u8 .e]
  else if mode = M.indZpZQuad then op 0xEA [.const (base + 0x11), .u8 .e]
  else if mode = M.indZpZ then op (base + 0x11) [.u8 .e]
  else if mode = M.indDispSY then
    op (if o.cpu.is4510 ∧ base = 0x81 then 0x82 else if o.cpu.is4510 ∧ base = 0xA1 then 0xE2 else base ||| 0x12) [.u8 .e]
  else if mode = M.zpX ∨ mode = M.zpY then op (base ||| 0x14) [.u8 .e]
  else if mode = M.longIndZpY then op (base ||| 0x16) [.u8 .e]
  else if mode = M.absY then op (base ||| 0x18) [.u16 .e]
  else if mode = M.absX then op (base ||| 0x1C) [.u16 .e]
  else if mode = M.longAbsX then .ok (some [.long (base ||| 0x1E)])
  else .fail

/-- `handleStandardAbsY7` (xasm/6502/x65_parse_instr.c 180-216). -/
def handleAbsY7 (base mode : Nat) : Calls :=
  if mode = M.indZpX then op (base ||| (0 <<< 2)) [.u8 .e]
  else if mode = M.imm then op (base ||| (2 <<< 2)) [.su8 .e]
  else if mode = M.indZpY then op (base ||| (4 <<< 2)) [.u8 .e]
  else if mode = M.absY then op (base ||| (7 <<< 2)) [.u16 .e]
  else if mode = M.zp then op (base ||| (1 <<< 2)) [.u8 .e]
  else if mode = M.abs then op (base ||| (3 <<< 2)) [.u16 .e]
  else if mode = M.zpX ∨ mode = M.zpY then op (base ||| (5 <<< 2)) [.u8 .e]
  else .fail

/-- `handleStandardImm0` (xasm/6502/x65_parse_instr.c 218-256). -/
def handleImm0 (o : Opts) (base mode : Nat) : Calls :=
  if mode = M.imm then op (base ||| (0 <<< 2)) [if o.x16 then .su16 .e else .su8 .e]
  else if mode = M.zp then op (base ||| (1 <<< 2)) [.u8 .e]
  else if mode = M.abs then op (base ||| (3 <<< 2)) [.u16 .e]
  else if mode = M.zpX ∨ mode = M.zpY then op (base ||| (5 <<< 2)) [.u8 .e]
  else if mode = M.absX45 ∨ mode = M.absY45 then op (((base &&& 0x02) <<< 3) ||| (base &&& 0x80) ||| 0x0B) [.u16 .e]
  else if mode = M.absX ∨ mode = M.absY then op (base ||| (7 <<< 2)) [.u16 .e]
  else .fail

/-- `handleStandardRotate` (xasm/6502/x65_parse_instr.c 258-297). `known` is the value of the first expression, if it is
constant. -/
def handleRotate (o : Opts) (known : Option Int) (base mode : Nat) : Calls :=
  if mode = M.imm then
    if o.synthesized then
      match known with
      | some n => .ok (some (List.replicate n.toNat (.const (base ||| (2 <<< 2)))))
      | none => .fail
    else .fail
  else if mode = M.a then op (base ||| (2 <<< 2)) []
  else if mode = M.zp then op (base ||| (1 <<< 2)) [.u8 .e]
  else if mode = M.abs then op (base ||| (3 <<< 2)) [.u16 .e]
  else if mode = M.zpX then op (base ||| (5 <<< 2)) [.u8 .e]
  else if mode = M.absX then op (base ||| (7 <<< 2)) [.u16 .e]
  else .fail

/-- `handleBranch` (xasm/6502/x65_parse_instr.c 299-313). -/
def handleBranch (base : Nat) : Calls := op base [.rel8 .e]

/-- `handleBIT` (xasm/6502/x65_parse_instr.c 315-332). -/
def handleBit (o : Opts) (base mode : Nat) : Calls :=
  if has mode (M.imm ||| M.zpX ||| M.absX) ∧ o.cpu = .c6502 then .fail
  else if mode = M.imm then op 0x89 [if o.m16 then .u16 .e else .u8 .e]
  else handleAll o base mode

/-- `handleINCDEC` (xasm/6502/x65_parse_instr.c 334-349). -/
def handleIncDec (o : Opts) (base mode : Nat) : Calls :=
  if has mode M.a ∧ o.cpu = .c6502 then .fail
  else if mode = M.a then op ((base &&& 0x3F) ^^^ 0x38) []
  else handleAll o base mode

/-- `handleJMP` (xasm/6502/x65_parse_instr.c 357-379). -/
def handleJmp (o : Opts) (base mode : Nat) : Calls :=
  if mode = M.longAbs then .ok (some [.long (base + 0x10)])
  else if mode = M.indAbsX then if o.cpu = .c6502 then .fail else op (base + 0x30) [.u16 .e]
  else if mode = M.indAbs then op (base + 0x20) [.u16 .e]
  else if mode = M.longIndAbs then op (base + 0x90) [.u16 .e]
  else op base [.u16 .e]

/-- `handleJSR` (xasm/6502/x65_parse_instr.c 381-406). -/
def handleJsr (o : Opts) (base mode : Nat) : Calls :=
  if mode = M.longAbs then .ok (some [.long 0x22])
  else if mode = M.indAbsX then
    if o.cpu = .c65816 then op 0xFC [.u16 .e] else if o.cpu.is4510 then op 0x23 [.u16 .e] else .fail
  else if mode = M.indAbs then if o.cpu.is4510 then op 0x22 [.u16 .e] else .fail
  else op base [.u16 .e]

/-- `handleBRK` (xasm/6502/x65_parse_instr.c 408-414). -/
def handleBrk (base mode : Nat) : Calls := op base (if mode = M.imm then [.su8 .e] else [])

/-- `handleDOP` (xasm/6502/x65_parse_instr.c 416-434). -/
def handleDop (mode : Nat) : Calls :=
  if mode = M.imm then op 0x80 [.su8 .e]
  else if mode = M.zp then op 0x04 [.u8 .e]
  else if mode = M.zpX then op 0x14 [.u8 .e]
  else .ok none

/-- `handleRTS` (xasm/6502/x65_parse_instr.c 436-455). -/
def handleRts (o : Opts) (base mode : Nat) : Calls :=
  if mode = M.imm then if o.cpu.is4510 then op 0x62 [.u8 .e] else .fail
  else if mode = M.none then op base []
  else .ok none

/-- `handleSTZ` (xasm/6502/x65_parse_instr.c 457-479). -/
def handleStz (mode : Nat) : Calls :=
  if mode = M.zp then op 0x64 [.u8 .e]
  else if mode = M.zpX then op 0x74 [.u8 .e]
  else if mode = M.abs then op 0x9C [.u16 .e]
  else if mode = M.absX then op 0x9E [.u16 .e]
  else .ok none

/-- The handlers. -/
inductive Handler where
  | all | absY7 | imm0 | rotate | branch | bit | incDec | implied | jmp | jsr | brk | dop | rts | stz
  | bitBranch | bitXBranch | bitC02 | bitXC02
  deriving DecidableEq

/-- What they do: those above, `handleImplied` and the handlers of the bit instructions
(xasm/6502/x65_parse_instr.c 351-355, 481-530). -/
def Handler.run (o : Opts) (known : Option Int) (base mode : Nat) : Handler → Calls
  | .all => handleAll o base mode
  | .absY7 => handleAbsY7 base mode
  | .imm0 => handleImm0 o base mode
  | .rotate => handleRotate o known base mode
  | .branch => handleBranch base
  | .bit => handleBit o base mode
  | .incDec => handleIncDec o base mode
  | .implied => op base []
  | .jmp => handleJmp o base mode
  | .jsr => handleJsr o base mode
  | .brk => handleBrk base mode
  | .dop => handleDop mode
  | .rts => handleRts o base mode
  | .stz => handleStz mode
  | .bitBranch => .ok (some [.bitOp base, .u8 .e2, .rel8 .e3])
  | .bitXBranch => op base [.u8 .e, .rel8 .e2]
  | .bitC02 => .ok (some [.bitOp base, .u8 .e2])
  | .bitXC02 => op base [.u8 .e]

/-- The processors from this one on: `CPU_6502`, `CPU_65C02`, `CPU_65C02S` (xasm/6502/x65_parse_instr.c 45-47). -/
def Cpu.includes (least cpu : Cpu) : Bool :=
  match least with
  | .c6502 => true
  | .c65C02 => cpu != .c6502
  | .c65C02S => cpu == .c65C02S || cpu.is4510
  | _ => false

/-- `SParser` (xasm/6502/x65_parse_instr.c 37-43). -/
structure Entry where
  base : Nat
  cpu : Cpu
  imm : Imm
  modes : Nat
  handler : Handler

/-- The modes of ADC and others (xasm/6502/x65_parse_instr.c 534-536). -/
def M.accum : Nat :=
  M.imm ||| M.zp ||| M.zpX ||| M.abs ||| M.absX ||| M.absY ||| M.indZpX ||| M.indZpY ||| M.indZp ||| M.dispS ||| M.longIndZp |||
  M.longAbs ||| M.indDispSY ||| M.longIndZpY ||| M.longAbsX ||| M.indZpZ ||| M.indZpZQuad

/-- The modes of STA (xasm/6502/x65_parse_instr.c 610-612). -/
def M.store : Nat :=
  M.zp ||| M.zpX ||| M.abs ||| M.absX ||| M.absY ||| M.indZpX ||| M.indZpY ||| M.indZp ||| M.dispS ||| M.longIndZp |||
  M.longAbs ||| M.indDispSY ||| M.longIndZpY ||| M.longAbsX ||| M.indZpZ ||| M.indZpZQuad

/-- The modes of ASL and others (xasm/6502/x65_parse_instr.c 543). -/
def M.shift : Nat := M.imm ||| M.a ||| M.zp ||| M.zpX ||| M.abs ||| M.absX

/-- The modes of DCP and others (xasm/6502/x65_parse_instr.c 632). -/
def M.modify : Nat := M.zp ||| M.zpX ||| M.abs ||| M.absX ||| M.absY ||| M.indZpX ||| M.indZpY

/-- `g_instructionHandlers` (xasm/6502/x65_parse_instr.c 532-711). -/
def table : List Entry :=
  [⟨0x61, .c6502, .acc, M.accum, .all⟩, ⟨0x21, .c6502, .acc, M.accum, .all⟩, ⟨0x02, .c6502, .bits8, M.shift, .rotate⟩,
   ⟨0x20, .c6502, .acc, M.zp ||| M.abs ||| M.imm ||| M.zpX ||| M.absX, .bit⟩, ⟨0x10, .c6502, .none, M.abs, .branch⟩,
   ⟨0x30, .c6502, .none, M.abs, .branch⟩, ⟨0x50, .c6502, .none, M.abs, .branch⟩, ⟨0x70, .c6502, .none, M.abs, .branch⟩,
   ⟨0x90, .c6502, .none, M.abs, .branch⟩, ⟨0xB0, .c6502, .none, M.abs, .branch⟩, ⟨0xD0, .c6502, .none, M.abs, .branch⟩,
   ⟨0xF0, .c6502, .none, M.abs, .branch⟩, ⟨0x00, .c6502, .bits8, M.none ||| M.imm, .brk⟩,
   ⟨0xC1, .c6502, .acc, M.accum, .all⟩, ⟨0xE0, .c6502, .index, M.imm ||| M.zp ||| M.abs, .imm0⟩,
   ⟨0xC0, .c6502, .index, M.imm ||| M.zp ||| M.abs, .imm0⟩,
   ⟨0xC2, .c6502, .none, M.zp ||| M.abs ||| M.zpX ||| M.absX ||| M.a, .incDec⟩, ⟨0x41, .c6502, .acc, M.accum, .all⟩,
   ⟨0x18, .c6502, .none, M.none, .implied⟩, ⟨0x38, .c6502, .none, M.none, .implied⟩,
   ⟨0x58, .c6502, .none, M.none, .implied⟩, ⟨0x78, .c6502, .none, M.none, .implied⟩,
   ⟨0xB8, .c6502, .none, M.none, .implied⟩, ⟨0xD8, .c6502, .none, M.none, .implied⟩,
   ⟨0xF8, .c6502, .none, M.none, .implied⟩, ⟨0xE2, .c6502, .none, M.zp ||| M.abs ||| M.zpX ||| M.absX ||| M.a, .incDec⟩,
   ⟨0x4C, .c6502, .none, M.abs ||| M.indAbs ||| M.indAbsX ||| M.longAbs ||| M.longIndAbs, .jmp⟩,
   ⟨0x20, .c6502, .none, M.abs ||| M.longAbs ||| M.indAbsX ||| M.indAbs ||| M.indAbsX, .jsr⟩,
   ⟨0xA1, .c6502, .acc, M.accum, .all⟩, ⟨0xA2, .c6502, .index, M.imm ||| M.zp ||| M.abs ||| M.zpY ||| M.absY, .imm0⟩,
   ⟨0xA0, .c6502, .index, M.imm ||| M.zp ||| M.abs ||| M.zpX ||| M.absX, .imm0⟩, ⟨0x42, .c6502, .bits8, M.shift, .rotate⟩,
   ⟨0xEA, .c6502, .none, M.none, .implied⟩, ⟨0x01, .c6502, .acc, M.accum, .all⟩, ⟨0xAA, .c6502, .none, M.none, .implied⟩,
   ⟨0x8A, .c6502, .none, M.none, .implied⟩, ⟨0xCA, .c6502, .none, M.none, .implied⟩,
   ⟨0xE8, .c6502, .none, M.none, .implied⟩, ⟨0xA8, .c6502, .none, M.none, .implied⟩,
   ⟨0x98, .c6502, .none, M.none, .implied⟩, ⟨0x88, .c6502, .none, M.none, .implied⟩,
   ⟨0xC8, .c6502, .none, M.none, .implied⟩, ⟨0x22, .c6502, .bits8, M.shift, .rotate⟩,
   ⟨0x62, .c6502, .bits8, M.shift, .rotate⟩, ⟨0x40, .c6502, .none, M.none, .implied⟩,
   ⟨0x60, .c6502, .none, M.none ||| M.imm, .rts⟩, ⟨0xE1, .c6502, .acc, M.accum, .all⟩, ⟨0x81, .c6502, .none, M.store, .all⟩,
   ⟨0x9A, .c6502, .none, M.none, .implied⟩, ⟨0xBA, .c6502, .none, M.none, .implied⟩,
   ⟨0x48, .c6502, .none, M.none, .implied⟩, ⟨0x68, .c6502, .none, M.none, .implied⟩,
   ⟨0x08, .c6502, .none, M.none, .implied⟩, ⟨0x28, .c6502, .none, M.none, .implied⟩,
   ⟨0x82, .c6502, .none, M.zp ||| M.abs ||| M.zpY ||| M.absY45, .imm0⟩,
   ⟨0x80, .c6502, .none, M.zp ||| M.abs ||| M.zpX ||| M.absX45, .imm0⟩, ⟨0x0B, .c6502, .bits8, M.imm, .imm0⟩,
   ⟨0x83, .c6502, .bits8, M.zp ||| M.zpY ||| M.indZpX ||| M.abs, .all⟩, ⟨0x6B, .c6502, .bits8, M.imm, .imm0⟩,
   ⟨0x4B, .c6502, .bits8, M.imm, .imm0⟩, ⟨0xAB, .c6502, .bits8, M.imm, .imm0⟩,
   ⟨0x83, .c6502, .bits8, M.absY ||| M.indZpY, .absY7⟩, ⟨0xCB, .c6502, .bits8, M.imm, .imm0⟩,
   ⟨0xC3, .c6502, .bits8, M.modify, .all⟩, ⟨0x00, .c6502, .bits8, M.zp ||| M.zpX ||| M.imm, .dop⟩,
   ⟨0xE3, .c6502, .bits8, M.modify, .all⟩, ⟨0x02, .c6502, .bits8, M.none, .implied⟩, ⟨0xA3, .c6502, .bits8, M.absY, .all⟩,
   ⟨0xA3, .c6502, .bits8, M.zp ||| M.zpY ||| M.abs ||| M.absY ||| M.indZpX ||| M.indZpY, .absY7⟩,
   ⟨0x43, .c6502, .bits8, M.modify, .all⟩, ⟨0x63, .c6502, .bits8, M.modify, .all⟩, ⟨0x03, .c6502, .bits8, M.modify, .all⟩,
   ⟨0x43, .c6502, .bits8, M.modify, .all⟩, ⟨0x82, .c6502, .bits8, M.absY, .absY7⟩, ⟨0x80, .c6502, .bits8, M.absX, .all⟩,
   ⟨0x00, .c6502, .bits8, M.abs ||| M.absX, .all⟩, ⟨0x8B, .c6502, .bits8, M.imm, .imm0⟩,
   ⟨0x83, .c6502, .bits8, M.absY, .all⟩, ⟨0x80, .c65C02, .none, M.abs, .branch⟩, ⟨0x3A, .c65C02, .none, M.none, .implied⟩,
   ⟨0x1A, .c65C02, .none, M.none, .implied⟩, ⟨0xDA, .c65C02, .none, M.none, .implied⟩,
   ⟨0x5A, .c65C02, .none, M.none, .implied⟩, ⟨0xFA, .c65C02, .none, M.none, .implied⟩,
   ⟨0x7A, .c65C02, .none, M.none, .implied⟩, ⟨0x00, .c65C02, .none, M.zp ||| M.zpX ||| M.abs ||| M.absX, .stz⟩,
   ⟨0x10, .c65C02, .none, M.zp ||| M.abs, .all⟩, ⟨0x00, .c65C02, .none, M.zp ||| M.abs, .all⟩,
   ⟨0xDB, .c65C02, .none, M.none, .implied⟩, ⟨0xCB, .c65C02, .none, M.none, .implied⟩,
   ⟨0x0F, .c65C02S, .bits8, M.bitZpAbs, .bitBranch⟩, ⟨0x0F, .c65C02S, .bits8, M.zpAbs, .bitXBranch⟩,
   ⟨0x1F, .c65C02S, .bits8, M.zpAbs, .bitXBranch⟩, ⟨0x2F, .c65C02S, .bits8, M.zpAbs, .bitXBranch⟩,
   ⟨0x3F, .c65C02S, .bits8, M.zpAbs, .bitXBranch⟩, ⟨0x4F, .c65C02S, .bits8, M.zpAbs, .bitXBranch⟩,
   ⟨0x5F, .c65C02S, .bits8, M.zpAbs, .bitXBranch⟩, ⟨0x6F, .c65C02S, .bits8, M.zpAbs, .bitXBranch⟩,
   ⟨0x7F, .c65C02S, .bits8, M.zpAbs, .bitXBranch⟩, ⟨0x8F, .c65C02S, .bits8, M.bitZpAbs, .bitBranch⟩,
   ⟨0x8F, .c65C02S, .bits8, M.zpAbs, .bitXBranch⟩, ⟨0x9F, .c65C02S, .bits8, M.zpAbs, .bitXBranch⟩,
   ⟨0xAF, .c65C02S, .bits8, M.zpAbs, .bitXBranch⟩, ⟨0xBF, .c65C02S, .bits8, M.zpAbs, .bitXBranch⟩,
   ⟨0xCF, .c65C02S, .bits8, M.zpAbs, .bitXBranch⟩, ⟨0xDF, .c65C02S, .bits8, M.zpAbs, .bitXBranch⟩,
   ⟨0xEF, .c65C02S, .bits8, M.zpAbs, .bitXBranch⟩, ⟨0xFF, .c65C02S, .bits8, M.zpAbs, .bitXBranch⟩,
   ⟨0x07, .c65C02S, .bits8, M.bitZp, .bitC02⟩, ⟨0x07, .c65C02S, .bits8, M.zp, .bitXC02⟩,
   ⟨0x17, .c65C02S, .bits8, M.zp, .bitXC02⟩, ⟨0x27, .c65C02S, .bits8, M.zp, .bitXC02⟩,
   ⟨0x37, .c65C02S, .bits8, M.zp, .bitXC02⟩, ⟨0x47, .c65C02S, .bits8, M.zp, .bitXC02⟩,
   ⟨0x57, .c65C02S, .bits8, M.zp, .bitXC02⟩, ⟨0x67, .c65C02S, .bits8, M.zp, .bitXC02⟩,
   ⟨0x77, .c65C02S, .bits8, M.zp, .bitXC02⟩, ⟨0x87, .c65C02S, .bits8, M.bitZp, .bitC02⟩,
   ⟨0x87, .c65C02S, .bits8, M.zp, .bitXC02⟩, ⟨0x97, .c65C02S, .bits8, M.zp, .bitXC02⟩,
   ⟨0xA7, .c65C02S, .bits8, M.zp, .bitXC02⟩, ⟨0xB7, .c65C02S, .bits8, M.zp, .bitXC02⟩,
   ⟨0xC7, .c65C02S, .bits8, M.zp, .bitXC02⟩, ⟨0xD7, .c65C02S, .bits8, M.zp, .bitXC02⟩,
   ⟨0xE7, .c65C02S, .bits8, M.zp, .bitXC02⟩, ⟨0xF7, .c65C02S, .bits8, M.zp, .bitXC02⟩]

/-- What an instruction parser leaves: the items and the rest of the tokens; nothing if it is not an instruction. -/
abbrev Result := Outcome (Option (List Item × Toks))

/-- What the calls of a handler put out, and the rest of the tokens. -/
def finish (am : Am) (rest : Toks) (c : Calls) : Result := c.bind fun
  | none => .ok none
  | some cs => (emit am cs).bind fun items => .ok (some (items, rest))

/-- Reading an operand (`x65_ParseAddressingMode`, and a mode that is allowed) before a handler; anything else is reported. -/
def operand (C : Ctx) (junk : Src → Int) (o : Opts) (allowed : Nat) (imm : Imm) (toks : Toks) : Outcome (Am × Toks) :=
  (addrMode C junk o allowed imm toks).bind fun
    | some (am, rest) => if has am.mode allowed then .ok (am, rest) else .fail
    | none => .fail

/-- `x65_HandleToken` (xasm/6502/x65_parse_instr.c 728-746); all modes are allowed by the caller. -/
def handleToken (C : Ctx) (junk : Src → Int) (o : Opts) (i : Nat) (toks : Toks) : Result :=
  match table[i]? with
  | none => .ub
  | some p =>
    if p.cpu.includes o.cpu then
      (operand C junk o (p.modes &&& o.allowed) p.imm toks).bind fun (am, rest) =>
        finish am rest (p.handler.run o (am.e.bind C.known) p.base am.mode)
    else .fail

/-- `x65_ParseIntegerInstruction` (xasm/6502/x65_parse_instr.c 748-757). -/
def integer (C : Ctx) (junk : Src → Int) (o : Opts) : Toks → Result
  | .other n :: toks => if T.adc.num ≤ n ∧ n ≤ T.smb7.num then handleToken C junk o (n - T.adc.num) toks else .ok none
  | _ => .ok none

/-! ### The 65C816 -/

/-- The handlers of the 65C816. -/
inductive Handler816 where
  | pcRel | cop | jump | move | standard | implicit
  deriving DecidableEq

/-- What they do (xasm/6502/x65_parse_instr_65816.c 40-89). -/
def Handler816.run (base mode : Nat) : Handler816 → Calls
  | .pcRel => op base [.rel16 .e]
  | .cop => op base [.u8 .e]
  | .jump => .ok (some [.long base])
  | .move => op base [.raw8 .e, .raw8 .e2]
  | .standard =>
    if mode = M.imm then op base [.s8 .e]
    else if mode = M.abs ∨ mode = M.indAbs then op base [.u16 .e]
    else .ok none
  | .implicit => op base []

/-- `SParser` (xasm/6502/x65_parse_instr_65816.c 33-38). -/
structure Entry816 where
  base : Nat
  modes : Nat
  imm : Imm
  handler : Handler816

/-- `g_instructionHandlers` (xasm/6502/x65_parse_instr_65816.c 91-118). -/
def table816 : List Entry816 :=
  [⟨0x82, M.abs, .none, .pcRel⟩, ⟨0x02, M.imm, .bits8, .cop⟩, ⟨0x5C, M.abs, .none, .jump⟩, ⟨0x22, M.abs, .none, .jump⟩,
   ⟨0x54, M.immImm, .bits8, .move⟩, ⟨0x44, M.immImm, .bits8, .move⟩, ⟨0xF4, M.abs, .none, .standard⟩,
   ⟨0xD4, M.indAbs, .none, .standard⟩, ⟨0x62, M.abs, .none, .pcRel⟩, ⟨0x8B, M.none, .none, .implicit⟩,
   ⟨0x0B, M.none, .none, .implicit⟩, ⟨0x4B, M.none, .none, .implicit⟩, ⟨0xAB, M.none, .none, .implicit⟩,
   ⟨0x2B, M.none, .none, .implicit⟩, ⟨0xC2, M.imm, .bits8, .standard⟩, ⟨0x6B, M.none, .none, .implicit⟩,
   ⟨0xE2, M.imm, .bits8, .standard⟩, ⟨0x5B, M.none, .none, .implicit⟩, ⟨0x1B, M.none, .none, .implicit⟩,
   ⟨0x7B, M.none, .none, .implicit⟩, ⟨0x3B, M.none, .none, .implicit⟩, ⟨0x9B, M.none, .none, .implicit⟩,
   ⟨0xBB, M.none, .none, .implicit⟩, ⟨0x42, M.none, .none, .implicit⟩, ⟨0xEB, M.none, .none, .implicit⟩,
   ⟨0xFB, M.none, .none, .implicit⟩]

/-- `x65_Parse65816Instruction` (xasm/6502/x65_parse_instr_65816.c 120-139). -/
def instr816 (C : Ctx) (junk : Src → Int) (o : Opts) : Toks → Result
  | .other n :: toks =>
    if T.brl.num ≤ n ∧ n ≤ T.xce.num then
      if o.cpu = .c65816 then
        match table816[n - T.brl.num]? with
        | none => .ub
        | some p => (operand C junk o p.modes p.imm toks).bind fun (am, rest) =>
          finish am rest (p.handler.run p.base am.mode)
      else .fail
    else .ok none
  | _ => .ok none

/-! ### The 4510 and the 45GS02 -/

/-- The handlers of the 4510. -/
inductive Handler4510 where
  | implicit | asr | asw | ldz | cpz | inwDew | phw | row | longBranch
  deriving DecidableEq

/-- What they do (xasm/6502/x65_parse_instr_4510.c 48-187). An assertion that does not hold is undefined. -/
def Handler4510.run (base mode : Nat) : Handler4510 → Calls
  | .implicit => op base []
  | .asr =>
    if mode = M.a ∨ mode = M.q then op base []
    else if mode = M.zp then op (base + 0x01) [.u8 .e]
    else if mode = M.zpX then op (base + 0x11) [.u8 .e]
    else .ub
  | .asw => if mode = M.abs then op base [.u16 .e] else .ub
  | .ldz =>
    if mode = M.imm then op base [.su8 .e]
    else if mode = M.abs then op (base ||| 0x08) [.u16 .e]
    else if mode = M.absX then op (base ||| 0x18) [.u16 .e]
    else .ub
  | .cpz =>
    if mode = M.imm then op base [.su8 .e]
    else if mode = M.zp then op 0xD4 [.su8 .e]
    else if mode = M.abs then op 0xDC [.u16 .e]
    else .ub
  | .inwDew => if mode = M.zp then op base [.u8 .e] else .ub
  | .phw =>
    if mode = M.imm then op base [.u16 .e]
    else if mode = M.abs then op (base ||| 0x08) [.u16 .e]
    else .ub
  | .row => if mode = M.abs then op base [.u16 .e] else .ub
  | .longBranch => op base [.lrel16 .e]

/-- `SParser` (xasm/6502/x65_parse_instr_4510.c 36-41). -/
structure Entry4510 where
  base : Nat
  modes : Nat
  imm : Imm
  handler : Handler4510

/-- `g_instructionHandlers` (xasm/6502/x65_parse_instr_4510.c 238-271). -/
def table4510 : List Entry4510 :=
  [⟨0x43, M.a ||| M.zp ||| M.zpX, .none, .asr⟩, ⟨0xCB, M.abs, .none, .asw⟩, ⟨0x63, M.abs, .none, .longBranch⟩,
   ⟨0x02, M.none, .none, .implicit⟩, ⟨0xC2, M.imm ||| M.zp ||| M.abs, .bits8, .cpz⟩, ⟨0xC3, M.zp, .none, .inwDew⟩,
   ⟨0x3B, M.none, .none, .implicit⟩, ⟨0xE3, M.zp, .none, .inwDew⟩, ⟨0x1B, M.none, .none, .implicit⟩,
   ⟨0x93, M.abs, .none, .longBranch⟩, ⟨0xB3, M.abs, .none, .longBranch⟩, ⟨0xF3, M.abs, .none, .longBranch⟩,
   ⟨0x33, M.abs, .none, .longBranch⟩, ⟨0xD3, M.abs, .none, .longBranch⟩, ⟨0x13, M.abs, .none, .longBranch⟩,
   ⟨0x83, M.abs, .none, .longBranch⟩, ⟨0x53, M.abs, .none, .longBranch⟩, ⟨0x73, M.abs, .none, .longBranch⟩,
   ⟨0xA3, M.imm ||| M.abs ||| M.absX, .none, .ldz⟩, ⟨0x5C, M.none, .none, .implicit⟩, ⟨0x42, M.none, .none, .implicit⟩,
   ⟨0xF4, M.imm ||| M.abs, .bits16, .phw⟩, ⟨0xDB, M.none, .none, .implicit⟩, ⟨0xFB, M.none, .none, .implicit⟩,
   ⟨0xEB, M.abs, .none, .row⟩, ⟨0x03, M.none, .none, .implicit⟩, ⟨0x5B, M.none, .none, .implicit⟩,
   ⟨0x4B, M.none, .none, .implicit⟩, ⟨0x7B, M.none, .none, .implicit⟩, ⟨0x0B, M.none, .none, .implicit⟩,
   ⟨0x2B, M.none, .none, .implicit⟩, ⟨0x6B, M.none, .none, .implicit⟩]

/-- `g_qMnemonics` (xasm/6502/x65_parse_instr_4510.c 273-290). -/
def tableQ : List (Nat × T) :=
  [(M.zp ||| M.abs ||| M.indZp ||| M.indZpQuad, .adc), (M.zp ||| M.abs ||| M.indZp ||| M.indZpQuad, .and),
   (M.imm ||| M.q ||| M.zp ||| M.abs ||| M.zpX ||| M.absX, .asl), (M.imm ||| M.q ||| M.zp ||| M.zpX, .asr),
   (M.zp ||| M.abs, .bit), (M.zp ||| M.abs ||| M.indZp ||| M.indZpQuad, .cmp),
   (M.q ||| M.zp ||| M.abs ||| M.zpX ||| M.absX, .dec), (M.zp ||| M.abs ||| M.indZp ||| M.indZpQuad, .eor),
   (M.q ||| M.zp ||| M.abs ||| M.zpX ||| M.absX, .inc), (M.imm ||| M.zp ||| M.abs ||| M.indZpZ ||| M.indZpZQuad, .lda),
   (M.imm ||| M.q ||| M.zp ||| M.abs ||| M.zpX ||| M.absX, .lsr), (M.zp ||| M.abs ||| M.indZp ||| M.indZpQuad, .ora),
   (M.imm ||| M.q ||| M.zp ||| M.abs ||| M.zpX ||| M.absX, .rol),
   (M.imm ||| M.q ||| M.zp ||| M.abs ||| M.zpX ||| M.absX, .ror), (M.zp ||| M.abs ||| M.indZp ||| M.indZpQuad, .sbc),
   (M.zp ||| M.abs ||| M.indZp ||| M.indZpQuad, .sta)]

/-- `handle_LDQImm` (xasm/6502/x65_parse_instr_4510.c 189-236). -/
def ldqImm (o : Opts) (known : Option Int) : Calls :=
  if o.synthesized then
    match known with
    | some v =>
      let b (n : Nat) : Nat := Expr.u32 v / 256 ^ n % 256
      .ok (some ([.const 0xA9, .const (b 0)] ++
        (if b 0 = b 1 then [.const 0xAA] else [.const 0xA2, .const (b 1)]) ++
        (if b 0 = b 2 then [.const 0xA8] else [.const 0xA0, .const (b 2)]) ++
        (if b 0 = b 3 then [.const 0x4B] else [.const 0xA3, .const (b 3)])))
    | none => .ok (some [.const 0xA9, .byte 0, .const 0xA2, .byte 8, .const 0xA0, .byte 16, .const 0xA3, .byte 24])
  else .fail

/-- Calls behind the prefix of the instructions with four bytes. -/
def quad (c : Calls) : Calls := c.bind fun cs => .ok (cs.map fun cs => .const 0x42 :: .const 0x42 :: cs)

/-- The same instruction several times. -/
def times (n : Nat) (c : Calls) : Calls := c.bind fun cs => .ok (cs.map fun cs => (List.replicate n cs).flatten)

/-- The instructions with four bytes behind the mnemonic (xasm/6502/x65_parse_instr_4510.c 307-378). -/
def instrQ (C : Ctx) (junk : Src → Int) (o : Opts) (t : Nat) (toks : Toks) : Result :=
  match tableQ[t - T.adcq.num]? with
  | none => .ub
  | some (modes, base) =>
    if T.asr.num ≤ base.num ∧ base.num ≤ T.tza.num then
      match table4510[base.num - T.asr.num]? with
      | none => .ub
      | some p => (operand C junk o modes p.imm toks).bind fun (am, rest) =>
        match decide (base = .asr ∧ am.mode = M.imm ∧ o.synthesized), am.e.bind C.known with
        | true, some n => finish am rest (times (Expr.u32 n) (quad (p.handler.run p.base M.q)))
        | _, _ => finish am rest (quad (p.handler.run p.base am.mode))
    else
      match table[base.num - T.adc.num]? with
      | none => .ub
      | some p => (operand C junk o modes (if t = T.ldq.num then .bits32 else .none) toks).bind fun (am, rest) =>
        let mode := if am.mode = M.indZpQuad then M.indZpZQuad else if am.mode = M.q then M.a else am.mode
        let known := am.e.bind C.known
        if p.cpu.includes o.cpu then
          match decide (base ∈ [.asl, .lsr, .rol, .ror] ∧ mode = M.imm ∧ o.synthesized), known with
          | true, some n => finish am rest (times (Expr.u32 n) (quad (p.handler.run o none p.base M.a)))
          | _, _ =>
            if t = T.ldq.num ∧ mode = M.imm then finish am rest (ldqImm o known)
            else finish am rest (quad (p.handler.run o known p.base mode))
        else .fail

/-- `x65_Parse4510Instruction`, `x65_Handle4510Instruction` (xasm/6502/x65_parse_instr_4510.c 292-394). -/
def instr4510 (C : Ctx) (junk : Src → Int) (o : Opts) : Toks → Result
  | .other n :: toks =>
    if T.asr.num ≤ n ∧ n ≤ T.tza.num then
      if o.cpu.is4510 then
        match table4510[n - T.asr.num]? with
        | none => .ub
        | some p => (operand C junk o p.modes p.imm toks).bind fun (am, rest) =>
          finish am rest (p.handler.run p.base am.mode)
      else .fail
    else if T.adcq.num ≤ n ∧ n ≤ T.stq.num then
      if o.cpu = .c45GS02 then instrQ C junk o n toks else .fail
    else .ok none
  | _ => .ok none

/-- `x65_ParseInstruction` (xasm/6502/x65_parse.c 94-124) up to the directives. A parser that returns `false` behind the
mnemonic leaves it to the next one; the model goes back to the mnemonic then, which no other parser takes. -/
def instr (C : Ctx) (junk : Src → Int) (o : Opts) (toks : Toks) : Result :=
  (integer C junk o toks).bind fun
    | some r => .ok (some r)
    | none => (instr816 C junk o toks).bind fun
      | some r => .ok (some r)
      | none => instr4510 C junk o toks

end Verif.Cpu.X65
