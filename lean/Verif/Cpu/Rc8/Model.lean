import Verif.Cpu.Common
/-!
# Instructions of the RC8
-/
namespace Verif.Cpu.Rc8

open Verif.Parse (Tok Toks)
open Verif.Expr (Src)

/-- `ETargetToken` (xasm/rc8/rc8_tokens.h 22-96), in the order of the enumeration. -/
inductive T where
  | add | and | cmp | di | dj | ei | exg | ext | j | jal | lco | lcr | ld | lio | ls | neg | nop | not | or | pick | pop | popa
  | push | pusha | reti | rs | rsa | sub | swap | swapa | sys | tst | xor
  | f | t | b | c | d | e | h | l | ft | bc | de | hl | indC
  | indFt | indBc | indDe | indHl | incFt | incBc | incDe | incHl | decFt | decBc | decDe | decHl
  | le | gt | lt | ge | leu | gtu | ltu | geu | eq | ne
  deriving DecidableEq

/-- The numbers of the tokens: `T_RC8_ADD` is 6000 (xasm/rc8/rc8_tokens.h 23). -/
def T.num (t : T) : Nat := 6000 + t.ctorIdx

/-- `g_tokens` (xasm/rc8/rc8_tokens.c 24-102). -/
def words : List (String × T) :=
  [("ADD", .add), ("AND", .and), ("CMP", .cmp), ("DI", .di), ("DJ", .dj), ("EI", .ei), ("EXG", .exg), ("EXT", .ext), ("J", .j),
   ("JAL", .jal), ("LCO", .lco), ("LCR", .lcr), ("LD", .ld), ("LIO", .lio), ("LS", .ls), ("NEG", .neg), ("NOP", .nop), ("NOT", .not),
   ("OR", .or), ("PICK", .pick), ("POP", .pop), ("POPA", .popa), ("PUSH", .push), ("PUSHA", .pusha), ("RETI", .reti), ("RS", .rs),
   ("RSA", .rsa), ("SUB", .sub), ("SWAP", .swap), ("SWAPA", .swapa), ("SYS", .sys), ("TST", .tst), ("XOR", .xor),
   ("F", .f), ("T", .t), ("B", .b), ("C", .c), ("D", .d), ("E", .e), ("H", .h), ("L", .l),
   ("FT", .ft), ("BC", .bc), ("DE", .de), ("HL", .hl), ("(C)", .indC),
   ("(FT)", .indFt), ("(BC)", .indBc), ("(DE)", .indDe), ("(HL)", .indHl),
   ("(FT+)", .incFt), ("(BC+)", .incBc), ("(DE+)", .incDe), ("(HL+)", .incHl),
   ("(-FT)", .decFt), ("(-BC)", .decBc), ("(-DE)", .decDe), ("(-HL)", .decHl),
   ("EQ", .eq), ("NE", .ne), ("LE", .le), ("GT", .gt), ("LT", .lt), ("GE", .ge), ("LEU", .leu), ("GTU", .gtu), ("LTU", .ltu),
   ("GEU", .geu), ("Z", .eq), ("NZ", .ne), ("NC", .geu)]

/-- The token of a word: the lexer looks it up in `g_tokens`; other words are names. -/
def tok (w : String) : Tok :=
  match words.find? (·.1 == w) with
  | some p => .other p.2.num
  | none => .sym w.toList

/-- `MODE_REG_F` and so on (xasm/rc8/rc8_parse_instr.c 35-70). -/
abbrev mF : Nat := 0x1
abbrev mT : Nat := 0x2
abbrev mFT : Nat := 0x100
abbrev mHL : Nat := 0x800
abbrev mIndFT : Nat := 0x1000
abbrev mIncFT : Nat := 0x10000
abbrev mInc : Nat := 0x20000
abbrev mDecFT : Nat := 0x40000
abbrev mDec : Nat := 0x80000
abbrev mIndC : Nat := 0x100000
abbrev mImm : Nat := 0x200000
abbrev mAddr : Nat := 0x400000
abbrev mMask : Nat := 0x800000
abbrev mNone : Nat := 0x1000000
abbrev m8 : Nat := 0xFF
abbrev m8notT : Nat := 0xFD
abbrev m8rest : Nat := 0xFC
abbrev m16 : Nat := 0xF00
abbrev m16rest : Nat := 0xE00
abbrev mInd : Nat := 0xF000
abbrev mIndRest : Nat := 0xE000
abbrev mIncDec : Nat := 0xF0000

/-- The test of bits of a mode, `mode & bits`. -/
def has (mode bits : Nat) : Bool := mode &&& bits != 0

/-- `SAddressingMode` (xasm/rc8/rc8_parse_instr.c 93-97). What is not assigned is zero or null here; it is not used. -/
structure Am where
  mode : Nat
  reg : Nat
  expr : Option Src
  deriving DecidableEq

def noMode : Am := ⟨mNone, 0, none⟩

/-- `handle_OpcodeRegister` (xasm/rc8/rc8_parse_instr.c 124-128). -/
def opReg (base : Nat) (a : Am) : Item := .const 1 (base ||| a.reg)

/-- `sect_OutputConst8` with an opcode or a number (xasm/motor/section.c 207-230); `-1` becomes 255. -/
def byte (n : Nat) : Item := .const 1 n

/-- `expr_CheckRange`, `expr_And` in `handle_Op_Reg_Imm` (xasm/rc8/rc8_parse_instr.c 131-151). -/
def imm (lo hi : Int) (s : Src) : Item := .expr 1 (.bin .and (checkRange s lo hi) (.num 0xFF))

/-- `handle_Op_Reg_Imm` (xasm/rc8/rc8_parse_instr.c 130-154). A null pointer is a fatal error (xasm/motor/expression.c 118-127). -/
def opImm (base : Nat) (lo hi : Int) (a : Option Am) (e : Option Src) : Outcome (List Item) :=
  match e with
  | none => .fail
  | some s => .ok [match a with | none => byte base | some a => opReg base a, imm lo hi s]

/-- `registerPair` (xasm/rc8/rc8_parse_instr.c 156-163): the registers of the high and of the low byte. -/
def highOf (a : Am) : Am := ⟨mF <<< (a.reg * 2), a.reg * 2, none⟩
def lowOf (a : Am) : Am := ⟨mT <<< (a.reg * 2), a.reg * 2 + 1, none⟩

/-- `ensureSource` (xasm/rc8/rc8_parse_instr.c 180-190): the destination and the source. -/
def ensureSource (d s : Am) : Am × Am := if s.mode = mNone then (s, d) else (d, s)

/-- `handle_LongLoad` (xasm/rc8/rc8_parse_instr.c 192-364). An opcode of 0xFF stands for a load that does not exist. The option
for synthesized instructions is on: nothing switches it off (xasm/rc8/rc8_options.c 39-55). -/
def longLoad (ldT stT ldR stR : Nat) (d s : Am) : Outcome (List Item) :=
  if ldT ≠ 0xFF ∧ d.mode = mFT ∧ has s.mode mIndRest then
    .ok [opReg ldT s, opReg 0xBC s, byte 1, byte 0x10, opReg ldT s, opReg 0xBC s, byte 255, byte 0x10]
  else if stT ≠ 0xFF ∧ has d.mode mIndRest ∧ s.mode = mFT then
    .ok [opReg stT d, opReg 0xBC d, byte 1, byte 0x10, opReg stT d, opReg 0xBC d, byte 255, byte 0x10]
  else if ldT ≠ 0xFF ∧ d.mode = mFT ∧ has s.mode mInc then
    .ok [opReg ldT s, opReg 0xBC s, byte 1, byte 0x10, opReg ldT s, byte 0x10]
  else if ldT ≠ 0xFF ∧ d.mode = mT ∧ has s.mode mInc then
    .ok [opReg ldT s, opReg 0xBC s, byte 1]
  else if stT ≠ 0xFF ∧ has d.mode mInc ∧ s.mode = mFT then
    .ok [opReg stT d, opReg 0xBC d, byte 1, byte 0x10, opReg stT d, byte 0x10]
  else if stT ≠ 0xFF ∧ has d.mode mInc ∧ s.mode = mT then
    .ok [opReg stT d, opReg 0xBC d, byte 1]
  else if ldT ≠ 0xFF ∧ d.mode = mFT ∧ has s.mode mDec then
    .ok [opReg ldT s, opReg 0xBC s, byte 255, byte 0x10, opReg ldT s]
  else if ldT ≠ 0xFF ∧ d.mode = mT ∧ has s.mode mDec then
    .ok [opReg 0xBC s, byte 255, opReg ldT s]
  else if stT ≠ 0xFF ∧ has d.mode mDec ∧ s.mode = mFT then
    .ok [byte 0x10, opReg stT d, opReg 0xBC d, byte 255, byte 0x10, opReg stT d]
  else if stT ≠ 0xFF ∧ has d.mode mDec ∧ s.mode = mT then
    .ok [opReg 0xBC d, byte 255, opReg stT d]
  else if ldR ≠ 0xFF ∧ has d.mode m16rest ∧ s.mode = mIndFT then
    .ok [opReg ldR (lowOf d), opReg 0xBC s, byte 1, opReg ldR (highOf d), opReg 0xBC s, byte 255]
  else if stR ≠ 0xFF ∧ d.mode = mIndFT ∧ has s.mode m16rest then
    .ok [opReg stR (lowOf s), opReg 0xBC d, byte 1, opReg stR (highOf s), opReg 0xBC d, byte 255]
  else if ldR ≠ 0xFF ∧ has d.mode m16rest ∧ s.mode = mIncFT then
    .ok [opReg ldR (lowOf d), opReg 0xBC s, byte 1, opReg ldR (highOf d)]
  else if ldR ≠ 0xFF ∧ has d.mode m8notT ∧ s.mode = mIncFT then
    .ok [opReg ldR d, opReg 0xBC s, byte 1]
  else if stR ≠ 0xFF ∧ d.mode = mIncFT ∧ has s.mode m16rest then
    .ok [opReg stR (lowOf s), opReg 0xBC d, byte 1, opReg stR (highOf s)]
  else if stR ≠ 0xFF ∧ d.mode = mIncFT ∧ has s.mode m8notT then
    .ok [opReg stR s, opReg 0xBC d, byte 1]
  else if ldR ≠ 0xFF ∧ has d.mode m16rest ∧ s.mode = mDecFT then
    .ok [opReg ldR (highOf d), opReg 0xBC s, byte 255, opReg ldR (lowOf d)]
  else if ldR ≠ 0xFF ∧ has d.mode m8notT ∧ s.mode = mDecFT then
    .ok [opReg 0xBC s, byte 255, opReg ldR d]
  else if stR ≠ 0xFF ∧ d.mode = mDecFT ∧ has s.mode m16rest then
    .ok [opReg stR (highOf s), opReg 0xBC d, byte 255, opReg stR (lowOf s)]
  else if stR ≠ 0xFF ∧ d.mode = mDecFT ∧ has s.mode m8notT then
    .ok [opReg 0xBC d, byte 255, opReg stR s]
  else .fail

/-- The lower 16 bits with their sign (xasm/rc8/rc8_parse_instr.c 380). -/
def word (s : Src) : Src := .bin .asr (.bin .asl (checkRange s (-32768) 65535) (.num 16)) (.num 16)

/-- The parts that are added to the pair and to its high register (xasm/rc8/rc8_parse_instr.c 391-393). -/
def lowPart (w : Src) : Src := .bin .asr (.bin .asl w (.num 24)) (.num 24)
def highPart (w : Src) : Src := .bin .sub (.bin .asr w (.num 8)) (.bin .asr (lowPart w) (.num 8))

/-- Whether a word is known to fit a signed byte (xasm/rc8/rc8_parse_instr.c 381). -/
def fitsByte (s w : Option Int) : Bool :=
  match s, w with
  | some _, some v => decide (-128 ≤ v ∧ v ≤ 127)
  | _, _ => false

/-- The addition of a number to a register pair (xasm/rc8/rc8_parse_instr.c 379-403). -/
def addWord (C : Ctx) (d : Am) (s : Src) : Outcome (List Item) :=
  let w := word s
  if fitsByte (C.known s) (C.known w) then .ok [opReg 0xBC d, imm (-128) 127 w]
  else .ok ((if C.known (lowPart w) = some 0 then [] else [opReg 0xBC d, imm (-128) 127 (lowPart w)]) ++
    (if C.known (highPart w) = some 0 then [] else [opReg 0xA0 (highOf d), imm (-128) 127 (highPart w)]))

/-- `handle_ADD` behind `ensureSource` (xasm/rc8/rc8_parse_instr.c 370-406). -/
def addTo (C : Ctx) (d s : Am) : Outcome (List Item) :=
  if has d.mode (mT ||| mNone) ∧ has s.mode m8 then .ok [opReg 0x40 s]
  else if has d.mode (mFT ||| mNone) ∧ has s.mode m16 then
    if d.mode = mFT ∧ s.mode = mFT then .fail else .ok [opReg 0xF4 s]
  else if has d.mode m8 ∧ has s.mode mImm then opImm 0xA0 (-128) 255 (some d) s.expr
  else if has d.mode m16 ∧ has s.mode mImm then
    match s.expr with
    | none => .fail
    | some e => addWord C d e
  else .fail

/-- `handle_ADD` (xasm/rc8/rc8_parse_instr.c 366-406). -/
def add (C : Ctx) (m1 m2 : Am) : Outcome (List Item) :=
  let (d, s) := ensureSource m1 m2
  addTo C d s

/-- `handle_Bitwise` (xasm/rc8/rc8_parse_instr.c 408-426). The warnings are left out. -/
def bitwise (base : Nat) (m1 m2 : Am) : Outcome (List Item) :=
  let (d, s) := ensureSource m1 m2
  if has s.mode m8notT ∧ has d.mode (mNone ||| mT) then .ok [opReg base s]
  else if has s.mode mImm ∧ has d.mode (mNone ||| mT) then
    opImm (0xB0 + ((base >>> 3) &&& 3)) (-128) 255 none s.expr
  else .fail

/-- `handle_EXG` (xasm/rc8/rc8_parse_instr.c 428-455). -/
def exg (base : Nat) (m1 m2 : Am) : Outcome (List Item) :=
  let (d, s) := ensureSource m1 m2
  if has d.mode m8notT ∧ has s.mode mT then .ok [opReg base d]
  else if has s.mode m8notT ∧ has d.mode (mNone ||| mT) then .ok [opReg base s]
  else if has s.mode m8notT ∧ has d.mode m8notT then .ok [opReg base s, opReg base d, opReg base s]
  else if has d.mode m16rest ∧ has s.mode mFT then .ok [opReg 0xC8 d]
  else if has s.mode m16rest ∧ has d.mode (mNone ||| mFT) then .ok [opReg 0xC8 s]
  else if has s.mode m16rest ∧ has d.mode m16rest then .ok [opReg 0xC8 s, opReg 0xC8 d, opReg 0xC8 s]
  else .fail

/-- `handle_JumpRelative` (xasm/rc8/rc8_parse_instr.c 463-473). -/
def jumpRel (opcode : Nat) (e : Option Src) : Outcome (List Item) :=
  match e with
  | none => .fail
  | some s => .ok [byte opcode, .expr 1 (checkRange (.pcRel 0 s) (-128) 127)]

/-- `CC_ALWAYS` (xasm/rc8/rc8_parse_instr.c 72-86). -/
abbrev always : Nat := 10

/-- `invertCondition` (xasm/rc8/rc8_parse_instr.c 116-122). -/
def invert (cc : Nat) : Nat := if cc = always then always else cc ^^^ 1

/-- `handle_J` (xasm/rc8/rc8_parse_instr.c 485-504). -/
def jump (base cc : Nat) (d s : Am) : Outcome (List Item) :=
  if d.mode = mAddr ∧ s.mode = mNone then jumpRel (0x90 + cc) d.expr
  else if has d.mode mInd ∧ s.mode = mNone then
    .ok ((if cc ≠ always then [byte (0x90 + invert cc), byte 2] else []) ++ [opReg base d])
  else .fail

/-- `handle_LCO` (xasm/rc8/rc8_parse_instr.c 506-512). -/
def lco (base : Nat) (d s : Am) : Outcome (List Item) :=
  if has s.mode mIncDec then longLoad 0x0C 0xFF 0xFF 0xFF d s else .ok [opReg base s]

/-- `handle_LCR` (xasm/rc8/rc8_parse_instr.c 514-522). -/
def lcr (base : Nat) (d s : Am) : Outcome (List Item) :=
  if d.mode = mIndC ∧ s.mode = mT then .ok [byte base]
  else if d.mode = mT ∧ s.mode = mIndC then .ok [byte (base + 1)]
  else .fail

/-- `handle_LD_R16_3bytes`, `handle_LD_R16_4bytes`, `handle_LD_R8_const` (xasm/rc8/rc8_parse_instr.c 524-555). -/
def loadConst (d : Am) (high low : Nat) : List Item :=
  if (highOf d).reg = 0 ∧ (lowOf d).reg = 1 ∧ ((high = 0xFF ∧ low &&& 0x80 ≠ 0) ∨ (high = 0 ∧ low &&& 0x80 = 0)) then
    [opReg 0x80 (lowOf d), byte low, byte 0x49]
  else if (highOf d).reg = 0 ∧ (lowOf d).reg = 1 ∧ high = low then
    [opReg 0x80 (lowOf d), byte low, byte 0x78]
  else [opReg 0x80 (highOf d), byte high, opReg 0x80 (lowOf d), byte low]

/-- `handle_LD_R16_imm` (xasm/rc8/rc8_parse_instr.c 557-588). -/
def loadImm (C : Ctx) (d : Am) (e : Option Src) : Outcome (List Item) :=
  match e with
  | none => .fail
  | some s =>
    let m := checkRange s (-32768) 65535
    match C.known m with
    | some v => .ok (loadConst d ((v % 65536).toNat >>> 8) ((v % 65536).toNat &&& 0xFF))
    | none => .ok [opReg 0x80 (highOf d), imm 0 255 (.bin .asr m (.num 8)),
        opReg 0x80 (lowOf d), imm 0 255 (.bin .and m (.num 0xFF))]

/-- `handle_LD` (xasm/rc8/rc8_parse_instr.c 590-616). -/
def ld (C : Ctx) (d s : Am) : Outcome (List Item) :=
  if has d.mode m8 ∧ s.mode = mImm then opImm 0x80 (-128) 255 (some d) s.expr
  else if has d.mode m16 ∧ s.mode = mImm then loadImm C d s.expr
  else if has d.mode mIndRest ∧ s.mode = mT then .ok [opReg 0x00 d]
  else if d.mode = mIndFT ∧ has s.mode m8rest then .ok [opReg 0x20 s]
  else if d.mode = mT ∧ has s.mode mInd then .ok [opReg 0x04 s]
  else if has d.mode m8notT ∧ s.mode = mIndFT then .ok [opReg 0x28 d]
  else if has d.mode m8notT ∧ s.mode = mT then .ok [opReg 0x78 d]
  else if d.mode = mT ∧ has s.mode m8notT then .ok [opReg 0x58 s]
  else if has d.mode m16rest ∧ s.mode = mFT then .ok [opReg 0xD0 d]
  else if d.mode = mFT ∧ has s.mode m16rest then .ok [opReg 0xD8 s]
  else longLoad 0x04 0x00 0x28 0x20 d s

/-- `handle_JAL` (xasm/rc8/rc8_parse_instr.c 618-631). -/
def jal (C : Ctx) (base : Nat) (d : Am) : Outcome (List Item) :=
  if d.mode = mAddr then (loadImm C ⟨mHL, 3, none⟩ d.expr).bind fun is => .ok (is ++ [byte (base + 3)])
  else if has d.mode mInd then .ok [opReg base d]
  else .fail

/-- `handle_LIO` (xasm/rc8/rc8_parse_instr.c 633-643). -/
def lio (base : Nat) (d s : Am) : Outcome (List Item) :=
  if has s.mode mIncDec ∨ has d.mode mIncDec then longLoad 0x34 0x31 0xFF 0xFF d s
  else if has d.mode mIndRest ∧ s.mode = mT then .ok [opReg base d]
  else if d.mode = mT ∧ has s.mode mInd then .ok [opReg (base + 4) s]
  else .fail

/-- `bitsSet4` (xasm/rc8/rc8_parse_instr.c 645-659). -/
def bitsSet (v : Nat) : Nat := ((v &&& 3 &&& 2) >>> 1) + (v &&& 3 &&& 1) + (((v >>> 2) &&& 2) >>> 1) + ((v >>> 2) &&& 1)

/-- `outputStackOps` (xasm/rc8/rc8_parse_instr.c 661-670), for the four bits that a mask has. -/
def stackOps (base mask : Nat) : List Item :=
  ((List.range 4).filter fun i => has (mask >>> i) 1).map fun i => byte (base + i)

/-- `handle_RegisterStack` (xasm/rc8/rc8_parse_instr.c 672-706). The assertion is undefined here. -/
def stack (base : Nat) (d : Am) : Outcome (List Item) :=
  if d.mode = mMask then
    let isPop := base = 0xC4
    let isSwap := base = 0xDC
    let all := if isSwap then 0xCC else if isPop then 0xF9 else 0xF8
    let opposite := if isSwap then base else base ^^^ 4
    match bitsSet d.reg with
    | 4 => .ok [byte all]
    | 3 => .ok (if isPop then stackOps opposite (d.reg ^^^ 0xF) ++ [byte all] else byte all :: stackOps opposite (d.reg ^^^ 0xF))
    | 2 => .ok (stackOps base d.reg)
    | _ => .ub
  else .ok [opReg base d]

/-- `handle_PICK` (xasm/rc8/rc8_parse_instr.c 708-721). -/
def pick (base : Nat) (d s : Am) : Outcome (List Item) :=
  if s.mode = mImm then
    match s.expr with
    | none => .fail
    | some e => .ok [opReg 0x80 (lowOf d), .expr 1 (checkRange e 0 255), opReg base d]
  else .ok [opReg base d]

/-- `handle_Shift` (xasm/rc8/rc8_parse_instr.c 723-742). A constant that is out of range is an error in any case. -/
def shift (base : Nat) (m1 m2 : Am) : Outcome (List Item) :=
  let (d, s) := ensureSource m1 m2
  if has d.mode (mFT ||| mNone) ∧ has s.mode m8rest then .ok [opReg base s]
  else if has d.mode (mFT ||| mNone) ∧ has s.mode mImm then
    match s.expr with
    | none => .fail
    | some e => .ok [byte (0xB8 + ((base >>> 3) &&& 3)), .expr 1 (checkRange e 0 15)]
  else .fail

/-- `handle_CMP` (xasm/rc8/rc8_parse_instr.c 744-759). -/
def cmp (m1 m2 : Am) : Outcome (List Item) :=
  let (d, s) := ensureSource m1 m2
  if has d.mode m8 ∧ has s.mode mImm then
    match s.expr with
    | none => .fail
    | some e => .ok [opReg 0xA8 d, .expr 1 e]
  else if has d.mode (mT ||| mNone) ∧ has s.mode m8notT then .ok [opReg 0x48 s]
  else if has d.mode (mFT ||| mNone) ∧ has s.mode m16rest then .ok [opReg 0xCC s]
  else .fail

/-- `handle_NOT` (xasm/rc8/rc8_parse_instr.c 761-781). -/
def not (base : Nat) (d : Am) : Outcome (List Item) :=
  if has d.mode mT then .ok [byte 0xB2, byte 0xFF]
  else if has d.mode mFT then .ok [byte 0xB2, byte 0xFF, byte base]
  else if has d.mode mF then .ok [byte base]
  else .ok []

/-- `handle_NEG` (xasm/rc8/rc8_parse_instr.c 788-796). -/
def neg (base : Nat) (d : Am) : Outcome (List Item) := .ok [byte (if has d.mode m16 then 0xF0 else base)]

/-- `handle_SYS` (xasm/rc8/rc8_parse_instr.c 798-803). -/
def sys (base : Nat) (d : Am) : Outcome (List Item) :=
  match d.expr with
  | none => .fail
  | some e => .ok [byte base, .expr 1 e]

/-- `handle_SUB` (xasm/rc8/rc8_parse_instr.c 805-821). -/
def sub (C : Ctx) (m1 m2 : Am) : Outcome (List Item) :=
  let (d, s) := ensureSource m1 m2
  if has s.mode m8 ∧ has d.mode (mNone ||| mT) then .ok [opReg 0x50 s]
  else if has s.mode m16rest ∧ has d.mode (mNone ||| mFT) then .ok [opReg 0xF0 s]
  else if has d.mode (m8 ||| m16) ∧ has s.mode mImm then
    match s.expr with
    | none => .fail
    | some e => add C d ⟨s.mode, s.reg, some (.bin .sub (.num 0) e)⟩
  else .fail

/-- The functions in the table. -/
inductive Handler where
  | add | bitwise | cmp | implicit | dj | exg | j | jal | lco | lcr | ld | lio | shift | neg | not | pick | stack | sub | sys | tst

/-- A call of a handler; `handle_Implicit`, `handle_DJ` and `handle_TST` are in xasm/rc8/rc8_parse_instr.c 457-461, 480-483, 783-786. -/
def Handler.run (h : Handler) (C : Ctx) (base cc : Nat) (d s : Am) : Outcome (List Item) :=
  match h with
  | .add => Rc8.add C d s
  | .bitwise => Rc8.bitwise base d s
  | .cmp => Rc8.cmp d s
  | .implicit => .ok [byte base]
  | .dj => jumpRel (base + d.reg) s.expr
  | .exg => Rc8.exg base d s
  | .j => jump base cc d s
  | .jal => Rc8.jal C base d
  | .lco => Rc8.lco base d s
  | .lcr => Rc8.lcr base d s
  | .ld => Rc8.ld C d s
  | .lio => Rc8.lio base d s
  | .shift => Rc8.shift base d s
  | .neg => Rc8.neg base d
  | .not => Rc8.not base d
  | .pick => Rc8.pick base d s
  | .stack => Rc8.stack base d
  | .sub => Rc8.sub C d s
  | .sys => Rc8.sys base d
  | .tst => .ok [opReg base d]

/-- `SParser` (xasm/rc8/rc8_parse_instr.c 99-105); `pass` is `CONDITION_PASS`. -/
structure Entry where
  base : Nat
  pass : Bool
  first : Nat
  second : Nat
  handler : Handler

/-- `g_Parsers` (xasm/rc8/rc8_parse_instr.c 823-865). -/
def table : List Entry :=
  [⟨0x00, false, m8 ||| m16, mImm ||| m8 ||| m16 ||| mNone, .add⟩,
   ⟨0x68, false, m8 ||| mImm, mNone ||| m8 ||| mImm, .bitwise⟩,
   ⟨0x00, false, m8 ||| m16, mImm ||| m8notT ||| m16rest ||| mNone, .cmp⟩,
   ⟨0x1B, false, mNone, mNone, .implicit⟩,
   ⟨0x88, false, m8, mAddr, .dj⟩,
   ⟨0x1A, false, mNone, mNone, .implicit⟩,
   ⟨0x10, false, m8 ||| m16, mNone ||| m8 ||| m16, .exg⟩,
   ⟨0x49, false, mNone, mNone, .implicit⟩,
   ⟨0x3C, true, mInd ||| mAddr, mNone, .j⟩,
   ⟨0x38, false, mInd ||| mAddr, mNone, .jal⟩,
   ⟨0x0C, false, mT ||| mFT, mInd ||| mIncDec, .lco⟩,
   ⟨0x0A, false, mIndC ||| mT, mIndC ||| mT, .lcr⟩,
   ⟨0x00, false, m8 ||| m16 ||| mInd ||| mIncDec, mImm ||| m8 ||| m16 ||| mInd ||| mIncDec, .ld⟩,
   ⟨0x30, false, mIncDec ||| mIndRest ||| mT ||| mFT, mIncDec ||| mInd ||| mT ||| mFT, .lio⟩,
   ⟨0xE0, false, mFT ||| m8rest ||| mImm, m8rest ||| mImm ||| mNone, .shift⟩,
   ⟨0x51, false, mT ||| mFT, mNone, .neg⟩,
   ⟨0x00, false, mNone, mNone, .implicit⟩,
   ⟨0x18, false, mF ||| mT ||| mFT, mNone, .not⟩,
   ⟨0x60, false, m8 ||| mImm, mNone ||| m8 ||| mImm, .bitwise⟩,
   ⟨0x1C, false, m16, mNone ||| mImm, .pick⟩,
   ⟨0xC4, false, m16 ||| mMask, mNone, .stack⟩,
   ⟨0xF9, false, mNone, mNone, .implicit⟩,
   ⟨0xC0, false, m16 ||| mMask, mNone, .stack⟩,
   ⟨0xF8, false, mNone, mNone, .implicit⟩,
   ⟨0x59, false, mNone, mNone, .implicit⟩,
   ⟨0xE8, false, mFT ||| m8rest ||| mImm, m8rest ||| mImm ||| mNone, .shift⟩,
   ⟨0xF8, false, mFT ||| m8rest ||| mImm, m8rest ||| mImm ||| mNone, .shift⟩,
   ⟨0x00, false, m8 ||| m16, mNone ||| m8 ||| m16 ||| mImm, .sub⟩,
   ⟨0xDC, false, m16 ||| mMask, mNone, .stack⟩,
   ⟨0xCC, false, mNone, mNone, .implicit⟩,
   ⟨0x9B, false, mImm, mNone, .sys⟩,
   ⟨0xD4, false, m16, mNone, .tst⟩,
   ⟨0x70, false, m8 ||| mImm, mNone ||| m8 ||| mImm, .bitwise⟩]

/-- `g_RegisterModes` (xasm/rc8/rc8_parse_instr.c 873-899): the mode and the number of the register. -/
def registerModes : List (Nat × Nat) :=
  [(0x1, 0), (0x2, 1), (0x4, 2), (0x8, 3), (0x10, 4), (0x20, 5), (0x40, 6), (0x80, 7),
   (0x100, 0), (0x200, 1), (0x400, 2), (0x800, 3), (mIndC, 0),
   (0x1000, 0), (0x2000, 1), (0x4000, 2), (0x8000, 3),
   (mIncFT, 0), (mInc, 1), (mInc, 2), (mInc, 3),
   (mDecFT, 0), (mDec, 1), (mDec, 2), (mDec, 3)]

/-- Whether a token is the name of a register pair (xasm/rc8/rc8_parse_instr.c 910). -/
def isPair (n : Nat) : Bool := decide (T.ft.num ≤ n ∧ n ≤ T.hl.num)

/-- The bits of the registers from `n` to `k` (xasm/rc8/rc8_parse_instr.c 923-928). -/
def rangeMask (n k : Nat) : Nat := (List.range (k - n)).foldl (fun m i => m ||| (1 <<< (n + 1 + i - T.ft.num))) 0

/-- The list of registers (xasm/rc8/rc8_parse_instr.c 910-942): the mask, the number of registers and what follows. It has at
most as many elements as there are tokens. -/
def maskLoop : Nat → Nat → Nat → Toks → Nat × Nat × Toks
  | fuel + 1, mask, regs, .other n :: rest =>
    if isPair n then
      let mask := mask ||| (1 <<< (n - T.ft.num))
      match rest with
      | .op .sub :: .other k :: rest' =>
        if n < k ∧ k ≤ T.hl.num then
          let mask := mask ||| rangeMask n k
          match rest' with
          | .op .div :: rest'' => maskLoop fuel mask (regs + 1 + (k - n)) rest''
          | _ => (mask, regs + 1 + (k - n), rest')
        else (mask, regs + 1, .other k :: rest')
      | .op .sub :: rest' => (mask, regs + 1, rest')
      | .op .div :: rest' => maskLoop fuel mask (regs + 1) rest'
      | _ => (mask, regs + 1, rest)
    else (mask, regs, .other n :: rest)
  | _, mask, regs, toks => (mask, regs, toks)

/-- A register (xasm/rc8/rc8_parse_instr.c 955-963). -/
def register (allowed : Nat) : Toks → Option (Am × Toks)
  | .other n :: rest =>
    if T.f.num ≤ n ∧ n ≤ T.decHl.num then
      match registerModes[n - T.f.num]? with
      | some (mode, reg) => if has allowed mode then some (⟨mode, reg, none⟩, rest) else none
      | none => none
    else none
  | _ => none

/-- A register pair in parentheses that are tokens of their own (xasm/rc8/rc8_parse_instr.c 965-981). -/
def indirect (allowed : Nat) : Toks → Option (Am × Toks)
  | .lp :: .other n :: .rp :: rest =>
    if has allowed mInd ∧ isPair n then
      match registerModes[n - T.ft.num + T.indFt.num - T.f.num]? with
      | some (mode, reg) => if has allowed mode then some (⟨mode, reg, none⟩, rest) else none
      | none => none
    else none
  | _ => none

/-- An address, an immediate value or nothing (xasm/rc8/rc8_parse_instr.c 983-1009) and `rc8_ExpressionSU16`
(xasm/rc8/rc8_parse.c 28-39). -/
def absent (allowed : Nat) (toks : Toks) : Outcome (Option (Am × Toks)) :=
  if allowed = 0 ∨ has allowed mNone then .ok (some (noMode, toks)) else .ok none

def immediate (C : Ctx) (allowed : Nat) (toks : Toks) : Outcome (Option (Am × Toks)) :=
  if has allowed mImm then (expr C 2 toks).bind fun
    | (some s, rest) => .ok (some (⟨mImm, 0, some (checkRange s (-32768) 65535)⟩, rest))
    | (none, _) => absent allowed toks
  else absent allowed toks

def address (C : Ctx) (allowed : Nat) (toks : Toks) : Outcome (Option (Am × Toks)) :=
  if has allowed mAddr then (expr C 1 toks).bind fun
    | (some s, rest) => .ok (some (⟨mAddr, 0, some s⟩, rest))
    | (none, _) => immediate C allowed toks
  else immediate C allowed toks

/-- `parseAddressingMode` (xasm/rc8/rc8_parse_instr.c 901-1010). -/
def addressing (C : Ctx) (allowed : Nat) (toks : Toks) : Outcome (Option (Am × Toks)) :=
  let single := match register allowed toks with
    | some r => .ok (some r)
    | none => match indirect allowed toks with
      | some r => .ok (some r)
      | none => address C allowed toks
  if has allowed mMask then
    let (mask, regs, rest) := maskLoop toks.length 0 0 toks
    if 2 ≤ regs then .ok (some (⟨mMask, mask, none⟩, rest)) else single
  else single

/-- The condition (xasm/rc8/rc8_parse_instr.c 1019-1035). -/
def condition : Toks → Outcome (Nat × Toks)
  | .op .div :: .other n :: rest =>
    if n = T.c.num then .ok (6, rest)
    else if T.le.num ≤ n ∧ n ≤ T.ne.num then .ok (n - T.le.num, rest)
    else .fail
  | .op .div :: _ => .fail
  | toks => .ok (always, toks)

/-- The second operand (xasm/rc8/rc8_parse_instr.c 1040-1049). -/
def secondMode (C : Ctx) (allowed : Nat) : Toks → Outcome (Am × Toks)
  | .comma :: rest => (addressing C allowed rest).bind fun
    | some r => .ok r
    | none => .fail
  | toks => if has allowed mNone ∨ allowed = 0 then .ok (noMode, toks) else .fail

/-- What an instruction becomes: bytes, and whether a label is made behind them. -/
structure Result where
  items : List Item
  label : Bool
  rest : Toks

/-- `rc8_ParseIntegerInstruction` (xasm/rc8/rc8_parse_instr.c 1012-1069); nothing if there is no instruction. `target` is the
number of the label that `createUniqueLabel` (107-114) makes for the end of an instruction with a condition. -/
def instr (C : Ctx) (target : Nat) : Toks → Outcome (Option Result)
  | .other n :: rest =>
    if T.add.num ≤ n ∧ n ≤ T.xor.num then
      match table[n - T.add.num]? with
      | none => .ub
      | some e =>
        (condition rest).bind fun (cc, rest) =>
        (addressing C e.first rest).bind fun
          | none => .fail
          | some (m1, rest) =>
            (secondMode C e.second rest).bind fun (m2, rest) =>
            let skip := !e.pass && cc != always
            (if skip then jumpRel (0x90 + invert cc) (some (.sym target)) else .ok []).bind fun before =>
            (e.handler.run C e.base cc m1 m2).bind fun items =>
            .ok (some ⟨before ++ items, skip, rest⟩)
    else .ok none
  | _ => .ok none

end Verif.Cpu.Rc8
