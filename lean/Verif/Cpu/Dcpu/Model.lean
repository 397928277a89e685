import Verif.Cpu.Common
/-!
# Instructions of the DCPU-16
-/
namespace Verif.Cpu.Dcpu

open Verif.Parse (Tok Toks)
open Verif.Expr (Src u32)

/-- `ETargetToken` (xasm/dcpu-16/dcpu16_tokens.h 22-54), in the order of the enumeration. -/
inductive T where
  | add | and | bor | div | ifb | ife | ifg | ifn | jsr | mod | mul | set | shl | shr | sub | xor
  | a | b | c | x | y | z | i | j
  | pop | peek | push | sp | pc | o
  deriving DecidableEq

/-- The numbers of the tokens: `T_DCPU16_ADD` is 6000 (xasm/dcpu-16/dcpu16_tokens.h 23). -/
def T.num (t : T) : Nat := 6000 + t.ctorIdx

/-- `T_SYM_SET` (xasm/motor/tokens.h 91). -/
def symSet : Nat := 352

/-- `g_tokens` (xasm/dcpu-16/dcpu16_tokens.c 25-62). -/
def words : List (String × Nat) :=
  [("ADD", T.add.num), ("AND", T.and.num), ("BOR", T.bor.num), ("DIV", T.div.num), ("IFB", T.ifb.num), ("IFE", T.ife.num),
   ("IFG", T.ifg.num), ("IFN", T.ifn.num), ("JSR", T.jsr.num), ("MOD", T.mod.num), ("MUL", T.mul.num),
   ("SHL", T.shl.num), ("SHR", T.shr.num), ("SUB", T.sub.num), ("XOR", T.xor.num),
   ("A", T.a.num), ("B", T.b.num), ("C", T.c.num), ("X", T.x.num), ("Y", T.y.num), ("Z", T.z.num), ("I", T.i.num), ("J", T.j.num),
   ("POP", T.pop.num), ("[SP++]", T.pop.num), ("PEEK", T.peek.num), ("[SP]", T.peek.num), ("PUSH", T.push.num),
   ("[--SP]", T.peek.num), ("SP", T.sp.num), ("PC", T.pc.num), ("O", T.o.num)]

/-- The token of a word. Of the words of all processors only `SET` is needed (xasm/motor/tokens.c 100). -/
def tok (w : String) : Tok :=
  match (("SET", symSet) :: words).find? (·.1 == w) with
  | some p => .other p.2
  | none => .sym w.toList

/-- `[` and `]` are characters. -/
abbrev lbr : Tok := .other 91
abbrev rbr : Tok := .other 93

/-- `SAddressingMode`, `EAddrMode` (xasm/dcpu-16/dcpu16_parse.c 58-100); the mode is a number: registers from 0, registers in
brackets from 8, with an offset from 16, `POP` 24, …, `ADDR_LITERAL` 31, small literals from 32. -/
structure Mode where
  mode : Nat
  address : Option Src
  deriving DecidableEq

/-- `expressionCheckSU16` (xasm/dcpu-16/dcpu16_parse.c 41-48). -/
def checkSU16 (s : Src) : Src := .bin .and (checkRange s (-32768) 65535) (.num 0xFFFF)

/-- `expressionCheckU16` (xasm/dcpu-16/dcpu16_parse.c 50-56). -/
def checkU16 (s : Src) : Src := checkRange s 0 65535

/-- A register, as in `indirectComponent` and `addressingMode` (xasm/dcpu-16/dcpu16_parse.c 114-117, 252-261). -/
def register : Toks → Option (Nat × Toks)
  | .other n :: rest => if T.a.num ≤ n ∧ n ≤ T.j.num then some (n - T.a.num, rest) else none
  | _ => none

/-- `indirectComponent`, `expressionNoReservedIdentifiers` (xasm/dcpu-16/dcpu16_parse.c 102-129): a register or an expression;
nothing if there is neither. The expression parser is modelled without reserved words as names anyway. -/
def component (C : Ctx) (toks : Toks) : Outcome (Option (Option Nat × Option Src) × Toks) :=
  match register toks with
  | some (r, rest) => .ok (some (some r, none), rest)
  | none => (expr C 4 toks).bind fun
    | (some s, rest) => .ok (some (none, some s), rest)
    | (none, rest) => .ok (none, rest)

/-- `indirectAdd` (xasm/dcpu-16/dcpu16_parse.c 131-149). A reported error is a failure. -/
def indirectAdd (C : Ctx) (reg : Option Nat) (address : Option Src) (toks : Toks) :
    Outcome (Option (Option Nat × Option Src) × Toks) :=
  (component C toks).bind fun
    | (none, rest) => .ok (none, rest)
    | (some (some r, _), rest) => if reg = none then .ok (some (some r, address), rest) else .fail
    | (some (none, some s), rest) =>
      .ok (some (reg, some (match address with | none => s | some a => .bin .add a s)), rest)
    | (some (none, none), _) => .fail

/-- `indirectSubtract` (xasm/dcpu-16/dcpu16_parse.c 151-168). One more token is skipped (line 156), and `address == NULL` is never
true (line 163); `expr_Sub` of a null pointer is a fatal error. -/
def indirectSubtract (C : Ctx) (reg : Option Nat) (address : Option Src) (toks : Toks) :
    Outcome (Option (Option Nat × Option Src) × Toks) :=
  (component C (toks.drop 1)).bind fun
    | (none, rest) => .ok (none, rest)
    | (some (some _, _), _) => .fail
    | (some (none, some s), rest) =>
      match address with
      | none => .fail
      | some a => .ok (some (reg, some (.bin .sub a s)), rest)
    | (some (none, none), _) => .fail

/-- The loop in `indirectAddressing` (xasm/dcpu-16/dcpu16_parse.c 181-191), with a bound for its length. -/
def parts (C : Ctx) : Nat → Option Nat → Option Src → Toks → Outcome (Option (Option Nat × Option Src) × Toks)
  | 0, _, _, _ => .fail
  | n + 1, reg, address, .op .add :: rest => (indirectAdd C reg address rest).bind fun
    | (some (reg, address), rest) => parts C n reg address rest
    | (none, rest) => .ok (none, rest)
  | n + 1, reg, address, .op .sub :: rest => (indirectSubtract C reg address rest).bind fun
    | (some (reg, address), rest) => parts C n reg address rest
    | (none, rest) => .ok (none, rest)
  | _ + 1, reg, address, toks => .ok (some (reg, address), toks)

/-- The rest of `indirectAddressing` (xasm/dcpu-16/dcpu16_parse.c 193-220). All modes are allowed for all operands. -/
def indirectMode (reg : Option Nat) (address : Option Src) : Option Mode :=
  match reg, address with
  | some r, none => some ⟨8 + r, none⟩
  | some r, some s => some ⟨16 + r, some (checkSU16 s)⟩
  | none, some s => some ⟨30, some (checkU16 s)⟩
  | none, none => none

/-- `indirectAddressing` (xasm/dcpu-16/dcpu16_parse.c 170-224). -/
def indirect (C : Ctx) : Toks → Outcome (Option Mode × Toks)
  | .other 91 :: toks => (component C toks).bind fun
    | (none, rest) => .ok (none, rest)
    | (some (reg, address), rest) => (parts C (rest.length + 1) reg address rest).bind fun
      | (none, rest) => .ok (none, rest)
      | (some (reg, address), .other 93 :: rest) => .ok (indirectMode reg address, rest)
      | (some _, _) => .fail
  | toks => .ok (none, toks)

/-- `optimizeAddressingMode` (xasm/dcpu-16/dcpu16_parse.c 226-247); it is only called for literals. -/
def optimize (opt : Bool) (C : Ctx) (s : Src) : Mode :=
  match C.known s with
  | some v => if opt ∧ u32 v % 65536 ≤ 0x1F then ⟨32 + u32 v % 65536, none⟩ else ⟨31, some s⟩
  | none => ⟨31, some s⟩

/-- The other operands that are one word (xasm/dcpu-16/dcpu16_parse.c 271-287). -/
def special : Toks → Option (Nat × Toks)
  | .other n :: rest => if T.pop.num ≤ n ∧ n ≤ T.o.num then some (24 + (n - T.pop.num), rest) else none
  | _ => none

/-- `addressingMode` (xasm/dcpu-16/dcpu16_parse.c 249-305). If an address in brackets is not understood, an expression is read
behind it. -/
def addressingMode (opt : Bool) (C : Ctx) (toks : Toks) : Outcome (Option Mode × Toks) :=
  match register toks, special toks with
  | some (r, rest), _ => .ok (some ⟨r, none⟩, rest)
  | none, some (m, rest) => .ok (some ⟨m, none⟩, rest)
  | none, none => (indirect C toks).bind fun
    | (some m, rest) => .ok (some m, rest)
    | (none, rest) => (expr C 2 rest).bind fun
      | (some s, rest) => .ok (some (optimize opt C s), rest)
      | (none, rest) => .ok (none, rest)

/-- `sect_OutputExpr16` if there is an address. -/
def Mode.item (m : Mode) : List Item :=
  match m.address with
  | some s => [.expr 2 s]
  | none => []

/-- `genericInstr` (xasm/dcpu-16/dcpu16_parse.c 316-325). -/
def generic (m1 m2 : Mode) (data : Nat) : Outcome (List Item) :=
  .ok (.const 2 (((m2.mode <<< 10) ||| (m1.mode <<< 4) ||| data) % 65536) :: (m1.item ++ m2.item))

/-- `addSubInstr`, `addInstr`, `subInstr` (xasm/dcpu-16/dcpu16_parse.c 327-361). If the literal is small and negative, its
expression is used (lines 344-345) after it has been freed (line 335). -/
def addSub (opt : Bool) (C : Ctx) (m1 m2 : Mode) (data : Nat) : Outcome (List Item) :=
  if opt ∧ m2.mode = 31 then
    match m2.address with
    | some s =>
      match C.known s with
      | some v => if 0xFFE1 ≤ u32 v % 65536 then .ub else generic m1 m2 data
      | none => generic m1 m2 data
    | none => .ub
  else generic m1 m2 data

/-- `jsrInstr` (xasm/dcpu-16/dcpu16_parse.c 363-370). -/
def jsr (m1 : Mode) (data : Nat) : Outcome (List Item) :=
  .ok (.const 2 (((data <<< 4) ||| (m1.mode <<< 10)) % 65536) :: m1.item)

inductive Handler where
  | add | sub | generic | jsr
  deriving DecidableEq

/-- `g_instructionHandlers` (xasm/dcpu-16/dcpu16_parse.c 372-389). -/
def table : List (Nat × Handler) :=
  [(0x2, .add), (0x9, .generic), (0xA, .generic), (0x5, .generic), (0xF, .generic), (0xC, .generic), (0xE, .generic), (0xD, .generic),
   (0x1, .jsr), (0x6, .generic), (0x4, .generic), (0x1, .generic), (0x7, .generic), (0x8, .generic), (0x3, .sub), (0xB, .generic)]

/-- `parseIntegerInstruction`, `translateToken` (xasm/dcpu-16/dcpu16_parse.c 391-436); nothing if there is no instruction. `opt` is
the option `-mo`. -/
def instr (opt : Bool) (C : Ctx) : Toks → Outcome (Option (List Item × Toks))
  | .other n :: rest =>
    let n := if n = symSet then T.set.num else n
    if T.add.num ≤ n ∧ n ≤ T.xor.num then
      match table[n - T.add.num]? with
      | none => .ub
      | some (data, h) =>
        (addressingMode opt C rest).bind fun
          | (none, _) => .fail
          | (some m1, rest) =>
            if h = .jsr then (jsr m1 data).bind fun items => .ok (some (items, rest)) else
            (comma rest).bind fun rest => (addressingMode opt C rest).bind fun
              | (none, _) => .fail
              | (some m2, rest) =>
                (match h with
                 | .add => addSub opt C m1 m2 0x2
                 | .sub => addSub opt C m1 m2 0x3
                 | _ => generic m1 m2 data).bind fun items => .ok (some (items, rest))
    else .ok none
  | _ => .ok none

end Verif.Cpu.Dcpu
