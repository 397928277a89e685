import Verif.Cpu.X65.Model
/-!
# The instruction sets of the 6502, the 65C02 and the 65C02S

The instructions, their addressing modes and their opcodes, as in the data sheets; how an operand is written for a mode, and
the bytes that an instruction consists of.
-/
namespace Verif.Cpu.X65

open Verif.Parse (Tok Toks Tree)
open Verif.Expr (Src FMath ASym Den Rng)

/-- The addressing modes. -/
inductive AM where
  /-- no operand -/
  | imp
  /-- the accumulator -/
  | acc
  /-- `#n` -/
  | imm
  /-- the zero page, plain and with `X` or `Y` added -/
  | zp | zpx | zpy
  /-- the whole memory, plain and with `X` or `Y` added -/
  | abs | absx | absy
  /-- `(n,X)`, `(n),Y` and `(n)` in the zero page -/
  | izx | izy | izp
  /-- `(n)` and `(n,X)` in the whole memory -/
  | ind | iax
  /-- the target of a branch -/
  | rel
  /-- an address in the zero page and the target of a branch -/
  | zprel
  /-- the number of a bit, which is part of the opcode, and an address in the zero page -/
  | bit
  /-- the number of a bit, an address in the zero page and the target of a branch -/
  | bitrel
  deriving DecidableEq

/-- An instruction set. -/
abbrev Isa := List (String × List (AM × Nat))

/-- The eight modes of an instruction that reads with the accumulator. -/
def eight (imm zp zpx abs absx absy izx izy : Nat) : List (AM × Nat) :=
  [(.imm, imm), (.zp, zp), (.zpx, zpx), (.abs, abs), (.absx, absx), (.absy, absy), (.izx, izx), (.izy, izy)]

/-- The 6502. `BLT` and `BGE` are other names for `BCC` and `BCS`; `BRK` may be written with the byte that the processor skips. -/
def isa6502 : Isa :=
  [("ADC", eight 0x69 0x65 0x75 0x6D 0x7D 0x79 0x61 0x71),
   ("AND", eight 0x29 0x25 0x35 0x2D 0x3D 0x39 0x21 0x31),
   ("ASL", [(.acc, 0x0A), (.zp, 0x06), (.zpx, 0x16), (.abs, 0x0E), (.absx, 0x1E)]),
   ("BCC", [(.rel, 0x90)]), ("BLT", [(.rel, 0x90)]), ("BCS", [(.rel, 0xB0)]), ("BGE", [(.rel, 0xB0)]),
   ("BEQ", [(.rel, 0xF0)]), ("BMI", [(.rel, 0x30)]), ("BNE", [(.rel, 0xD0)]), ("BPL", [(.rel, 0x10)]),
   ("BVC", [(.rel, 0x50)]), ("BVS", [(.rel, 0x70)]),
   ("BIT", [(.zp, 0x24), (.abs, 0x2C)]),
   ("BRK", [(.imp, 0x00), (.imm, 0x00)]),
   ("CLC", [(.imp, 0x18)]), ("CLD", [(.imp, 0xD8)]), ("CLI", [(.imp, 0x58)]), ("CLV", [(.imp, 0xB8)]),
   ("CMP", eight 0xC9 0xC5 0xD5 0xCD 0xDD 0xD9 0xC1 0xD1),
   ("CPX", [(.imm, 0xE0), (.zp, 0xE4), (.abs, 0xEC)]),
   ("CPY", [(.imm, 0xC0), (.zp, 0xC4), (.abs, 0xCC)]),
   ("DEC", [(.zp, 0xC6), (.zpx, 0xD6), (.abs, 0xCE), (.absx, 0xDE)]),
   ("DEX", [(.imp, 0xCA)]), ("DEY", [(.imp, 0x88)]),
   ("EOR", eight 0x49 0x45 0x55 0x4D 0x5D 0x59 0x41 0x51),
   ("INC", [(.zp, 0xE6), (.zpx, 0xF6), (.abs, 0xEE), (.absx, 0xFE)]),
   ("INX", [(.imp, 0xE8)]), ("INY", [(.imp, 0xC8)]),
   ("JMP", [(.abs, 0x4C), (.ind, 0x6C)]),
   ("JSR", [(.abs, 0x20)]),
   ("LDA", eight 0xA9 0xA5 0xB5 0xAD 0xBD 0xB9 0xA1 0xB1),
   ("LDX", [(.imm, 0xA2), (.zp, 0xA6), (.zpy, 0xB6), (.abs, 0xAE), (.absy, 0xBE)]),
   ("LDY", [(.imm, 0xA0), (.zp, 0xA4), (.zpx, 0xB4), (.abs, 0xAC), (.absx, 0xBC)]),
   ("LSR", [(.acc, 0x4A), (.zp, 0x46), (.zpx, 0x56), (.abs, 0x4E), (.absx, 0x5E)]),
   ("NOP", [(.imp, 0xEA)]),
   ("ORA", eight 0x09 0x05 0x15 0x0D 0x1D 0x19 0x01 0x11),
   ("PHA", [(.imp, 0x48)]), ("PHP", [(.imp, 0x08)]), ("PLA", [(.imp, 0x68)]), ("PLP", [(.imp, 0x28)]),
   ("ROL", [(.acc, 0x2A), (.zp, 0x26), (.zpx, 0x36), (.abs, 0x2E), (.absx, 0x3E)]),
   ("ROR", [(.acc, 0x6A), (.zp, 0x66), (.zpx, 0x76), (.abs, 0x6E), (.absx, 0x7E)]),
   ("RTI", [(.imp, 0x40)]), ("RTS", [(.imp, 0x60)]),
   ("SBC", eight 0xE9 0xE5 0xF5 0xED 0xFD 0xF9 0xE1 0xF1),
   ("SEC", [(.imp, 0x38)]), ("SED", [(.imp, 0xF8)]), ("SEI", [(.imp, 0x78)]),
   ("STA", [(.zp, 0x85), (.zpx, 0x95), (.abs, 0x8D), (.absx, 0x9D), (.absy, 0x99), (.izx, 0x81), (.izy, 0x91)]),
   ("STX", [(.zp, 0x86), (.zpy, 0x96), (.abs, 0x8E)]),
   ("STY", [(.zp, 0x84), (.zpx, 0x94), (.abs, 0x8C)]),
   ("TAX", [(.imp, 0xAA)]), ("TAY", [(.imp, 0xA8)]), ("TSX", [(.imp, 0xBA)]), ("TXA", [(.imp, 0x8A)]),
   ("TXS", [(.imp, 0x9A)]), ("TYA", [(.imp, 0x98)])]

/-- What the 65C02 adds. `DEA` and `INA` are other names for `DEC A` and `INC A`. -/
def isa65C02 : Isa :=
  [("ADC", [(.izp, 0x72)]), ("AND", [(.izp, 0x32)]), ("CMP", [(.izp, 0xD2)]), ("EOR", [(.izp, 0x52)]), ("LDA", [(.izp, 0xB2)]),
   ("ORA", [(.izp, 0x12)]), ("SBC", [(.izp, 0xF2)]), ("STA", [(.izp, 0x92)]),
   ("BIT", [(.imm, 0x89), (.zpx, 0x34), (.absx, 0x3C)]),
   ("BRA", [(.rel, 0x80)]),
   ("DEC", [(.acc, 0x3A)]), ("DEA", [(.imp, 0x3A)]), ("INC", [(.acc, 0x1A)]), ("INA", [(.imp, 0x1A)]),
   ("JMP", [(.iax, 0x7C)]),
   ("PHX", [(.imp, 0xDA)]), ("PHY", [(.imp, 0x5A)]), ("PLX", [(.imp, 0xFA)]), ("PLY", [(.imp, 0x7A)]),
   ("STZ", [(.zp, 0x64), (.zpx, 0x74), (.abs, 0x9C), (.absx, 0x9E)]),
   ("TRB", [(.zp, 0x14), (.abs, 0x1C)]), ("TSB", [(.zp, 0x04), (.abs, 0x0C)])]

/-- What the 65C02S adds. The bit may also be an operand of its own. -/
def isa65C02S : Isa :=
  [("BBR0", [(.zprel, 0x0F)]), ("BBR1", [(.zprel, 0x1F)]), ("BBR2", [(.zprel, 0x2F)]), ("BBR3", [(.zprel, 0x3F)]),
   ("BBR4", [(.zprel, 0x4F)]), ("BBR5", [(.zprel, 0x5F)]), ("BBR6", [(.zprel, 0x6F)]), ("BBR7", [(.zprel, 0x7F)]),
   ("BBS0", [(.zprel, 0x8F)]), ("BBS1", [(.zprel, 0x9F)]), ("BBS2", [(.zprel, 0xAF)]), ("BBS3", [(.zprel, 0xBF)]),
   ("BBS4", [(.zprel, 0xCF)]), ("BBS5", [(.zprel, 0xDF)]), ("BBS6", [(.zprel, 0xEF)]), ("BBS7", [(.zprel, 0xFF)]),
   ("RMB0", [(.zp, 0x07)]), ("RMB1", [(.zp, 0x17)]), ("RMB2", [(.zp, 0x27)]), ("RMB3", [(.zp, 0x37)]),
   ("RMB4", [(.zp, 0x47)]), ("RMB5", [(.zp, 0x57)]), ("RMB6", [(.zp, 0x67)]), ("RMB7", [(.zp, 0x77)]),
   ("SMB0", [(.zp, 0x87)]), ("SMB1", [(.zp, 0x97)]), ("SMB2", [(.zp, 0xA7)]), ("SMB3", [(.zp, 0xB7)]),
   ("SMB4", [(.zp, 0xC7)]), ("SMB5", [(.zp, 0xD7)]), ("SMB6", [(.zp, 0xE7)]), ("SMB7", [(.zp, 0xF7)]),
   ("BBR", [(.bitrel, 0x0F)]), ("BBS", [(.bitrel, 0x8F)]), ("RMB", [(.bit, 0x07)]), ("SMB", [(.bit, 0x87)]),
   ("STP", [(.imp, 0xDB)]), ("WAI", [(.imp, 0xCB)])]

/-- The seven modes of an undocumented instruction that changes memory. -/
def seven (zp zpx abs absx absy izx izy : Nat) : List (AM × Nat) :=
  [(.zp, zp), (.zpx, zpx), (.abs, abs), (.absx, absx), (.absy, absy), (.izx, izx), (.izy, izy)]

/-- The undocumented instructions of the 6502, with the names of the three sets. -/
def undocs : List ((String × String × String) × List (AM × Nat)) :=
  [(("AAC", "ANC", "ANC"), [(.imm, 0x0B)]),
   (("AAX", "SAX", "AXS"), [(.zp, 0x87), (.zpy, 0x97), (.izx, 0x83), (.abs, 0x8F)]),
   (("ARR", "ARR", "ARR"), [(.imm, 0x6B)]),
   (("ASR", "ASR", "ALR"), [(.imm, 0x4B)]),
   (("ATX", "LXA", "OAL"), [(.imm, 0xAB)]),
   (("AXA", "SHA", "AXA"), [(.absy, 0x9F), (.izy, 0x93)]),
   (("AXS", "SBX", "SAX"), [(.imm, 0xCB)]),
   (("DCP", "DCP", "DCM"), seven 0xC7 0xD7 0xCF 0xDF 0xDB 0xC3 0xD3),
   (("DOP", "DOP", "SKB"), [(.imm, 0x80), (.zp, 0x04), (.zpx, 0x14)]),
   (("ISC", "ISB", "INS"), seven 0xE7 0xF7 0xEF 0xFF 0xFB 0xE3 0xF3),
   (("KIL", "JAM", "HLT"), [(.imp, 0x02)]),
   (("LAR", "LAE", "LAS"), [(.absy, 0xBB)]),
   (("LAX", "LAX", "LAX"), [(.zp, 0xA7), (.zpy, 0xB7), (.abs, 0xAF), (.absy, 0xBF), (.izx, 0xA3), (.izy, 0xB3)]),
   (("RLA", "RLA", "RLA"), seven 0x27 0x37 0x2F 0x3F 0x3B 0x23 0x33),
   (("RRA", "RRA", "RRA"), seven 0x67 0x77 0x6F 0x7F 0x7B 0x63 0x73),
   (("SLO", "SLO", "ASO"), seven 0x07 0x17 0x0F 0x1F 0x1B 0x03 0x13),
   (("SRE", "SRE", "LSE"), seven 0x47 0x57 0x4F 0x5F 0x5B 0x43 0x53),
   (("SXA", "SHX", "XAS"), [(.absy, 0x9E)]),
   (("SYA", "SHY", "SAY"), [(.absx, 0x9C)]),
   (("TOP", "TOP", "SKW"), [(.abs, 0x0C), (.absx, 0x1C)]),
   (("XAA", "ANE", "XAA"), [(.imm, 0x8B)]),
   (("XAS", "SHS", "TAS"), [(.absy, 0x9B)])]

/-- A set of names for them. -/
def isaUndoc : Nat → Isa
  | 1 => undocs.map fun (n, ms) => (n.1, ms)
  | 2 => undocs.map fun (n, ms) => (n.2.1, ms)
  | 3 => undocs.map fun (n, ms) => (n.2.2, ms)
  | _ => []

/-- The instruction set of a processor, with set `u` of the undocumented instructions on the 6502. -/
def isa (cpu : Cpu) (u : Nat) : Isa :=
  match cpu with
  | .c6502 => isa6502 ++ isaUndoc u
  | .c65C02 => isa6502 ++ isa65C02
  | _ => isa6502 ++ isa65C02 ++ isa65C02S

/-- The modes of an instruction. -/
def Isa.modes (I : Isa) (name : String) : List (AM × Nat) := (I.filter (·.1 == name)).flatMap (·.2)

/-! ### Operands -/

/-- What may stand before an immediate operand: nothing, `<`, `>`, `^` and `<>`. -/
inductive Pre where
  | plain | low | high | bank | swap
  deriving DecidableEq

def Pre.toks : Pre → Toks
  | .plain => []
  | .low => [.op .lt]
  | .high => [.op .gt]
  | .bank => [.op .xor]
  | .swap => [.op .lt, .op .gt]

/-- The byte of the operand: as it is, bits 0-7, 8-15, 16-23, and the lower half of the two lower bytes exchanged. -/
def Pre.byte (p : Pre) (v : Int) : Int :=
  match p with
  | .plain => v
  | .low => v % 256
  | .high => v / 256 % 256
  | .bank => v / 65536 % 256
  | .swap => v / 256 % 256

/-- Operands as they are written; `f` is whether there is a `<` before an address. -/
inductive Opnd where
  | none
  | a
  | imm (p : Pre) (t : Tree)
  | mem (f : Bool) (t : Tree)
  | memX (f : Bool) (t : Tree)
  | memY (f : Bool) (t : Tree)
  | indX (t : Tree)
  | indY (t : Tree)
  | ind (t : Tree)
  | two (t u : Tree)
  | three (t u v : Tree)

def force (f : Bool) : Toks := if f then [.op .lt] else []

def Opnd.toks (o : Opts) : Opnd → Toks
  | .none => []
  | .a => [tok o "A"]
  | .imm p t => .other 35 :: (p.toks ++ t.toks)
  | .mem f t => force f ++ t.toks
  | .memX f t => force f ++ t.toks ++ [.comma, tok o "X"]
  | .memY f t => force f ++ t.toks ++ [.comma, tok o "Y"]
  | .indX t => .lp :: t.toks ++ [.comma, tok o "X", .rp]
  | .indY t => .lp :: t.toks ++ [.rp, .comma, tok o "Y"]
  | .ind t => .lp :: t.toks ++ [.rp]
  | .two t u => t.toks ++ .comma :: u.toks
  | .three t u v => t.toks ++ .comma :: u.toks ++ .comma :: v.toks

/-- The expressions. -/
def Opnd.trees : Opnd → List Tree
  | .none | .a => []
  | .imm _ t | .mem _ t | .memX _ t | .memY _ t | .indX t | .indY t | .ind t => [t]
  | .two t u => [t, u]
  | .three t u v => [t, u, v]

/-- The forms of operands. -/
inductive Shape where
  | none | a | imm | mem (f : Bool) | memX (f : Bool) | memY (f : Bool) | indX | indY | ind | two | three
  deriving DecidableEq

def Opnd.shape : Opnd → Shape
  | .none => .none
  | .a => .a
  | .imm _ _ => .imm
  | .mem f _ => .mem f
  | .memX f _ => .memX f
  | .memY f _ => .memY f
  | .indX _ => .indX
  | .indY _ => .indY
  | .ind _ => .ind
  | .two _ _ => .two
  | .three _ _ _ => .three

/-- The first of some modes that an instruction has. -/
def first (ms : List (AM × Nat)) (ams : List AM) : Option AM := ams.find? fun a => ms.any (·.1 = a)

/-- The mode that is meant by an operand. `small` is whether the address is known and in the zero page. -/
def pick (ms : List (AM × Nat)) (s : Shape) (small : Bool) : Option AM :=
  match s with
  | .none => first ms [.imp, .acc]
  | .a => first ms [.acc]
  | .imm => first ms [.imm]
  | .mem true => first ms [.zp]
  | .mem false => if small then first ms [.rel, .zp, .abs] else first ms [.rel, .abs]
  | .memX true => first ms [.zpx]
  | .memX false => if small then first ms [.zpx, .absx] else first ms [.absx]
  | .memY true => first ms [.zpy]
  | .memY false => if small then first ms [.zpy, .absy] else first ms [.absy]
  | .indX => first ms [.izx, .iax]
  | .indY => first ms [.izy]
  | .ind => first ms [.izp, .ind]
  | .two => first ms [.zprel, .bit]
  | .three => first ms [.bitrel]

/-- The values of an operand. -/
def Opnd.values (f : Tree → Option Int) : Opnd → Option (List Int)
  | .none | .a => some []
  | .imm p t => (f t).map fun v => [p.byte v]
  | .mem _ t | .memX _ t | .memY _ t | .indX t | .indY t | .ind t => (f t).map fun v => [v]
  | .two t u => (f t).bind fun v => (f u).map fun w => [v, w]
  | .three t u x => (f t).bind fun v => (f u).bind fun w => (f x).map fun y => [v, w, y]

/-- The distance of a branch, in a byte. -/
def distance (d : Int) : Option Nat := if -128 ≤ d ∧ d ≤ 127 then some (d % 256).toNat else none

/-- An address in the zero page. -/
def page (v : Int) : Option Nat := if 0 ≤ v ∧ v ≤ 255 then some v.toNat else none

/-- The opcode of an instruction that contains the number of a bit. -/
def withBit (code : Nat) (b : Int) : Option Nat := if 0 ≤ b ∧ b ≤ 7 then some (code + 16 * b.toNat) else none

/-- The bytes of an instruction at address `pc`; nothing if an operand is too large. Branches count from the next
instruction. -/
def AM.bytes (am : AM) (code : Nat) (pc : Int) (vs : List Int) : Option (List Nat) :=
  match am, vs with
  | .imp, [] | .acc, [] => some [code]
  | .imm, [v] => if -128 ≤ v ∧ v ≤ 255 then some [code, (v % 256).toNat] else none
  | .zp, [v] | .zpx, [v] | .zpy, [v] | .izx, [v] | .izy, [v] | .izp, [v] => (page v).map fun b => [code, b]
  | .abs, [v] | .absx, [v] | .absy, [v] | .ind, [v] | .iax, [v] =>
    if 0 ≤ v ∧ v ≤ 65535 then some [code, (v % 256).toNat, (v / 256).toNat] else none
  | .rel, [v] => (distance (v - (pc + 2))).map fun d => [code, d]
  | .zprel, [v, w] => (page v).bind fun b => (distance (w - (pc + 3))).map fun d => [code, b, d]
  | .bit, [n, v] => (withBit code n).bind fun c => (page v).map fun b => [c, b]
  | .bitrel, [n, v, w] =>
    (withBit code n).bind fun c => (page v).bind fun b => (distance (w - (pc + 3))).map fun d => [c, b, d]
  | _, _ => none

/-! ### Bytes in the section -/

/-- The bytes of a number, the lowest first (the 6502 has `ASM_LITTLE_ENDIAN`). -/
def le : Nat → Nat → List Nat
  | 0, _ => []
  | n + 1, c => c % 256 :: le n (c / 256)

/-- The bytes of the items. Each stands behind the ones before it. -/
def bytesAt (fm : FMath) (R : Rng) (now : Nat → ASym) (ρ : Den) : List Item → Option (List Nat)
  | [] => some []
  | i :: is => (i.code fm R now ρ).bind fun c =>
    (bytesAt fm R now {ρ with pc := ρ.pc + i.size} is).map fun bs => le i.size c ++ bs

end Verif.Cpu.X65
