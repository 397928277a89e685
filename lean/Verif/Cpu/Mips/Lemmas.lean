import Verif.Cpu.Mips.Spec
namespace Verif.Cpu.Mips

open Verif.Parse
open Verif.Expr (Src FMath ASym Den Rng I32 u32 toI32 meaning value_bin wrap)

theorem ok_bind {α β : Type} (a : α) (f : α → Outcome β) : (Outcome.ok a).bind f = f a := rfl

/-! ### Fields -/

/-- The word with the given fields. -/
def pack (h a b c d e : Nat) : Nat := 2 ^ 26 * h + 2 ^ 21 * a + 2 ^ 16 * b + 2 ^ 11 * c + 2 ^ 6 * d + e

theorem or_split (k a b a' b' : Nat) (h : b < 2 ^ k) (h' : b' < 2 ^ k) :
    (2 ^ k * a + b) ||| (2 ^ k * a' + b') = 2 ^ k * (a ||| a') + (b ||| b') := by
  have e1 := Nat.div_add_mod ((2 ^ k * a + b) ||| (2 ^ k * a' + b')) (2 ^ k)
  rw [Nat.or_div_two_pow, Nat.or_mod_two_pow] at e1
  have d1 : (2 ^ k * a + b) / 2 ^ k = a := by
    rw [Nat.mul_add_div (Nat.two_pow_pos k), Nat.div_eq_of_lt h]; rfl
  have d2 : (2 ^ k * a' + b') / 2 ^ k = a' := by
    rw [Nat.mul_add_div (Nat.two_pow_pos k), Nat.div_eq_of_lt h']; rfl
  have m1 : (2 ^ k * a + b) % 2 ^ k = b := by rw [Nat.mul_add_mod, Nat.mod_eq_of_lt h]
  have m2 : (2 ^ k * a' + b') % 2 ^ k = b' := by rw [Nat.mul_add_mod, Nat.mod_eq_of_lt h']
  rw [d1, d2, m1, m2] at e1
  exact e1.symm

theorem pack_or {h a b c d e h' a' b' c' d' e' : Nat} (ha : a < 32) (hb : b < 32) (hc : c < 32) (hd : d < 32) (he : e < 64)
    (ha' : a' < 32) (hb' : b' < 32) (hc' : c' < 32) (hd' : d' < 32) (he' : e' < 64) :
    pack h a b c d e ||| pack h' a' b' c' d' e' = pack (h ||| h') (a ||| a') (b ||| b') (c ||| c') (d ||| d') (e ||| e') := by
  have n : ∀ h a b c d e, pack h a b c d e = 2 ^ 6 * (2 ^ 5 * (2 ^ 5 * (2 ^ 5 * (2 ^ 5 * h + a) + b) + c) + d) + e := by
    intros; unfold pack; omega
  rw [n, n, n, or_split _ _ _ _ _ he he', or_split _ _ _ _ _ hd hd', or_split _ _ _ _ _ hc hc', or_split _ _ _ _ _ hb hb',
    or_split _ _ _ _ _ ha ha']

theorem pack_lt {h a b c d e : Nat} (hh : h < 64) (ha : a < 32) (hb : b < 32) (hc : c < 32) (hd : d < 32) (he : e < 64) :
    pack h a b c d e < 4294967296 := by
  unfold pack; omega

theorem pack_rs (r : Nat) : r <<< 21 = pack 0 r 0 0 0 0 := by rw [Nat.shiftLeft_eq]; unfold pack; omega
theorem pack_rt (r : Nat) : r <<< 16 = pack 0 0 r 0 0 0 := by rw [Nat.shiftLeft_eq]; unfold pack; omega
theorem pack_rd (r : Nat) : r <<< 11 = pack 0 0 0 r 0 0 := by rw [Nat.shiftLeft_eq]; unfold pack; omega

theorem fields_pack {h a b c d e : Nat} (hh : h < 64) (ha : a < 32) (hb : b < 32) (hc : c < 32) (hd : d < 32) (he : e < 64) :
    fields (pack h a b c d e) =
      ⟨h, a, b, c, d, e, 2 ^ 11 * c + 2 ^ 6 * d + e, 2 ^ 21 * a + 2 ^ 16 * b + 2 ^ 11 * c + 2 ^ 6 * d + e⟩ := by
  unfold fields pack
  congr 1 <;> omega

/-- A number of sixteen bits below three fields. -/
theorem pack_imm {h a b v : Nat} (ha : a < 32) (hb : b < 32) (hv : v < 65536) :
    v ||| pack h a b 0 0 0 = pack h a b (v / 2048) (v / 64 % 32) (v % 64) := by
  have e : v = pack 0 0 0 (v / 2048) (v / 64 % 32) (v % 64) := by unfold pack; omega
  conv => lhs; rw [e]
  rw [pack_or (by omega) (by omega) (by omega) (by omega) (by omega) ha hb (by omega) (by omega) (by omega)]
  simp only [Nat.zero_or, Nat.or_zero]

theorem fields_imm {h a b v : Nat} (hh : h < 64) (ha : a < 32) (hb : b < 32) (hv : v < 65536) :
    fields (v ||| pack h a b 0 0 0) =
      ⟨h, a, b, v / 2048, v / 64 % 32, v % 64, v, 2 ^ 21 * a + 2 ^ 16 * b + v⟩ := by
  rw [pack_imm ha hb hv, fields_pack hh ha hb (by omega) (by omega) (by omega)]
  congr 1 <;> omega

/-- A number of ten bits between the fields. -/
theorem fields_code {h a b c e v : Nat} (hh : h < 64) (ha : a < 32) (hb : b < 32) (hc : c < 32) (he : e < 64) (hv : v < 1024)
    (hz : c = 0 ∨ v < 32) : ∃ imm idx, fields (v * 64 ||| pack h a b c 0 e) = ⟨h, a, b, c + v / 32, v % 32, e, imm, idx⟩ := by
  have ev : v * 64 = pack 0 0 0 (v / 32) (v % 32) 0 := by unfold pack; omega
  rw [ev, pack_or (by omega) (by omega) (by omega) (by omega) (by omega) ha hb hc (by omega) he]
  have hcv : v / 32 ||| c = c + v / 32 := by
    rcases hz with rfl | h
    · rw [Nat.or_zero]; omega
    · rw [Nat.div_eq_of_lt h, Nat.zero_or]; omega
  rw [hcv]
  simp only [Nat.zero_or, Nat.or_zero]
  exact ⟨_, _, fields_pack hh ha hb (by omega) (by omega) he⟩

theorem fields_idx {h v : Nat} (hh : h < 64) (hv : v < 67108864) :
    ∃ a b c d e imm, fields (v ||| pack h 0 0 0 0 0) = ⟨h, a, b, c, d, e, imm, v⟩ := by
  have ev : v = pack 0 (v / 2097152) (v / 65536 % 32) (v / 2048 % 32) (v / 64 % 32) (v % 64) := by unfold pack; omega
  have : v ||| pack h 0 0 0 0 0 = pack h (v / 2097152) (v / 65536 % 32) (v / 2048 % 32) (v / 64 % 32) (v % 64) := by
    conv => lhs; rw [ev]
    rw [pack_or (by omega) (by omega) (by omega) (by omega) (by omega) (by omega) (by omega) (by omega) (by omega) (by omega)]
    simp only [Nat.zero_or, Nat.or_zero]
  rw [this, fields_pack hh (by omega) (by omega) (by omega) (by omega) (by omega)]
  refine ⟨v / 2097152, v / 65536 % 32, v / 2048 % 32, v / 64 % 32, v % 64, 2 ^ 11 * (v / 2048 % 32) + 2 ^ 6 * (v / 64 % 32) + v % 64, ?_⟩
  congr 1; omega

/-! ### The tables -/

/-- The token of a mnemonic and the fields of its word. -/
structure Enc where
  n : Nat
  h : Nat
  a : Nat
  b : Nat
  c : Nat
  d : Nat
  e : Nat

def Enc.word (x : Enc) : Nat := pack x.h x.a x.b x.c x.d x.e

/-- What the tables say about a mnemonic. -/
structure Enc.Good {α : Type} (x : Enc) (text : String) (H : Handler) (first : T) (table : List α) (a : α) : Prop where
  tok : tok text = .other x.n
  low : T.add.num ≤ x.n
  high : x.n ≤ T.lui.num
  handler : handlers[x.n - T.add.num]? = some H
  from_ : first.num ≤ x.n
  entry : table[x.n - first.num]? = some a

def R3.enc : R3 → Enc
  | .add => ⟨6000, 0x0, 0x0, 0x0, 0x0, 0x0, 0x20⟩
  | .addu => ⟨6001, 0x0, 0x0, 0x0, 0x0, 0x0, 0x21⟩
  | .and => ⟨6002, 0x0, 0x0, 0x0, 0x0, 0x0, 0x24⟩
  | .movn => ⟨6003, 0x0, 0x0, 0x0, 0x0, 0x0, 0xB⟩
  | .movz => ⟨6004, 0x0, 0x0, 0x0, 0x0, 0x0, 0xA⟩
  | .mul => ⟨6005, 0x1C, 0x0, 0x0, 0x0, 0x0, 0x2⟩
  | .nor => ⟨6006, 0x0, 0x0, 0x0, 0x0, 0x0, 0x27⟩
  | .or => ⟨6007, 0x0, 0x0, 0x0, 0x0, 0x0, 0x25⟩
  | .slt => ⟨6010, 0x0, 0x0, 0x0, 0x0, 0x0, 0x2A⟩
  | .sltu => ⟨6011, 0x0, 0x0, 0x0, 0x0, 0x0, 0x2B⟩
  | .sub => ⟨6014, 0x0, 0x0, 0x0, 0x0, 0x0, 0x22⟩
  | .subu => ⟨6015, 0x0, 0x0, 0x0, 0x0, 0x0, 0x23⟩
  | .xor => ⟨6016, 0x0, 0x0, 0x0, 0x0, 0x0, 0x26⟩

def SV.enc : SV → Enc
  | .rotrv => ⟨6008, 0x0, 0x0, 0x0, 0x0, 0x1, 0x6⟩
  | .sllv => ⟨6009, 0x0, 0x0, 0x0, 0x0, 0x0, 0x4⟩
  | .srav => ⟨6012, 0x0, 0x0, 0x0, 0x0, 0x0, 0x7⟩
  | .srlv => ⟨6013, 0x0, 0x0, 0x0, 0x0, 0x0, 0x6⟩

def I3.enc : I3 → Enc
  | .addi => ⟨6017, 0x8, 0x0, 0x0, 0x0, 0x0, 0x0⟩
  | .addiu => ⟨6018, 0x9, 0x0, 0x0, 0x0, 0x0, 0x0⟩
  | .andi => ⟨6019, 0xC, 0x0, 0x0, 0x0, 0x0, 0x0⟩
  | .ori => ⟨6020, 0xD, 0x0, 0x0, 0x0, 0x0, 0x0⟩
  | .slti => ⟨6021, 0xA, 0x0, 0x0, 0x0, 0x0, 0x0⟩
  | .sltiu => ⟨6022, 0xB, 0x0, 0x0, 0x0, 0x0, 0x0⟩
  | .xori => ⟨6023, 0xE, 0x0, 0x0, 0x0, 0x0, 0x0⟩

def B2.enc : B2 → Enc
  | .beq => ⟨6024, 0x4, 0x0, 0x0, 0x0, 0x0, 0x0⟩
  | .beql => ⟨6025, 0x14, 0x0, 0x0, 0x0, 0x0, 0x0⟩
  | .bne => ⟨6026, 0x5, 0x0, 0x0, 0x0, 0x0, 0x0⟩
  | .bnel => ⟨6027, 0x15, 0x0, 0x0, 0x0, 0x0, 0x0⟩

def B1.enc : B1 → Enc
  | .bgez => ⟨6028, 0x1, 0x0, 0x1, 0x0, 0x0, 0x0⟩
  | .bgezal => ⟨6029, 0x1, 0x0, 0x11, 0x0, 0x0, 0x0⟩
  | .bgezall => ⟨6030, 0x1, 0x0, 0x13, 0x0, 0x0, 0x0⟩
  | .bgezl => ⟨6031, 0x1, 0x0, 0x3, 0x0, 0x0, 0x0⟩
  | .bgtz => ⟨6032, 0x7, 0x0, 0x0, 0x0, 0x0, 0x0⟩
  | .bgtzl => ⟨6033, 0x17, 0x0, 0x0, 0x0, 0x0, 0x0⟩
  | .blez => ⟨6034, 0x6, 0x0, 0x0, 0x0, 0x0, 0x0⟩
  | .blezl => ⟨6035, 0x16, 0x0, 0x0, 0x0, 0x0, 0x0⟩
  | .bltz => ⟨6036, 0x1, 0x0, 0x0, 0x0, 0x0, 0x0⟩
  | .bltzal => ⟨6037, 0x1, 0x0, 0x10, 0x0, 0x0, 0x0⟩
  | .bltzall => ⟨6038, 0x1, 0x0, 0x12, 0x0, 0x0, 0x0⟩
  | .bltzl => ⟨6039, 0x0, 0x10, 0x2, 0x0, 0x0, 0x0⟩

def Sh.enc : Sh → Enc
  | .rotr => ⟨6042, 0x0, 0x1, 0x0, 0x0, 0x0, 0x2⟩
  | .sll => ⟨6043, 0x0, 0x0, 0x0, 0x0, 0x0, 0x0⟩
  | .sra => ⟨6044, 0x0, 0x0, 0x0, 0x0, 0x0, 0x3⟩
  | .srl => ⟨6045, 0x0, 0x0, 0x0, 0x0, 0x0, 0x2⟩

def Mem.enc : Mem → Enc
  | .lb => ⟨6046, 0x20, 0x0, 0x0, 0x0, 0x0, 0x0⟩
  | .lbu => ⟨6047, 0x24, 0x0, 0x0, 0x0, 0x0, 0x0⟩
  | .lh => ⟨6048, 0x21, 0x0, 0x0, 0x0, 0x0, 0x0⟩
  | .lhu => ⟨6049, 0x25, 0x0, 0x0, 0x0, 0x0, 0x0⟩
  | .ll => ⟨6050, 0x30, 0x0, 0x0, 0x0, 0x0, 0x0⟩
  | .lw => ⟨6051, 0x23, 0x0, 0x0, 0x0, 0x0, 0x0⟩
  | .lwc1 => ⟨6052, 0x31, 0x0, 0x0, 0x0, 0x0, 0x0⟩
  | .lwc2 => ⟨6053, 0x32, 0x0, 0x0, 0x0, 0x0, 0x0⟩
  | .lwl => ⟨6054, 0x22, 0x0, 0x0, 0x0, 0x0, 0x0⟩
  | .lwr => ⟨6055, 0x26, 0x0, 0x0, 0x0, 0x0, 0x0⟩
  | .sb => ⟨6056, 0x28, 0x0, 0x0, 0x0, 0x0, 0x0⟩
  | .sc => ⟨6057, 0x38, 0x0, 0x0, 0x0, 0x0, 0x0⟩
  | .sh => ⟨6058, 0x29, 0x0, 0x0, 0x0, 0x0, 0x0⟩
  | .sw => ⟨6059, 0x2B, 0x0, 0x0, 0x0, 0x0, 0x0⟩
  | .swc1 => ⟨6060, 0x39, 0x0, 0x0, 0x0, 0x0, 0x0⟩
  | .swc2 => ⟨6061, 0x3A, 0x0, 0x0, 0x0, 0x0, 0x0⟩
  | .swl => ⟨6062, 0x2A, 0x0, 0x0, 0x0, 0x0, 0x0⟩
  | .swr => ⟨6063, 0x2E, 0x0, 0x0, 0x0, 0x0, 0x0⟩

def D2.enc : D2 → Enc
  | .div => ⟨6064, 0x0, 0x0, 0x0, 0x0, 0x0, 0x1A⟩
  | .divu => ⟨6065, 0x0, 0x0, 0x0, 0x0, 0x0, 0x1B⟩
  | .madd => ⟨6066, 0x1C, 0x0, 0x0, 0x0, 0x0, 0x0⟩
  | .maddu => ⟨6067, 0x1C, 0x0, 0x0, 0x0, 0x0, 0x1⟩
  | .msub => ⟨6068, 0x1C, 0x0, 0x0, 0x0, 0x0, 0x4⟩
  | .msubu => ⟨6069, 0x1C, 0x0, 0x0, 0x0, 0x0, 0x5⟩
  | .mult => ⟨6070, 0x0, 0x0, 0x0, 0x0, 0x0, 0x18⟩
  | .multu => ⟨6071, 0x0, 0x0, 0x0, 0x0, 0x0, 0x19⟩

def X2.enc : X2 → Enc
  | .rdpgpr => ⟨6072, 0x10, 0xA, 0x0, 0x0, 0x0, 0x0⟩
  | .seb => ⟨6073, 0x1F, 0x0, 0x0, 0x0, 0x10, 0x20⟩
  | .seh => ⟨6074, 0x1F, 0x0, 0x0, 0x0, 0x18, 0x20⟩
  | .wrpgpr => ⟨6075, 0x10, 0xE, 0x0, 0x0, 0x0, 0x0⟩
  | .wsbh => ⟨6076, 0x1F, 0x0, 0x0, 0x0, 0x2, 0x20⟩

def Tr.enc : Tr → Enc
  | .teq => ⟨6077, 0x0, 0x0, 0x0, 0x0, 0x0, 0x34⟩
  | .tge => ⟨6078, 0x0, 0x0, 0x0, 0x0, 0x0, 0x30⟩
  | .tgeu => ⟨6079, 0x0, 0x0, 0x0, 0x0, 0x0, 0x31⟩
  | .tlt => ⟨6080, 0x0, 0x0, 0x0, 0x0, 0x0, 0x32⟩
  | .tltu => ⟨6081, 0x0, 0x0, 0x0, 0x0, 0x0, 0x33⟩
  | .tne => ⟨6082, 0x0, 0x0, 0x0, 0x0, 0x0, 0x36⟩

def Ti.enc : Ti → Enc
  | .teqi => ⟨6083, 0x1, 0x0, 0xC, 0x0, 0x0, 0x0⟩
  | .tgei => ⟨6084, 0x1, 0x0, 0x8, 0x0, 0x0, 0x0⟩
  | .tgeiu => ⟨6085, 0x1, 0x0, 0x9, 0x0, 0x0, 0x0⟩
  | .tlti => ⟨6086, 0x1, 0x0, 0xA, 0x0, 0x0, 0x0⟩
  | .tltiu => ⟨6087, 0x1, 0x0, 0xB, 0x0, 0x0, 0x0⟩
  | .tnei => ⟨6088, 0x1, 0x0, 0xE, 0x0, 0x0, 0x0⟩

def Cn.enc : Cn → Enc
  | .clo => ⟨6089, 0x1C, 0x0, 0x0, 0x0, 0x0, 0x21⟩
  | .clz => ⟨6090, 0x1C, 0x0, 0x0, 0x0, 0x0, 0x20⟩

def P0.enc : P0 → Enc
  | .deret => ⟨6091, 0x10, 0x10, 0x0, 0x0, 0x0, 0x1F⟩
  | .eret => ⟨6093, 0x10, 0x10, 0x0, 0x0, 0x0, 0x18⟩
  | .tlbp => ⟨6096, 0x10, 0x10, 0x0, 0x0, 0x0, 0x8⟩
  | .tlbr => ⟨6097, 0x10, 0x10, 0x0, 0x0, 0x0, 0x1⟩
  | .tlbwi => ⟨6098, 0x10, 0x10, 0x0, 0x0, 0x0, 0x2⟩
  | .tlbwr => ⟨6099, 0x10, 0x10, 0x0, 0x0, 0x0, 0x6⟩

def In.enc : In → Enc
  | .di => ⟨6100, 0x10, 0xB, 0x0, 0xC, 0x0, 0x0⟩
  | .ei => ⟨6101, 0x10, 0xB, 0x0, 0xC, 0x0, 0x20⟩

def Mf.enc : Mf → Enc
  | .mfhi => ⟨6102, 0x0, 0x0, 0x0, 0x0, 0x0, 0x10⟩
  | .mflo => ⟨6103, 0x0, 0x0, 0x0, 0x0, 0x0, 0x12⟩

def J1.enc : J1 → Enc
  | .jr => ⟨6104, 0x0, 0x0, 0x0, 0x0, 0x0, 0x8⟩
  | .jrhb => ⟨6105, 0x0, 0x0, 0x0, 0x0, 0x10, 0x8⟩
  | .mthi => ⟨6106, 0x0, 0x0, 0x0, 0x0, 0x0, 0x11⟩
  | .mtlo => ⟨6107, 0x0, 0x0, 0x0, 0x0, 0x0, 0x13⟩

def Jp.enc : Jp → Enc
  | .j => ⟨6108, 0x2, 0x0, 0x0, 0x0, 0x0, 0x0⟩
  | .jal => ⟨6109, 0x3, 0x0, 0x0, 0x0, 0x0, 0x0⟩

syntax "enc_good" : tactic
macro_rules | `(tactic| enc_good) => `(tactic| exact ⟨by decide +kernel, by decide, by decide, by rfl, by decide, by rfl⟩)

theorem R3.good (op : R3) : op.enc.Good op.text .rrr .add tableRRR op.enc.word := by cases op <;> enc_good
theorem SV.good (op : SV) : op.enc.Good op.text .rrr .add tableRRR op.enc.word := by cases op <;> enc_good
theorem B2.good (op : B2) : op.enc.Good op.text .branch .beq tableBranch (2, op.enc.word) := by cases op <;> enc_good
theorem B1.good (op : B1) : op.enc.Good op.text .branch .beq tableBranch (1, op.enc.word) := by cases op <;> enc_good
theorem Sh.good (op : Sh) : op.enc.Good op.text .shift .rotr tableShift op.enc.word := by cases op <;> enc_good
theorem Mem.good (op : Mem) : op.enc.Good op.text .loadStore .lb tableLoadStore op.enc.word := by cases op <;> enc_good
theorem D2.good (op : D2) : op.enc.Good (if op = .multu then "MULU" else op.text) .rsrt .div tableRSRT op.enc.word := by
  cases op <;> enc_good
theorem X2.good (op : X2) : op.enc.Good op.text .rdrt .rdpgpr tableRDRT op.enc.word := by cases op <;> enc_good
theorem Tr.good (op : Tr) : op.enc.Good op.text .rsrtCode .teq tableCode op.enc.word := by cases op <;> enc_good
theorem Cn.good (op : Cn) : op.enc.Good op.text .rdrsCopy .clo tableCopy op.enc.word := by cases op <;> enc_good
theorem P0.good (op : P0) : op.enc.Good op.text .none .deret tableNone op.enc.word := by cases op <;> enc_good
theorem In.good (op : In) : op.enc.Good op.text .rt .di tableRT op.enc.word := by cases op <;> enc_good
theorem Mf.good (op : Mf) : op.enc.Good op.text .rd .mfhi tableRD op.enc.word := by cases op <;> enc_good
theorem J1.good (op : J1) : op.enc.Good op.text .rs .jr tableRS op.enc.word := by cases op <;> enc_good
theorem Jp.good (op : Jp) : op.enc.Good op.text .jump .j tableJump op.enc.word := by cases op <;> enc_good

/-- Whether the assembler checks the number with its sign. -/
def I3.checked (op : I3) : Bool := op.signed && op != .sltiu

theorem I3.good (op : I3) : op.enc.Good op.text .rri .addi tableRRI (op.enc.word, op.checked) := by cases op <;> enc_good

def Ti.checked : Ti → Bool
  | .tgeiu | .tltiu => false
  | _ => true

theorem Ti.good (op : Ti) : op.enc.Good op.text .ri .teqi tableRI (op.enc.word, op.checked) := by cases op <;> enc_good

theorem instr_run (C : Ctx) {α : Type} {x : Enc} {text : String} {H : Handler} {first : T} {table : List α} {a : α}
    (g : x.Good text H first table a) (rest : Toks) : instr C (Mips.tok text :: rest) = H.run C x.n rest := by
  rw [g.tok]
  unfold instr
  simp only
  rw [if_pos ⟨g.low, g.high⟩, g.handler]

theorem opcode_run {α : Type} {x : Enc} {text : String} {H : Handler} {first : T} {table : List α} {a : α}
    (g : x.Good text H first table a) (f : α → Result) : opcode first table x.n f = f a := by
  unfold opcode
  rw [if_pos g.from_, g.entry]

/-! ### Operands -/

theorem tok_reg (r : Reg) : r.tok = .other (6136 + r.num.val) := by
  have h : ∀ (n : Fin 32) (b : Bool), (Reg.mk n b).tok = .other (6136 + n.val) := by decide +kernel
  exact h r.num r.named

theorem reg_tok (r : Reg) (rest : Toks) : reg (r.tok :: rest) = .ok (r.num.val, rest) := by
  rw [tok_reg]
  have := r.num.isLt
  have h1 : T.r0.num = 6136 := rfl
  have h2 : T.r31.num = 6167 := rfl
  show (if _ then _ else _) = _
  rw [if_pos ⟨by omega, by omega⟩, h1, show 6136 + r.num.val - 6136 = r.num.val from by omega]

theorem regComma_tok (r : Reg) (rest : Toks) : regComma (r.tok :: .comma :: rest) = .ok (r.num.val, rest) := by
  unfold regComma
  rw [reg_tok, ok_bind]; rfl

/-- The end of a line. -/
def EndOfLine (rest : Toks) : Prop := ∀ x, rest.head? = some x → ∃ n, n < 6000 ∧ x = .other n

theorem EndOfLine.ends {rest : Toks} (h : EndOfLine rest) : Ends rest := fun x hx => by
  obtain ⟨n, _, e⟩ := h x hx; exact Or.inr (Or.inr ⟨n, e⟩)

/-- Before a parenthesis that does not belong to the expression. -/
theorem expr_reads_lp (C : Ctx) {max : Nat} {t : Tree} (h : Readable max t) (rest : Toks) :
    expr C max (t.toks ++ .lp :: rest) = .ok (some (C.src t), .lp :: rest) := by
  have hs : Stops 0 (.lp :: rest) := by intro o ho; cases ho
  have hd : NoDot (.lp :: rest) := by intro w hw; cases hw
  unfold expr
  rcases h.strings with hp | hc
  · exact C37_without_strings _ max t _ _ h.fits h.nots h.leads hp (Or.inl hs) (value_src _ _ t)
  · exact C37_characters _ max t _ _ h.fits h.nots h.leads hc h.short hs hd (value_src _ _ t)

/-! ### Values -/

section

variable (fm : FMath) (now : Nat → ASym) (ρ : Den)

theorem code_or (s : Src) (c : Nat) (hc : c < 4294967296) :
    (Item.expr 4 (.bin .or s (.num (toI32 c)))).code fm wrap now ρ =
      (s.value fm wrap now ρ).map fun v => u32 v ||| c := by
  show ((Src.bin .or s (.num (toI32 c))).value fm wrap now ρ).map _ = _
  rw [value_bin, value_num fm wrap now ρ (Expr.toI32_range _)]
  cases s.value fm wrap now ρ with
  | none => rfl
  | some v =>
    have hu : u32 (toI32 (c : Int)) = c := by unfold u32 toI32; omega
    have hm : meaning fm .or v (toI32 c) = some (toI32 ((u32 v ||| c : Nat) : Int)) := by
      show some _ = some _
      rw [Expr.or_eq, hu]
    have hl : u32 v ||| c < 2 ^ 32 := Nat.or_lt_two_pow (Expr.u32_lt v) hc
    simp only [Option.bind_some, hm, Option.map_some]
    have hk : wrap.f (toI32 ((u32 v ||| c : Nat) : Int)) = some (toI32 ((u32 v ||| c : Nat) : Int)) :=
      wrap.keep _ (Expr.toI32_range _)
    have hw : u32 (toI32 ((u32 v ||| c : Nat) : Int)) % 256 ^ 4 = u32 v ||| c := by
      generalize u32 v ||| c = x at hl ⊢
      unfold u32 toI32; omega
    rw [hk, Option.map_some, hw]

theorem value_s16 (s : Src) :
    (Src.bin .and (checkRange s (-32768) 32767) (.num 0xFFFF)).value fm wrap now ρ =
      ((s.value fm wrap now ρ).bind (within (-32768) 32767)).map fun v => v % 65536 := by
  have := value_mask fm wrap now ρ (checkRange s (-32768) 32767) 16 (by omega)
  rw [value_checkRange fm wrap now ρ _ _ _ (by decide) (by decide)] at this
  exact this

theorem value_u16 (s : Src) :
    (checkRange s 0 65535).value fm wrap now ρ = (s.value fm wrap now ρ).bind (within 0 65535) :=
  value_checkRange fm wrap now ρ _ _ _ (by decide) (by decide)

theorem value_asr2 (s : Src) :
    (Src.bin .asr s (.num 2)).value fm wrap now ρ = (s.value fm wrap now ρ).map fun v => v / 4 := by
  rw [value_bin, value_num fm wrap now ρ (by decide)]
  cases h : s.value fm wrap now ρ with
  | none => rfl
  | some v =>
    have hv := src_value_range fm wrap now ρ s h
    have hm : meaning fm .asr v 2 = some (v / 4) := by
      show some (v.fdiv 4) = _
      rw [Int.fdiv_eq_ediv_of_nonneg _ (by decide)]
    simp only [Option.bind_some, hm, Option.map_some]
    exact wrap.keep _ (by unfold I32 at *; omega)

theorem value_distance (s : Src) :
    (distance s).value fm wrap now ρ =
      ((s.value fm wrap now ρ).bind fun v => within (-32768) 32767 (toI32 (v - (ρ.pc + 4)) / 4)).map fun v => v % 65536 := by
  unfold distance
  rw [value_s16, value_asr2, Expr.value_pcRel]
  cases s.value fm wrap now ρ with
  | none => rfl
  | some v =>
    simp only [Option.bind_some, Expr.wrap_f, Option.map_some]
    rw [show toI32 (toI32 (v + -4) - ρ.pc) = toI32 (v - (ρ.pc + 4)) from by unfold toI32; omega]

theorem value_asl6 (s : Src) (hi : Int) (h0 : 0 ≤ hi) (h1 : hi ≤ 1023) :
    (Src.bin .asl (checkRange s 0 hi) (.num 6)).value fm wrap now ρ =
      ((s.value fm wrap now ρ).bind (within 0 hi)).map fun v => v * 64 := by
  rw [value_bin, value_num fm wrap now ρ (by decide),
    value_checkRange fm wrap now ρ _ _ _ (by decide) (by unfold I32; omega)]
  show (((s.value fm wrap now ρ).bind (within 0 hi)).bind _) = _
  cases h : (s.value fm wrap now ρ).bind (within 0 hi) with
  | none => rfl
  | some v =>
    have hv : 0 ≤ v ∧ v ≤ hi := by
      obtain ⟨a, _, h⟩ := Option.bind_eq_some_iff.1 h
      unfold within at h
      split at h
      · cases h; assumption
      · cases h
    have hm : meaning fm .asl v 6 = some (v * 64) := by
      show some ((BitVec.ofInt 32 v <<< 6).toInt) = _
      rw [Expr.asl_eq, Expr.toI32_of]
      · rfl
      · unfold I32; omega
    simp only [Option.bind_some, hm, Option.map_some]
    exact wrap.keep _ (by unfold I32; omega)

end

end Verif.Cpu.Mips
