import Verif.Cpu.Schip.Lemmas
/-!
# C50: instructions of CHIP-8 and SUPER-CHIP
-/
namespace Verif.Cpu.Schip

open Verif.Parse
open Verif.Expr (Src FMath ASym Den Rng I32 u32)

theorem instr_eq (cpu : Nat) (C : Ctx) (name : String) (k : Nat) (e : Entry) (rest : Toks) (ht : tok name = .other (6000 + k))
    (hk : k < 30) (he : table[k]? = some e) :
    instr cpu C (tok name :: rest) = if e.cpu &&& cpu = 0 then .fail else
      (operands C e rest).bind fun (m1, m2, m3, rest) =>
        (e.handler.run cpu m1 m2 m3 e.opcode).bind fun items => .ok (some (items, rest)) := by
  rw [ht]
  have h1 : T.bcd.num = 6000 := rfl
  have h2 : T.scrl.num = 6029 := rfl
  simp only [instr]
  rw [if_pos (by omega), show 6000 + k - T.bcd.num = k by omega, he]

section

variable (fm : FMath) (R : Rng) (now : Nat → ASym) (ρ : Den)

theorem code_imm12 (a : Nat) (ha : a < 16) (s : Src) :
    (Item.expr 2 (.bin .or (.num (4096 * a : Nat)) (checkRange s 0 4095))).code fm R now ρ =
      (s.value fm R now ρ).bind fun v => if 0 ≤ v ∧ v ≤ 4095 then some (4096 * a + v.toNat) else none := by
  have hc := value_checkRange fm R now ρ s 0 4095 (by decide) (by decide)
  have hi := value_insert fm R now ρ (checkRange s 0 4095) 12 a (by omega) (by decide) (by
    intro v hv
    rw [hc] at hv
    obtain ⟨w, _, hw⟩ := Option.bind_eq_some_iff.1 hv
    split at hw <;> cases hw
    omega)
  show Option.map _ (Src.value fm R now ρ _) = _
  rw [show (4096 : Nat) = 2 ^ 12 from rfl, hi, hc]
  cases s.value fm R now ρ with
  | none => rfl
  | some v =>
    simp only [Option.bind_some]
    by_cases h : 0 ≤ v ∧ v ≤ 4095
    · rw [if_pos h, if_pos h]
      simp only [Option.map_some]
      rw [u32_of_nonneg (by omega) (by omega)]
      congr 1
      omega
    · rw [if_neg h, if_neg h]; rfl

theorem code_field (k m a : Nat) (hk : k < 2 ^ 16) (hm : m ≤ 8) (ha : 2 ^ m * a = k) (lo hi : Int) (hlo : I32 lo) (hhi : I32 hi) (s : Src) :
    (Item.expr 2 (.bin .or (.num (k : Nat)) (.bin .and (checkRange s lo hi) (.num (2 ^ m - 1 : Nat))))).code fm R now ρ =
      (s.value fm R now ρ).bind fun v => if lo ≤ v ∧ v ≤ hi then some ((k + (v % (2 ^ m : Nat)).toNat) % 65536) else none := by
  have hp : 2 ^ m ≤ 2 ^ 8 := Nat.pow_le_pow_right (by decide) hm
  have hpos : 0 < 2 ^ m := Nat.two_pow_pos m
  have hc := value_checkRange fm R now ρ s lo hi hlo hhi
  have hmask := value_mask fm R now ρ (checkRange s lo hi) m (by omega)
  have hb : ∀ v : Int, 0 ≤ v % (2 ^ m : Nat) ∧ v % (2 ^ m : Nat) < (2 ^ m : Nat) := fun v =>
    ⟨Int.emod_nonneg _ (by omega), Int.emod_lt_of_pos _ (by omega)⟩
  have hi' := value_insert fm R now ρ (.bin .and (checkRange s lo hi) (.num (2 ^ m - 1 : Nat))) m a (by omega) (by omega) (by
    intro v hv
    rw [hmask] at hv
    obtain ⟨w, _, hw⟩ := Option.map_eq_some_iff.1 hv
    subst hw
    exact hb w)
  show Option.map _ (Src.value fm R now ρ _) = _
  rw [← ha, hi', hmask, hc]
  cases s.value fm R now ρ with
  | none => rfl
  | some v =>
    simp only [Option.bind_some]
    by_cases h : lo ≤ v ∧ v ≤ hi
    · rw [if_pos h, if_pos h]
      simp only [Option.map_some]
      obtain ⟨h1, h2⟩ := hb v
      rw [u32_of_nonneg (by omega) (by omega)]
      congr 2
      omega
    · rw [if_neg h, if_neg h]; rfl

/-- The code of an instruction with an address. -/
theorem imm12_decoded (a : Nat) (ha : a < 16) (s : Src) (I : Nat → Instr Nat) (hI : ∀ v, v < 4096 → decode (4096 * a + v) = some (I v)) :
    ((Item.expr 2 (.bin .or (.num (4096 * a : Nat)) (checkRange s 0 4095))).code fm R now ρ).map decode =
      ((s.value fm R now ρ).bind fun v => if 0 ≤ v ∧ v ≤ 4095 then some (I v.toNat) else none).map some := by
  rw [code_imm12 fm R now ρ a ha]
  cases s.value fm R now ρ with
  | none => rfl
  | some v =>
    simp only [Option.bind_some]
    by_cases h : 0 ≤ v ∧ v ≤ 4095
    · rw [if_pos h, if_pos h]
      show some _ = some _
      rw [hI _ (by omega)]
    · rw [if_neg h, if_neg h]; rfl

/-- The code of an instruction with a small operand. -/
theorem field_decoded (k m a : Nat) (hk : k < 2 ^ 16 - 2 ^ m) (hm : m ≤ 8) (ha : 2 ^ m * a = k) (lo hi : Int) (hlo : I32 lo) (hhi : I32 hi)
    (s : Src) (I : Nat → Instr Nat) (hI : ∀ v, v < 2 ^ m → decode (k + v) = some (I v)) :
    ((Item.expr 2 (.bin .or (.num (k : Nat)) (.bin .and (checkRange s lo hi) (.num (2 ^ m - 1 : Nat))))).code fm R now ρ).map decode =
      ((s.value fm R now ρ).bind fun v => if lo ≤ v ∧ v ≤ hi then some (I (v % (2 ^ m : Nat)).toNat) else none).map some := by
  have hpos : 0 < 2 ^ m := Nat.two_pow_pos m
  rw [code_field fm R now ρ k m a (by omega) hm ha lo hi hlo hhi]
  cases s.value fm R now ρ with
  | none => rfl
  | some v =>
    simp only [Option.bind_some]
    by_cases h : lo ≤ v ∧ v ≤ hi
    · rw [if_pos h, if_pos h]
      show some _ = some _
      have h1 : 0 ≤ v % (2 ^ m : Nat) := Int.emod_nonneg _ (by omega)
      have h2 : v % (2 ^ m : Nat) < (2 ^ m : Nat) := Int.emod_lt_of_pos _ (by omega)
      rw [Nat.mod_eq_of_lt (by omega), hI _ (by omega)]
    · rw [if_neg h, if_neg h]; rfl

end

/-! ### Decoding -/

theorem decode_imm12 : ∀ v, v < 4096 → decode (4096 * 1 + v) = some (.jp v) ∧ decode (4096 * 2 + v) = some (.call v) ∧
    decode (4096 * 10 + v) = some (.ldI v) ∧ decode (4096 * 11 + v) = some (.jpV0 v) := by
  intro v hv
  unfold decode
  refine ⟨?_, ?_, ?_, ?_⟩
  · rw [show (4096 * 1 + v) / 4096 = 1 by omega, show (4096 * 1 + v) % 4096 = v by omega] <;> rfl
  · rw [show (4096 * 2 + v) / 4096 = 2 by omega, show (4096 * 2 + v) % 4096 = v by omega] <;> rfl
  · rw [show (4096 * 10 + v) / 4096 = 10 by omega, show (4096 * 10 + v) % 4096 = v by omega] <;> rfl
  · rw [show (4096 * 11 + v) / 4096 = 11 by omega, show (4096 * 11 + v) % 4096 = v by omega] <;> rfl

theorem decode_byte (x : Fin 16) (v : Nat) (hv : v < 256) :
    decode ((0x3000 ||| (x.val <<< 8)) + v) = some (.seImm x v) ∧ decode ((0x4000 ||| (x.val <<< 8)) + v) = some (.sneImm x v) ∧
    decode ((0x6000 ||| (x.val <<< 8)) + v) = some (.ldImm x v) ∧ decode ((0x7000 ||| (x.val <<< 8)) + v) = some (.addImm x v) ∧
    decode ((0xC000 ||| (x.val <<< 8)) + v) = some (.rnd x v) := by
  have hx := x.isLt
  have key : ∀ a ∈ [3, 4, 6, 7, 12], 4096 * a ||| (x.val <<< 8) = 4096 * a + 256 * x.val := by
    have : ∀ x : Fin 16, ∀ a ∈ [3, 4, 6, 7, 12], 4096 * a ||| (x.val <<< 8) = 4096 * a + 256 * x.val := by decide +kernel
    exact this x
  have field : ∀ a, (4096 * a + 256 * x.val + v) / 4096 = a ∧ (4096 * a + 256 * x.val + v) / 256 % 16 = x.val ∧
      (4096 * a + 256 * x.val + v) % 256 = v := by intro a; omega
  unfold decode
  refine ⟨?_, ?_, ?_, ?_, ?_⟩
  · rw [key 3 (by decide)]; obtain ⟨h1, h2, h3⟩ := field 3; rw [h1, h2, h3] <;> rfl
  · rw [key 4 (by decide)]; obtain ⟨h1, h2, h3⟩ := field 4; rw [h1, h2, h3] <;> rfl
  · rw [key 6 (by decide)]; obtain ⟨h1, h2, h3⟩ := field 6; rw [h1, h2, h3] <;> rfl
  · rw [key 7 (by decide)]; obtain ⟨h1, h2, h3⟩ := field 7; rw [h1, h2, h3] <;> rfl
  · rw [key 12 (by decide)]; obtain ⟨h1, h2, h3⟩ := field 12; rw [h1, h2, h3] <;> rfl

theorem drw_opcode (x y : Fin 16) : 0xD000 ||| (x.val <<< 8) ||| (y.val <<< 4) = 0xD000 + 256 * x.val + 16 * y.val := by
  revert x y; decide +kernel

theorem decode_drw (x y : Fin 16) (v : Nat) (hv : v < 16) :
    decode ((0xD000 ||| (x.val <<< 8) ||| (y.val <<< 4)) + v) = some (.drw x y v) := by
  have hx := x.isLt
  have hy := y.isLt
  rw [drw_opcode]
  unfold decode
  rw [show (0xD000 + 256 * x.val + 16 * y.val + v) / 4096 = 13 by omega,
    show (0xD000 + 256 * x.val + 16 * y.val + v) / 256 % 16 = x by omega,
    show (0xD000 + 256 * x.val + 16 * y.val + v) / 16 % 16 = y by omega,
    show (0xD000 + 256 * x.val + 16 * y.val + v) % 16 = v by omega] <;> rfl

theorem decode_reg : ∀ x : Fin 16,
    decode ((0xF033 ||| (x.val <<< 8)) % 65536) = some (.bcd x) ∧ decode ((0xF029 ||| (x.val <<< 8)) % 65536) = some (.ldf x) ∧
    decode ((0xF030 ||| (x.val <<< 8)) % 65536) = some (.ldf10 x) ∧ decode ((0x800E ||| (x.val <<< 8)) % 65536) = some (.shl x) ∧
    decode ((0xE0A1 ||| (x.val <<< 8)) % 65536) = some (.sknp x) ∧ decode ((0xE09E ||| (x.val <<< 8)) % 65536) = some (.skp x) ∧
    decode ((0x8006 ||| (x.val <<< 8)) % 65536) = some (.shr x) ∧ decode ((0xF00A ||| (x.val <<< 8)) % 65536) = some (.wkp x) ∧
    decode ((0xF007 ||| (x.val <<< 8)) % 65536) = some (.getDelay x) ∧ decode ((0xF015 ||| (x.val <<< 8)) % 65536) = some (.setDelay x) ∧
    decode ((0xF018 ||| (x.val <<< 8)) % 65536) = some (.setSound x) ∧ decode ((0xF065 ||| (x.val <<< 8)) % 65536) = some (.load x) ∧
    decode ((0xF055 ||| (x.val <<< 8)) % 65536) = some (.store x) ∧ decode ((0xF085 ||| (x.val <<< 8)) % 65536) = some (.loadFlags x) ∧
    decode ((0xF075 ||| (x.val <<< 8)) % 65536) = some (.saveFlags x) ∧ decode ((0xF01E ||| (x.val <<< 8)) % 65536) = some (.addI x) := by
  decide +kernel

theorem decode_regReg : ∀ x y : Fin 16,
    decode ((0x8002 ||| (x.val <<< 8) ||| (y.val <<< 4)) % 65536) = some (.and x y) ∧
    decode ((0x8001 ||| (x.val <<< 8) ||| (y.val <<< 4)) % 65536) = some (.or x y) ∧
    decode ((0x8005 ||| (x.val <<< 8) ||| (y.val <<< 4)) % 65536) = some (.sub x y) ∧
    decode ((0x8007 ||| (x.val <<< 8) ||| (y.val <<< 4)) % 65536) = some (.subn x y) ∧
    decode ((0x8003 ||| (x.val <<< 8) ||| (y.val <<< 4)) % 65536) = some (.xor x y) ∧
    decode ((0x8000 ||| (x.val <<< 8) ||| (y.val <<< 4)) % 65536) = some (.ld x y) ∧
    decode ((0x8004 ||| (x.val <<< 8) ||| (y.val <<< 4)) % 65536) = some (.add x y) ∧
    decode ((0x5000 ||| (x.val <<< 8) ||| (y.val <<< 4)) % 65536) = some (.se x y) ∧
    decode ((0x9000 ||| (x.val <<< 8) ||| (y.val <<< 4)) % 65536) = some (.sne x y) := by
  decide +kernel


/-! ### The properties -/

theorem byte_eq (a : Nat) (ha : a ∈ [3, 4, 6, 7, 12]) (x : Fin 16) : 2 ^ 8 * (16 * a + x.val) = 4096 * a ||| (x.val <<< 8) := by
  have : ∀ x : Fin 16, ∀ a ∈ [3, 4, 6, 7, 12], 2 ^ 8 * (16 * a + x.val) = 4096 * a ||| (x.val <<< 8) := by decide +kernel
  exact this x a ha

theorem byte_lt (a : Nat) (ha : a ∈ [3, 4, 6, 7, 12]) (x : Fin 16) : 4096 * a ||| (x.val <<< 8) < 2 ^ 16 - 2 ^ 8 := by
  have : ∀ x : Fin 16, ∀ a ∈ [3, 4, 6, 7, 12], 4096 * a ||| (x.val <<< 8) < 2 ^ 16 - 2 ^ 8 := by decide +kernel
  exact this x a ha

theorem drw_eq (x y : Fin 16) : 2 ^ 4 * (0xD00 + 16 * x.val + y.val) = 0xD000 ||| (x.val <<< 8) ||| (y.val <<< 4) := by
  rw [drw_opcode]; omega

theorem drw_lt (x y : Fin 16) : 0xD000 ||| (x.val <<< 8) ||| (y.val <<< 4) < 2 ^ 16 - 2 ^ 4 := by
  have := x.isLt; have := y.isLt
  rw [drw_opcode]; omega

/-- **C50.** An instruction that is written with the mnemonics of the documentation is assembled to a word that the processor
understands as that instruction, wherever the symbols in its operand are placed; an operand that does not fit is refused. SCD
is left out, see `C50_scd`. -/
theorem C50_encodes (cpu : Nat) (hcpu : cpu = cpuCHIP8 ∨ cpu = cpuSCHIP) (C : Ctx) (name : String) (ops : List Opnd)
    (hops : ∀ o ∈ ops, o.Ok) (i : Instr Tree) (hr : Means name ops i) (hscd : ∀ n, i ≠ .scd n)
    (hs : i.super = true → cpu = cpuSCHIP) (rest : Toks) (he : Ends rest) :
    ∃ item, instr cpu C (tok name :: (sep ops ++ rest)) = .ok (some ([item], rest)) ∧ item.size = 2 ∧
      ∀ fm R now ρ, (item.code fm R now ρ).map decode =
        ((i.eval fun t => (C.src t).value fm R now ρ).bind Instr.machine).map some := by
  have hcases : ∀ P : Nat → Prop, P cpuCHIP8 → P cpuSCHIP → P cpu := by
    intro P h1 h2; rcases hcpu with rfl | rfl <;> assumption
  cases hr
  case cls =>
    refine ⟨.const 2 224, ?_, rfl, ?_⟩
    · rw [instr_eq _ C "CLS" 23 _ _ (by decide +kernel) (by decide) rfl, if_neg (hcases (fun c => ¬ cpuALL &&& c = 0) (by decide) (by decide))]
      rfl
    · intro fm R now ρ
      rfl
  case ret =>
    refine ⟨.const 2 238, ?_, rfl, ?_⟩
    · rw [instr_eq _ C "RET" 27 _ _ (by decide +kernel) (by decide) rfl, if_neg (hcases (fun c => ¬ cpuALL &&& c = 0) (by decide) (by decide))]
      rfl
    · intro fm R now ρ
      rfl
  case scr =>
    cases hs rfl
    refine ⟨.const 2 251, ?_, rfl, ?_⟩
    · rw [instr_eq _ C "SCR" 28 _ _ (by decide +kernel) (by decide) rfl, if_neg (by decide)]
      rfl
    · intro fm R now ρ
      rfl
  case scl =>
    cases hs rfl
    refine ⟨.const 2 252, ?_, rfl, ?_⟩
    · rw [instr_eq _ C "SCL" 29 _ _ (by decide +kernel) (by decide) rfl, if_neg (by decide)]
      rfl
    · intro fm R now ρ
      rfl
  case exit =>
    cases hs rfl
    refine ⟨.const 2 253, ?_, rfl, ?_⟩
    · rw [instr_eq _ C "EXIT" 24 _ _ (by decide +kernel) (by decide) rfl, if_neg (by decide)]
      rfl
    · intro fm R now ρ
      rfl
  case low =>
    cases hs rfl
    refine ⟨.const 2 254, ?_, rfl, ?_⟩
    · rw [instr_eq _ C "LOW" 25 _ _ (by decide +kernel) (by decide) rfl, if_neg (by decide)]
      rfl
    · intro fm R now ρ
      rfl
  case high =>
    cases hs rfl
    refine ⟨.const 2 255, ?_, rfl, ?_⟩
    · rw [instr_eq _ C "HIGH" 26 _ _ (by decide +kernel) (by decide) rfl, if_neg (by decide)]
      rfl
    · intro fm R now ρ
      rfl
  case scd =>
    exact absurd rfl (hscd _)
  case jp n =>
    refine ⟨.expr 2 (.bin .or (.num (0x1000 : Nat)) (checkRange (C.src n) 0 4095)), ?_, rfl, ?_⟩
    · rw [instr_eq _ C "JP" 21 _ _ (by decide +kernel) (by decide) rfl, if_neg (hcases (fun c => ¬ cpuALL &&& c = 0) (by decide) (by decide)), operands_one C _ _ (hops _ (by simp)) rest he (by decide) rfl]
      simp [Opnd.mode, mREG, mIMM, mI, mDT, mST, mIIND, mIMMV0, mRPL, Outcome.bind, Handler.run, ld, ldm, add, skips, jp, drw, modeReg, modeRegReg, modeImm12, modeRegImm, check]
    · intro fm R now ρ
      refine (imm12_decoded fm R now ρ 1 (by decide) (C.src _) .jp fun v hv => (decode_imm12 v hv).1).trans ?_
      show _ = ((Option.map _ ((C.src _).value fm R now ρ)).bind Instr.machine).map some
      cases (C.src _).value fm R now ρ <;> rfl
  case jpV0 n =>
    refine ⟨.expr 2 (.bin .or (.num (0xB000 : Nat)) (checkRange (checkRange (C.src n) 0 4095) 0 4095)), ?_, rfl, ?_⟩
    · rw [instr_eq _ C "JP" 21 _ _ (by decide +kernel) (by decide) rfl, if_neg (hcases (fun c => ¬ cpuALL &&& c = 0) (by decide) (by decide)), operands_one C _ _ (hops _ (by simp)) rest he (by decide) rfl]
      simp [Opnd.mode, mREG, mIMM, mI, mDT, mST, mIIND, mIMMV0, mRPL, Outcome.bind, Handler.run, ld, ldm, add, skips, jp, drw, modeReg, modeRegReg, modeImm12, modeRegImm, check]
    · intro fm R now ρ
      refine (imm12_decoded fm R now ρ 11 (by decide) (checkRange (C.src _) 0 4095) .jpV0 fun v hv => (decode_imm12 v hv).2.2.2).trans ?_
      rw [value_checkRange fm R now ρ _ 0 4095 (by decide) (by decide)]
      show _ = ((Option.map _ ((C.src _).value fm R now ρ)).bind Instr.machine).map some
      cases (C.src _).value fm R now ρ with
      | none => rfl
      | some v =>
        by_cases h : 0 ≤ v ∧ v ≤ 4095
        · simp only [Option.bind_some, if_pos h, Option.map_some, Instr.machine]
        · simp only [Option.bind_some, if_neg h, Option.map_some, Instr.machine, Option.bind_none]
  case call n =>
    refine ⟨.expr 2 (.bin .or (.num (0x2000 : Nat)) (checkRange (C.src n) 0 4095)), ?_, rfl, ?_⟩
    · rw [instr_eq _ C "CALL" 22 _ _ (by decide +kernel) (by decide) rfl, if_neg (hcases (fun c => ¬ cpuALL &&& c = 0) (by decide) (by decide)), operands_one C _ _ (hops _ (by simp)) rest he (by decide) rfl]
      simp [Opnd.mode, mREG, mIMM, mI, mDT, mST, mIIND, mIMMV0, mRPL, Outcome.bind, Handler.run, ld, ldm, add, skips, jp, drw, modeReg, modeRegReg, modeImm12, modeRegImm, check]
    · intro fm R now ρ
      refine (imm12_decoded fm R now ρ 2 (by decide) (C.src _) .call fun v hv => (decode_imm12 v hv).2.1).trans ?_
      show _ = ((Option.map _ ((C.src _).value fm R now ρ)).bind Instr.machine).map some
      cases (C.src _).value fm R now ρ <;> rfl
  case seImm x h n =>
    refine ⟨.expr 2 (.bin .or (.num (0x3000 ||| (x.val <<< 8) : Nat)) (.bin .and (checkRange (C.src n) (-128) 255) (.num 255))), ?_, rfl, ?_⟩
    · rw [instr_eq _ C "SE" 17 _ _ (by decide +kernel) (by decide) rfl, if_neg (hcases (fun c => ¬ cpuALL &&& c = 0) (by decide) (by decide)), operands_two C _ _ _ (hops _ (by simp)) (hops _ (by simp)) rest he (by decide) (by decide) rfl]
      simp [Opnd.mode, mREG, mIMM, mI, mDT, mST, mIIND, mIMMV0, mRPL, Outcome.bind, Handler.run, ld, ldm, add, skips, jp, drw, modeReg, modeRegReg, modeImm12, modeRegImm, check]
    · intro fm R now ρ
      refine (field_decoded fm R now ρ _ 8 _ (byte_lt 3 (by decide) x) (by decide) (byte_eq 3 (by decide) x) (-128) 255 (by decide) (by decide) (C.src n) (.seImm x) fun v hv => (decode_byte x v hv).1).trans ?_
      show _ = ((Option.map _ ((C.src _).value fm R now ρ)).bind Instr.machine).map some
      cases (C.src _).value fm R now ρ <;> rfl
  case se x h y h' =>
    refine ⟨.const 2 (0x5000 ||| (x.val <<< 8) ||| (y.val <<< 4)), ?_, rfl, ?_⟩
    · rw [instr_eq _ C "SE" 17 _ _ (by decide +kernel) (by decide) rfl, if_neg (hcases (fun c => ¬ cpuALL &&& c = 0) (by decide) (by decide)), operands_two C _ _ _ (hops _ (by simp)) (hops _ (by simp)) rest he (by decide) (by decide) rfl]
      simp [Opnd.mode, mREG, mIMM, mI, mDT, mST, mIIND, mIMMV0, mRPL, Outcome.bind, Handler.run, ld, ldm, add, skips, jp, drw, modeReg, modeRegReg, modeImm12, modeRegImm, check]
    · intro fm R now ρ
      exact congrArg some ((decode_regReg _ _).2.2.2.2.2.2.2.1)
  case sneImm x h n =>
    refine ⟨.expr 2 (.bin .or (.num (0x4000 ||| (x.val <<< 8) : Nat)) (.bin .and (checkRange (C.src n) (-128) 255) (.num 255))), ?_, rfl, ?_⟩
    · rw [instr_eq _ C "SNE" 18 _ _ (by decide +kernel) (by decide) rfl, if_neg (hcases (fun c => ¬ cpuALL &&& c = 0) (by decide) (by decide)), operands_two C _ _ _ (hops _ (by simp)) (hops _ (by simp)) rest he (by decide) (by decide) rfl]
      simp [Opnd.mode, mREG, mIMM, mI, mDT, mST, mIIND, mIMMV0, mRPL, Outcome.bind, Handler.run, ld, ldm, add, skips, jp, drw, modeReg, modeRegReg, modeImm12, modeRegImm, check]
    · intro fm R now ρ
      refine (field_decoded fm R now ρ _ 8 _ (byte_lt 4 (by decide) x) (by decide) (byte_eq 4 (by decide) x) (-128) 255 (by decide) (by decide) (C.src n) (.sneImm x) fun v hv => (decode_byte x v hv).2.1).trans ?_
      show _ = ((Option.map _ ((C.src _).value fm R now ρ)).bind Instr.machine).map some
      cases (C.src _).value fm R now ρ <;> rfl
  case sne x h y h' =>
    refine ⟨.const 2 (0x9000 ||| (x.val <<< 8) ||| (y.val <<< 4)), ?_, rfl, ?_⟩
    · rw [instr_eq _ C "SNE" 18 _ _ (by decide +kernel) (by decide) rfl, if_neg (hcases (fun c => ¬ cpuALL &&& c = 0) (by decide) (by decide)), operands_two C _ _ _ (hops _ (by simp)) (hops _ (by simp)) rest he (by decide) (by decide) rfl]
      simp [Opnd.mode, mREG, mIMM, mI, mDT, mST, mIIND, mIMMV0, mRPL, Outcome.bind, Handler.run, ld, ldm, add, skips, jp, drw, modeReg, modeRegReg, modeImm12, modeRegImm, check]
    · intro fm R now ρ
      exact congrArg some ((decode_regReg _ _).2.2.2.2.2.2.2.2)
  case ldImm x h n =>
    refine ⟨.expr 2 (.bin .or (.num (0x6000 ||| (x.val <<< 8) : Nat)) (.bin .and (checkRange (C.src n) (-128) 255) (.num 255))), ?_, rfl, ?_⟩
    · rw [instr_eq _ C "LD" 14 _ _ (by decide +kernel) (by decide) rfl, if_neg (hcases (fun c => ¬ cpuALL &&& c = 0) (by decide) (by decide)), operands_two C _ _ _ (hops _ (by simp)) (hops _ (by simp)) rest he (by decide) (by decide) rfl]
      simp [Opnd.mode, mREG, mIMM, mI, mDT, mST, mIIND, mIMMV0, mRPL, Outcome.bind, Handler.run, ld, ldm, add, skips, jp, drw, modeReg, modeRegReg, modeImm12, modeRegImm, check]
    · intro fm R now ρ
      refine (field_decoded fm R now ρ _ 8 _ (byte_lt 6 (by decide) x) (by decide) (byte_eq 6 (by decide) x) (-128) 255 (by decide) (by decide) (C.src n) (.ldImm x) fun v hv => (decode_byte x v hv).2.2.1).trans ?_
      show _ = ((Option.map _ ((C.src _).value fm R now ρ)).bind Instr.machine).map some
      cases (C.src _).value fm R now ρ <;> rfl
  case ld x h y h' =>
    refine ⟨.const 2 (0x8000 ||| (x.val <<< 8) ||| (y.val <<< 4)), ?_, rfl, ?_⟩
    · rw [instr_eq _ C "LD" 14 _ _ (by decide +kernel) (by decide) rfl, if_neg (hcases (fun c => ¬ cpuALL &&& c = 0) (by decide) (by decide)), operands_two C _ _ _ (hops _ (by simp)) (hops _ (by simp)) rest he (by decide) (by decide) rfl]
      simp [Opnd.mode, mREG, mIMM, mI, mDT, mST, mIIND, mIMMV0, mRPL, Outcome.bind, Handler.run, ld, ldm, add, skips, jp, drw, modeReg, modeRegReg, modeImm12, modeRegImm, check]
    · intro fm R now ρ
      exact congrArg some ((decode_regReg _ _).2.2.2.2.2.1)
  case ldI n =>
    refine ⟨.expr 2 (.bin .or (.num (0xA000 : Nat)) (checkRange (C.src n) 0 4095)), ?_, rfl, ?_⟩
    · rw [instr_eq _ C "LD" 14 _ _ (by decide +kernel) (by decide) rfl, if_neg (hcases (fun c => ¬ cpuALL &&& c = 0) (by decide) (by decide)), operands_two C _ _ _ (hops _ (by simp)) (hops _ (by simp)) rest he (by decide) (by decide) rfl]
      simp [Opnd.mode, mREG, mIMM, mI, mDT, mST, mIIND, mIMMV0, mRPL, Outcome.bind, Handler.run, ld, ldm, add, skips, jp, drw, modeReg, modeRegReg, modeImm12, modeRegImm, check]
    · intro fm R now ρ
      refine (imm12_decoded fm R now ρ 10 (by decide) (C.src _) .ldI fun v hv => (decode_imm12 v hv).2.2.1).trans ?_
      show _ = ((Option.map _ ((C.src _).value fm R now ρ)).bind Instr.machine).map some
      cases (C.src _).value fm R now ρ <;> rfl
  case getDelay x h =>
    refine ⟨.const 2 (0xF007 ||| (x.val <<< 8)), ?_, rfl, ?_⟩
    · rw [instr_eq _ C "LD" 14 _ _ (by decide +kernel) (by decide) rfl, if_neg (hcases (fun c => ¬ cpuALL &&& c = 0) (by decide) (by decide)), operands_two C _ _ _ (hops _ (by simp)) (hops _ (by simp)) rest he (by decide) (by decide) rfl]
      simp [Opnd.mode, mREG, mIMM, mI, mDT, mST, mIIND, mIMMV0, mRPL, Outcome.bind, Handler.run, ld, ldm, add, skips, jp, drw, modeReg, modeRegReg, modeImm12, modeRegImm, check]
    · intro fm R now ρ
      exact congrArg some ((decode_reg _).2.2.2.2.2.2.2.2.1)
  case setDelay x h =>
    refine ⟨.const 2 (0xF015 ||| (x.val <<< 8)), ?_, rfl, ?_⟩
    · rw [instr_eq _ C "LD" 14 _ _ (by decide +kernel) (by decide) rfl, if_neg (hcases (fun c => ¬ cpuALL &&& c = 0) (by decide) (by decide)), operands_two C _ _ _ (hops _ (by simp)) (hops _ (by simp)) rest he (by decide) (by decide) rfl]
      simp [Opnd.mode, mREG, mIMM, mI, mDT, mST, mIIND, mIMMV0, mRPL, Outcome.bind, Handler.run, ld, ldm, add, skips, jp, drw, modeReg, modeRegReg, modeImm12, modeRegImm, check]
    · intro fm R now ρ
      exact congrArg some ((decode_reg _).2.2.2.2.2.2.2.2.2.1)
  case setSound x h =>
    refine ⟨.const 2 (0xF018 ||| (x.val <<< 8)), ?_, rfl, ?_⟩
    · rw [instr_eq _ C "LD" 14 _ _ (by decide +kernel) (by decide) rfl, if_neg (hcases (fun c => ¬ cpuALL &&& c = 0) (by decide) (by decide)), operands_two C _ _ _ (hops _ (by simp)) (hops _ (by simp)) rest he (by decide) (by decide) rfl]
      simp [Opnd.mode, mREG, mIMM, mI, mDT, mST, mIIND, mIMMV0, mRPL, Outcome.bind, Handler.run, ld, ldm, add, skips, jp, drw, modeReg, modeRegReg, modeImm12, modeRegImm, check]
    · intro fm R now ρ
      exact congrArg some ((decode_reg _).2.2.2.2.2.2.2.2.2.2.1)
  case addImm x h n =>
    refine ⟨.expr 2 (.bin .or (.num (0x7000 ||| (x.val <<< 8) : Nat)) (.bin .and (checkRange (C.src n) (-128) 255) (.num 255))), ?_, rfl, ?_⟩
    · rw [instr_eq _ C "ADD" 16 _ _ (by decide +kernel) (by decide) rfl, if_neg (hcases (fun c => ¬ cpuALL &&& c = 0) (by decide) (by decide)), operands_two C _ _ _ (hops _ (by simp)) (hops _ (by simp)) rest he (by decide) (by decide) rfl]
      simp [Opnd.mode, mREG, mIMM, mI, mDT, mST, mIIND, mIMMV0, mRPL, Outcome.bind, Handler.run, ld, ldm, add, skips, jp, drw, modeReg, modeRegReg, modeImm12, modeRegImm, check]
    · intro fm R now ρ
      refine (field_decoded fm R now ρ _ 8 _ (byte_lt 7 (by decide) x) (by decide) (byte_eq 7 (by decide) x) (-128) 255 (by decide) (by decide) (C.src n) (.addImm x) fun v hv => (decode_byte x v hv).2.2.2.1).trans ?_
      show _ = ((Option.map _ ((C.src _).value fm R now ρ)).bind Instr.machine).map some
      cases (C.src _).value fm R now ρ <;> rfl
  case add x h y h' =>
    refine ⟨.const 2 (0x8004 ||| (x.val <<< 8) ||| (y.val <<< 4)), ?_, rfl, ?_⟩
    · rw [instr_eq _ C "ADD" 16 _ _ (by decide +kernel) (by decide) rfl, if_neg (hcases (fun c => ¬ cpuALL &&& c = 0) (by decide) (by decide)), operands_two C _ _ _ (hops _ (by simp)) (hops _ (by simp)) rest he (by decide) (by decide) rfl]
      simp [Opnd.mode, mREG, mIMM, mI, mDT, mST, mIIND, mIMMV0, mRPL, Outcome.bind, Handler.run, ld, ldm, add, skips, jp, drw, modeReg, modeRegReg, modeImm12, modeRegImm, check]
    · intro fm R now ρ
      exact congrArg some ((decode_regReg _ _).2.2.2.2.2.2.1)
  case addI x h =>
    refine ⟨.const 2 (0xF01E ||| (x.val <<< 8)), ?_, rfl, ?_⟩
    · rw [instr_eq _ C "ADD" 16 _ _ (by decide +kernel) (by decide) rfl, if_neg (hcases (fun c => ¬ cpuALL &&& c = 0) (by decide) (by decide)), operands_two C _ _ _ (hops _ (by simp)) (hops _ (by simp)) rest he (by decide) (by decide) rfl]
      simp [Opnd.mode, mREG, mIMM, mI, mDT, mST, mIIND, mIMMV0, mRPL, Outcome.bind, Handler.run, ld, ldm, add, skips, jp, drw, modeReg, modeRegReg, modeImm12, modeRegImm, check]
    · intro fm R now ρ
      exact congrArg some ((decode_reg _).2.2.2.2.2.2.2.2.2.2.2.2.2.2.2)
  case or x h y h' =>
    refine ⟨.const 2 (0x8001 ||| (x.val <<< 8) ||| (y.val <<< 4)), ?_, rfl, ?_⟩
    · rw [instr_eq _ C "OR" 9 _ _ (by decide +kernel) (by decide) rfl, if_neg (hcases (fun c => ¬ cpuALL &&& c = 0) (by decide) (by decide)), operands_two C _ _ _ (hops _ (by simp)) (hops _ (by simp)) rest he (by decide) (by decide) rfl]
      simp [Opnd.mode, mREG, mIMM, mI, mDT, mST, mIIND, mIMMV0, mRPL, Outcome.bind, Handler.run, ld, ldm, add, skips, jp, drw, modeReg, modeRegReg, modeImm12, modeRegImm, check]
    · intro fm R now ρ
      exact congrArg some ((decode_regReg _ _).2.1)
  case and x h y h' =>
    refine ⟨.const 2 (0x8002 ||| (x.val <<< 8) ||| (y.val <<< 4)), ?_, rfl, ?_⟩
    · rw [instr_eq _ C "AND" 8 _ _ (by decide +kernel) (by decide) rfl, if_neg (hcases (fun c => ¬ cpuALL &&& c = 0) (by decide) (by decide)), operands_two C _ _ _ (hops _ (by simp)) (hops _ (by simp)) rest he (by decide) (by decide) rfl]
      simp [Opnd.mode, mREG, mIMM, mI, mDT, mST, mIIND, mIMMV0, mRPL, Outcome.bind, Handler.run, ld, ldm, add, skips, jp, drw, modeReg, modeRegReg, modeImm12, modeRegImm, check]
    · intro fm R now ρ
      exact congrArg some ((decode_regReg _ _).1)
  case xor x h y h' =>
    refine ⟨.const 2 (0x8003 ||| (x.val <<< 8) ||| (y.val <<< 4)), ?_, rfl, ?_⟩
    · rw [instr_eq _ C "XOR" 12 _ _ (by decide +kernel) (by decide) rfl, if_neg (hcases (fun c => ¬ cpuALL &&& c = 0) (by decide) (by decide)), operands_two C _ _ _ (hops _ (by simp)) (hops _ (by simp)) rest he (by decide) (by decide) rfl]
      simp [Opnd.mode, mREG, mIMM, mI, mDT, mST, mIIND, mIMMV0, mRPL, Outcome.bind, Handler.run, ld, ldm, add, skips, jp, drw, modeReg, modeRegReg, modeImm12, modeRegImm, check]
    · intro fm R now ρ
      exact congrArg some ((decode_regReg _ _).2.2.2.2.1)
  case sub x h y h' =>
    refine ⟨.const 2 (0x8005 ||| (x.val <<< 8) ||| (y.val <<< 4)), ?_, rfl, ?_⟩
    · rw [instr_eq _ C "SUB" 10 _ _ (by decide +kernel) (by decide) rfl, if_neg (hcases (fun c => ¬ cpuALL &&& c = 0) (by decide) (by decide)), operands_two C _ _ _ (hops _ (by simp)) (hops _ (by simp)) rest he (by decide) (by decide) rfl]
      simp [Opnd.mode, mREG, mIMM, mI, mDT, mST, mIIND, mIMMV0, mRPL, Outcome.bind, Handler.run, ld, ldm, add, skips, jp, drw, modeReg, modeRegReg, modeImm12, modeRegImm, check]
    · intro fm R now ρ
      exact congrArg some ((decode_regReg _ _).2.2.1)
  case subn x h y h' =>
    refine ⟨.const 2 (0x8007 ||| (x.val <<< 8) ||| (y.val <<< 4)), ?_, rfl, ?_⟩
    · rw [instr_eq _ C "SUBN" 11 _ _ (by decide +kernel) (by decide) rfl, if_neg (hcases (fun c => ¬ cpuALL &&& c = 0) (by decide) (by decide)), operands_two C _ _ _ (hops _ (by simp)) (hops _ (by simp)) rest he (by decide) (by decide) rfl]
      simp [Opnd.mode, mREG, mIMM, mI, mDT, mST, mIIND, mIMMV0, mRPL, Outcome.bind, Handler.run, ld, ldm, add, skips, jp, drw, modeReg, modeRegReg, modeImm12, modeRegImm, check]
    · intro fm R now ρ
      exact congrArg some ((decode_regReg _ _).2.2.2.1)
  case shr x h =>
    refine ⟨.const 2 (0x8006 ||| (x.val <<< 8)), ?_, rfl, ?_⟩
    · rw [instr_eq _ C "SHR" 6 _ _ (by decide +kernel) (by decide) rfl, if_neg (hcases (fun c => ¬ cpuALL &&& c = 0) (by decide) (by decide)), operands_one C _ _ (hops _ (by simp)) rest he (by decide) rfl]
      simp [Opnd.mode, mREG, mIMM, mI, mDT, mST, mIIND, mIMMV0, mRPL, Outcome.bind, Handler.run, ld, ldm, add, skips, jp, drw, modeReg, modeRegReg, modeImm12, modeRegImm, check]
    · intro fm R now ρ
      exact congrArg some ((decode_reg _).2.2.2.2.2.2.1)
  case shl x h =>
    refine ⟨.const 2 (0x800E ||| (x.val <<< 8)), ?_, rfl, ?_⟩
    · rw [instr_eq _ C "SHL" 3 _ _ (by decide +kernel) (by decide) rfl, if_neg (hcases (fun c => ¬ cpuALL &&& c = 0) (by decide) (by decide)), operands_one C _ _ (hops _ (by simp)) rest he (by decide) rfl]
      simp [Opnd.mode, mREG, mIMM, mI, mDT, mST, mIIND, mIMMV0, mRPL, Outcome.bind, Handler.run, ld, ldm, add, skips, jp, drw, modeReg, modeRegReg, modeImm12, modeRegImm, check]
    · intro fm R now ρ
      exact congrArg some ((decode_reg _).2.2.2.1)
  case rnd x h n =>
    refine ⟨.expr 2 (.bin .or (.num (0xC000 ||| (x.val <<< 8) : Nat)) (.bin .and (checkRange (C.src n) (-128) 255) (.num 255))), ?_, rfl, ?_⟩
    · rw [instr_eq _ C "RND" 19 _ _ (by decide +kernel) (by decide) rfl, if_neg (hcases (fun c => ¬ cpuALL &&& c = 0) (by decide) (by decide)), operands_two C _ _ _ (hops _ (by simp)) (hops _ (by simp)) rest he (by decide) (by decide) rfl]
      simp [Opnd.mode, mREG, mIMM, mI, mDT, mST, mIIND, mIMMV0, mRPL, Outcome.bind, Handler.run, ld, ldm, add, skips, jp, drw, modeReg, modeRegReg, modeImm12, modeRegImm, check]
    · intro fm R now ρ
      refine (field_decoded fm R now ρ _ 8 _ (byte_lt 12 (by decide) x) (by decide) (byte_eq 12 (by decide) x) (-128) 255 (by decide) (by decide) (C.src n) (.rnd x) fun v hv => (decode_byte x v hv).2.2.2.2).trans ?_
      show _ = ((Option.map _ ((C.src _).value fm R now ρ)).bind Instr.machine).map some
      cases (C.src _).value fm R now ρ <;> rfl
  case drw x h y h' n =>
    refine ⟨.expr 2 (.bin .or (.num (0xD000 ||| (x.val <<< 8) ||| (y.val <<< 4) : Nat)) (.bin .and (checkRange (C.src n) 0 16) (.num 15))), ?_, rfl, ?_⟩
    · rw [instr_eq _ C "DRW" 13 _ _ (by decide +kernel) (by decide) rfl, if_neg (hcases (fun c => ¬ cpuALL &&& c = 0) (by decide) (by decide)), operands_three C _ _ _ _ (hops _ (by simp)) (hops _ (by simp)) (hops _ (by simp)) rest he (by decide) (by decide) (by decide)]
      simp [Opnd.mode, mREG, mIMM, mI, mDT, mST, mIIND, mIMMV0, mRPL, Outcome.bind, Handler.run, ld, ldm, add, skips, jp, drw, modeReg, modeRegReg, modeImm12, modeRegImm, check]
    · intro fm R now ρ
      refine (field_decoded fm R now ρ _ 4 _ (drw_lt x y) (by decide) (drw_eq x y) 0 16 (by decide) (by decide) (C.src n) (.drw x y) fun v hv => decode_drw x y v hv).trans ?_
      show _ = ((Option.map _ ((C.src _).value fm R now ρ)).bind Instr.machine).map some
      cases (C.src _).value fm R now ρ <;> rfl
  case skp x h =>
    refine ⟨.const 2 (0xE09E ||| (x.val <<< 8)), ?_, rfl, ?_⟩
    · rw [instr_eq _ C "SKP" 5 _ _ (by decide +kernel) (by decide) rfl, if_neg (hcases (fun c => ¬ cpuALL &&& c = 0) (by decide) (by decide)), operands_one C _ _ (hops _ (by simp)) rest he (by decide) rfl]
      simp [Opnd.mode, mREG, mIMM, mI, mDT, mST, mIIND, mIMMV0, mRPL, Outcome.bind, Handler.run, ld, ldm, add, skips, jp, drw, modeReg, modeRegReg, modeImm12, modeRegImm, check]
    · intro fm R now ρ
      exact congrArg some ((decode_reg _).2.2.2.2.2.1)
  case sknp x h =>
    refine ⟨.const 2 (0xE0A1 ||| (x.val <<< 8)), ?_, rfl, ?_⟩
    · rw [instr_eq _ C "SKNP" 4 _ _ (by decide +kernel) (by decide) rfl, if_neg (hcases (fun c => ¬ cpuALL &&& c = 0) (by decide) (by decide)), operands_one C _ _ (hops _ (by simp)) rest he (by decide) rfl]
      simp [Opnd.mode, mREG, mIMM, mI, mDT, mST, mIIND, mIMMV0, mRPL, Outcome.bind, Handler.run, ld, ldm, add, skips, jp, drw, modeReg, modeRegReg, modeImm12, modeRegImm, check]
    · intro fm R now ρ
      exact congrArg some ((decode_reg _).2.2.2.2.1)
  case wkp x h =>
    refine ⟨.const 2 (0xF00A ||| (x.val <<< 8)), ?_, rfl, ?_⟩
    · rw [instr_eq _ C "WKP" 7 _ _ (by decide +kernel) (by decide) rfl, if_neg (hcases (fun c => ¬ cpuALL &&& c = 0) (by decide) (by decide)), operands_one C _ _ (hops _ (by simp)) rest he (by decide) rfl]
      simp [Opnd.mode, mREG, mIMM, mI, mDT, mST, mIIND, mIMMV0, mRPL, Outcome.bind, Handler.run, ld, ldm, add, skips, jp, drw, modeReg, modeRegReg, modeImm12, modeRegImm, check]
    · intro fm R now ρ
      exact congrArg some ((decode_reg _).2.2.2.2.2.2.2.1)
  case ldf x h =>
    refine ⟨.const 2 (0xF029 ||| (x.val <<< 8)), ?_, rfl, ?_⟩
    · rw [instr_eq _ C "LDF" 1 _ _ (by decide +kernel) (by decide) rfl, if_neg (hcases (fun c => ¬ cpuALL &&& c = 0) (by decide) (by decide)), operands_one C _ _ (hops _ (by simp)) rest he (by decide) rfl]
      simp [Opnd.mode, mREG, mIMM, mI, mDT, mST, mIIND, mIMMV0, mRPL, Outcome.bind, Handler.run, ld, ldm, add, skips, jp, drw, modeReg, modeRegReg, modeImm12, modeRegImm, check]
    · intro fm R now ρ
      exact congrArg some ((decode_reg _).2.1)
  case ldf10 x h =>
    cases hs rfl
    refine ⟨.const 2 (0xF030 ||| (x.val <<< 8)), ?_, rfl, ?_⟩
    · rw [instr_eq _ C "LDF10" 2 _ _ (by decide +kernel) (by decide) rfl, if_neg (by decide), operands_one C _ _ (hops _ (by simp)) rest he (by decide) rfl]
      simp [Opnd.mode, mREG, mIMM, mI, mDT, mST, mIIND, mIMMV0, mRPL, Outcome.bind, Handler.run, ld, ldm, add, skips, jp, drw, modeReg, modeRegReg, modeImm12, modeRegImm, check]
    · intro fm R now ρ
      exact congrArg some ((decode_reg _).2.2.1)
  case bcd x h =>
    refine ⟨.const 2 (0xF033 ||| (x.val <<< 8)), ?_, rfl, ?_⟩
    · rw [instr_eq _ C "BCD" 0 _ _ (by decide +kernel) (by decide) rfl, if_neg (hcases (fun c => ¬ cpuALL &&& c = 0) (by decide) (by decide)), operands_one C _ _ (hops _ (by simp)) rest he (by decide) rfl]
      simp [Opnd.mode, mREG, mIMM, mI, mDT, mST, mIIND, mIMMV0, mRPL, Outcome.bind, Handler.run, ld, ldm, add, skips, jp, drw, modeReg, modeRegReg, modeImm12, modeRegImm, check]
    · intro fm R now ρ
      exact congrArg some ((decode_reg _).1)
  case store x h =>
    refine ⟨.const 2 (0xF055 ||| (x.val <<< 8)), ?_, rfl, ?_⟩
    · rw [instr_eq _ C "LDM" 15 _ _ (by decide +kernel) (by decide) rfl, if_neg (hcases (fun c => ¬ cpuALL &&& c = 0) (by decide) (by decide)), operands_two C _ _ _ (hops _ (by simp)) (hops _ (by simp)) rest he (by decide) (by decide) rfl]
      simp [Opnd.mode, mREG, mIMM, mI, mDT, mST, mIIND, mIMMV0, mRPL, Outcome.bind, Handler.run, ld, ldm, add, skips, jp, drw, modeReg, modeRegReg, modeImm12, modeRegImm, check]
    · intro fm R now ρ
      exact congrArg some ((decode_reg _).2.2.2.2.2.2.2.2.2.2.2.2.1)
  case load x h =>
    refine ⟨.const 2 (0xF065 ||| (x.val <<< 8)), ?_, rfl, ?_⟩
    · rw [instr_eq _ C "LDM" 15 _ _ (by decide +kernel) (by decide) rfl, if_neg (hcases (fun c => ¬ cpuALL &&& c = 0) (by decide) (by decide)), operands_two C _ _ _ (hops _ (by simp)) (hops _ (by simp)) rest he (by decide) (by decide) rfl]
      simp [Opnd.mode, mREG, mIMM, mI, mDT, mST, mIIND, mIMMV0, mRPL, Outcome.bind, Handler.run, ld, ldm, add, skips, jp, drw, modeReg, modeRegReg, modeImm12, modeRegImm, check]
    · intro fm R now ρ
      exact congrArg some ((decode_reg _).2.2.2.2.2.2.2.2.2.2.2.1)
  case saveFlags x h =>
    cases hs rfl
    refine ⟨.const 2 (0xF075 ||| (x.val <<< 8)), ?_, rfl, ?_⟩
    · rw [instr_eq _ C "LDM" 15 _ _ (by decide +kernel) (by decide) rfl, if_neg (by decide), operands_two C _ _ _ (hops _ (by simp)) (hops _ (by simp)) rest he (by decide) (by decide) rfl]
      simp [Opnd.mode, mREG, mIMM, mI, mDT, mST, mIIND, mIMMV0, mRPL, Outcome.bind, Handler.run, ld, ldm, add, skips, jp, drw, modeReg, modeRegReg, modeImm12, modeRegImm, check]
    · intro fm R now ρ
      exact congrArg some ((decode_reg _).2.2.2.2.2.2.2.2.2.2.2.2.2.2.1)
  case loadFlags x h =>
    cases hs rfl
    refine ⟨.const 2 (0xF085 ||| (x.val <<< 8)), ?_, rfl, ?_⟩
    · rw [instr_eq _ C "LDM" 15 _ _ (by decide +kernel) (by decide) rfl, if_neg (by decide), operands_two C _ _ _ (hops _ (by simp)) (hops _ (by simp)) rest he (by decide) (by decide) rfl]
      simp [Opnd.mode, mREG, mIMM, mI, mDT, mST, mIIND, mIMMV0, mRPL, Outcome.bind, Handler.run, ld, ldm, add, skips, jp, drw, modeReg, modeRegReg, modeImm12, modeRegImm, check]
    · intro fm R now ρ
      exact congrArg some ((decode_reg _).2.2.2.2.2.2.2.2.2.2.2.2.2.1)

end Verif.Cpu.Schip
