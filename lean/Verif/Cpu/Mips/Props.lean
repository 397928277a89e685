import Verif.Cpu.Mips.Lemmas
namespace Verif.Cpu.Mips

open Verif.Parse
open Verif.Expr (Src FMath ASym Den Rng I32 u32 toI32 meaning value_bin wrap)

/-! ### The words -/

section

variable {pc : Int}

theorem decode_r3 (op : R3) {rd rs rt : Nat} (h1 : rd < 32) (h2 : rs < 32) (h3 : rt < 32) :
    decodeAt pc (op.enc.word ||| (rs <<< 21) ||| (rt <<< 16) ||| (rd <<< 11)) = some (.r3 op rd rs rt) := by
  have e : ∀ x : Enc, x.a = 0 → x.b = 0 → x.c = 0 → x.d = 0 → x.h < 64 → x.e < 64 →
      fields (x.word ||| (rs <<< 21) ||| (rt <<< 16) ||| (rd <<< 11)) =
        ⟨x.h, rs, rt, rd, 0, x.e, 2 ^ 11 * rd + 2 ^ 6 * 0 + x.e, 2 ^ 21 * rs + 2 ^ 16 * rt + 2 ^ 11 * rd + 2 ^ 6 * 0 + x.e⟩ := by
    intro x ha hb hc hd hh he
    unfold Enc.word
    rw [ha, hb, hc, hd, pack_rs, pack_rt, pack_rd, pack_or (by omega) (by omega) (by omega) (by omega) he h2 (by omega) (by omega) (by omega) (by omega)]
    simp only [Nat.zero_or, Nat.or_zero]
    rw [pack_or h2 (by omega) (by omega) (by omega) he (by omega) h3 (by omega) (by omega) (by omega)]
    simp only [Nat.zero_or, Nat.or_zero]
    rw [pack_or h2 h3 (by omega) (by omega) he (by omega) (by omega) h1 (by omega) (by omega)]
    simp only [Nat.zero_or, Nat.or_zero]
    exact fields_pack hh h2 h3 h1 (by omega) he
  unfold decodeAt
  rw [e op.enc (by cases op <;> rfl) (by cases op <;> rfl) (by cases op <;> rfl) (by cases op <;> rfl) (by cases op <;> decide)
    (by cases op <;> decide)]
  cases op <;> rfl

/-- The registers are exchanged. -/
theorem decode_sv (op : SV) {rd rs rt : Nat} (h1 : rd < 32) (h2 : rs < 32) (h3 : rt < 32) :
    decodeAt pc (op.enc.word ||| (rs <<< 21) ||| (rt <<< 16) ||| (rd <<< 11)) = some (.sv op rd rt rs) := by
  have e : ∀ x : Enc, x.a = 0 → x.b = 0 → x.c = 0 → x.d < 32 → x.h < 64 → x.e < 64 →
      fields (x.word ||| (rs <<< 21) ||| (rt <<< 16) ||| (rd <<< 11)) =
        ⟨x.h, rs, rt, rd, x.d, x.e, 2 ^ 11 * rd + 2 ^ 6 * x.d + x.e,
          2 ^ 21 * rs + 2 ^ 16 * rt + 2 ^ 11 * rd + 2 ^ 6 * x.d + x.e⟩ := by
    intro x ha hb hc hd hh he
    unfold Enc.word
    rw [ha, hb, hc, pack_rs, pack_rt, pack_rd, pack_or (by omega) (by omega) (by omega) hd he h2 (by omega) (by omega) (by omega) (by omega)]
    simp only [Nat.zero_or, Nat.or_zero]
    rw [pack_or h2 (by omega) (by omega) hd he (by omega) h3 (by omega) (by omega) (by omega)]
    simp only [Nat.zero_or, Nat.or_zero]
    rw [pack_or h2 h3 (by omega) hd he (by omega) (by omega) h1 (by omega) (by omega)]
    simp only [Nat.zero_or, Nat.or_zero]
    exact fields_pack hh h2 h3 h1 hd he
  unfold decodeAt
  rw [e op.enc (by cases op <;> rfl) (by cases op <;> rfl) (by cases op <;> rfl) (by cases op <;> decide) (by cases op <;> decide)
    (by cases op <;> decide)]
  cases op <;> rfl

/-- Two registers with an opcode that has a function. -/
theorem fields_2 (x : Enc) {rs rt : Nat} (h2 : rs < 32) (h3 : rt < 32) (ha : x.a = 0) (hb : x.b = 0) (hc : x.c = 0) (hd : x.d = 0)
    (hh : x.h < 64) (he : x.e < 64) : ∃ imm idx,
    fields (x.word ||| (rs <<< 21) ||| (rt <<< 16)) = ⟨x.h, rs, rt, 0, 0, x.e, imm, idx⟩ := by
  unfold Enc.word
  rw [ha, hb, hc, hd, pack_rs, pack_rt, pack_or (by omega) (by omega) (by omega) (by omega) he h2 (by omega) (by omega) (by omega) (by omega)]
  simp only [Nat.zero_or, Nat.or_zero]
  rw [pack_or h2 (by omega) (by omega) (by omega) he (by omega) h3 (by omega) (by omega) (by omega)]
  simp only [Nat.zero_or, Nat.or_zero]
  exact ⟨_, _, fields_pack hh h2 h3 (by omega) (by omega) he⟩

theorem decode_d2 (op : D2) {rs rt : Nat} (h2 : rs < 32) (h3 : rt < 32) :
    decodeAt pc (op.enc.word ||| (rs <<< 21) ||| (rt <<< 16)) = some (.d2 op rs rt) := by
  obtain ⟨imm, idx, e⟩ := fields_2 op.enc h2 h3 (by cases op <;> rfl) (by cases op <;> rfl) (by cases op <;> rfl)
    (by cases op <;> rfl) (by cases op <;> decide) (by cases op <;> decide)
  unfold decodeAt
  rw [e]
  cases op <;> rfl

theorem decode_tr0 (op : Tr) {rs rt : Nat} (h2 : rs < 32) (h3 : rt < 32) :
    decodeAt pc (op.enc.word ||| (rs <<< 21) ||| (rt <<< 16)) = some (.tr op rs rt 0) := by
  obtain ⟨imm, idx, e⟩ := fields_2 op.enc h2 h3 (by cases op <;> rfl) (by cases op <;> rfl) (by cases op <;> rfl)
    (by cases op <;> rfl) (by cases op <;> decide) (by cases op <;> decide)
  unfold decodeAt
  rw [e]
  cases op <;> rfl

theorem decode_x2 (op : X2) {rd rt : Nat} (h2 : rd < 32) (h3 : rt < 32) :
    decodeAt pc (op.enc.word ||| (rd <<< 11) ||| (rt <<< 16)) = some (.x2 op rd rt) := by
  have e : ∀ x : Enc, x.a < 32 → x.b = 0 → x.c = 0 → x.d < 32 → x.h < 64 → x.e < 64 → ∃ imm idx,
      fields (x.word ||| (rd <<< 11) ||| (rt <<< 16)) = ⟨x.h, x.a, rt, rd, x.d, x.e, imm, idx⟩ := by
    intro x ha hb hc hd hh he
    unfold Enc.word
    rw [hb, hc, pack_rt, pack_rd, pack_or ha (by omega) (by omega) hd he (by omega) (by omega) h2 (by omega) (by omega)]
    simp only [Nat.zero_or, Nat.or_zero]
    rw [pack_or ha (by omega) h2 hd he (by omega) h3 (by omega) (by omega) (by omega)]
    simp only [Nat.zero_or, Nat.or_zero]
    exact ⟨_, _, fields_pack hh ha h3 h2 hd he⟩
  obtain ⟨imm, idx, e⟩ := e op.enc (by cases op <;> decide) (by cases op <;> rfl) (by cases op <;> rfl) (by cases op <;> decide)
    (by cases op <;> decide) (by cases op <;> decide)
  unfold decodeAt
  rw [e]
  cases op <;> rfl

theorem decode_cn (op : Cn) {rd rs : Nat} (h1 : rd < 32) (h2 : rs < 32) :
    decodeAt pc (op.enc.word ||| (rd <<< 11) ||| (rs <<< 21) ||| (rd <<< 16)) = some (.cn op rd rs) := by
  have e : ∀ x : Enc, x.a = 0 → x.b = 0 → x.c = 0 → x.d = 0 → x.h < 64 → x.e < 64 → ∃ imm idx,
      fields (x.word ||| (rd <<< 11) ||| (rs <<< 21) ||| (rd <<< 16)) = ⟨x.h, rs, rd, rd, 0, x.e, imm, idx⟩ := by
    intro x ha hb hc hd hh he
    unfold Enc.word
    rw [ha, hb, hc, hd, pack_rt, pack_rd, pack_rs, pack_or (by omega) (by omega) (by omega) (by omega) he (by omega) (by omega) h1 (by omega) (by omega)]
    simp only [Nat.zero_or, Nat.or_zero]
    rw [pack_or (by omega) (by omega) h1 (by omega) he h2 (by omega) (by omega) (by omega) (by omega)]
    simp only [Nat.zero_or, Nat.or_zero]
    rw [pack_or h2 (by omega) h1 (by omega) he (by omega) h1 (by omega) (by omega) (by omega)]
    simp only [Nat.zero_or, Nat.or_zero]
    exact ⟨_, _, fields_pack hh h2 h1 h1 (by omega) he⟩
  obtain ⟨imm, idx, e⟩ := e op.enc (by cases op <;> rfl) (by cases op <;> rfl) (by cases op <;> rfl) (by cases op <;> rfl)
    (by cases op <;> decide) (by cases op <;> decide)
  unfold decodeAt
  rw [e]
  cases op
  · show (if rd = rd ∧ 0 = 0 then _ else _) = _
    rw [if_pos ⟨rfl, rfl⟩]
  · show (if rd = rd ∧ 0 = 0 then _ else _) = _
    rw [if_pos ⟨rfl, rfl⟩]

theorem decode_p0 (op : P0) : decodeAt pc op.enc.word = some (.p0 op) := by
  unfold decodeAt Enc.word
  rw [fields_pack (by cases op <;> decide) (by cases op <;> decide) (by cases op <;> decide) (by cases op <;> decide)
    (by cases op <;> decide) (by cases op <;> decide)]
  cases op <;> rfl

theorem decode_int (op : In) {rt : Nat} (h : rt < 32) : decodeAt pc (op.enc.word ||| (rt <<< 16)) = some (.int op rt) := by
  have e : fields (op.enc.word ||| (rt <<< 16)) = ⟨op.enc.h, op.enc.a, rt, op.enc.c, op.enc.d, op.enc.e,
      2 ^ 11 * op.enc.c + 2 ^ 6 * op.enc.d + op.enc.e,
      2 ^ 21 * op.enc.a + 2 ^ 16 * rt + 2 ^ 11 * op.enc.c + 2 ^ 6 * op.enc.d + op.enc.e⟩ := by
    unfold Enc.word
    rw [show op.enc.b = 0 from by cases op <;> rfl, pack_rt,
      pack_or (by cases op <;> decide) (by omega) (by cases op <;> decide) (by cases op <;> decide) (by cases op <;> decide) (by omega) h
        (by omega) (by omega) (by omega)]
    simp only [Nat.zero_or, Nat.or_zero]
    exact fields_pack (by cases op <;> decide) (by cases op <;> decide) h (by cases op <;> decide) (by cases op <;> decide)
      (by cases op <;> decide)
  unfold decodeAt
  rw [e]
  cases op <;> rfl

theorem decode_mf (op : Mf) {rd : Nat} (h : rd < 32) : decodeAt pc (op.enc.word ||| (rd <<< 11)) = some (.mf op rd) := by
  have e : fields (op.enc.word ||| (rd <<< 11)) = ⟨0, 0, 0, rd, 0, op.enc.e,
      2 ^ 11 * rd + 2 ^ 6 * 0 + op.enc.e, 2 ^ 21 * 0 + 2 ^ 16 * 0 + 2 ^ 11 * rd + 2 ^ 6 * 0 + op.enc.e⟩ := by
    have ew : op.enc.word = pack 0 0 0 0 0 op.enc.e := by cases op <;> rfl
    have he : op.enc.e < 64 := by cases op <;> decide
    rw [ew, pack_rd, pack_or (by omega) (by omega) (by omega) (by omega) he (by omega) (by omega) h (by omega) (by omega)]
    simp only [Nat.zero_or, Nat.or_zero]
    exact fields_pack (by omega) (by omega) (by omega) h (by omega) he
  unfold decodeAt
  rw [e]
  cases op <;> rfl

theorem decode_j1 (op : J1) {rs : Nat} (h : rs < 32) : decodeAt pc (op.enc.word ||| (rs <<< 21)) = some (.j1 op rs) := by
  have e : fields (op.enc.word ||| (rs <<< 21)) = ⟨0, rs, 0, 0, op.enc.d, op.enc.e,
      2 ^ 11 * 0 + 2 ^ 6 * op.enc.d + op.enc.e, 2 ^ 21 * rs + 2 ^ 16 * 0 + 2 ^ 11 * 0 + 2 ^ 6 * op.enc.d + op.enc.e⟩ := by
    have ew : op.enc.word = pack 0 0 0 0 op.enc.d op.enc.e := by cases op <;> rfl
    have hd : op.enc.d < 32 := by cases op <;> decide
    have he : op.enc.e < 64 := by cases op <;> decide
    rw [ew, pack_rs, pack_or (by omega) (by omega) (by omega) hd he h (by omega) (by omega) (by omega) (by omega)]
    simp only [Nat.zero_or, Nat.or_zero]
    exact fields_pack (by omega) h (by omega) (by omega) hd he
  unfold decodeAt
  rw [e]
  cases op <;> rfl

/-- An opcode and two registers. -/
theorem word_2 (x : Enc) {rs rt : Nat} (h2 : rs < 32) (h3 : rt < 32) (ha : x.a = 0) (hb : x.b = 0) (hc : x.c = 0) (hd : x.d = 0)
    (he : x.e = 0) : x.word ||| (rs <<< 21) ||| (rt <<< 16) = pack x.h rs rt 0 0 0 := by
  unfold Enc.word
  rw [ha, hb, hc, hd, he, pack_rs, pack_rt, pack_or (by omega) (by omega) (by omega) (by omega) (by omega) h2 (by omega) (by omega) (by omega) (by omega)]
  simp only [Nat.zero_or, Nat.or_zero]
  rw [pack_or h2 (by omega) (by omega) (by omega) (by omega) (by omega) h3 (by omega) (by omega) (by omega)]
  simp only [Nat.zero_or, Nat.or_zero]

theorem word_2' (x : Enc) {rs rt : Nat} (h2 : rs < 32) (h3 : rt < 32) (ha : x.a = 0) (hb : x.b = 0) (hc : x.c = 0) (hd : x.d = 0)
    (he : x.e = 0) : (rs <<< 21) ||| (rt <<< 16) ||| x.word = pack x.h rs rt 0 0 0 := by
  rw [← word_2 x h2 h3 ha hb hc hd he]
  generalize rs <<< 21 = a, rt <<< 16 = b, x.word = c
  rw [Nat.or_comm (a ||| b) c, Nat.or_assoc]

/-- An opcode with a number in the place of the second register. -/
theorem word_1 (x : Enc) {rs : Nat} (h2 : rs < 32) (ha : x.a = 0) (hb : x.b < 32) (hc : x.c = 0) (hd : x.d = 0)
    (he : x.e = 0) : x.word ||| (rs <<< 21) = pack x.h rs x.b 0 0 0 := by
  unfold Enc.word
  rw [ha, hc, hd, he, pack_rs, pack_or (by omega) hb (by omega) (by omega) (by omega) h2 (by omega) (by omega) (by omega) (by omega)]
  simp only [Nat.zero_or, Nat.or_zero]

end

theorem sext_mod {v : Int} (h1 : -32768 ≤ v) (h2 : v ≤ 32767) : sext (u32 (v % 65536)) = v := by
  unfold sext u32; split <;> omega

theorem u32_mod_lt (v : Int) : u32 (v % 65536) < 65536 := by unfold u32; omega

theorem within_some {lo hi v w : Int} : within lo hi v = some w ↔ v = w ∧ lo ≤ v ∧ v ≤ hi := by
  unfold within
  split
  · simp only [Option.some.injEq]; constructor
    · intro h; exact ⟨h, by assumption⟩
    · intro h; exact h.1
  · rename_i hn
    constructor
    · intro h; cases h
    · intro h; exact absurd h.2 hn

/-- A number with its sign below three fields. -/
theorem decode_s16 (fm : FMath) (now : Nat → ASym) (ρ : Den) (s : Src) {h a b : Nat} (hh : h < 64) (ha : a < 32) (hb : b < 32)
    (g : Int → Instr Int)
    (hg : ∀ v : Nat, v < 65536 → decodeF ρ.pc ⟨h, a, b, v / 2048, v / 64 % 32, v % 64, v, 2 ^ 21 * a + 2 ^ 16 * b + v⟩ = some (g (sext v))) :
    ((Item.expr 4 (.bin .or (.bin .and (checkRange s (-32768) 32767) (.num 0xFFFF)) (.num (toI32 (pack h a b 0 0 0))))).code
      fm wrap now ρ).bind (decodeAt ρ.pc) = ((s.value fm wrap now ρ).bind (within (-32768) 32767)).map g := by
  rw [code_or _ _ _ _ _ (pack_lt hh ha hb (by omega) (by omega) (by omega)), value_s16]
  cases hv : (s.value fm wrap now ρ).bind (within (-32768) 32767) with
  | none => rfl
  | some v =>
    obtain ⟨v', _, hw⟩ := Option.bind_eq_some_iff.1 hv
    obtain ⟨rfl, h1, h2⟩ := within_some.1 hw
    simp only [Option.map_some, Option.bind_some]
    unfold decodeAt
    rw [fields_imm hh ha hb (u32_mod_lt v'), hg _ (u32_mod_lt v'), sext_mod h1 h2]

/-- A number without a sign below three fields. -/
theorem decode_u16 (fm : FMath) (now : Nat → ASym) (ρ : Den) (s : Src) {h a b : Nat} (hh : h < 64) (ha : a < 32) (hb : b < 32)
    (g : Int → Instr Int)
    (hg : ∀ v : Nat, v < 65536 → decodeF ρ.pc ⟨h, a, b, v / 2048, v / 64 % 32, v % 64, v, 2 ^ 21 * a + 2 ^ 16 * b + v⟩ = some (g v)) :
    ((Item.expr 4 (.bin .or (checkRange s 0 65535) (.num (toI32 (pack h a b 0 0 0))))).code
      fm wrap now ρ).bind (decodeAt ρ.pc) = ((s.value fm wrap now ρ).bind (within 0 65535)).map g := by
  rw [code_or _ _ _ _ _ (pack_lt hh ha hb (by omega) (by omega) (by omega)), value_u16]
  cases hv : (s.value fm wrap now ρ).bind (within 0 65535) with
  | none => rfl
  | some v =>
    obtain ⟨v', _, hw⟩ := Option.bind_eq_some_iff.1 hv
    obtain ⟨rfl, h1, h2⟩ := within_some.1 hw
    have hl : u32 v' < 65536 := by unfold u32; omega
    have hc : ((u32 v' : Nat) : Int) = v' := by unfold u32; omega
    simp only [Option.map_some, Option.bind_some]
    unfold decodeAt
    rw [fields_imm hh ha hb hl, hg _ hl, hc]

/-- The distance of a branch. -/
theorem decode_distance (fm : FMath) (now : Nat → ASym) (ρ : Den) (s : Src) {h a b : Nat} (hh : h < 64) (ha : a < 32) (hb : b < 32)
    (g : Int → Instr Int)
    (hg : ∀ v : Nat, v < 65536 →
      decodeF ρ.pc ⟨h, a, b, v / 2048, v / 64 % 32, v % 64, v, 2 ^ 21 * a + 2 ^ 16 * b + v⟩ = some (g (target ρ.pc v)))
    (hal : ∀ v, s.value fm wrap now ρ = some v → (v - ρ.pc) % 4 = 0) :
    ((Item.expr 4 (.bin .or (distance s) (.num (toI32 (pack h a b 0 0 0))))).code fm wrap now ρ).bind (decodeAt ρ.pc) =
      ((s.value fm wrap now ρ).bind (reach ρ.pc)).map g := by
  rw [code_or _ _ _ _ _ (pack_lt hh ha hb (by omega) (by omega) (by omega)), value_distance]
  cases hv : s.value fm wrap now ρ with
  | none => rfl
  | some v =>
    have hv4 := hal v hv
    have hd4 : toI32 (v - (ρ.pc + 4)) % 4 = 0 := by unfold toI32; omega
    simp only [Option.bind_some]
    unfold reach within
    simp only
    by_cases hr : -32768 ≤ toI32 (v - (ρ.pc + 4)) / 4 ∧ toI32 (v - (ρ.pc + 4)) / 4 ≤ 32767
    · rw [if_pos hr, if_pos ⟨hd4, by omega, by omega⟩]
      simp only [Option.map_some, Option.bind_some]
      unfold decodeAt
      rw [fields_imm hh ha hb (u32_mod_lt _), hg _ (u32_mod_lt _)]
      unfold target
      rw [sext_mod hr.1 hr.2]
      have : u32 (ρ.pc + 4 + 4 * (toI32 (v - (ρ.pc + 4)) / 4)) = u32 v := by
        rw [show 4 * (toI32 (v - (ρ.pc + 4)) / 4) = toI32 (v - (ρ.pc + 4)) from by omega]
        unfold toI32 u32; omega
      rw [this]
    · rw [if_neg hr, if_neg (fun h => hr ⟨by omega, by omega⟩)]
      rfl

/-- An amount between the fields. -/
theorem decode_asl (fm : FMath) (now : Nat → ASym) (ρ : Den) (s : Src) (hi : Nat) (hhi : hi ≤ 1023) {h a b c e : Nat} (hh : h < 64)
    (ha : a < 32) (hb : b < 32) (hc : c < 32) (he : e < 64) (hz : c = 0 ∨ hi < 32) (g : Int → Instr Int)
    (hg : ∀ (v : Nat) imm idx, v ≤ hi → decodeF ρ.pc ⟨h, a, b, c + v / 32, v % 32, e, imm, idx⟩ = some (g v)) :
    ((Item.expr 4 (.bin .or (.bin .asl (checkRange s 0 hi) (.num 6)) (.num (toI32 (pack h a b c 0 e))))).code
      fm wrap now ρ).bind (decodeAt ρ.pc) = ((s.value fm wrap now ρ).bind (within 0 hi)).map g := by
  rw [code_or _ _ _ _ _ (pack_lt hh ha hb hc (by omega) he), value_asl6 _ _ _ _ _ (by omega) (by omega)]
  cases hv : (s.value fm wrap now ρ).bind (within 0 hi) with
  | none => rfl
  | some v =>
    obtain ⟨v', _, hw⟩ := Option.bind_eq_some_iff.1 hv
    obtain ⟨rfl, h1, h2⟩ := within_some.1 hw
    have hl : u32 (v' * 64) = v'.toNat * 64 := by unfold u32; omega
    simp only [Option.map_some, Option.bind_some]
    unfold decodeAt
    obtain ⟨imm, idx, e⟩ := fields_code (v := v'.toNat) hh ha hb hc he (by omega) (hz.imp id (by omega))
    rw [hl, e, hg _ _ _ (by omega), show ((v'.toNat : Nat) : Int) = v' from by omega]

/-- The target of a jump. -/
theorem decode_jp (fm : FMath) (now : Nat → ASym) (ρ : Den) (s : Src) (op : Jp)
    (hn : ∀ v, s.value fm wrap now ρ = some v → v % 4 = 0 ∧ (u32 v : Int) / 2 ^ 28 = region ρ.pc) :
    ((Item.expr 4 (.bin .or (.bin .and (.bin .asr s (.num 2)) (.num 0x03FFFFFF)) (.num (toI32 op.enc.word)))).code
      fm wrap now ρ).bind (decodeAt ρ.pc) = ((s.value fm wrap now ρ).bind (near ρ.pc)).map (.jp op) := by
  have hm := value_mask fm wrap now ρ (.bin .asr s (.num 2)) 26 (by omega)
  rw [value_asr2] at hm
  have hm : (Src.bin .and (.bin .asr s (.num 2)) (.num 0x03FFFFFF)).value fm wrap now ρ = _ := hm
  rw [code_or _ _ _ _ _ (by cases op <;> decide), hm]
  cases hv : s.value fm wrap now ρ with
  | none => rfl
  | some v =>
    obtain ⟨h1, h2⟩ := hn v hv
    simp only [Option.map_some, Option.bind_some]
    unfold near
    rw [if_pos ⟨h1, h2⟩, Option.map_some]
    have hl : u32 (v / 4 % ((2 ^ 26 : Nat) : Int)) < 67108864 := by unfold u32; omega
    have ht : 2 ^ 28 * region ρ.pc + 4 * ((u32 (v / 4 % ((2 ^ 26 : Nat) : Int)) : Nat) : Int) = ((u32 v : Nat) : Int) := by
      rw [← h2]; unfold u32; omega
    unfold decodeAt
    have ew : op.enc.word = pack op.enc.h 0 0 0 0 0 := by cases op <;> rfl
    obtain ⟨a, b, c, d, e, imm, he⟩ := fields_idx (h := op.enc.h) (by cases op <;> decide) hl
    rw [ew, he, ← ht]
    cases op <;> rfl

/-! ### Instructions -/

/-- What the assembler gets right. The shifts by a register are read with their operands exchanged (`C52_shift_registers`),
`BLTZL` has a wrong word (`C52_bltzl`); the numbers of `SLTIU`, `TGEIU` and `TLTIU` are taken
for numbers without a sign (`C52_unsigned`); targets that are not reached are not found (`C52_misaligned`, `C52_region`). -/
def Written.Right (pc : Int) (f : Tree → Option Int) : Written → Prop
  | .sv _ _ rt rs => rt.num = rs.num
  | .i3 .sltiu _ _ t | .ti .tgeiu _ t | .ti .tltiu _ t => ∀ v, f t = some v → v < -32768 ∨ (0 ≤ v ∧ v ≤ 32767) ∨ 65535 < v
  | .b1 .bltzl _ _ => False
  | .b2 _ _ _ t | .b1 _ _ t | .b t | .bal t => ∀ v, f t = some v → (v - pc) % 4 = 0
  | .jp _ t => ∀ v, f t = some v → v % 4 = 0 ∧ (u32 v : Int) / 2 ^ 28 = region pc
  | _ => True

/-- An instruction becomes one word of four bytes, and this is decoded as the instruction. -/
def Encoded (C : Ctx) (w : Written) (rest : Toks) : Prop :=
  ∃ item, instr C (w.toks ++ rest) = .ok (some ([item], rest)) ∧ item.size = 4 ∧
    ∀ (fm : FMath) (now : Nat → ASym) (ρ : Den), w.Right ρ.pc (fun t => (C.src t).value fm wrap now ρ) →
      (item.code fm wrap now ρ).bind (decodeAt ρ.pc) = w.instr.meaning (fun t => (C.src t).value fm wrap now ρ) ρ.pc

theorem const_code (fm : FMath) (now : Nat → ASym) (ρ : Den) (c : Nat) (i : Instr Int) (hc : c < 4294967296) (h : decodeAt ρ.pc c = some i) :
    ((Item.const 4 c).code fm wrap now ρ).bind (decodeAt ρ.pc) = some i := by
  show decodeAt ρ.pc (c % 256 ^ 4) = _
  rw [Nat.mod_eq_of_lt hc, h]

theorem or_lt {a b : Nat} (ha : a < 4294967296) (hb : b < 4294967296) : a ||| b < 4294967296 :=
  Nat.or_lt_two_pow (n := 32) ha hb

theorem rs_lt (r : Fin 32) : r.val <<< 21 < 4294967296 := by rw [Nat.shiftLeft_eq]; omega
theorem rt_lt (r : Fin 32) : r.val <<< 16 < 4294967296 := by rw [Nat.shiftLeft_eq]; omega
theorem rd_lt (r : Fin 32) : r.val <<< 11 < 4294967296 := by rw [Nat.shiftLeft_eq]; omega

theorem enc_r3 (C : Ctx) (op : R3) (rd rs rt : Reg) (rest : Toks) : Encoded C (.r3 op rd rs rt) rest := by
  refine ⟨.const 4 (op.enc.word ||| (rs.num.val <<< 21) ||| (rt.num.val <<< 16) ||| (rd.num.val <<< 11)), ?_, rfl, ?_⟩
  · show instr C (tok op.text :: rd.tok :: .comma :: rs.tok :: .comma :: rt.tok :: rest) = _
    rw [instr_run C op.good]
    show rrr _ _ = _
    unfold rrr
    rw [opcode_run op.good, regComma_tok, ok_bind]
    simp only
    rw [regComma_tok, ok_bind]
    simp only
    rw [reg_tok, ok_bind]
  · intro fm now ρ _
    exact const_code _ _ _ _ _ (or_lt (or_lt (or_lt (by cases op <;> decide) (rs_lt _)) (rt_lt _)) (rd_lt _))
      (decode_r3 op rd.num.isLt rs.num.isLt rt.num.isLt)

/-- What becomes of a shift by a register. -/
theorem sv_run (C : Ctx) (op : SV) (rd rt rs : Reg) (rest : Toks) :
    instr C ((Written.sv op rd rt rs).toks ++ rest) =
      .ok (some ([.const 4 (op.enc.word ||| (rt.num.val <<< 21) ||| (rs.num.val <<< 16) ||| (rd.num.val <<< 11))], rest)) := by
  show instr C (tok op.text :: rd.tok :: .comma :: rt.tok :: .comma :: rs.tok :: rest) = _
  rw [instr_run C op.good]
  show rrr _ _ = _
  unfold rrr
  rw [opcode_run op.good, regComma_tok, ok_bind]
  simp only
  rw [regComma_tok, ok_bind]
  simp only
  rw [reg_tok, ok_bind]

theorem sv_code (fm : FMath) (now : Nat → ASym) (ρ : Den) (op : SV) (rd rt rs : Reg) :
    ((Item.const 4 (op.enc.word ||| (rt.num.val <<< 21) ||| (rs.num.val <<< 16) ||| (rd.num.val <<< 11))).code fm wrap now ρ).bind
      (decodeAt ρ.pc) = some (.sv op rd.num rs.num rt.num) :=
  const_code _ _ _ _ _ (or_lt (or_lt (or_lt (by cases op <;> decide) (rs_lt _)) (rt_lt _)) (rd_lt _))
    (decode_sv op rd.num.isLt rt.num.isLt rs.num.isLt)

theorem enc_sv (C : Ctx) (op : SV) (rd rt rs : Reg) (rest : Toks) : Encoded C (.sv op rd rt rs) rest := by
  refine ⟨_, sv_run C op rd rt rs rest, rfl, ?_⟩
  intro fm now ρ h
  rw [sv_code]
  have h : rt.num = rs.num := h
  show some (Instr.sv op rd.num.val rs.num.val rt.num.val) = some (.sv op rd.num.val rt.num.val rs.num.val)
  rw [h]

theorem s16_reads (C : Ctx) {t : Tree} (h : Readable 2 t) {rest : Toks} (he : Ends rest) :
    s16 C (t.toks ++ rest) = .ok (some (.bin .and (checkRange (C.src t) (-32768) 32767) (.num 0xFFFF)), rest) := by
  unfold s16; rw [expr_reads C h he, ok_bind]; rfl

theorem u16_reads (C : Ctx) {t : Tree} (h : Readable 2 t) {rest : Toks} (he : Ends rest) :
    u16 C (t.toks ++ rest) = .ok (some (checkRange (C.src t) 0 65535), rest) := by
  unfold u16; rw [expr_reads C h he, ok_bind]; rfl

/-- The two ranges agree outside of the numbers that they treat differently. -/
theorem u16_s16 {o : Option Int} (h : ∀ v, o = some v → v < -32768 ∨ (0 ≤ v ∧ v ≤ 32767) ∨ 65535 < v) :
    o.bind (within 0 65535) = o.bind (within (-32768) 32767) := by
  cases o with
  | none => rfl
  | some v =>
    have hv := h v rfl
    simp only [Option.bind_some]
    unfold within
    by_cases h1 : 0 ≤ v ∧ v ≤ 32767
    · rw [if_pos (by omega), if_pos (by omega)]
    · rw [if_neg (by omega), if_neg (by omega)]

/-- Numbers that are checked without a sign and used with one. -/
theorem decode_mixed (fm : FMath) (now : Nat → ASym) (ρ : Den) (s : Src) {h a b : Nat} (hh : h < 64) (ha : a < 32) (hb : b < 32)
    (g : Int → Instr Int)
    (hg : ∀ v : Nat, v < 65536 → decodeF ρ.pc ⟨h, a, b, v / 2048, v / 64 % 32, v % 64, v, 2 ^ 21 * a + 2 ^ 16 * b + v⟩ = some (g (sext v)))
    (hr : ∀ v, s.value fm wrap now ρ = some v → v < -32768 ∨ (0 ≤ v ∧ v ≤ 32767) ∨ 65535 < v) :
    ((Item.expr 4 (.bin .or (checkRange s 0 65535) (.num (toI32 (pack h a b 0 0 0))))).code
      fm wrap now ρ).bind (decodeAt ρ.pc) = ((s.value fm wrap now ρ).bind (within (-32768) 32767)).map g := by
  rw [← u16_s16 hr, decode_u16 fm now ρ s hh ha hb (fun v => g (sext v.toNat)) fun v hv => hg v hv]
  cases hv : s.value fm wrap now ρ with
  | none => rfl
  | some v =>
    have h0 := hr v hv
    simp only [Option.bind_some]
    unfold within
    split
    · simp only [Option.map_some]
      rw [show sext v.toNat = v from by unfold sext; split <;> omega]
    · rfl

theorem enc_i3 (C : Ctx) (op : I3) (rt rs : Reg) (imm : Tree) (hi : Readable 2 imm) (rest : Toks) (he : Ends rest) :
    Encoded C (.i3 op rt rs imm) rest := by
  have ew : (rs.num.val <<< 21) ||| (rt.num.val <<< 16) ||| op.enc.word = pack op.enc.h rs.num rt.num 0 0 0 :=
    word_2' op.enc rs.num.isLt rt.num.isLt (by cases op <;> rfl) (by cases op <;> rfl) (by cases op <;> rfl) (by cases op <;> rfl)
      (by cases op <;> rfl)
  have hh : op.enc.h < 64 := by cases op <;> decide
  refine ⟨.expr 4 (.bin .or (if op.checked then .bin .and (checkRange (C.src imm) (-32768) 32767) (.num 0xFFFF)
    else checkRange (C.src imm) 0 65535) (.num (toI32 (pack op.enc.h rs.num rt.num 0 0 0)))), ?_, rfl, ?_⟩
  · show instr C (tok op.text :: rt.tok :: .comma :: rs.tok :: .comma :: (imm.toks ++ rest)) = _
    rw [instr_run C op.good]
    show rri _ _ _ = _
    unfold rri
    rw [opcode_run op.good]
    simp only
    rw [regComma_tok, ok_bind]
    simp only
    rw [regComma_tok, ok_bind]
    simp only
    rw [s16_reads C hi he, u16_reads C hi he, ew]
    cases op.checked <;> rfl
  · intro fm now ρ hr
    have hs : rs.num.val < 32 := rs.num.isLt
    have ht : rt.num.val < 32 := rt.num.isLt
    cases op with
    | andi => exact decode_u16 fm now ρ _ hh hs ht (.i3 .andi _ _) fun v _ => rfl
    | ori => exact decode_u16 fm now ρ _ hh hs ht (.i3 .ori _ _) fun v _ => rfl
    | xori => exact decode_u16 fm now ρ _ hh hs ht (.i3 .xori _ _) fun v _ => rfl
    | addi => exact decode_s16 fm now ρ _ hh hs ht (.i3 .addi _ _) fun v _ => rfl
    | addiu => exact decode_s16 fm now ρ _ hh hs ht (.i3 .addiu _ _) fun v _ => rfl
    | slti => exact decode_s16 fm now ρ _ hh hs ht (.i3 .slti _ _) fun v _ => rfl
    | sltiu => exact decode_mixed fm now ρ _ hh hs ht (.i3 .sltiu _ _) (fun v _ => rfl) hr

theorem enc_ti (C : Ctx) (op : Ti) (rs : Reg) (imm : Tree) (hi : Readable 2 imm) (rest : Toks) (he : Ends rest) :
    Encoded C (.ti op rs imm) rest := by
  have ew : op.enc.word ||| (rs.num.val <<< 21) = pack op.enc.h rs.num op.enc.b 0 0 0 :=
    word_1 op.enc rs.num.isLt (by cases op <;> rfl) (by cases op <;> decide) (by cases op <;> rfl) (by cases op <;> rfl)
      (by cases op <;> rfl)
  have hh : op.enc.h < 64 := by cases op <;> decide
  have hb : op.enc.b < 32 := by cases op <;> decide
  refine ⟨.expr 4 (.bin .or (if op.checked then .bin .and (checkRange (C.src imm) (-32768) 32767) (.num 0xFFFF)
    else checkRange (C.src imm) 0 65535) (.num (toI32 (pack op.enc.h rs.num op.enc.b 0 0 0)))), ?_, rfl, ?_⟩
  · show instr C (tok op.text :: rs.tok :: .comma :: (imm.toks ++ rest)) = _
    rw [instr_run C op.good]
    show ri _ _ _ = _
    unfold ri
    rw [opcode_run op.good]
    simp only
    rw [regComma_tok, ok_bind]
    simp only
    rw [s16_reads C hi he, u16_reads C hi he, ew]
    cases op.checked <;> rfl
  · intro fm now ρ hr
    have hs : rs.num.val < 32 := rs.num.isLt
    cases op with
    | teqi => exact decode_s16 fm now ρ _ hh hs hb (.ti .teqi _) fun v _ => rfl
    | tgei => exact decode_s16 fm now ρ _ hh hs hb (.ti .tgei _) fun v _ => rfl
    | tlti => exact decode_s16 fm now ρ _ hh hs hb (.ti .tlti _) fun v _ => rfl
    | tnei => exact decode_s16 fm now ρ _ hh hs hb (.ti .tnei _) fun v _ => rfl
    | tgeiu => exact decode_mixed fm now ρ _ hh hs hb (.ti .tgeiu _) (fun v _ => rfl) hr
    | tltiu => exact decode_mixed fm now ρ _ hh hs hb (.ti .tltiu _) (fun v _ => rfl) hr

theorem enc_b2 (C : Ctx) (op : B2) (rs rt : Reg) (t : Tree) (hi : Readable 4 t) (rest : Toks) (he : Ends rest) :
    Encoded C (.b2 op rs rt t) rest := by
  have ew : op.enc.word ||| (rs.num.val <<< 21) ||| (rt.num.val <<< 16) = pack op.enc.h rs.num rt.num 0 0 0 :=
    word_2 op.enc rs.num.isLt rt.num.isLt (by cases op <;> rfl) (by cases op <;> rfl) (by cases op <;> rfl) (by cases op <;> rfl)
      (by cases op <;> rfl)
  refine ⟨.expr 4 (.bin .or (distance (C.src t)) (.num (toI32 (pack op.enc.h rs.num rt.num 0 0 0)))), ?_, rfl, ?_⟩
  · show instr C (tok op.text :: rs.tok :: .comma :: rt.tok :: .comma :: (t.toks ++ rest)) = _
    rw [instr_run C op.good]
    show branch _ _ _ = _
    unfold branch
    rw [opcode_run op.good]
    simp only
    rw [if_pos (by decide), regComma_tok, ok_bind]
    simp only
    rw [if_pos (by decide), regComma_tok, ok_bind]
    simp only
    rw [expr_reads C hi he, ew]; rfl
  · intro fm now ρ hr
    exact decode_distance fm now ρ _ (by cases op <;> decide) rs.num.isLt rt.num.isLt (.b2 op _ _)
      (fun v _ => by cases op <;> rfl) hr

theorem enc_b1 (C : Ctx) (op : B1) (rs : Reg) (t : Tree) (hi : Readable 4 t) (rest : Toks) (he : Ends rest) :
    Encoded C (.b1 op rs t) rest := by
  refine ⟨.expr 4 (.bin .or (distance (C.src t)) (.num (toI32 (op.enc.word ||| (rs.num.val <<< 21) ||| (0 <<< 16) : Nat)))), ?_, rfl, ?_⟩
  · show instr C (tok op.text :: rs.tok :: .comma :: (t.toks ++ rest)) = _
    rw [instr_run C op.good]
    show branch _ _ _ = _
    unfold branch
    rw [opcode_run op.good]
    simp only
    rw [if_pos (by decide), regComma_tok, ok_bind]
    simp only
    rw [if_neg (by decide), ok_bind]
    simp only
    rw [expr_reads C hi he]; rfl
  · intro fm now ρ hr
    have hn : op ≠ .bltzl := by rintro rfl; exact hr
    have hr : ∀ v, (C.src t).value fm wrap now ρ = some v → (v - ρ.pc) % 4 = 0 := by
      revert hr; cases op <;> first | exact id | exact absurd rfl hn
    have ew : op.enc.word ||| (rs.num.val <<< 21) ||| (0 <<< 16) = pack op.enc.h rs.num op.enc.b 0 0 0 := by
      rw [show (0 : Nat) <<< 16 = 0 from rfl, Nat.or_zero]
      exact word_1 op.enc rs.num.isLt (by cases op <;> first | rfl | exact absurd rfl hn) (by cases op <;> decide)
        (by cases op <;> rfl) (by cases op <;> rfl) (by cases op <;> rfl)
    rw [ew]
    exact decode_distance fm now ρ _ (by cases op <;> decide) rs.num.isLt (by cases op <;> decide) (.b1 op _)
      (fun v _ => by cases op <;> first | rfl | exact absurd rfl hn) hr

theorem enc_b (C : Ctx) (t : Tree) (hi : Readable 4 t) (rest : Toks) (he : Ends rest) : Encoded C (.b t) rest := by
  have g : (Enc.mk 6040 4 0 0 0 0 0).Good "B" .branch .beq tableBranch (0, (Enc.mk 6040 4 0 0 0 0 0).word) := by enc_good
  refine ⟨.expr 4 (.bin .or (distance (C.src t)) (.num (toI32 (pack 4 0 0 0 0 0)))), ?_, rfl, ?_⟩
  · show instr C (tok "B" :: (t.toks ++ rest)) = _
    rw [instr_run C g]
    show branch _ _ _ = _
    unfold branch
    rw [opcode_run g]
    simp only
    rw [if_neg (by decide), ok_bind]
    simp only
    rw [if_neg (by decide), ok_bind]
    simp only
    rw [expr_reads C hi he]; rfl
  · intro fm now ρ hr
    exact decode_distance fm now ρ _ (by decide) (by decide) (by decide) (.b2 .beq 0 0) (fun v _ => rfl) hr

theorem enc_bal (C : Ctx) (t : Tree) (hi : Readable 4 t) (rest : Toks) (he : Ends rest) : Encoded C (.bal t) rest := by
  have g : (Enc.mk 6041 1 0 17 0 0 0).Good "BAL" .branch .beq tableBranch (0, (Enc.mk 6041 1 0 17 0 0 0).word) := by enc_good
  refine ⟨.expr 4 (.bin .or (distance (C.src t)) (.num (toI32 (pack 1 0 17 0 0 0)))), ?_, rfl, ?_⟩
  · show instr C (tok "BAL" :: (t.toks ++ rest)) = _
    rw [instr_run C g]
    show branch _ _ _ = _
    unfold branch
    rw [opcode_run g]
    simp only
    rw [if_neg (by decide), ok_bind]
    simp only
    rw [if_neg (by decide), ok_bind]
    simp only
    rw [expr_reads C hi he]; rfl
  · intro fm now ρ hr
    exact decode_distance fm now ρ _ (by decide) (by decide) (by decide) (.b1 .bgezal 0) (fun v _ => rfl) hr

theorem enc_sh (C : Ctx) (op : Sh) (rd rt : Reg) (t : Tree) (hi : Readable 1 t) (rest : Toks) (he : Ends rest) :
    Encoded C (.sh op rd rt t) rest := by
  have ew : op.enc.word ||| (rt.num.val <<< 16) ||| (rd.num.val <<< 11) = pack 0 op.enc.a rt.num rd.num 0 op.enc.e := by
    have e : op.enc.word = pack 0 op.enc.a 0 0 0 op.enc.e := by cases op <;> rfl
    have h1 : op.enc.a < 32 := by cases op <;> decide
    have h2 : op.enc.e < 64 := by cases op <;> decide
    rw [e, pack_rt, pack_rd, pack_or h1 (by omega) (by omega) (by omega) h2 (by omega) rt.num.isLt (by omega) (by omega) (by omega)]
    simp only [Nat.zero_or, Nat.or_zero]
    rw [pack_or h1 rt.num.isLt (by omega) (by omega) h2 (by omega) (by omega) rd.num.isLt (by omega) (by omega)]
    simp only [Nat.zero_or, Nat.or_zero]
  refine ⟨.expr 4 (.bin .or (.bin .asl (checkRange (C.src t) 0 31) (.num 6))
    (.num (toI32 (pack 0 op.enc.a rt.num rd.num 0 op.enc.e)))), ?_, rfl, ?_⟩
  · show instr C (tok op.text :: rd.tok :: .comma :: rt.tok :: .comma :: (t.toks ++ rest)) = _
    rw [instr_run C op.good]
    show shift _ _ _ = _
    unfold shift
    rw [opcode_run op.good, regComma_tok, ok_bind]
    simp only
    rw [regComma_tok, ok_bind]
    simp only
    rw [expr_reads C hi he, ew]; rfl
  · intro fm now ρ hr
    exact decode_asl fm now ρ (C.src t) 31 (by decide) (by decide) (by cases op <;> decide) rt.num.isLt rd.num.isLt
      (by cases op <;> decide) (Or.inr (by decide)) (.sh op _ _)
      (fun v imm idx hv => by
        rw [Nat.div_eq_of_lt (by omega), Nat.mod_eq_of_lt (by omega)]
        cases op <;> rfl)

theorem enc_mem (C : Ctx) (op : Mem) (rt : Reg) (t : Tree) (base : Reg) (hi : Readable 2 t) (rest : Toks) :
    Encoded C (.mem op rt t base) rest := by
  have ew : op.enc.word ||| (base.num.val <<< 21) ||| (rt.num.val <<< 16) = pack op.enc.h base.num rt.num 0 0 0 :=
    word_2 op.enc base.num.isLt rt.num.isLt (by cases op <;> rfl) (by cases op <;> rfl) (by cases op <;> rfl) (by cases op <;> rfl)
      (by cases op <;> rfl)
  refine ⟨.expr 4 (.bin .or (.bin .and (checkRange (C.src t) (-32768) 32767) (.num 0xFFFF))
    (.num (toI32 (pack op.enc.h base.num rt.num 0 0 0)))), ?_, rfl, ?_⟩
  · have ht : (Written.mem op rt t base).toks ++ rest =
        tok op.text :: rt.tok :: .comma :: (t.toks ++ .lp :: base.tok :: .rp :: rest) := by
      simp [Written.toks, List.append_assoc]
    rw [ht, instr_run C op.good]
    show loadStore _ _ _ = _
    unfold loadStore
    rw [opcode_run op.good, regComma_tok, ok_bind]
    simp only
    have hs : s16 C (t.toks ++ .lp :: base.tok :: .rp :: rest) =
        .ok (some (.bin .and (checkRange (C.src t) (-32768) 32767) (.num 0xFFFF)), .lp :: base.tok :: .rp :: rest) := by
      unfold s16; rw [expr_reads_lp C hi, ok_bind]; rfl
    rw [hs, ok_bind]
    simp only
    rw [show expect .lp (.lp :: base.tok :: .rp :: rest) = .ok (base.tok :: .rp :: rest) from rfl, ok_bind, reg_tok, ok_bind]
    simp only
    rw [show expect .rp (.rp :: rest) = .ok rest from rfl, ok_bind, ew]; rfl
  · intro fm now ρ hr
    exact decode_s16 fm now ρ _ (by cases op <;> decide) base.num.isLt rt.num.isLt (fun o => .mem op _ o _)
      (fun v _ => by cases op <;> rfl)

/-- What becomes of a product or a quotient; `MULTU` is called `MULU`. -/
theorem d2_run (C : Ctx) (op : D2) (rs rt : Reg) (rest : Toks) :
    instr C (tok (if op = .multu then "MULU" else op.text) :: rs.tok :: .comma :: rt.tok :: rest) =
      .ok (some ([.const 4 (op.enc.word ||| (rs.num.val <<< 21) ||| (rt.num.val <<< 16))], rest)) := by
  rw [instr_run C op.good]
  show rsrt _ _ = _
  unfold rsrt
  rw [opcode_run op.good, regComma_tok, ok_bind]
  simp only
  rw [reg_tok, ok_bind]

theorem d2_code (fm : FMath) (now : Nat → ASym) (ρ : Den) (op : D2) (rs rt : Reg) :
    ((Item.const 4 (op.enc.word ||| (rs.num.val <<< 21) ||| (rt.num.val <<< 16))).code fm wrap now ρ).bind (decodeAt ρ.pc) =
      some (.d2 op rs.num rt.num) :=
  const_code _ _ _ _ _ (or_lt (or_lt (by cases op <;> decide) (rs_lt _)) (rt_lt _)) (decode_d2 op rs.num.isLt rt.num.isLt)

theorem enc_d2 (C : Ctx) (op : D2) (hop : op ≠ .multu) (rs rt : Reg) (rest : Toks) : Encoded C (.d2 op rs rt) rest := by
  refine ⟨_, ?_, rfl, fun fm now ρ _ => d2_code fm now ρ op rs rt⟩
  have := d2_run C op rs rt rest
  rw [if_neg hop] at this
  exact this

theorem enc_x2 (C : Ctx) (op : X2) (rd rt : Reg) (rest : Toks) : Encoded C (.x2 op rd rt) rest := by
  refine ⟨.const 4 (op.enc.word ||| (rd.num.val <<< 11) ||| (rt.num.val <<< 16)), ?_, rfl, ?_⟩
  · show instr C (tok op.text :: rd.tok :: .comma :: rt.tok :: rest) = _
    rw [instr_run C op.good]
    show rdrt _ _ = _
    unfold rdrt
    rw [opcode_run op.good, regComma_tok, ok_bind]
    simp only
    rw [reg_tok, ok_bind]
  · intro fm now ρ _
    exact const_code _ _ _ _ _ (or_lt (or_lt (by cases op <;> decide) (rd_lt _)) (rt_lt _)) (decode_x2 op rd.num.isLt rt.num.isLt)

theorem enc_tr (C : Ctx) (op : Tr) (rs rt : Reg) (t : Tree) (hi : Readable 2 t) (rest : Toks) (he : Ends rest) :
    Encoded C (.tr op rs rt (some t)) rest := by
  have ew : op.enc.word ||| (rs.num.val <<< 21) ||| (rt.num.val <<< 16) = pack 0 rs.num rt.num 0 0 op.enc.e := by
    have e : op.enc.word = pack 0 0 0 0 0 op.enc.e := by cases op <;> rfl
    have h2 : op.enc.e < 64 := by cases op <;> decide
    rw [e, pack_rt, pack_rs, pack_or (by omega) (by omega) (by omega) (by omega) h2 rs.num.isLt (by omega) (by omega) (by omega) (by omega)]
    simp only [Nat.zero_or, Nat.or_zero]
    rw [pack_or rs.num.isLt (by omega) (by omega) (by omega) h2 (by omega) rt.num.isLt (by omega) (by omega) (by omega)]
    simp only [Nat.zero_or, Nat.or_zero]
  refine ⟨.expr 4 (.bin .or (.bin .asl (checkRange (C.src t) 0 1023) (.num 6))
    (.num (toI32 (pack 0 rs.num rt.num 0 0 op.enc.e)))), ?_, rfl, ?_⟩
  · show instr C (tok op.text :: rs.tok :: .comma :: rt.tok :: .comma :: (t.toks ++ rest)) = _
    rw [instr_run C op.good]
    show rsrtCode _ _ _ = _
    unfold rsrtCode
    rw [opcode_run op.good, regComma_tok, ok_bind]
    simp only
    rw [reg_tok, ok_bind]
    simp only
    rw [expr_reads C hi he, ew]; rfl
  · intro fm now ρ hr
    exact decode_asl fm now ρ (C.src t) 1023 (by decide) (by decide) rs.num.isLt rt.num.isLt (by decide)
      (by cases op <;> decide) (Or.inl rfl) (.tr op _ _)
      (fun v imm idx hv => by
        have hv' : (32 * (0 + v / 32) + v % 32 : Nat) = v := by omega
        have : decodeF ρ.pc ⟨0, rs.num.val, rt.num.val, 0 + v / 32, v % 32, op.enc.e, imm, idx⟩ =
          some (.tr op rs.num.val rt.num.val ((32 * (0 + v / 32) + v % 32 : Nat) : Int)) := by cases op <;> rfl
        rw [this, hv'])

theorem enc_tr0 (C : Ctx) (op : Tr) (rs rt : Reg) (rest : Toks) (hc : rest.head? ≠ some .comma) :
    Encoded C (.tr op rs rt none) rest := by
  refine ⟨.const 4 (op.enc.word ||| (rs.num.val <<< 21) ||| (rt.num.val <<< 16)), ?_, rfl, ?_⟩
  · show instr C (tok op.text :: rs.tok :: .comma :: rt.tok :: rest) = _
    rw [instr_run C op.good]
    show rsrtCode _ _ _ = _
    unfold rsrtCode
    rw [opcode_run op.good, regComma_tok, ok_bind]
    simp only
    rw [reg_tok, ok_bind]
    simp only
    cases rest with
    | nil => rfl
    | cons x xs => cases x <;> first | rfl | exact absurd rfl hc
  · intro fm now ρ _
    exact const_code _ _ _ _ _ (or_lt (or_lt (by cases op <;> decide) (rs_lt _)) (rt_lt _)) (decode_tr0 op rs.num.isLt rt.num.isLt)

theorem enc_cn (C : Ctx) (op : Cn) (rd rs : Reg) (rest : Toks) : Encoded C (.cn op rd rs) rest := by
  refine ⟨.const 4 (op.enc.word ||| (rd.num.val <<< 11) ||| (rs.num.val <<< 21) ||| (rd.num.val <<< 16)), ?_, rfl, ?_⟩
  · show instr C (tok op.text :: rd.tok :: .comma :: rs.tok :: rest) = _
    rw [instr_run C op.good]
    show rdrsCopy _ _ = _
    unfold rdrsCopy
    rw [opcode_run op.good, regComma_tok, ok_bind]
    simp only
    rw [reg_tok, ok_bind]
  · intro fm now ρ _
    exact const_code _ _ _ _ _ (or_lt (or_lt (or_lt (by cases op <;> decide) (rd_lt _)) (rs_lt _)) (rt_lt _))
      (decode_cn op rd.num.isLt rs.num.isLt)

theorem enc_p0 (C : Ctx) (op : P0) (rest : Toks) : Encoded C (.p0 op) rest := by
  refine ⟨.const 4 op.enc.word, ?_, rfl, ?_⟩
  · show instr C (tok op.text :: rest) = _
    rw [instr_run C op.good]
    show noParameter _ _ = _
    unfold noParameter
    rw [opcode_run op.good]
  · intro fm now ρ _
    exact const_code _ _ _ _ _ (by cases op <;> decide) (decode_p0 op)

theorem enc_nops (C : Ctx) (rest : Toks) : Encoded C .ehb rest ∧ Encoded C .nop rest ∧ Encoded C .ssnop rest := by
  have g1 : (Enc.mk 6092 0 0 0 0 3 0).Good "EHB" .none .deret tableNone (Enc.mk 6092 0 0 0 0 3 0).word := by enc_good
  have g2 : (Enc.mk 6094 0 0 0 0 0 0).Good "NOP" .none .deret tableNone (Enc.mk 6094 0 0 0 0 0 0).word := by enc_good
  have g3 : (Enc.mk 6095 0 0 0 0 1 0).Good "SSNOP" .none .deret tableNone (Enc.mk 6095 0 0 0 0 1 0).word := by enc_good
  refine ⟨⟨.const 4 192, ?_, rfl, fun fm now ρ _ => rfl⟩, ⟨.const 4 0, ?_, rfl, fun fm now ρ _ => rfl⟩,
    ⟨.const 4 64, ?_, rfl, fun fm now ρ _ => rfl⟩⟩
  · show instr C (tok "EHB" :: rest) = _
    rw [instr_run C g1]
    show noParameter _ _ = _
    unfold noParameter
    rw [opcode_run g1]; rfl
  · show instr C (tok "NOP" :: rest) = _
    rw [instr_run C g2]
    show noParameter _ _ = _
    unfold noParameter
    rw [opcode_run g2]; rfl
  · show instr C (tok "SSNOP" :: rest) = _
    rw [instr_run C g3]
    show noParameter _ _ = _
    unfold noParameter
    rw [opcode_run g3]; rfl

theorem enc_int (C : Ctx) (op : In) (rt : Reg) (rest : Toks) : Encoded C (.int op (some rt)) rest := by
  refine ⟨.const 4 (op.enc.word ||| (rt.num.val <<< 16)), ?_, rfl, ?_⟩
  · show instr C (tok op.text :: rt.tok :: rest) = _
    rw [instr_run C op.good]
    show regRT _ _ = _
    unfold regRT
    rw [opcode_run op.good, reg_tok]
  · intro fm now ρ _
    exact const_code _ _ _ _ _ (or_lt (by cases op <;> decide) (rt_lt _)) (decode_int op rt.num.isLt)

theorem enc_int0 (C : Ctx) (op : In) (rest : Toks) (he : EndOfLine rest) : Encoded C (.int op none) rest := by
  refine ⟨.const 4 (op.enc.word ||| (0 <<< 16)), ?_, rfl, ?_⟩
  · show instr C (tok op.text :: rest) = _
    rw [instr_run C op.good]
    show regRT _ _ = _
    unfold regRT
    rw [opcode_run op.good]
    have hr : reg rest = .fail := by
      cases rest with
      | nil => rfl
      | cons x xs =>
        obtain ⟨n, hn, rfl⟩ := he x rfl
        have h1 : T.r0.num = 6136 := rfl
        unfold reg
        simp only
        rw [if_neg (by omega)]
    rw [hr]
  · intro fm now ρ _
    exact const_code _ _ _ _ _ (or_lt (by cases op <;> decide) (by decide)) (decode_int op (rt := 0) (by decide))

theorem enc_mf (C : Ctx) (op : Mf) (rd : Reg) (rest : Toks) : Encoded C (.mf op rd) rest := by
  refine ⟨.const 4 (op.enc.word ||| (rd.num.val <<< 11)), ?_, rfl, ?_⟩
  · show instr C (tok op.text :: rd.tok :: rest) = _
    rw [instr_run C op.good]
    show regRD _ _ = _
    unfold regRD
    rw [opcode_run op.good, reg_tok, ok_bind]
  · intro fm now ρ _
    exact const_code _ _ _ _ _ (or_lt (by cases op <;> decide) (rd_lt _)) (decode_mf op rd.num.isLt)

theorem enc_j1 (C : Ctx) (op : J1) (rs : Reg) (rest : Toks) : Encoded C (.j1 op rs) rest := by
  refine ⟨.const 4 (op.enc.word ||| (rs.num.val <<< 21)), ?_, rfl, ?_⟩
  · show instr C (tok op.text :: rs.tok :: rest) = _
    rw [instr_run C op.good]
    show regRS _ _ = _
    unfold regRS
    rw [opcode_run op.good, reg_tok, ok_bind]
  · intro fm now ρ _
    exact const_code _ _ _ _ _ (or_lt (by cases op <;> decide) (rs_lt _)) (decode_j1 op rs.num.isLt)

theorem enc_jp (C : Ctx) (op : Jp) (t : Tree) (hi : Readable 4 t) (rest : Toks) (he : Ends rest) : Encoded C (.jp op t) rest := by
  refine ⟨.expr 4 (.bin .or (.bin .and (.bin .asr (C.src t) (.num 2)) (.num 0x03FFFFFF)) (.num (toI32 op.enc.word))), ?_, rfl, ?_⟩
  · show instr C (tok op.text :: (t.toks ++ rest)) = _
    rw [instr_run C op.good]
    show jump _ _ _ = _
    unfold jump
    rw [opcode_run op.good, expr_reads C hi he]; rfl
  · intro fm now ρ hr
    exact decode_jp fm now ρ _ op hr

theorem enc_lui (C : Ctx) (rt : Reg) (t : Tree) (hi : Readable 2 t) (rest : Toks) (he : Ends rest) : Encoded C (.lui rt t) rest := by
  have ew : (15 <<< 26) ||| (rt.num.val <<< 16) = pack 15 0 rt.num 0 0 0 := by
    rw [show 15 <<< 26 = pack 15 0 0 0 0 0 from rfl, pack_rt, pack_or (by omega) (by omega) (by omega) (by omega) (by omega) (by omega)
      rt.num.isLt (by omega) (by omega) (by omega)]
    simp only [Nat.zero_or, Nat.or_zero]
  refine ⟨.expr 4 (.bin .or (checkRange (C.src t) 0 65535) (.num (toI32 (pack 15 0 rt.num 0 0 0)))), ?_, rfl, ?_⟩
  · show instr C (tok "LUI" :: rt.tok :: .comma :: (t.toks ++ rest)) = _
    rw [show tok "LUI" = .other 6110 from by decide +kernel]
    show lui C (rt.tok :: .comma :: (t.toks ++ rest)) = _
    unfold lui
    rw [regComma_tok, ok_bind]
    simp only
    rw [u16_reads C hi he, ew]; rfl
  · intro fm now ρ hr
    exact decode_u16 fm now ρ _ (by decide) (by decide) rt.num.isLt (.lui _) fun v _ => rfl

/-- **C52 (instructions of the MIPS are encoded as they are written).** Every instruction of the assembler, written as in the
manual at the end of a line, becomes one item of four bytes. The word in it exists exactly if the values of the expressions
fit, and the processor decodes it as this instruction with these registers, numbers and targets. `Right` leaves out what is
wrong; see the theorems below. `MULTU` is left out because it is not known. -/
theorem C52_encodes (C : Ctx) (w : Written) (hw : w.Readable) (hm : ∀ rs rt, w ≠ .d2 .multu rs rt) (rest : Toks) (he : EndOfLine rest) :
    ∃ item, instr C (w.toks ++ rest) = .ok (some ([item], rest)) ∧ item.size = 4 ∧
      ∀ (fm : FMath) (now : Nat → ASym) (ρ : Den), w.Right ρ.pc (fun t => (C.src t).value fm wrap now ρ) →
        (item.code fm wrap now ρ).bind (decodeAt ρ.pc) = w.instr.meaning (fun t => (C.src t).value fm wrap now ρ) ρ.pc := by
  cases w with
  | r3 op rd rs rt => exact enc_r3 C op rd rs rt rest
  | sv op rd rt rs => exact enc_sv C op rd rt rs rest
  | i3 op rt rs t => exact enc_i3 C op rt rs t hw rest he.ends
  | b2 op rs rt t => exact enc_b2 C op rs rt t hw rest he.ends
  | b1 op rs t => exact enc_b1 C op rs t hw rest he.ends
  | b t => exact enc_b C t hw rest he.ends
  | bal t => exact enc_bal C t hw rest he.ends
  | sh op rd rt t => exact enc_sh C op rd rt t hw rest he.ends
  | mem op rt t base => exact enc_mem C op rt t base hw rest
  | d2 op rs rt => exact enc_d2 C op (by rintro rfl; exact hm rs rt rfl) rs rt rest
  | x2 op rd rt => exact enc_x2 C op rd rt rest
  | tr op rs rt t =>
    cases t with
    | none =>
      refine enc_tr0 C op rs rt rest ?_
      intro h
      obtain ⟨n, _, h⟩ := he _ h
      cases h
    | some t => exact enc_tr C op rs rt t hw rest he.ends
  | ti op rs t => exact enc_ti C op rs t hw rest he.ends
  | cn op rd rs => exact enc_cn C op rd rs rest
  | p0 op => exact enc_p0 C op rest
  | ehb => exact (enc_nops C rest).1
  | nop => exact (enc_nops C rest).2.1
  | ssnop => exact (enc_nops C rest).2.2
  | int op rt =>
    cases rt with
    | none => exact enc_int0 C op rest he
    | some rt => exact enc_int C op rt rest
  | mf op rd => exact enc_mf C op rd rest
  | j1 op rs => exact enc_j1 C op rs rest
  | jp op t => exact enc_jp C op t hw rest he.ends
  | lui rt t => exact enc_lui C rt t hw rest he.ends

end Verif.Cpu.Mips
