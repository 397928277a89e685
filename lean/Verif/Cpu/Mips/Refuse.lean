import Verif.Cpu.Mips.Props
/-!
# C52: what is refused, and what goes wrong
-/
namespace Verif.Cpu.Mips

open Verif.Parse
open Verif.Expr (Src FMath ASym Den Rng I32 u32 toI32 wrap)

/-! ### What is refused -/

/-- There is no register here. -/
def NoReg (rest : Toks) : Prop := ∀ r : Reg, rest.head? ≠ some r.tok

theorem reg_fail {rest : Toks} (h : NoReg rest) : reg rest = .fail := by
  cases rest with
  | nil => rfl
  | cons x xs =>
    cases x with
    | other n =>
      have h1 : T.r0.num = 6136 := rfl
      have h2 : T.r31.num = 6167 := rfl
      unfold reg
      simp only
      split
      · rename_i hn
        have hr := h ⟨⟨n - 6136, by omega⟩, false⟩
        rw [tok_reg] at hr
        have e : n = 6136 + (n - 6136) := by omega
        exact absurd (congrArg (fun k => some (Tok.other k)) e) hr
      · rfl
    | _ => rfl

theorem regComma_fail {rest : Toks} (h : NoReg rest) : regComma rest = .fail := by
  unfold regComma; rw [reg_fail h]; rfl

theorem regComma_noComma {r : Reg} {rest : Toks} (h : rest.head? ≠ some .comma) : regComma (r.tok :: rest) = .fail := by
  unfold regComma
  rw [reg_tok, ok_bind]
  cases rest with
  | nil => rfl
  | cons a as => cases a <;> first | rfl | exact absurd rfl h

/-- The mnemonics that are followed by a register. -/
inductive Wants : String → Prop
  | r3 (op : R3) : Wants op.text
  | sv (op : SV) : Wants op.text
  | i3 (op : I3) : Wants op.text
  | b2 (op : B2) : Wants op.text
  | b1 (op : B1) : Wants op.text
  | sh (op : Sh) : Wants op.text
  | mem (op : Mem) : Wants op.text
  | d2 (op : D2) : op ≠ .multu → Wants op.text
  | x2 (op : X2) : Wants op.text
  | tr (op : Tr) : Wants op.text
  | ti (op : Ti) : Wants op.text
  | cn (op : Cn) : Wants op.text
  | mf (op : Mf) : Wants op.text
  | j1 (op : J1) : Wants op.text
  | lui : Wants "LUI"

/-- **C52.** An instruction that begins with a register is refused without it. -/
theorem C52_no_register (C : Ctx) {name : String} (h : Wants name) (rest : Toks) (hr : NoReg rest) :
    instr C (tok name :: rest) = .fail := by
  cases h with
  | r3 op => rw [instr_run C op.good]; show rrr _ _ = _; unfold rrr; rw [opcode_run op.good, regComma_fail hr]; rfl
  | sv op => rw [instr_run C op.good]; show rrr _ _ = _; unfold rrr; rw [opcode_run op.good, regComma_fail hr]; rfl
  | i3 op =>
    rw [instr_run C op.good]; show rri _ _ _ = _; unfold rri; rw [opcode_run op.good]; simp only; rw [regComma_fail hr]; rfl
  | b2 op =>
    rw [instr_run C op.good]; show branch _ _ _ = _; unfold branch; rw [opcode_run op.good]; simp only
    rw [if_pos (by decide), regComma_fail hr]; rfl
  | b1 op =>
    rw [instr_run C op.good]; show branch _ _ _ = _; unfold branch; rw [opcode_run op.good]; simp only
    rw [if_pos (by decide), regComma_fail hr]; rfl
  | sh op => rw [instr_run C op.good]; show shift _ _ _ = _; unfold shift; rw [opcode_run op.good, regComma_fail hr]; rfl
  | mem op => rw [instr_run C op.good]; show loadStore _ _ _ = _; unfold loadStore; rw [opcode_run op.good, regComma_fail hr]; rfl
  | d2 op hop =>
    have g := op.good
    rw [if_neg hop] at g
    rw [instr_run C g]; show rsrt _ _ = _; unfold rsrt; rw [opcode_run g, regComma_fail hr]; rfl
  | x2 op => rw [instr_run C op.good]; show rdrt _ _ = _; unfold rdrt; rw [opcode_run op.good, regComma_fail hr]; rfl
  | tr op => rw [instr_run C op.good]; show rsrtCode _ _ _ = _; unfold rsrtCode; rw [opcode_run op.good, regComma_fail hr]; rfl
  | ti op =>
    rw [instr_run C op.good]; show ri _ _ _ = _; unfold ri; rw [opcode_run op.good]; simp only; rw [regComma_fail hr]; rfl
  | cn op => rw [instr_run C op.good]; show rdrsCopy _ _ = _; unfold rdrsCopy; rw [opcode_run op.good, regComma_fail hr]; rfl
  | mf op => rw [instr_run C op.good]; show regRD _ _ = _; unfold regRD; rw [opcode_run op.good, reg_fail hr]; rfl
  | j1 op => rw [instr_run C op.good]; show regRS _ _ = _; unfold regRS; rw [opcode_run op.good, reg_fail hr]; rfl
  | lui =>
    rw [show tok "LUI" = .other 6110 from by decide +kernel]
    show lui C rest = _
    unfold lui; rw [regComma_fail hr]; rfl

/-- **C52.** Three registers: neither a comma nor a register may be missing. -/
theorem C52_three_registers (C : Ctx) (op : R3) (rd rs : Reg) (rest : Toks) :
    (rest.head? ≠ some .comma → instr C (tok op.text :: rd.tok :: rest) = .fail) ∧
    (NoReg rest → instr C (tok op.text :: rd.tok :: .comma :: rest) = .fail) ∧
    (rest.head? ≠ some .comma → instr C (tok op.text :: rd.tok :: .comma :: rs.tok :: rest) = .fail) ∧
    (NoReg rest → instr C (tok op.text :: rd.tok :: .comma :: rs.tok :: .comma :: rest) = .fail) := by
  refine ⟨fun h => ?_, fun h => ?_, fun h => ?_, fun h => ?_⟩
  all_goals
    rw [instr_run C op.good]
    show rrr _ _ = _
    unfold rrr
    rw [opcode_run op.good]
  · rw [regComma_noComma h]; rfl
  · rw [regComma_tok, ok_bind]; simp only; rw [regComma_fail h]; rfl
  · rw [regComma_tok, ok_bind]; simp only; rw [regComma_noComma h]; rfl
  · rw [regComma_tok, ok_bind]; simp only; rw [regComma_tok, ok_bind]; simp only; rw [reg_fail h]; rfl

/-- **C52.** A load or a store: the parentheses and the register in them may not be missing. -/
theorem C52_base (C : Ctx) (op : Mem) (rt base : Reg) (t : Tree) (ht : Readable 2 t) (rest : Toks) :
    (Ends rest → instr C (tok op.text :: rt.tok :: .comma :: (t.toks ++ rest)) = .fail) ∧
    (NoReg rest → instr C (tok op.text :: rt.tok :: .comma :: (t.toks ++ .lp :: rest)) = .fail) ∧
    (rest.head? ≠ some .rp → instr C (tok op.text :: rt.tok :: .comma :: (t.toks ++ .lp :: base.tok :: rest)) = .fail) := by
  have hs : ∀ rest, s16 C (t.toks ++ .lp :: rest) =
      .ok (some (.bin .and (checkRange (C.src t) (-32768) 32767) (.num 0xFFFF)), .lp :: rest) := by
    intro rest; unfold s16; rw [expr_reads_lp C ht, ok_bind]; rfl
  refine ⟨fun h => ?_, fun h => ?_, fun h => ?_⟩
  all_goals
    rw [instr_run C op.good]
    show loadStore _ _ _ = _
    unfold loadStore
    rw [opcode_run op.good, regComma_tok, ok_bind]
    simp only
  · rw [s16_reads C ht h, ok_bind]
    simp only
    cases rest with
    | nil => rfl
    | cons x xs => rcases h x rfl with rfl | rfl | ⟨n, rfl⟩ <;> rfl
  · rw [hs, ok_bind]
    simp only
    rw [show expect .lp (.lp :: rest) = .ok rest from rfl, ok_bind, reg_fail h]; rfl
  · rw [hs, ok_bind]
    simp only
    rw [show expect .lp (.lp :: base.tok :: rest) = .ok (base.tok :: rest) from rfl, ok_bind, reg_tok, ok_bind]
    cases rest with
    | nil => rfl
    | cons x xs => cases x <;> first | rfl | exact absurd rfl h

/-! ### What goes wrong -/

/-- **C52, negation.** The operands of the shifts by a register are exchanged: `SLLV rd,rt,rs` shifts register `rs` by `rt`. -/
theorem C52_shift_registers (C : Ctx) (op : SV) (rd rt rs : Reg) (rest : Toks) :
    ∃ item, instr C ((Written.sv op rd rt rs).toks ++ rest) = .ok (some ([item], rest)) ∧
      ∀ (fm : FMath) (now : Nat → ASym) (ρ : Den),
        (item.code fm wrap now ρ).bind (decodeAt ρ.pc) = some (.sv op rd.num rs.num rt.num) :=
  ⟨_, sv_run C op rd rt rs rest, fun fm now ρ => sv_code fm now ρ op rd rt rs⟩

theorem special_not_branch (F : Fields) (op : B1) (rs : Nat) (t : Int) : decodeSpecial F ≠ some (.b1 op rs t) := by
  intro h
  unfold decodeSpecial at h
  split at h <;> (try split at h) <;> (try split at h) <;> cases h

/-- **C52, negation.** The word of `BLTZL` is never that of a branch: `BLTZL R0` to an address 8324 bytes further on is
`ADD R1,R16,R2`. -/
theorem C52_bltzl (C : Ctx) (rs : Reg) (t : Tree) (ht : Readable 4 t) (rest : Toks) (he : Ends rest) :
    ∃ item, instr C ((Written.b1 .bltzl rs t).toks ++ rest) = .ok (some ([item], rest)) ∧
      ∀ (fm : FMath) (now : Nat → ASym) (ρ : Den),
        (∀ op r a, (item.code fm wrap now ρ).bind (decodeAt ρ.pc) ≠ some (.b1 op r a)) ∧
        ((C.src t).value fm wrap now ρ = some (ρ.pc + 8324) →
          (item.code fm wrap now ρ).bind (decodeAt ρ.pc) = some (.r3 .add 1 (16 ||| rs.num.val) 2)) := by
  have hi' : instr C ((Written.b1 .bltzl rs t).toks ++ rest) =
      .ok (some (or32 (distance (C.src t)) (B1.bltzl.enc.word ||| (rs.num.val <<< 21) ||| (0 <<< 16)), rest)) := by
    show instr C (tok B1.bltzl.text :: rs.tok :: .comma :: (t.toks ++ rest)) = _
    rw [instr_run C B1.bltzl.good]
    show branch _ _ _ = _
    unfold branch
    rw [opcode_run B1.bltzl.good]
    simp only
    rw [if_pos (by decide), regComma_tok, ok_bind]
    simp only
    rw [if_neg (by decide), ok_bind]
    simp only
    rw [expr_reads C ht he]; rfl
  refine ⟨_, hi', ?_⟩
  intro fm now ρ
  have h16 : 16 ||| rs.num.val < 32 := Nat.or_lt_two_pow (n := 5) (by decide) rs.num.isLt
  have ew : B1.bltzl.enc.word ||| (rs.num.val <<< 21) ||| (0 <<< 16) = pack 0 (16 ||| rs.num.val) 2 0 0 0 := by
    rw [show (0 : Nat) <<< 16 = 0 from rfl, Nat.or_zero, pack_rs]
    show pack 0 16 2 0 0 0 ||| _ = _
    rw [pack_or (by decide) (by decide) (by decide) (by decide) (by decide) rs.num.isLt (by decide) (by decide) (by decide) (by decide)]
    simp only [Nat.zero_or, Nat.or_zero]
  rw [ew, code_or _ _ _ _ _ (pack_lt (by decide) h16 (by decide) (by decide) (by decide) (by decide)), value_distance]
  constructor
  · intro op r a h
    cases hv : (((C.src t).value fm wrap now ρ).bind fun v => within (-32768) 32767 (toI32 (v - (ρ.pc + 4)) / 4)) with
    | none => rw [hv] at h; cases h
    | some v =>
      rw [hv] at h
      simp only [Option.map_some, Option.bind_some] at h
      unfold decodeAt at h
      rw [fields_imm (by decide) h16 (by decide) (u32_mod_lt v)] at h
      exact special_not_branch _ op r a h
  · intro hv
    rw [hv]
    have hd : toI32 (ρ.pc + 8324 - (ρ.pc + 4)) = 8320 := by unfold toI32; omega
    have hw : within (-32768) 32767 ((8320 : Int) / 4) = some 2080 := by decide
    have hu : u32 ((2080 : Int) % 65536) = 2080 := by decide
    rw [Option.bind_some, hd, hw, Option.map_some, Option.map_some, Option.bind_some, hu]
    unfold decodeAt
    rw [fields_imm (by decide) h16 (by decide) (by decide)]
    rfl

/-- **C52, negation.** The processor extends the sign of the number of `SLTIU`; the assembler takes it for a number without a
sign. A number from 32768 to 65535 is another one for the processor, and a negative one is refused. -/
theorem C52_unsigned (C : Ctx) (rt rs : Reg) (t : Tree) (ht : Readable 2 t) (rest : Toks) (he : Ends rest) :
    ∃ item, instr C ((Written.i3 .sltiu rt rs t).toks ++ rest) = .ok (some ([item], rest)) ∧
      ∀ (fm : FMath) (now : Nat → ASym) (ρ : Den) (v : Int), (C.src t).value fm wrap now ρ = some v →
        (32768 ≤ v → v ≤ 65535 → (item.code fm wrap now ρ).bind (decodeAt ρ.pc) = some (.i3 .sltiu rt.num rs.num (v - 65536))) ∧
        (v < 0 → item.code fm wrap now ρ = none) := by
  have ew : (rs.num.val <<< 21) ||| (rt.num.val <<< 16) ||| I3.sltiu.enc.word = pack 11 rs.num rt.num 0 0 0 :=
    word_2' I3.sltiu.enc rs.num.isLt rt.num.isLt rfl rfl rfl rfl rfl
  refine ⟨.expr 4 (.bin .or (checkRange (C.src t) 0 65535) (.num (toI32 (pack 11 rs.num rt.num 0 0 0)))), ?_, ?_⟩
  · show instr C (tok I3.sltiu.text :: rt.tok :: .comma :: rs.tok :: .comma :: (t.toks ++ rest)) = _
    rw [instr_run C I3.sltiu.good]
    show rri _ _ _ = _
    unfold rri
    rw [opcode_run I3.sltiu.good]
    simp only
    rw [regComma_tok, ok_bind]
    simp only
    rw [regComma_tok, ok_bind]
    simp only
    rw [u16_reads C ht he, ew]; rfl
  · intro fm now ρ v hv
    constructor
    · intro h1 h2
      rw [decode_u16 fm now ρ _ (by decide) rs.num.isLt rt.num.isLt (fun v => .i3 .sltiu rt.num rs.num (sext v.toNat)) fun v _ => rfl, hv,
        Option.bind_some]
      unfold within
      rw [if_pos ⟨by omega, by omega⟩, Option.map_some, show sext v.toNat = v - 65536 from by unfold sext; split <;> omega]
    · intro h0
      rw [code_or _ _ _ _ _ (pack_lt (by decide) rs.num.isLt rt.num.isLt (by decide) (by decide) (by decide)), value_u16, hv,
        Option.bind_some]
      unfold within
      rw [if_neg (by omega)]; rfl

/-- **C52, negation.** The same for the traps `TGEIU` and `TLTIU`. -/
theorem C52_unsigned_traps (C : Ctx) (op : Ti) (hop : op = .tgeiu ∨ op = .tltiu) (rs : Reg) (t : Tree) (ht : Readable 2 t) (rest : Toks)
    (he : Ends rest) :
    ∃ item, instr C ((Written.ti op rs t).toks ++ rest) = .ok (some ([item], rest)) ∧
      ∀ (fm : FMath) (now : Nat → ASym) (ρ : Den) (v : Int), (C.src t).value fm wrap now ρ = some v →
        (32768 ≤ v → v ≤ 65535 → (item.code fm wrap now ρ).bind (decodeAt ρ.pc) = some (.ti op rs.num (v - 65536))) ∧
        (v < 0 → item.code fm wrap now ρ = none) := by
  have hc : op.checked = false := by rcases hop with rfl | rfl <;> rfl
  have hh : op.enc.h < 64 := by cases op <;> decide
  have hb : op.enc.b < 32 := by cases op <;> decide
  have ew : op.enc.word ||| (rs.num.val <<< 21) = pack op.enc.h rs.num op.enc.b 0 0 0 :=
    word_1 op.enc rs.num.isLt (by cases op <;> rfl) hb (by cases op <;> rfl) (by cases op <;> rfl) (by cases op <;> rfl)
  refine ⟨.expr 4 (.bin .or (checkRange (C.src t) 0 65535) (.num (toI32 (pack op.enc.h rs.num op.enc.b 0 0 0)))), ?_, ?_⟩
  · show instr C (tok op.text :: rs.tok :: .comma :: (t.toks ++ rest)) = _
    rw [instr_run C op.good]
    show ri _ _ _ = _
    unfold ri
    rw [opcode_run op.good]
    simp only
    rw [regComma_tok, ok_bind]
    simp only
    rw [u16_reads C ht he, ew, hc]; rfl
  · intro fm now ρ v hv
    constructor
    · intro h1 h2
      rw [decode_u16 fm now ρ _ hh rs.num.isLt hb (fun v => .ti op rs.num (sext v.toNat))
        (fun v _ => by rcases hop with rfl | rfl <;> rfl), hv, Option.bind_some]
      unfold within
      rw [if_pos ⟨by omega, by omega⟩, Option.map_some, show sext v.toNat = v - 65536 from by unfold sext; split <;> omega]
    · intro h0
      rw [code_or _ _ _ _ _ (pack_lt hh rs.num.isLt hb (by decide) (by decide) (by decide)), value_u16, hv, Option.bind_some]
      unfold within
      rw [if_neg (by omega)]; rfl

/-- **C52, negation.** The target of a branch need not be the address of a word: the branch goes to the word that it lies in,
counted from the branch, and there is no message. -/
theorem C52_misaligned (C : Ctx) (op : B2) (rs rt : Reg) (t : Tree) (ht : Readable 4 t) (rest : Toks) (he : Ends rest) :
    ∃ item, instr C ((Written.b2 op rs rt t).toks ++ rest) = .ok (some ([item], rest)) ∧
      ∀ (fm : FMath) (now : Nat → ASym) (ρ : Den) (v : Int), (C.src t).value fm wrap now ρ = some v →
        -131072 ≤ v - (ρ.pc + 4) → v - (ρ.pc + 4) ≤ 131071 →
        (item.code fm wrap now ρ).bind (decodeAt ρ.pc) = some (.b2 op rs.num rt.num (u32 (v - (v - ρ.pc) % 4))) := by
  have ew : op.enc.word ||| (rs.num.val <<< 21) ||| (rt.num.val <<< 16) = pack op.enc.h rs.num rt.num 0 0 0 :=
    word_2 op.enc rs.num.isLt rt.num.isLt (by cases op <;> rfl) (by cases op <;> rfl) (by cases op <;> rfl) (by cases op <;> rfl)
      (by cases op <;> rfl)
  have hh : op.enc.h < 64 := by cases op <;> decide
  refine ⟨.expr 4 (.bin .or (distance (C.src t)) (.num (toI32 (pack op.enc.h rs.num rt.num 0 0 0)))), ?_, ?_⟩
  · show instr C (tok op.text :: rs.tok :: .comma :: rt.tok :: .comma :: (t.toks ++ rest)) = _
    rw [instr_run C op.good]
    show branch _ _ _ = _
    unfold branch
    rw [opcode_run op.good]
    simp only
    rw [if_pos (by decide), regComma_tok, ok_bind]
    simp only
    rw [if_pos (by decide), regComma_tok, ok_bind]
    simp only
    rw [expr_reads C ht he, ew]; rfl
  · intro fm now ρ v hv h1 h2
    rw [code_or _ _ _ _ _ (pack_lt hh rs.num.isLt rt.num.isLt (by omega) (by omega) (by omega)), value_distance, hv, Option.bind_some]
    have hd : toI32 (v - (ρ.pc + 4)) = v - (ρ.pc + 4) := by unfold toI32; omega
    have hr : -32768 ≤ (v - (ρ.pc + 4)) / 4 ∧ (v - (ρ.pc + 4)) / 4 ≤ 32767 := by omega
    rw [hd]
    unfold within
    rw [if_pos hr]
    simp only [Option.map_some, Option.bind_some]
    unfold decodeAt
    rw [fields_imm hh rs.num.isLt rt.num.isLt (u32_mod_lt _)]
    have : ∀ v : Nat, decodeF ρ.pc ⟨op.enc.h, rs.num.val, rt.num.val, v / 2048, v / 64 % 32, v % 64, v,
        2 ^ 21 * rs.num.val + 2 ^ 16 * rt.num.val + v⟩ = some (.b2 op rs.num.val rt.num.val (target ρ.pc v)) := by
      intro v; cases op <;> rfl
    rw [this]
    unfold target
    rw [sext_mod hr.1 hr.2, show ρ.pc + 4 + 4 * ((v - (ρ.pc + 4)) / 4) = v - (v - ρ.pc) % 4 from by omega]

/-- **C52, negation.** A jump to an address in another 256 MB goes to the address with the same lower bits in the current ones,
and a jump to an address that is not that of a word is rounded down. There is no message. -/
theorem C52_region (C : Ctx) (op : Jp) (t : Tree) (ht : Readable 4 t) (rest : Toks) (he : Ends rest) :
    ∃ item, instr C ((Written.jp op t).toks ++ rest) = .ok (some ([item], rest)) ∧
      ∀ (fm : FMath) (now : Nat → ASym) (ρ : Den) (v : Int), (C.src t).value fm wrap now ρ = some v →
        (item.code fm wrap now ρ).bind (decodeAt ρ.pc) = some (.jp op (2 ^ 28 * region ρ.pc + (v % 2 ^ 28 - v % 4))) := by
  refine ⟨.expr 4 (.bin .or (.bin .and (.bin .asr (C.src t) (.num 2)) (.num 0x03FFFFFF)) (.num (toI32 op.enc.word))), ?_, ?_⟩
  · show instr C (tok op.text :: (t.toks ++ rest)) = _
    rw [instr_run C op.good]
    show jump _ _ _ = _
    unfold jump
    rw [opcode_run op.good, expr_reads C ht he]; rfl
  · intro fm now ρ v hv
    have hm := value_mask fm wrap now ρ (.bin .asr (C.src t) (.num 2)) 26 (by omega)
    rw [value_asr2] at hm
    have hm : (Src.bin .and (.bin .asr (C.src t) (.num 2)) (.num 0x03FFFFFF)).value fm wrap now ρ = _ := hm
    rw [code_or _ _ _ _ _ (by cases op <;> decide), hm, hv]
    simp only [Option.map_some, Option.bind_some]
    have hl : u32 (v / 4 % ((2 ^ 26 : Nat) : Int)) < 67108864 := by unfold u32; omega
    have ht : 4 * ((u32 (v / 4 % ((2 ^ 26 : Nat) : Int)) : Nat) : Int) = v % 2 ^ 28 - v % 4 := by unfold u32; omega
    unfold decodeAt
    have ew : op.enc.word = pack op.enc.h 0 0 0 0 0 := by cases op <;> rfl
    obtain ⟨a, b, c, d, e, imm, he⟩ := fields_idx (h := op.enc.h) (by cases op <;> decide) hl
    rw [ew, he, ← ht]
    cases op <;> rfl

/-- No expression begins here: the end, a comma, a closing parenthesis, or a character such as the end of the line. (Reserved words
can be names in expressions, which is not modelled.) -/
def NoExpr (rest : Toks) : Prop := ∀ x, rest.head? = some x → x = .comma ∨ x = .rp ∨ ∃ n, x = .other n ∧ n < 256

theorem expr_none (C : Ctx) (max : Nat) {rest : Toks} (h : NoExpr rest) : expr C max rest = .ok (none, rest) := by
  cases rest with
  | nil => rfl
  | cons x xs => rcases h x rfl with rfl | rfl | ⟨n, rfl, _⟩ <;> rfl

/-- **C52, negation.** If the number behind two registers or behind `LUI` is missing, nothing is put out and there is no message.
The other instructions are refused without their number or target. -/
theorem C52_no_number (C : Ctx) (rest : Toks) (h : NoExpr rest) :
    (∀ (op : I3) (rt rs : Reg), instr C (tok op.text :: rt.tok :: .comma :: rs.tok :: .comma :: rest) = .ok (some ([], rest))) ∧
    (∀ rt : Reg, instr C (tok "LUI" :: rt.tok :: .comma :: rest) = .ok (some ([], rest))) ∧
    (∀ (op : B2) (rs rt : Reg), instr C (tok op.text :: rs.tok :: .comma :: rt.tok :: .comma :: rest) = .fail) ∧
    (∀ (op : B1) (rs : Reg), instr C (tok op.text :: rs.tok :: .comma :: rest) = .fail) ∧
    (∀ (op : Sh) (rd rt : Reg), instr C (tok op.text :: rd.tok :: .comma :: rt.tok :: .comma :: rest) = .fail) ∧
    (∀ (op : Mem) (rt : Reg), instr C (tok op.text :: rt.tok :: .comma :: rest) = .fail) ∧
    (∀ (op : Tr) (rs rt : Reg), instr C (tok op.text :: rs.tok :: .comma :: rt.tok :: .comma :: rest) = .fail) ∧
    (∀ (op : Ti) (rs : Reg), instr C (tok op.text :: rs.tok :: .comma :: rest) = .fail) ∧
    ∀ op : Jp, instr C (tok op.text :: rest) = .fail := by
  have hs : s16 C rest = .ok (none, rest) := by unfold s16; rw [expr_none C _ h, ok_bind]; rfl
  have hu : u16 C rest = .ok (none, rest) := by unfold u16; rw [expr_none C _ h, ok_bind]; rfl
  refine ⟨fun op rt rs => ?_, fun rt => ?_, fun op rs rt => ?_, fun op rs => ?_, fun op rd rt => ?_, fun op rt => ?_,
    fun op rs rt => ?_, fun op rs => ?_, fun op => ?_⟩
  · rw [instr_run C op.good]; show rri _ _ _ = _; unfold rri
    rw [opcode_run op.good]; simp only; rw [regComma_tok, ok_bind]; simp only; rw [regComma_tok, ok_bind]; simp only
    rw [hs, hu]
    cases op.checked <;> rfl
  · rw [show tok "LUI" = .other 6110 from by decide +kernel]
    show lui C (rt.tok :: .comma :: rest) = _
    unfold lui; rw [regComma_tok, ok_bind]; simp only; rw [hu, ok_bind]
  · rw [instr_run C op.good]; show branch _ _ _ = _; unfold branch; rw [opcode_run op.good]; simp only
    rw [if_pos (by decide), regComma_tok, ok_bind]; simp only; rw [if_pos (by decide), regComma_tok, ok_bind]; simp only
    rw [expr_none C _ h, ok_bind]
  · rw [instr_run C op.good]; show branch _ _ _ = _; unfold branch; rw [opcode_run op.good]; simp only
    rw [if_pos (by decide), regComma_tok, ok_bind]; simp only; rw [if_neg (by decide), ok_bind]; simp only
    rw [expr_none C _ h, ok_bind]
  · rw [instr_run C op.good]; show shift _ _ _ = _; unfold shift; rw [opcode_run op.good, regComma_tok, ok_bind]; simp only
    rw [regComma_tok, ok_bind]; simp only; rw [expr_none C _ h, ok_bind]
  · rw [instr_run C op.good]; show loadStore _ _ _ = _; unfold loadStore; rw [opcode_run op.good, regComma_tok, ok_bind]; simp only
    rw [hs, ok_bind]
  · rw [instr_run C op.good]; show rsrtCode _ _ _ = _; unfold rsrtCode; rw [opcode_run op.good, regComma_tok, ok_bind]; simp only
    rw [reg_tok, ok_bind]; simp only; rw [expr_none C _ h, ok_bind]
  · rw [instr_run C op.good]; show ri _ _ _ = _; unfold ri; rw [opcode_run op.good]; simp only; rw [regComma_tok, ok_bind]; simp only
    rw [hs, hu]
    cases op.checked <;> rfl
  · rw [instr_run C op.good]; show jump _ _ _ = _; unfold jump; rw [opcode_run op.good, expr_none C _ h, ok_bind]

/-- Instructions of the MIPS32 that are not assembled. -/
def absent : List String :=
  ["MULTU", "JALR", "JALR.HB", "EXT", "INS", "BREAK", "SYSCALL", "SYNC", "SYNCI", "CACHE", "PREF", "RDHWR", "WAIT", "SDBBP", "MFC0",
   "MTC0", "MFC1", "MTC1", "CFC1", "CTC1", "MOVF", "MOVT", "MFC2", "MTC2"]

/-- **C52, negation.** There is no call of an address in a register, `BREAK`, `SYSCALL` and so on are not known, and `MULTU` is
called `MULU`. -/
theorem C52_absent (C : Ctx) (rest : Toks) :
    (∀ name ∈ absent, instr C (tok name :: rest) = .ok none) ∧
    ∀ rs rt : Reg, ∃ item, instr C (tok "MULU" :: rs.tok :: .comma :: rt.tok :: rest) = .ok (some ([item], rest)) ∧
      ∀ (fm : FMath) (now : Nat → ASym) (ρ : Den),
        (item.code fm wrap now ρ).bind (decodeAt ρ.pc) = some (.d2 .multu rs.num rt.num) := by
  refine ⟨?_, fun rs rt => ⟨_, d2_run C .multu rs rt rest, fun fm now ρ => d2_code fm now ρ .multu rs rt⟩⟩
  intro name hn
  have h : ∀ name ∈ absent, (∃ n, tok name = .other n ∧ T.lui.num < n) ∨ tok name = .sym name.toList := by
    unfold absent
    intro name hn
    simp only [List.mem_cons, List.not_mem_nil, or_false] at hn
    rcases hn with rfl | rfl | rfl | rfl | rfl | rfl | rfl | rfl | rfl | rfl | rfl | rfl | rfl | rfl | rfl | rfl | rfl | rfl | rfl |
      rfl | rfl | rfl | rfl | rfl
    all_goals first
      | exact Or.inr (by decide +kernel)
      | exact Or.inl ⟨6111, by decide +kernel, by decide⟩
      | exact Or.inl ⟨6112, by decide +kernel, by decide⟩
  rcases h name hn with ⟨n, e, hl⟩ | e
  · rw [e]
    unfold instr
    simp only
    rw [if_neg (by omega)]
  · rw [e]; rfl

/-! ### Examples -/

/-- Nothing is known. -/
def C0 : Ctx := ⟨fun s => s.length, 0, fun _ => none⟩

/-- `LW A0,-4(SP)` -/
example : instr C0 [tok "LW", tok "A0", .comma, .op .sub, .num 4, .lp, tok "SP", .rp] =
    .ok (some ([.expr 4 (.bin .or (.bin .and (checkRange (.bin .sub (.num 0) (.num 4)) (-32768) 32767) (.num 0xFFFF))
      (.num (toI32 0x8FA40000)))], [])) := by
  decide +kernel

example : (Written.mem .lw ⟨4, true⟩ (.neg (.num 4)) ⟨29, true⟩).toks =
    [tok "LW", tok "A0", .comma, .op .sub, .num 4, .lp, tok "SP", .rp] := rfl

/-- The word 0x8FA4FFFC is `LW R4,-4(R29)`. -/
example : decodeAt 0 0x8FA4FFFC = some (.mem .lw 4 (-4) 29) := by decide

/-- `BNE T0,ZERO` back to itself. -/
example : decodeAt 0x400 0x1500FFFF = some (.b2 .bne 8 0 0x400) := by decide

example : reach 0x400 0x400 = some 0x400 ∧ reach 0x400 0x402 = none ∧ reach 0x400 0x20404 = none ∧ reach 0 (-4) = some 0xFFFFFFFC := by
  decide

/-- `SLLV R1,R2,R3` shifts R3 by R2. -/
example : instr C0 (Written.sv .sllv ⟨1, false⟩ ⟨2, false⟩ ⟨3, false⟩).toks = .ok (some ([.const 4 0x00430804], [])) ∧
    decodeAt 0 0x00430804 = some (.sv .sllv 1 3 2) := by decide +kernel

example : Written.Readable (.b2 .beq ⟨8, true⟩ ⟨0, true⟩ (.sym ['l'])) ∧ EndOfLine [.other 10] := by
  refine ⟨⟨?_, ?_, ?_, ?_, ?_⟩, ?_⟩
  · trivial
  · trivial
  · rfl
  · trivial
  · exact Or.inl rfl
  · intro x hx; cases hx; exact ⟨10, by decide, rfl⟩

end Verif.Cpu.Mips
