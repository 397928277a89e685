import Verif.Cpu.M6809.Encode
import Verif.Cpu.Z80.Props
/-!
# C60: the parser of the 6809
-/
set_option linter.constructorNameAsVariable false

namespace Verif.Cpu.M6809

open Verif.Parse (Tok Toks Tree)
open Verif.Expr (Src FMath ASym Den BinOp I32 u32 toI32 wrap)
open Verif.Cpu.X65 (EndOfLine ok_bind value_pc front)
open Verif.Cpu.Z80 (C0 readable_num)

variable {C : Ctx} {dp : Option Nat} {m : Mn} {x : Opnd} {rest : Toks}

theorem one_list (h : takes m (.list .s) = true) : takes m (.list .u) = false := by
  cases hu : takes m (.list .u) with
  | false => rfl
  | true =>
    obtain ⟨bs, hc⟩ := takes_code h
    obtain ⟨bs', hc'⟩ := takes_code hu
    have h1 : m.entry.allowed = M.imm ||| M.listS := by simpa [Fmt.allowed] using (fmt_ok hc (by decide)).1
    have h2 : m.entry.allowed = M.imm ||| M.listU := by simpa [Fmt.allowed] using (fmt_ok hc' (by decide)).1
    rw [h1] at h2
    exact absurd h2 (by decide)

/-- **C60.** Every line with an instruction and an operand that the processor has, except those in `Right`, is accepted, and
all tokens up to the end of the line are read. Wherever the bytes are put, the processor reads there the instruction that is
written, with the value of the expression; there are no bytes only if the value does not fit. With a direct page that is announced
with `SETDP`, addresses in that page are shorter and mean the same. -/
theorem C60_encode (hg : x.Good) (hl : x.legal m = true) (hr : x.Right C dp m) (he : EndOfLine rest) :
    ∃ done items, instr C dp (m.tok :: (x.toks ++ rest)) = .ok ⟨done, items, dp, rest⟩ ∧
      ∀ fm now ρ, C.Sound fm wrap now ρ → 0 ≤ ρ.pc → ρ.pc < 16777216 → (∀ v, x.value C fm now ρ = some v → x.Near m ρ.pc v) →
        ((bytesAt fm now ρ items).bind (decode ρ.pc)).map (Ins.at dp) =
          (meaning m x (x.value C fm now ρ) dp ρ.pc).map (⟨.mn m, ·⟩) := by
  show Becomes C dp m x rest
  cases x with
  | none => exact becomes_none hl he
  | imm t => exact becomes_imm (hg.readable t rfl) (by simpa [Opnd.legal] using hl) he
  | addr i f t =>
    have ht := hg.readable t rfl
    cases i with
    | true => exact becomes_indirect ht hl he
    | false =>
      by_cases h8 : takes m .rel8 = true
      · exact becomes_rel8 ht h8 he
      · by_cases h16 : takes m .rel16 = true
        · exact becomes_rel16 ht h16 (by simpa using h8) he
        · exact becomes_ext ht (by simpa [Opnd.legal, h8, h16] using hl) (by simpa using h8) (by simpa using h16) hr he
  | off i f t r => exact becomes_off (hg.readable t rfl) hg.regs hl hr he
  | zero i r => exact becomes_zero hg.regs hl he
  | inc1 i r =>
    have hl' : takes m .idx = true ∧ i = false := by simpa [Opnd.legal] using hl
    obtain ⟨hl', rfl⟩ := hl'
    exact becomes_inc1 hg.regs hl' he
  | inc2 i r => exact becomes_inc2 hg.regs hl he
  | dec1 i r =>
    have hl' : takes m .idx = true ∧ i = false := by simpa [Opnd.legal] using hl
    obtain ⟨hl', rfl⟩ := hl'
    exact becomes_dec1 hg.regs hl' he
  | dec2 i r => exact becomes_dec2 hg.regs hl he
  | acc i a r => exact becomes_acc hg.regs.1 hg.regs.2 hl he
  | pcr i f t => exact becomes_pcr (hg.readable t rfl) hl he
  | pair a b =>
    have hl : takes m .pair = true ∧ meaning.wide a = meaning.wide b := by simpa [Opnd.legal] using hl
    exact becomes_pair hl.1 hl.2 he
  | list rs =>
    simp only [Opnd.legal, Bool.or_eq_true, Bool.and_eq_true] at hl
    rcases hl with ⟨h, ha⟩ | ⟨h, ha⟩
    · exact becomes_list (Or.inl rfl) h (fun h => (nomatch h)) (fun r hr => List.contains_iff_mem.1 (List.all_eq_true.1 ha r hr)) he
    · exact becomes_list (Or.inr rfl) h (fun _ => one_list h) (fun r hr => List.contains_iff_mem.1 (List.all_eq_true.1 ha r hr)) he

/-- What the specification gives no meaning is what is not legal. -/
theorem illegal_meaning (h : x.legal m = false) (v : Option Int) (pc : Int) : meaning m x v dp pc = none := by
  cases x with
  | addr i f t => cases i <;> simp_all [Opnd.legal, meaning]
  | pair a b =>
    simp only [Opnd.legal, Bool.and_eq_false_iff] at h
    unfold meaning
    rcases h with h | h
    · simp [h]
    · simp only [beq_eq_false_iff_ne] at h
      simp [h]
  | list rs =>
    simp only [Opnd.legal, Bool.or_eq_false_iff, Bool.and_eq_false_iff] at h
    simp only [meaning, meaning.inList]
    obtain ⟨h1, h2⟩ := h
    split
    · rename_i hu
      rcases h1 with h1 | h1
      · rw [hu] at h1; cases h1
      · rw [if_neg (by rw [h1]; decide)]
    · split
      · rename_i hu
        rcases h2 with h2 | h2
        · rw [hu] at h2; cases h2
        · rw [if_neg (by rw [h2]; decide)]
      · rfl
  | _ => simp_all [Opnd.legal, meaning]

/-! ### All opcodes -/

theorem codes_distinct : opcodes.all (fun e => match e.2.1 with
    | .mn m => code m e.2.2 == some e.1
    | _ => true) = true := by decide +kernel

/-- What is put out for a mode. -/
theorem items_of {f : Fmt} {bs : List Nat} (hc : code m f = some bs) (hf : f ∈ formats) {toks : Toks} {am : Am} {k : Nat} {post : Option Nat}
    {e : Option Src} {cs : List Call} {is : List Item} (hrd : addrMode C m.entry.allowed toks = .ok (am, []))
    (hres : resolve C dp am = ⟨k, post, e⟩) (hcall : (k, cs) ∈ f.calls) (hem : emit ⟨k, post, e⟩ cs = .ok is) :
    ∃ done items, instr C dp (m.tok :: toks) = .ok ⟨done, bs.map (.const 1) ++ items, dp, []⟩ := by
  obtain ⟨_, hh, hr⟩ := fmt_ok hc hf
  have hr := hr _ hcall
  simp only at hr
  refine ⟨(m.entry.handler.run m.entry.base k).1, is, instr_of ?_ fun _ h => (nomatch h)⟩
  unfold handle
  rw [hrd, ok_bind]
  simp only
  rw [hres, if_neg hh]
  simp only
  rw [hr, emit_consts _ bs hem, ok_bind]

/-- **C60.** Every opcode of the processor is the beginning of what some line puts out, except those of `LSRA` and `LSRB`. -/
theorem C60_every_opcode (C : Ctx) (dp : Option Nat) : ∀ e ∈ opcodes, e.2.1 = .lsra ∨ e.2.1 = .lsrb ∨
    ∃ m toks done items, e.2.1 = .mn m ∧ instr C dp (m.tok :: toks) = .ok ⟨done, e.1.map (.const 1) ++ items, dp, []⟩ := by
  intro e he
  have h := List.all_eq_true.1 codes_distinct e he
  obtain ⟨bs, o, f⟩ := e
  cases o with
  | lsra => exact Or.inl rfl
  | lsrb => exact Or.inr (Or.inl rfl)
  | mn m =>
    have hc : code m f = some bs := eq_of_beq h
    refine Or.inr (Or.inr ?_)
    have heol : EndOfLine [] := fun _ h => (nomatch h)
    have hn : Readable 2 (.num 0) := readable_num 2 0
    suffices ∃ toks done items, instr C dp (m.tok :: toks) = .ok ⟨done, bs.map (.const 1) ++ items, dp, []⟩ by
      obtain ⟨toks, done, items, h⟩ := this
      exact ⟨m, toks, done, items, rfl, h⟩
    have hrd {A : Nat} (hA : A ∈ [M.p, M.q]) (f : Force) := read_addr (C := C) (A := A) (rest := []) (by revert hA A; decide) f hn heol
    have hpq {A k : Nat} (hA : A ∈ [M.p, M.q]) {f : Force} {toks : Toks} (hk : ∀ A ∈ [M.p, M.q],
        plainMode A (decide (f = .gt)) (decide (f = .lt)) (some (C.src (.num 0))) [] toks = .ok (⟨k, none, some (C.src (.num 0))⟩, [])) := hk A hA
    cases f with
    | inh =>
      have ha : m.entry.allowed = M.none := by simpa [Fmt.allowed] using (fmt_ok hc (by decide)).1
      obtain ⟨d, i, h⟩ := items_of (C := C) (dp := dp) hc (by decide) (toks := []) (am := ⟨M.none, none, none⟩) (cs := []) (is := [])
        (by rw [ha]; rfl) (resolve_other _ _ (by decide)) (by decide) rfl
      exact ⟨_, d, i, h⟩
    | imm8 =>
      have ha : m.entry.allowed ∈ [M.p, M.imm] := (fmt_ok hc (by decide)).1
      have hi : ∀ A ∈ [M.p, M.imm], has A M.imm = true := by decide
      obtain ⟨d, i, h⟩ := items_of (C := C) (dp := dp) hc (by decide) (cs := [.e8]) (read_imm (rest := []) (hi _ ha) hn heol.ends)
        (resolve_other _ _ (by decide)) (by decide) rfl
      exact ⟨_, d, i, h⟩
    | imm16 =>
      have ha : m.entry.allowed ∈ [M.p] := (fmt_ok hc (by decide)).1
      have hi : ∀ A ∈ [M.p], has A M.imm = true := by decide
      obtain ⟨d, i, h⟩ := items_of (C := C) (dp := dp) hc (by decide) (cs := [.e16]) (read_imm (rest := []) (hi _ ha) hn heol.ends)
        (resolve_other _ _ (by decide)) (by decide) rfl
      exact ⟨_, d, i, h⟩
    | dir =>
      have ha : m.entry.allowed ∈ [M.p, M.q] := (fmt_ok hc (by decide)).1
      obtain ⟨d, i, h⟩ := items_of (C := C) (dp := dp) hc (by decide) (cs := [.low8]) (am := ⟨M.direct, none, some (C.src (.num 0))⟩)
        ((hrd ha .lt).trans (hpq ha fun A hA => by
          simp only [List.mem_cons, List.not_mem_nil, or_false] at hA
          rcases hA with rfl | rfl <;> rfl)) (resolve_other _ _ (by decide)) (by decide) rfl
      exact ⟨_, d, i, h⟩
    | ext =>
      have ha : m.entry.allowed ∈ [M.p, M.q] := (fmt_ok hc (by decide)).1
      obtain ⟨d, i, h⟩ := items_of (C := C) (dp := dp) hc (by decide) (cs := [.e16]) (am := ⟨M.extended, none, some (C.src (.num 0))⟩)
        ((hrd ha .gt).trans (hpq ha fun A hA => by
          simp only [List.mem_cons, List.not_mem_nil, or_false] at hA
          rcases hA with rfl | rfl <;> rfl)) (resolve_other _ _ (by decide)) (by decide) rfl
      exact ⟨_, d, i, h⟩
    | idx =>
      have ha : m.entry.allowed ∈ [M.p, M.q, M.t] := (fmt_ok hc (by decide)).1
      obtain ⟨d, i, h⟩ := items_of (C := C) (dp := dp) hc (by decide) (cs := [.post]) (toks := [.comma, R.x.tok]) (am := ⟨M.r, some 0x84, none⟩)
        (by
          revert ha
          generalize m.entry.allowed = A
          intro ha
          simp only [List.mem_cons, List.not_mem_nil, or_false] at ha
          rcases ha with rfl | rfl | rfl <;> rfl) (resolve_other _ _ (by decide)) (by decide) rfl
      exact ⟨_, d, i, h⟩
    | rel8 =>
      have ha : m.entry.allowed = M.address := by simpa [Fmt.allowed] using (fmt_ok hc (by decide)).1
      obtain ⟨k, hres, hk⟩ := resolve_branch (C := C) (dp := dp) (C.src (.num 0))
      obtain ⟨d, i, h⟩ := items_of (C := C) (dp := dp) hc (by decide) (cs := [.rel8])
        (by rw [ha]; exact read_branch (rest := []) .no hn heol) hres (by rcases hk with rfl | rfl <;> decide) rfl
      exact ⟨_, d, i, h⟩
    | rel16 =>
      have ha : m.entry.allowed = M.address := by simpa [Fmt.allowed] using (fmt_ok hc (by decide)).1
      obtain ⟨k, hres, hk⟩ := resolve_branch (C := C) (dp := dp) (C.src (.num 0))
      obtain ⟨d, i, h⟩ := items_of (C := C) (dp := dp) hc (by decide) (cs := [.rel16])
        (by rw [ha]; exact read_branch (rest := []) .no hn heol) hres (by rcases hk with rfl | rfl <;> decide) rfl
      exact ⟨_, d, i, h⟩
    | pair =>
      obtain ⟨ha, hh, rfl⟩ := pair_ok hc
      refine ⟨[R.a.tok, .comma, R.b.tok], true, [.const 1 0x89], instr_of ?_ fun _ h => (nomatch h)⟩
      unfold handle
      rw [ha, hh]
      rfl
    | list o =>
      have hu : ∀ A ∈ [M.imm ||| M.listU, M.imm ||| M.listS], addrMode C A [] = .ok (⟨A &&& (M.listS ||| M.listU), some 0, none⟩, []) := by
        intro A hA
        simp only [List.mem_cons, List.not_mem_nil, or_false] at hA
        rcases hA with rfl | rfl <;> rfl
      by_cases h1 : o = .u
      · subst h1
        have ha : m.entry.allowed = M.imm ||| M.listU := by simpa [Fmt.allowed] using (fmt_ok hc (by decide)).1
        obtain ⟨d, i, h⟩ := items_of (C := C) (dp := dp) hc (by decide) (cs := [.post]) (k := M.listU)
          (by rw [ha]; exact hu _ (by decide)) (resolve_other _ _ (by decide)) (by decide) rfl
        exact ⟨_, d, i, h⟩
      · by_cases h2 : o = .s
        · subst h2
          have ha : m.entry.allowed = M.imm ||| M.listS := by simpa [Fmt.allowed] using (fmt_ok hc (by decide)).1
          obtain ⟨d, i, h⟩ := items_of (C := C) (dp := dp) hc (by decide) (cs := [.post]) (k := M.listS)
            (by rw [ha]; exact hu _ (by decide)) (resolve_other _ _ (by decide)) (by decide) rfl
          exact ⟨_, d, i, h⟩
        · have hlist : opcodes.all (fun e => match e.2.2 with
              | .list r => r == .u || r == .s
              | _ => true) = true := by decide +kernel
          have := List.all_eq_true.1 hlist _ he
          simp only [Bool.or_eq_true, beq_iff_eq] at this
          rcases this with h | h
          · exact absurd h h1
          · exact absurd h h2

/-! ### Words -/

/-- The mnemonics as they are written. -/
def Mn.word : Mn → String
  | .abx => "ABX" | .adca => "ADCA" | .adcb => "ADCB" | .adda => "ADDA" | .addb => "ADDB" | .addd => "ADDD"
  | .anda => "ANDA" | .andb => "ANDB" | .andcc => "ANDCC" | .asl => "ASL" | .asla => "ASLA" | .aslb => "ASLB"
  | .asr => "ASR" | .asra => "ASRA" | .asrb => "ASRB" | .nop => "NOP" | .bra => "BRA" | .brn => "BRN" | .bhi => "BHI"
  | .bls => "BLS" | .bhs => "BHS" | .blo => "BLO" | .bne => "BNE" | .beq => "BEQ" | .bvc => "BVC" | .bvs => "BVS"
  | .bpl => "BPL" | .bmi => "BMI" | .bge => "BGE" | .blt => "BLT" | .bgt => "BGT" | .ble => "BLE" | .bsr => "BSR"
  | .lbra => "LBRA" | .lbrn => "LBRN" | .lbhi => "LBHI" | .lbls => "LBLS" | .lbhs => "LBHS" | .lblo => "LBLO"
  | .lbne => "LBNE" | .lbeq => "LBEQ" | .lbvc => "LBVC" | .lbvs => "LBVS" | .lbpl => "LBPL" | .lbmi => "LBMI"
  | .lbge => "LBGE" | .lblt => "LBLT" | .lbgt => "LBGT" | .lble => "LBLE" | .lbsr => "LBSR" | .bita => "BITA"
  | .bitb => "BITB" | .clr => "CLR" | .clra => "CLRA" | .clrb => "CLRB" | .cmpa => "CMPA" | .cmpb => "CMPB"
  | .cmpd => "CMPD" | .cmpx => "CMPX" | .cmpy => "CMPY" | .cmpu => "CMPU" | .cmps => "CMPS" | .com => "COM"
  | .coma => "COMA" | .comb => "COMB" | .cwai => "CWAI" | .daa => "DAA" | .dec => "DEC" | .deca => "DECA" | .decb => "DECB"
  | .eora => "EORA" | .eorb => "EORB" | .exg => "EXG" | .inc => "INC" | .inca => "INCA" | .incb => "INCB" | .jmp => "JMP"
  | .jsr => "JSR" | .lda => "LDA" | .ldb => "LDB" | .ldd => "LDD" | .ldx => "LDX" | .ldy => "LDY" | .ldu => "LDU"
  | .lds => "LDS" | .leax => "LEAX" | .leay => "LEAY" | .leau => "LEAU" | .leas => "LEAS" | .lsr => "LSR" | .mul => "MUL"
  | .neg => "NEG" | .nega => "NEGA" | .negb => "NEGB" | .ora => "ORA" | .orb => "ORB" | .orcc => "ORCC" | .pshs => "PSHS"
  | .pshu => "PSHU" | .puls => "PULS" | .pulu => "PULU" | .rol => "ROL" | .rola => "ROLA" | .rolb => "ROLB" | .ror => "ROR"
  | .rora => "RORA" | .rorb => "RORB" | .rti => "RTI" | .rts => "RTS" | .sbca => "SBCA" | .sbcb => "SBCB" | .sex => "SEX"
  | .sta => "STA" | .stb => "STB" | .std => "STD" | .stx => "STX" | .sty => "STY" | .stu => "STU" | .sts => "STS"
  | .suba => "SUBA" | .subb => "SUBB" | .subd => "SUBD" | .swi => "SWI" | .swi2 => "SWI2" | .swi3 => "SWI3"
  | .sync => "SYNC" | .tfr => "TFR" | .tst => "TST" | .tsta => "TSTA" | .tstb => "TSTB"

/-- The registers as they are written. -/
def R.word : R → String
  | .a => "A" | .b => "B" | .d => "D" | .pcr => "PCR" | .ccr => "CCR" | .dpr => "DPR" | .x => "X" | .y => "Y" | .u => "U" | .s => "S"

/-- The token of a word. -/
def tok (w : String) : Option Tok := (words.find? (·.1 == w)).map fun e => .other e.2

/-- **C60.** The words are the tokens that the parser reads, and those that are in use for the same instruction as well. -/
theorem C60_words : (∀ m : Mn, tok m.word = some m.tok) ∧ (∀ r : R, tok r.word = some r.tok) ∧ tok "SETDP" = some (.other setdpNum) ∧
    tok "LSL" = tok "ASL" ∧ tok "LSLA" = tok "ASLA" ∧ tok "LSLB" = tok "ASLB" ∧ tok "BCC" = tok "BHS" ∧ tok "BCS" = tok "BLO" ∧
    tok "LBCC" = tok "LBHS" ∧ tok "LBCS" = tok "LBLO" := by
  refine ⟨fun m => ?_, fun r => ?_, by decide +kernel⟩
  · have h : Mn.all.all (fun m => tok m.word == some m.tok) = true := by decide +kernel
    exact eq_of_beq (List.all_eq_true.1 h m (mem_all m))
  · cases r <;> decide +kernel

/-! ### The direct page -/

/-- **C60.** `SETDP n` announces the page, if the number is known and is one; `SETDP` alone takes it back. -/
theorem C60_setdp {t : Tree} (hr : Readable 2 t) (he : EndOfLine rest) :
    instr C dp (.other setdpNum :: (t.toks ++ rest)) = (match C.known (C.src t) with
      | some v => if 0 ≤ v ∧ v ≤ 255 then .ok ⟨true, [], some (256 * v.toNat), rest⟩ else .fail
      | none => .fail) ∧
    instr C dp (.other setdpNum :: rest) = .ok ⟨true, [], none, rest⟩ := by
  have h0 (toks : Toks) : instr C dp (.other setdpNum :: toks) = directive C ⟨false, [], dp, .other setdpNum :: toks⟩ := rfl
  constructor
  · rw [h0]
    unfold directive
    simp only
    rw [if_pos trivial, expr_reads C hr he.ends, ok_bind]
    simp only
    cases C.known (C.src t) with
    | none => rfl
    | some v =>
      simp only
      rw [Nat.shiftLeft_eq, Nat.mul_comm]
  · rw [h0]
    unfold directive
    simp only
    rw [if_pos trivial]
    have hn : expr C 2 rest = .ok (none, rest) := by
      rcases he.cases with rfl | ⟨xs, rfl⟩ <;> rfl
    rw [hn, ok_bind]

end Verif.Cpu.M6809
