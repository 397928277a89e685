import Verif.Cpu.M6809.Refuse
/-!
# C60: what the assembler gets wrong for the 6809

Lines that are accepted and become other instructions than the ones that are written, lines of the processor that are
refused, and examples.
-/
set_option linter.constructorNameAsVariable false

namespace Verif.Cpu.M6809

open Verif.Parse (Tok Toks Tree)
open Verif.Expr (Src FMath ASym Den BinOp I32 u32 toI32 wrap)
open Verif.Cpu.X65 (EndOfLine ok_bind value_pc front)
open Verif.Cpu.Z80 (C0 readable_num readable_neg)

variable {C : Ctx} {dp : Option Nat} {m : Mn} {x : Opnd} {rest toks : Toks}

/-! ### Offsets of 8 and 16 bits -/

/-- The offset has bytes of its own. -/
def Long (C : Ctx) (i : Bool) (f : Force) (t : Tree) : Prop :=
  f ≠ .no ∨ ∃ v, C.known (C.src t) = some v ∧ -32768 ≤ v ∧ v ≤ 32767 ∧ (i = true ∨ v < -16 ∨ 15 < v)

theorem offset_x {A : Nat} {f : Force} {t : Tree} {i : Bool} (hl : Long C i f t) (h8 : has A M.r8 = true) (h16 : has A M.r16 = true)
    (h5 : i = true → has A M.r5 = false) {r : R} (hr : r.isIndex = true) :
    ∃ am, offsetMode C A (decide (f = .gt)) (decide (f = .lt)) (some (C.src t)) r.num = some am ∧
      offsetMode C A (decide (f = .gt)) (decide (f = .lt)) (some (C.src t)) R.x.num = some am := by
  have hx : indexReg R.x.num = some R.x.bits := indexReg_num rfl
  have hr' := indexReg_num hr
  rcases hl with hf | ⟨v, hv, hlo, hhi, hv'⟩
  · cases f with
    | no => exact absurd rfl hf
    | lt => exact ⟨⟨M.r8, some 0x88, some (C.src t)⟩, by simp [offsetMode, hr', h8], by simp [offsetMode, hx, h8]⟩
    | gt => exact ⟨⟨M.r16, some 0x89, some (C.src t)⟩, by simp [offsetMode, hr', h16], by simp [offsetMode, hx, h16]⟩
  · cases f with
    | lt => exact ⟨⟨M.r8, some 0x88, some (C.src t)⟩, by simp [offsetMode, hr', h8], by simp [offsetMode, hx, h8]⟩
    | gt => exact ⟨⟨M.r16, some 0x89, some (C.src t)⟩, by simp [offsetMode, hr', h16], by simp [offsetMode, hx, h16]⟩
    | no =>
      by_cases h : -16 ≤ v ∧ v ≤ 15
      · have hi : i = true := hv'.resolve_right (by omega)
        have hw : width v = some .w5 := by unfold width; rw [if_pos h]
        exact ⟨⟨M.r8, some 0x88, some (C.src t)⟩, by simp [offsetMode, hr', hv, hw, h5 hi, h8],
          by simp [offsetMode, hx, hv, hw, h5 hi, h8]⟩
      · by_cases h' : -128 ≤ v ∧ v ≤ 127
        · have hw : width v = some .w8 := by unfold width; rw [if_neg h, if_pos h']
          exact ⟨⟨M.r8, some 0x88, some (C.src t)⟩, by simp [offsetMode, hr', hv, hw, h8], by simp [offsetMode, hx, hv, hw, h8]⟩
        · have hw : width v = some .w16 := by unfold width; rw [if_neg h, if_neg h', if_pos ⟨hlo, hhi⟩]
          exact ⟨⟨M.r16, some 0x89, some (C.src t)⟩, by simp [offsetMode, hr', hv, hw, h16], by simp [offsetMode, hx, hv, hw, h16]⟩

/-- **C60, negation.** Offsets with bytes of their own are always taken from `X`: the assembler does the same for every register
(xasm/6809/m6809_parse_addrmode.c 255-266). -/
theorem C60_not_index {f : Force} {t : Tree} {i : Bool} {r : R} (hr : Readable 2 t) (hi : r.isIndex = true) (hl : Long C i f t)
    (h : takes m .idx = true) : instr C dp (m.tok :: ((Opnd.off i f t r).toks ++ rest)) = instr C dp (m.tok :: ((Opnd.off i f t .x).toks ++ rest)) := by
  obtain ⟨bs, hc⟩ := takes_code h
  have ha : m.entry.allowed = M.p ∨ m.entry.allowed = M.q ∨ m.entry.allowed = M.t := by simpa [Fmt.allowed] using (fmt_ok hc (by decide)).1
  have hA : has m.entry.allowed (M.listS ||| M.listU) = false ∧ has m.entry.allowed (M.r5 ||| M.r8 ||| M.r16 ||| M.pc8 ||| M.pc16) = true ∧
      has m.entry.allowed M.r8 = true ∧ has m.entry.allowed M.r16 = true ∧ has m.entry.allowed M.ind = true := by
    rcases ha with ha | ha | ha <;> rw [ha] <;> decide
  have hp : r ≠ .pcr := by rintro rfl; cases hi
  unfold instr
  rw [integer_handle, integer_handle]
  suffices hs : addrMode C m.entry.allowed ((Opnd.off i f t r).toks ++ rest) = addrMode C m.entry.allowed ((Opnd.off i f t .x).toks ++ rest) by
    unfold handle
    rw [hs]
  cases i with
  | false =>
    obtain ⟨am, h1, h2⟩ := offset_x (A := m.entry.allowed) hl hA.2.2.1 hA.2.2.2.1 (fun h => (nomatch h)) hi
    have hread (r' : R) (hp : r' ≠ .pcr) (ho : offsetMode C m.entry.allowed (decide (f = .gt)) (decide (f = .lt)) (some (C.src t)) r'.num = some am) :
        addrMode C m.entry.allowed ((Opnd.off false f t r').toks ++ rest) = .ok (am, rest) := by
      have htoks : (Opnd.off false f t r').toks ++ rest = f.toks ++ (t.toks ++ .comma :: r'.tok :: rest) := by simp [Opnd.toks, brackets]
      obtain ⟨y, hy, _, hno⟩ := force_front f t (.comma :: r'.tok :: rest)
      rw [htoks, read_plain (Or.inl (by rw [hy]; intro h; exact hno _ (Option.some.inj h))) (Or.inl (by rw [hy]; intro h; exact hno _ (Option.some.inj h))),
        core_off hA.1 hA.2.1 hr hp, ho]
    rw [hread r hp h1, hread .x (by decide) h2]
  | true =>
    obtain ⟨am, h1, h2⟩ := offset_x (A := M.indirect) hl (by decide) (by decide) (fun _ => by decide) hi
    have hread (r' : R) (hp : r' ≠ .pcr) (ho : offsetMode C M.indirect (decide (f = .gt)) (decide (f = .lt)) (some (C.src t)) r'.num = some am) :
        addrMode C m.entry.allowed ((Opnd.off true f t r').toks ++ rest) = (bracketed am).bind fun am => .ok (am, rest) := by
      show addrMode C m.entry.allowed (.other 91 :: (_ ++ [.other 93]) ++ rest) = _
      refine read_brackets hA.2.2.2.2 ?_
      have htoks : f.toks ++ t.toks ++ [.comma, r'.tok] ++ .other 93 :: rest = f.toks ++ (t.toks ++ .comma :: r'.tok :: .other 93 :: rest) := by simp
      rw [htoks, core_off (by decide) (by decide) hr hp, ho]
    rw [hread r hp h1, hread .x (by decide) h2]

/-- So the offset of 16 from `Y` is one from `X`. -/
theorem C60_not_index_here (m : Mn) (h : takes m .idx = true) : ∃ done items,
    instr C0 dp (m.tok :: [.num 16, .comma, R.y.tok]) = .ok ⟨done, items, dp, []⟩ ∧
    ∀ fm now ρ, C0.Sound fm wrap now ρ → 0 ≤ ρ.pc → ρ.pc < 16777216 →
      ((bytesAt fm now ρ items).bind (decode ρ.pc)).map (Ins.at dp) = some ⟨.mn m, .mem false (.off .x 16)⟩ := by
  have hs := C60_not_index (C := C0) (dp := dp) (m := m) (rest := []) (f := .no) (t := .num 16) (i := false) (r := .y) (readable_num 2 16) rfl
    (Or.inr ⟨16, rfl, by decide, by decide, Or.inr (Or.inr (by decide))⟩) h
  obtain ⟨done, items, h1, h2⟩ := C60_encode (C := C0) (dp := dp) (m := m) (rest := []) (x := .off false .no (.num 16) .x)
    ⟨fun t ht => (by injection ht with ht; subst ht; exact readable_num 2 16), rfl⟩ (by simpa [Opnd.legal] using h)
    ⟨16, rfl, by decide, by decide, Or.inl rfl⟩ (fun _ h => (nomatch h))
  refine ⟨done, items, hs.trans h1, fun fm now ρ hS h0 hp => ?_⟩
  rw [h2 fm now ρ hS h0 hp fun v _ => trivial]
  simp only [meaning]
  rw [if_pos h]
  rfl

/-! ### Distances -/

/-- **C60, negation.** Distances from 128 to 255 are accepted in the short branches, which then go 256 bytes too low
(xasm/6809/m6809_parse_instr.c 44-47, 162-167). -/
theorem C60_not_near {f : Force} {t : Tree} (hr : Readable 2 t) (h : takes m .rel8 = true) (he : EndOfLine rest) :
    ∃ done items, instr C dp (m.tok :: ((Opnd.addr false f t).toks ++ rest)) = .ok ⟨done, items, dp, rest⟩ ∧
      ∀ fm now ρ v, 0 ≤ ρ.pc → ρ.pc < 16777216 → (C.src t).value fm wrap now ρ = some v →
        128 ≤ v - next m .rel8 ρ.pc 1 → v - next m .rel8 ρ.pc 1 ≤ 255 →
        (bytesAt fm now ρ items).bind (decode ρ.pc) = some ⟨.mn m, .target (a16 (v - 256))⟩ := by
  obtain ⟨bs, hc⟩ := takes_code h
  have ha : m.entry.allowed = M.address := by simpa [Fmt.allowed] using (fmt_ok hc (by decide)).1
  obtain ⟨_, hh, hrun⟩ := fmt_ok hc (by decide)
  obtain ⟨k, hres, hm⟩ := resolve_branch (C := C) (dp := dp) (C.src t)
  have hl := code_bytes hc
  have hrun : (m.entry.handler.run m.entry.base k).2 = bs.map .const ++ [.rel8] := by
    rcases hm with rfl | rfl
    · exact hrun (M.extended, [.rel8]) (by decide)
    · exact hrun (M.direct, [.rel8]) (by decide)
  refine ⟨(m.entry.handler.run m.entry.base k).1, bs.map (.const 1) ++ [.expr 1 (checkRange (.pcRel (-1) (C.src t)) (-128) 255)], instr_of ?_ he, ?_⟩
  · unfold handle
    rw [ha]
    show Outcome.bind (addrMode C M.address (f.toks ++ t.toks ++ rest)) _ = _
    rw [read_branch f hr he, ok_bind]
    simp only
    rw [hres, if_neg hh]
    simp only
    rw [hrun, emit_consts _ bs (cs := [.rel8]) rfl, ok_bind]
  · intro fm now ρ v h0 h1 hv hlo hhi
    rw [next_eq hc] at hlo hhi
    have hf : fit8 (v - (ρ.pc + bs.length + 1)) = some (v - (ρ.pc + bs.length + 1)).toNat := by
      unfold fit8
      rw [if_pos (by omega)]
      exact congrArg some (by omega)
    rw [bytes_consts fm now bs ρ hl.2, bytes_rel8 _ _ _ _ (by show 0 ≤ ρ.pc + _; omega) (by show ρ.pc + _ < _; omega), value_pc, hv, Option.bind_some]
    show Option.bind (Option.map _ (Option.map _ (fit8 (v - (ρ.pc + bs.length + 1))))) _ = _
    rw [hf]
    simp only [Option.map_some, Option.bind_some]
    unfold decode
    rw [isCode_opcode (code_isCode hc), Option.bind_some]
    simp only [operand, Option.map_some]
    congr 3
    simp only [List.length_append, List.length_cons, List.length_nil]
    unfold a16 s8
    split <;> omega

/-! ### Offsets that are not read -/

/-- **C60, negation.** An offset that is not known when it is read, or that does not fit, is not read without `<` or `>`: the
register is left and the line is refused, although the processor has the instruction and 16 bits would do for every number. -/
theorem C60_not_unknown {t : Tree} {r : R} (hr : Readable 2 t) (hi : r.isIndex = true) (h : takes m .idx = true)
    (hk : ∀ v, C.known (C.src t) = some v → v < -32768 ∨ 32767 < v) (he : EndOfLine rest) :
    Refused C dp m ((Opnd.off false .no t r).toks ++ rest) := by
  obtain ⟨bs, hc⟩ := takes_code h
  obtain ⟨ha, hh, _⟩ := fmt_ok hc (by decide)
  have ha : m.entry.allowed = M.p ∨ m.entry.allowed = M.q ∨ m.entry.allowed = M.t := by simpa [Fmt.allowed] using ha
  refine refused_of hh ?_
  have hA : has m.entry.allowed (M.listS ||| M.listU) = false ∧ has m.entry.allowed (M.r5 ||| M.r8 ||| M.r16 ||| M.pc8 ||| M.pc16) = true ∧
      has m.entry.allowed M.none = false := by
    rcases ha with ha | ha | ha <;> rw [ha] <;> decide
  have htoks : (Opnd.off false .no t r).toks ++ rest = Force.no.toks ++ (t.toks ++ .comma :: r.tok :: rest) := by simp [Opnd.toks, brackets]
  obtain ⟨y, hy, _, hno⟩ := force_front .no t (.comma :: r.tok :: rest)
  have hw : (C.known (C.src t)).bind width = none := by
    cases hv : C.known (C.src t) with
    | none => rfl
    | some v =>
      have := hk v hv
      show width v = none
      unfold width
      rw [if_neg (by omega), if_neg (by omega), if_neg (by omega)]
  rw [htoks, read_plain (Or.inl (by rw [hy]; intro h; exact hno _ (Option.some.inj h))) (Or.inl (by rw [hy]; intro h; exact hno _ (Option.some.inj h))),
    core_off hA.1 hA.2.1 hr (by rintro rfl; cases hi)]
  have ho : offsetMode C m.entry.allowed (decide (Force.no = .gt)) (decide (Force.no = .lt)) (some (C.src t)) r.num = none := by
    simp [offsetMode, indexReg_num hi, hw]
  rw [ho]
  simp only
  unfold plainMode
  rw [if_neg (by simp), if_neg (by simp)]
  split
  · exact bad_ok ⟨_, _, rfl, (reg_first r).1, (reg_first r).2⟩
  · rw [if_neg (by rw [hA.2.2]; decide)]; exact bad_fail

/-! ### `#` where it does not belong -/

/-- **C60, negation.** `ROL #n` and `ROR #n` are accepted, and nothing is put out (xasm/6809/m6809_parse_instr.c 73-93, 356, 359). The lists of
registers take `#n` too; the byte behind the opcode is then one that was never set (m6809_parse_instr.c 237-242, 351-354). -/
theorem C60_not_hash {t : Tree} (hr : Readable 2 t) (he : EndOfLine rest) :
    (∀ m ∈ [Mn.rol, .ror], instr C dp (m.tok :: (.other 35 :: t.toks ++ rest)) = .ok ⟨false, [], dp, rest⟩) ∧
    ∀ m ∈ [Mn.pshs, .puls, .pshu, .pulu], instr C dp (m.tok :: (.other 35 :: t.toks ++ rest)) = .ub := by
  have hread (A : Nat) (hi : has A M.imm = true) := read_imm (C := C) hi hr he.ends
  constructor
  · intro m hm
    refine instr_of ?_ he
    have ha : has m.entry.allowed M.imm = true ∧ m.entry.handler = .q := by
      rcases (by simpa using hm : m = .rol ∨ m = .ror) with rfl | rfl <;> decide
    unfold handle
    rw [hread _ ha.1, ok_bind, ha.2]
    simp only
    rw [resolve_other _ _ (by decide), if_neg (by decide), show Handler.run m.entry.base M.imm .q = (false, []) from by
      rcases (by simpa using hm : m = .rol ∨ m = .ror) with rfl | rfl <;> decide]
    rfl
  · intro m hm
    have ha : has m.entry.allowed M.imm = true ∧ m.entry.handler = .stack := by
      rcases (by simpa using hm : m = .pshs ∨ m = .puls ∨ m = .pshu ∨ m = .pulu) with rfl | rfl | rfl | rfl <;> decide
    unfold instr
    rw [integer_handle]
    unfold handle
    rw [hread _ ha.1, ok_bind, ha.2]
    rfl

/-! ### Smaller things -/

/-- **C60, negation.** The words `LSRA` and `LSRB` are missing; `DP`, `CC` and `PC` are not words for the registers; `D` is not taken in
lists. -/
theorem C60_not_words : (∀ w ∈ ["LSRA", "LSRB", "DP", "CC", "PC"], words.all (fun e => e.1 != w) = true) ∧
    (words.any fun e => e.1 == "LSR") = true ∧
    ∀ m ∈ [Mn.pshs, .puls, .pshu, .pulu], ∀ (C : Ctx) dp, ∃ items, instr C dp [m.tok, R.d.tok] = .ok ⟨true, items, dp, [R.d.tok]⟩ := by
  refine ⟨by decide +kernel, by decide +kernel, fun m hm C dp => ?_⟩
  rcases (by simpa using hm : m = .pshs ∨ m = .puls ∨ m = .pshu ∨ m = .pulu) with rfl | rfl | rfl | rfl
  · exact ⟨[.const 1 0x34, .const 1 0], rfl⟩
  · exact ⟨[.const 1 0x35, .const 1 0], rfl⟩
  · exact ⟨[.const 1 0x36, .const 1 0], rfl⟩
  · exact ⟨[.const 1 0x37, .const 1 0], rfl⟩

/-- **C60, negation.** A comma at the end of an address or of a list is passed over. -/
theorem C60_not_comma (he : EndOfLine rest) {t : Tree} (hr : Readable 2 t) :
    instr C dp (Mn.lda.tok :: (t.toks ++ .comma :: rest)) = instr C dp (Mn.lda.tok :: (t.toks ++ rest)) ∧
    instr C dp (Mn.pshs.tok :: R.a.tok :: .comma :: rest) = instr C dp (Mn.pshs.tok :: R.a.tok :: rest) := by
  have hread : addrMode C M.p (t.toks ++ .comma :: rest) = addrMode C M.p (t.toks ++ rest) := by
    have hp (ys : Toks) : addrMode C M.p (t.toks ++ ys) = memMode C M.p (Force.no.toks ++ (t.toks ++ ys)) := by
      obtain ⟨y, hy, hc, hno⟩ := force_front .no t ys
      have hy' : (t.toks ++ ys).head? = some y := hy
      rw [read_plain (Or.inl (by rw [hy']; intro h; exact hno _ (Option.some.inj h))) (Or.inl (by rw [hy']; intro h; exact hno _ (Option.some.inj h))),
        core_mem (by decide) hy' hc hno]
      rfl
    have hq (start : Toks) : plainMode M.p false false (some (C.src t)) rest start = .ok (⟨M.address, none, some (C.src t)⟩, rest) := rfl
    rw [hp, hp]
    unfold memMode
    rw [mem_reads hr (Ends.comma _), ok_bind, prefix_reads, mem_reads hr he.ends, ok_bind, prefix_reads]
    simp only
    rw [if_pos (by decide), if_pos (by decide)]
    rcases he.cases with rfl | ⟨xs, rfl⟩ <;> rfl
  constructor
  · unfold instr
    rw [integer_handle, integer_handle]
    unfold handle
    rw [show Mn.lda.entry.allowed = M.p from rfl, hread]
  · have hl : regList (M.imm ||| M.listU) 0 (R.a.tok :: .comma :: rest) = regList (M.imm ||| M.listU) 0 (R.a.tok :: rest) := by
      have h1 : listBit (M.imm ||| M.listU) R.a.num = .ok 2 := by decide
      have h2 := regList_reads (A := M.imm ||| M.listU) [.a] 0 (After.eol he) (by decide)
      have h3 : regList (M.imm ||| M.listU) 0 (R.a.tok :: rest) = _ := h2
      rw [h3]
      unfold R.tok
      rw [regList, h1, ok_bind, if_neg (by decide)]
      simp only
      rw [regList_after _ (After.eol he)]
      rfl
    unfold instr
    rw [integer_handle, integer_handle]
    unfold handle
    have hc (ys : Toks) : addrMode C Mn.pshs.entry.allowed (R.a.tok :: ys) =
        (regList (M.imm ||| M.listU) 0 (R.a.tok :: ys)).bind fun (bits, rest) => .ok (⟨M.listU, some bits, none⟩, rest) := rfl
    rw [hc, hc, hl]

/-! ### Examples: the bytes of test/6809/test.bin -/

/-- Numbers are their own values, at address 0. -/
def lineBytes (dp : Option Nat) (toks : Toks) : Option (List Nat) :=
  match instr C0 dp toks with
  | .ok r => if r.rest = [] then r.items.foldr (fun i bs => match i with
      | .const n v => bs.map (be n v ++ ·)
      | .expr .. => none) (some []) else none
  | _ => none

example : ([
    ([Mn.abx.tok], [0x3A]), ([Mn.adca.tok, .comma, R.x.tok, .op .add], [0xA9, 0x80]),
    ([Mn.adca.tok, .comma, R.s.tok, .op .add, .op .add], [0xA9, 0xE1]),
    ([Mn.adca.tok, .other 91, .comma, R.s.tok, .op .add, .op .add, .other 93], [0xA9, 0xF1]),
    ([Mn.adca.tok, .comma, .op .sub, R.u.tok], [0xA9, 0xC2]), ([Mn.adca.tok, R.a.tok, .comma, R.s.tok], [0xA9, 0xE6]),
    ([Mn.adca.tok, R.d.tok, .comma, R.x.tok], [0xA9, 0x8B]),
    ([Mn.adca.tok, .other 91, R.d.tok, .comma, R.x.tok, .other 93], [0xA9, 0x9B]),
    ([Mn.adca.tok, .num 2, .comma, R.y.tok], [0xA9, 0x22]),
    ([Mn.exg.tok, R.a.tok, .comma, R.b.tok], [0x1E, 0x89]), ([Mn.exg.tok, R.d.tok, .comma, R.u.tok], [0x1E, 0x03]),
    ([Mn.pshu.tok, R.b.tok, .comma, R.x.tok, .comma, R.s.tok], [0x36, 0x54]),
    ([Mn.puls.tok, R.b.tok, .comma, R.y.tok, .comma, R.u.tok], [0x35, 0x64]),
    ([Mn.tfr.tok, R.a.tok, .comma, R.ccr.tok], [0x1F, 0x8A]), ([Mn.tfr.tok, R.pcr.tok, .comma, R.x.tok], [0x1F, 0x51]),
    ([Mn.swi2.tok], [0x10, 0x3F])] : List (Toks × List Nat)).all (fun e => lineBytes none e.1 == some e.2) = true := by decide +kernel

example : instr C0 none [Mn.adca.tok, .other 35, .num 12] = .ok ⟨true, [.const 1 0x89, .expr 1 (checkRange (.num 12) (-128) 255)], none, []⟩ ∧
    instr C0 (some 0) [Mn.adca.tok, .num 0x12] = .ok ⟨true, [.const 1 0x99, .expr 1 (checkRange (.bin .and (.num 0x12) (.num 0xFF)) (-128) 255)], some 0, []⟩ ∧
    instr C0 none [Mn.adca.tok, .num 0x12] = .ok ⟨true, [.const 1 0xB9, .expr 2 (checkRange (.num 0x12) (-32768) 65535)], none, []⟩ ∧
    instr C0 none [Mn.adca.tok, .num 0x40, .comma, R.s.tok] =
      .ok ⟨false, [.const 1 0xA9, .const 1 0x88, .expr 1 (checkRange (.num 0x40) (-128) 255)], none, []⟩ ∧
    instr C0 none [Mn.inc.tok, .other 91, .num 5, .comma, R.u.tok, .other 93] =
      .ok ⟨false, [.const 1 0x6C, .const 1 0x98, .expr 1 (checkRange (.num 5) (-128) 255)], none, []⟩ ∧
    instr C0 none [Mn.tfr.tok, R.a.tok, .comma, R.x.tok] = .fail ∧
    instr C0 none [Mn.pshs.tok, R.s.tok] = .fail ∧
    instr C0 none [Mn.sta.tok, .other 35, .num 1] = .fail := by decide +kernel

/-- A line that all the hypotheses of `C60_encode` allow: `ADCA 40,X` is `A9 88 28`. -/
example : ∃ done items, instr C0 none (Mn.adca.tok :: ((Opnd.off false .no (.num 40) .x).toks ++ [])) = .ok ⟨done, items, none, []⟩ ∧
    ∀ fm now ρ, C0.Sound fm wrap now ρ → 0 ≤ ρ.pc → ρ.pc < 16777216 →
      ((bytesAt fm now ρ items).bind (decode ρ.pc)).map (Ins.at none) = some ⟨.mn .adca, .mem false (.off .x 40)⟩ := by
  obtain ⟨done, items, h1, h2⟩ := C60_encode (C := C0) (dp := none) (m := .adca) (rest := []) (x := .off false .no (.num 40) .x)
    ⟨fun t ht => (by injection ht with ht; subst ht; exact readable_num 2 40), rfl⟩ (by decide +kernel)
    ⟨40, rfl, by decide, by decide, Or.inl rfl⟩ (fun _ h => (nomatch h))
  refine ⟨done, items, h1, fun fm now ρ hS h0 hp => ?_⟩
  rw [h2 fm now ρ hS h0 hp fun v _ => trivial]
  simp only [meaning]
  rw [if_pos (by decide +kernel)]
  rfl

/-- A line that `C60_refuse` covers: `TFR A,X`. -/
example : ∀ r, instr C0 none (Mn.tfr.tok :: ((Opnd.pair .a .x).toks ++ [])) = .ok r → ¬ EndOfLine r.rest := by
  refine C60_refuse (good_regs rfl trivial) (fun _ h => (nomatch h)) (fun y hg hy => ?_) (fun ⟨_, h⟩ => (nomatch h))
  have hf : takes .tfr .idx = false ∧ takes .tfr (.list .u) = false ∧ takes .tfr (.list .s) = false := by decide +kernel
  have ht {f : Force} {t : Tree} {i : Bool} (h : brackets i (f.toks ++ t.toks) = [R.a.tok, .comma, R.x.tok]) : False := by
    cases i with
    | true => injection h with h _; exact reg_not 91 (by decide) h.symm
    | false => exact tree_not_reg (f := f) (t := t) (xs := []) (r := .a) (by rw [List.append_nil]; exact h)
  cases y with
  | none => cases hy
  | imm t => injection hy with h _; exact absurd h.symm (reg_not 35 (by decide))
  | addr i f t => exact (ht hy).elim
  | pair a b =>
    injection hy with h1 h; injection h with _ h; injection h with h2 _
    rw [tok_inj h1, tok_inj h2]
    decide +kernel
  | list rs => simp only [Opnd.legal]; rw [hf.2.1, hf.2.2]; rfl
  | inc1 i r | dec1 i r => simp only [Opnd.legal]; rw [hf.1]; rfl
  | _ => exact hf.1

end Verif.Cpu.M6809
