import Verif.Cpu.Z80.Props

/-!
# C57: lines that the assembler gets wrong
-/

namespace Verif.Cpu.Z80

open Verif.Parse (Tok Toks Tree)
open Verif.Expr (Src FMath ASym Den Rng BinOp I32 u32 toI32 meaning wrap value_bin)
open Verif.Cpu.X65 (ok_bind EndOfLine bytesAt le)

/-- The options of the Z80 that allow everything. -/
def all80 : Opts := ⟨.z80, true, true⟩

/-- What is put out for a line, if the handlers do it. -/
theorem assembled {C : Ctx} {o : Opts} {m : Mn} {xs : List Opnd} (hl : xs.length ≤ 2) (hg : ∀ x ∈ xs, x.Good) {rest : Toks}
    (he : EndOfLine rest) {cs : List Call} {is : List Item}
    (hp : ∀ F, F.num = (names C m xs).1.bind C.known → plan o F m (opvs xs) = .ok cs)
    (hi : items (names C m xs).1 (names C m xs).2 cs = .ok is) :
    instr C o (m.tok :: (line xs ++ rest)) = .ok (some (is, rest)) := by
  refine (instr_plan C o m xs hl hg he is).2 ?_
  rw [hp _ rfl, ok_bind, hi]

theorem good_regs (x y : Rg) : ∀ z ∈ [Opnd.reg x, .reg y], z.Good := by
  intro z hz
  simp only [List.mem_cons, List.not_mem_nil, or_false] at hz
  rcases hz with rfl | rfl <;> trivial

theorem good_two {x y : Opnd} (hx : x.Good) (hy : y.Good) : ∀ z ∈ [x, y], z.Good := by
  intro z hz
  simp only [List.mem_cons, List.not_mem_nil, or_false] at hz
  rcases hz with rfl | rfl <;> assumption

theorem good_one {x : Opnd} (hx : x.Good) : ∀ z ∈ [x], z.Good := by
  intro z hz
  rw [List.mem_singleton.1 hz]
  exact hx

/-- **C57, negation.** There are no instructions that load half an index register from `H` or `L` or the other way round,
because with the prefix these are halves themselves. `LD H,IXH` is assembled nevertheless, to what the processor reads as
`LD IXH,IXH`. The same is true for `(HL)`: there, what is put out is only the beginning of an instruction. -/
theorem C57_halves (C : Ctx) {rest : Toks} (he : EndOfLine rest) :
    instr C all80 (Mn.ld.tok :: (line [.reg .h, .reg .ixh] ++ rest)) = .ok (some ([.const 1 0xDD, .const 1 0x64], rest)) ∧
    instr C all80 (Mn.ld.tok :: (line [.reg .iyl, .reg .h] ++ rest)) = .ok (some ([.const 1 0xFD, .const 1 0x6C], rest)) ∧
    instr C all80 (Mn.ld.tok :: (line [.reg .ixh, .reg .hlInd] ++ rest)) = .ok (some ([.const 1 0xDD, .const 1 0x66], rest)) ∧
    decode .z80 0 [0xDD, 0x64] = some (.ld (.half .ix true) (.half .ix true), []) ∧
    decode .z80 0 [0xFD, 0x6C] = some (.ld (.half .iy false) (.half .iy true), []) ∧
    decode .z80 0 [0xDD, 0x66, 5] = some (.ld (.reg .h) (.idx .ix 5), []) ∧
    sem .z80 F0 .ld [.reg .h, .reg .ixh] = some [.ld (.reg .h) (.half .ix true)] ∧
    legal all80 [.ld (.reg .h) (.half .ix true)] = false := by
  refine ⟨?_, ?_, ?_, by decide +kernel⟩
  all_goals exact assembled (by simp) (good_regs _ _) he (fun _ _ => rfl) rfl

/-- What `LD` does with operands that are not addresses does not depend on what is known of them. -/
theorem ld_same (o : Opts) (F : Facts) {x y : Opv} (hx : x.isInd = false) (hy : y.isInd = false) :
    plan o F .ld [x, y] = plan o F0 .ld [x, y] := by
  have hd : dispatch o F Mn.ld.entry x.am y.am = dispatch o F0 Mn.ld.entry x.am y.am := by
    unfold dispatch
    rw [show Mn.ld.entry.handler.run o F Mn.ld.entry x.am y.am = handleLd o F 2 x.am y.am from rfl,
      show Mn.ld.entry.handler.run o F0 Mn.ld.entry x.am y.am = handleLd o F0 2 x.am y.am from rfl,
      handleLd_congr o F F0 2 x.am y.am (isInd_am F F0 x hx) (isInd_am F F0 y hy)]
  unfold plan
  simp only [hd]

/-- **C57, negation.** `LD (IX+d),(HL)` and `LD (HL),(IX+d)` are assembled to `HALT` with a prefix, and the displacement. -/
theorem C57_memory (C : Ctx) (o : Opts) (ho : o.cpu = .z80) (t : Tree) (ht : Readable 1 t) (hs : Sign t) {rest : Toks} (he : EndOfLine rest) :
    instr C o (Mn.ld.tok :: (line [.idx .ix false (some t), .reg .hlInd] ++ rest)) =
      .ok (some ([.const 1 0xDD, .const 1 0x76, .expr 1 (signed (C.src t))], rest)) ∧
    instr C o (Mn.ld.tok :: (line [.reg .hlInd, .idx .iy false (some t)] ++ rest)) =
      .ok (some ([.const 1 0xFD, .const 1 0x76, .expr 1 (signed (C.src t))], rest)) ∧
    decode .z80 0 [0x76] = some (.imp .halt, []) := by
  obtain ⟨c, s, u⟩ := o
  cases ho
  refine ⟨?_, ?_, by decide +kernel⟩
  · exact assembled (by simp) (good_two (x := .idx .ix false (some t)) (y := .reg .hlInd) ⟨ht, hs⟩ trivial) he (cs := [.const 0xDD, .const 0x76, .plain .a])
      (fun F _ => (ld_same _ F (rfl : (Opv.idx .ix (some .a)).isInd = false) (rfl : (Opv.reg .hlInd).isInd = false)).trans (by cases s <;> cases u <;> decide +kernel)) rfl
  · exact assembled (by simp) (good_two (x := .reg .hlInd) (y := .idx .iy false (some t)) trivial ⟨ht, hs⟩) he (cs := [.const 0xFD, .const 0x76, .plain .b])
      (fun F _ => (ld_same _ F (rfl : (Opv.reg .hlInd).isInd = false) (rfl : (Opv.idx .iy (some .b)).isInd = false)).trans (by cases s <;> cases u <;> decide +kernel)) rfl

/-- **C57, negation.** The Game Boy has no index registers, but `INC (IX+d)`, `DEC (IX+d)`, `RLC (IX+d)` and so on are
assembled for it. -/
theorem C57_gameboy (C : Ctx) (o : Opts) (ho : o.cpu = .gb) (t : Tree) (ht : Readable 1 t) (hs : Sign t) {rest : Toks} (he : EndOfLine rest) :
    instr C o (Mn.inc.tok :: (line [.idx .ix false (some t)] ++ rest)) =
      .ok (some ([.const 1 0xDD, .const 1 0x34, .expr 1 (signed (C.src t))], rest)) ∧
    instr C o (Mn.rlc.tok :: (line [.idx .iy false (some t)] ++ rest)) =
      .ok (some ([.const 1 0xFD, .const 1 0xCB, .expr 1 (signed (C.src t)), .const 1 0x06], rest)) ∧
    (∀ e, legal o [.inc (.idx .ix e)] = false) ∧ (∀ e, legal o [.rot .rlc (.idx .iy e)] = false) ∧
    decode .gb 0 [0xDD, 0x34, 5] = none := by
  obtain ⟨c, s, u⟩ := o
  cases ho
  refine ⟨?_, ?_, fun e => ?_, fun e => ?_, by decide +kernel⟩
  · exact assembled (by simp) (good_one (x := .idx .ix false (some t)) ⟨ht, hs⟩) he (cs := [.const 0xDD, .const 0x34, .plain .a])
      (fun F _ => (plan_facts _ F .inc [.idx .ix (some .a)] rfl).trans (by cases s <;> cases u <;> decide +kernel)) rfl
  · exact assembled (by simp) (good_one (x := .idx .iy false (some t)) ⟨ht, hs⟩) he
      (cs := [.const 0xFD, .const 0xCB, .plain .a, .const 0x06])
      (fun F _ => (plan_facts _ F .rlc [.idx .iy (some .a)] rfl).trans (by cases s <;> cases u <;> decide +kernel)) rfl
  · cases s <;> cases u <;> rfl
  · cases s <;> cases u <;> rfl

/-- **C57, negation.** Without a displacement, `RLC (IX)` is assembled with the register of an addressing mode that has none:
the variable has no value. `INC (IX)` is right. -/
theorem C57_no_displacement (C : Ctx) :
    instr C z80 [Mn.rlc.tok, .lp, .other Rg.ix.num, .rp] = .ub ∧
    instr C z80 [Mn.inc.tok, .lp, .other Rg.ix.num, .rp] = .ok (some ([.const 1 0xDD, .const 1 0x34, .const 1 0], [])) ∧
    sem .z80 F0 .rlc [.idx .ix none] = some [.rot .rlc (.idx .ix .zero)] ∧ legal z80 [.rot .rlc (.idx .ix .zero)] = true :=
  ⟨rfl, rfl, by decide +kernel⟩

/-- **C57, negation.** `SLA SP` has no meaning; it is assembled to `SET 7,A`. -/
theorem C57_shift_sp (C : Ctx) {rest : Toks} (he : EndOfLine rest) :
    instr C all80 (Mn.sla.tok :: (line [.reg .sp] ++ rest)) = .ok (some ([.const 1 0xCB, .const 1 0xFF], rest)) ∧
    sem .z80 F0 .sla [.reg .sp] = none ∧ decode .z80 0 [0xCB, 0xFF] = some (.bit .set 7 (.reg .a), []) := by
  refine ⟨?_, by decide +kernel⟩
  exact assembled (by simp) (good_one (x := .reg .sp) trivial) he (fun _ _ => rfl) rfl

/-- **C57, negation.** `DEC IXH` is refused, `INC IXH` is not. -/
theorem C57_dec_half (C : Ctx) (o : Opts) {rest : Toks} (he : EndOfLine rest) :
    (∀ its, instr C o (Mn.dec.tok :: (line [.reg .ixh] ++ rest)) ≠ .ok (some (its, rest))) ∧
    instr C all80 (Mn.inc.tok :: (line [.reg .ixh] ++ rest)) = .ok (some ([.const 1 0xDD, .const 1 0x24], rest)) ∧
    sem .z80 F0 .dec [.reg .ixh] = some [.dec (.half .ix true)] ∧ legal all80 [.dec (.half .ix true)] = true := by
  refine ⟨fun its h => ?_, ?_, by decide +kernel⟩
  · have h := (instr_plan C o .dec [.reg .ixh] (by simp) (good_one (x := .reg .ixh) trivial) he its).1 h
    have hp : ∀ F, plan o F .dec (opvs [.reg .ixh]) = .fail := by
      intro F
      rw [plan_facts _ F _ _ rfl]
      obtain ⟨c, s, u⟩ := o
      cases c <;> cases s <;> cases u <;> decide +kernel
    rw [hp] at h
    cases h
  · exact assembled (by simp) (good_one (x := .reg .ixh) trivial) he (fun _ _ => rfl) rfl

/-- **C57, negation.** On the Game Boy, the displacement of `ADD SP,n` is a signed byte, but numbers to 255 are accepted, which
the processor takes for negative ones: `ADD SP,200` is `ADD SP,-56`. -/
theorem C57_add_sp (C : Ctx) (o : Opts) (ho : o.cpu = .gb) (t : Tree) (ht : Readable 2 t) (hp : enclosed t = false) {rest : Toks}
    (he : EndOfLine rest) :
    instr C o (Mn.add.tok :: (line [.reg .sp, .expr t] ++ rest)) =
      .ok (some ([.const 1 0xE8, .expr 1 (checkRange (C.src t) (-128) 255)], rest)) ∧
    decode .gb 0 [0xE8, 200] = some (.addSp (-56), []) := by
  obtain ⟨c, s, u⟩ := o
  cases ho
  refine ⟨?_, by decide +kernel⟩
  have hpt : paren t = false := by
    cases t <;> first | rfl | cases hp
  refine assembled (by simp) (good_two (x := .reg .sp) (y := .expr t) trivial ⟨ht, fun h => ?_⟩) he
    (cs := [.const 0xE8, .su8 .b]) (fun F _ => ?_) rfl
  · rw [hp] at h; cases h
  · simp only [opvs, List.map_cons, List.map_nil, Opnd.opv, hpt]
    rw [plan_facts _ F _ _ rfl]
    cases s <;> cases u <;> decide +kernel

/-- **C57, negation.** `OUT (BC),n` is accepted and reads a register that the operand does not have. -/
theorem C57_out_bc : instr C0 z80 [Mn.out.tok, .other Rg.bcInd.num, .comma, .num 1] = .ub ∧
    ∀ F, sem .z80 F .out [.reg .bcInd, .imm .b] = none := ⟨by decide +kernel, fun _ => rfl⟩

/-- **C57, negation.** A `+` does not keep parentheses from meaning an address: `LD A,+(5)` loads what is at 5. -/
theorem C57_plus (C : Ctx) : instr C z80 [Mn.ld.tok, .other Rg.a.num, .comma, .op .add, .lp, .num 5, .rp] =
    instr C z80 [Mn.ld.tok, .other Rg.a.num, .comma, .lp, .num 5, .rp] := rfl

end Verif.Cpu.Z80
