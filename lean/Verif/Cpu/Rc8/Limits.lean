import Verif.Cpu.Rc8.Props
/-!
# C63: where lines of the RC8 are not what they say
-/
set_option linter.constructorNameAsVariable false
set_option maxRecDepth 4000

namespace Verif.Cpu.Rc8

open Verif.Parse (Tok Toks Tree)
open Verif.Expr (Src FMath ASym Den BinOp I32 toI32 wrap)
open Verif.Cpu.X65 (ok_bind EndOfLine bytesAt)

/-- The line becomes these bytes. -/
def Becomes (m : Mn) (os : List Opnd) (bs : List Nat) : Prop :=
  ∀ (C : Ctx) (target : Nat) (rest : Toks), EndOfLine rest →
    instr C target (line m none os ++ rest) = .ok (some ⟨bs.map byte, false, rest⟩)

/-- The line is refused. -/
def Refused (m : Mn) (os : List Opnd) : Prop :=
  ∀ (C : Ctx) (target : Nat) (rest : Toks), EndOfLine rest → instr C target (line m none os ++ rest) = .fail

theorem Becomes.one {m : Mn} {o : Opnd} {a : Am} {bs : List Nat} (ho : o.fixed = some a) (hp : (entry m).pass = false)
    (h1 : has (entry m).first a.mode = true) (h2 : has (entry m).second mNone = true)
    (h3 : ∀ C cc, (entry m).handler.run C (entry m).base cc a noMode = .ok (bs.map byte)) : Becomes m [o] bs := fun C target rest he => by
  have hg : o.Good (maxOf (entry m).first) := by cases o <;> first | trivial | cases ho
  rw [instr_reads C target m none [o] hg ⟨(am_fixed C _ ho).symm ▸ h1, h2⟩ he]
  unfold finish
  rw [show fstAm C (entry m).first [o] = a from am_fixed C _ ho, hp]
  show Outcome.bind ((entry m).handler.run C (entry m).base always a noMode) _ = _
  rw [h3]
  rfl

theorem reads_two {m : Mn} {o q : Opnd} {a b : Am} {r : Outcome (List Item)} (ho : o.fixed = some a) (hq : q.fixed = some b)
    (hp : (entry m).pass = false) (h1 : has (entry m).first a.mode = true) (h2 : has (entry m).second b.mode = true)
    (h3 : ∀ C cc, (entry m).handler.run C (entry m).base cc a b = r) (C : Ctx) (target : Nat) (rest : Toks) (he : EndOfLine rest) :
    instr C target (line m none [o, q] ++ rest) = r.bind fun items => .ok (some ⟨items, false, rest⟩) := by
  have hg : o.Good (maxOf (entry m).first) := by cases o <;> first | trivial | cases ho
  have hg' : q.Good (maxOf (entry m).second) := by cases q <;> first | trivial | cases hq
  rw [instr_reads C target m none [o, q] ⟨hg, hg'⟩ ⟨(am_fixed C _ ho).symm ▸ h1, (am_fixed C _ hq).symm ▸ h2⟩ he]
  unfold finish
  rw [show fstAm C (entry m).first [o, q] = a from am_fixed C _ ho, show sndAm C (entry m).second [o, q] = b from am_fixed C _ hq, hp]
  show Outcome.bind ((entry m).handler.run C (entry m).base always a b) _ = _
  rw [h3]
  rfl

theorem Becomes.two {m : Mn} {o q : Opnd} {a b : Am} {bs : List Nat} (ho : o.fixed = some a) (hq : q.fixed = some b)
    (hp : (entry m).pass = false) (h1 : has (entry m).first a.mode = true) (h2 : has (entry m).second b.mode = true)
    (h3 : ∀ C cc, (entry m).handler.run C (entry m).base cc a b = .ok (bs.map byte)) : Becomes m [o, q] bs :=
  fun C target rest he => by rw [reads_two ho hq hp h1 h2 h3 C target rest he]; rfl

theorem Refused.two {m : Mn} {o q : Opnd} {a b : Am} (ho : o.fixed = some a) (hq : q.fixed = some b)
    (hp : (entry m).pass = false) (h1 : has (entry m).first a.mode = true) (h2 : has (entry m).second b.mode = true)
    (h3 : ∀ C cc, (entry m).handler.run C (entry m).base cc a b = .fail) : Refused m [o, q] :=
  fun C target rest he => by rw [reads_two ho hq hp h1 h2 h3 C target rest he]; rfl

macro "line1" : tactic => `(tactic| exact Becomes.one rfl rfl (by all_rfl) (by all_rfl) (fun _ _ => by all_rfl))
macro "line2" : tactic => `(tactic| exact Becomes.two rfl rfl rfl (by all_rfl) (by all_rfl) (fun _ _ => by all_rfl))

/-- C63, negation: `LIO (DE+),T`, `LIO (-DE),T`, `LIO (DE+),FT` and `LIO (-DE),FT` write through `HL` and move `DE`. -/
theorem C63_lio_writes_through_HL :
    Becomes .lio [.ptr .de .inc, .r8 .t] [0x33, 0xBE, 1] ∧ Becomes .lio [.ptr .de .dec, .r8 .t] [0xBE, 255, 0x33] ∧
    (∃ bs, Becomes .lio [.ptr .de .inc, .r16 .ft] (0x33 :: bs)) ∧ (∃ bs, Becomes .lio [.ptr .de .dec, .r16 .ft] (0x10 :: 0x33 :: bs)) ∧
    (∀ a n, decode a 0x33 n = some (1, .store8 .io .hl .stay .t)) ∧
    form .lio [.ptr .de .inc, .r8 .t] = some (.store8 .io .de .inc .t) := by
  refine ⟨by line2, by line2, ⟨[0xBE, 1, 0x10, 0x33, 0x10], by line2⟩, ⟨[0xBE, 255, 0x10, 0x33], by line2⟩, fun _ _ => rfl, rfl⟩

/-- C63, negation: `LCO FT,(BC)` reads a byte into `T`, and leaves `F`. -/
theorem C63_lco_reads_a_byte (r : R16) : Becomes .lco [.r16 .ft, .ptr r .stay] [0x0C ||| r.n] ∧
    (∀ a n, decode a (0x0C ||| r.n) n = some (1, .load8 .code .t r .stay)) ∧
    (r ≠ .ft → form .lco [.r16 .ft, .ptr r .stay] = some (.load16 .code .ft r .stay)) := by
  cases r <;> exact ⟨by line2, fun _ _ => rfl, fun h => by first | exact absurd rfl h | rfl⟩

/-- C63, negation: `SUB T,T` and `SUB T` negate `T`, and do not make it zero. -/
theorem C63_sub_t_negates : Becomes .sub [.r8 .t, .r8 .t] [0x51] ∧ Becomes .sub [.r8 .t] [0x51] ∧ Becomes .neg [.r8 .t] [0x51] ∧
    (∀ a n, decode a 0x51 n = some (1, .neg8)) ∧ form .sub [.r8 .t] = some (.alu8 .sub .t) ∧
    ∀ cpu next (s : State), s.reg .t = 1 → (act cpu next s (.alu8 .sub .t)).reg .t = 0 ∧ (act cpu next s .neg8).reg .t = 255 := by
  refine ⟨by line2, by line1, by line1, fun _ _ => rfl, rfl, fun cpu next s h => ?_⟩
  simp [act, State.set8, h, Alu.op]

/-- C63, negation: `EXG B,B` exchanges `B` with `T`, and so does `EXG BC,BC` with `FT`; for each of the registers. -/
theorem C63_exg_with_itself :
    (∀ r : R8, r ≠ .t → Becomes .exg [.r8 r, .r8 r] [0x10 ||| r.n, 0x10 ||| r.n, 0x10 ||| r.n] ∧
      ∀ a n, decode a (0x10 ||| r.n) n = some (1, .exg8 .t r)) ∧
    (∀ r : R16, r ≠ .ft → Becomes .exg [.r16 r, .r16 r] [0xC8 ||| r.n, 0xC8 ||| r.n, 0xC8 ||| r.n] ∧
      ∀ a n, decode a (0xC8 ||| r.n) n = some (1, .exg16 .ft r)) := by
  constructor <;> intro r hr <;> cases r <;> first | exact absurd rfl hr | exact ⟨by line2, fun _ _ => rfl⟩

/-- C63, negation: `ADD FT` becomes an opcode that the processor does not have, while `ADD FT,FT` is refused. -/
theorem C63_add_ft : Becomes .add [.r16 .ft] [0xF4] ∧ (∀ a n, decode a 0xF4 n = none) ∧ Refused .add [.r16 .ft, .r16 .ft] :=
  ⟨by line1, fun _ _ => rfl, Refused.two rfl rfl rfl (by all_rfl) (by all_rfl) (fun _ _ => by all_rfl)⟩

/-- C63, negation: `LD (FT+),F` and `LD (-FT),F` contain an opcode that the processor does not have. -/
theorem C63_store_f : Becomes .ld [.ptr .ft .inc, .r8 .f] [0x20, 0xBC, 1] ∧ Becomes .ld [.ptr .ft .dec, .r8 .f] [0xBC, 255, 0x20] ∧
    ∀ a n, decode a 0x20 n = none := ⟨by line2, by line2, fun _ _ => rfl⟩

/-- C63, negation: a word is not read from ports without moving the pointer, though it is read and the pointer moved. -/
theorem C63_lio_word (r : R16) (hr : r ≠ .ft) : Refused .lio [.r16 .ft, .ptr r .stay] ∧
    ∃ bs, Becomes .lio [.r16 .ft, .ptr r .inc] bs := by
  refine ⟨?_, code (.load16 .io .ft r .inc), ?_⟩ <;> cases r <;> first | exact absurd rfl hr | skip
  all_goals first | line2 | exact Refused.two rfl rfl rfl (by all_rfl) (by all_rfl) (fun _ _ => by all_rfl)

/-- C63, negation: `PUSH BC/BC` fails an assertion. -/
theorem C63_push_twice (C : Ctx) (target : Nat) :
    instr C target (Mn.push.tok :: regsToks [(.bc, none), (.bc, none)] ++ [.other 10]) = .ub := by
  all_rfl

/-- C63, negation: `PUSH BC/DE/` is accepted. -/
theorem C63_push_slash (C : Ctx) (target : Nat) :
    instr C target (Mn.push.tok :: regsToks [(.bc, none), (.de, none)] ++ [.op .div, .other 10]) =
      .ok (some ⟨[byte 0xC1, byte 0xC2], false, [.other 10]⟩) := by
  all_rfl

/-- C63, negation: words that there is an instruction for and that are refused: 0x7F80 to 0x7FFF cannot be added to a pair of registers,
and 32769 and more cannot be subtracted; 129 and more cannot be subtracted from a register; negative words that the assembler does not
know yet cannot be loaded. -/
theorem C63_words_refused (known : Bool) (pc v : Int) (d : R16) (q : R8) :
    (32640 ≤ v ∧ v ≤ 32767 → (Form.alun16 .add d v).fits known pc = false) ∧
    (32769 ≤ v → (Form.alun16 .sub d v).fits known pc = false) ∧
    (129 ≤ v → (Form.alun8 .sub q v).fits known pc = false) ∧
    (v < 0 → (Form.ldn16 d v).fits false pc = false) := by
  refine ⟨fun h => ?_, fun h => ?_, fun h => ?_, fun h => ?_⟩ <;> simp only [Form.fits, decide_eq_false_iff_not, Bool.false_eq_true, if_false] <;> omega

/-- C63, negation: `CMP r,n` and `SYS n` take numbers that are not bytes. -/
theorem C63_words_for_bytes (known : Bool) (pc : Int) (q : R8) :
    (Form.cmpn8 q (0x1234 : Int)).fits known pc = true ∧ (Form.sys (0x1234 : Int)).fits known pc = true := ⟨rfl, rfl⟩

/-! ### Examples -/

/-- An assembler that knows no values. -/
def C1 : Ctx := ⟨fun _ => 0, 0, fun _ => none⟩

/-- `ADD/NE T,B`: a jump over the addition if the flags say "equal", whose target is symbol 7. -/
example : instr C1 7 ([tok "ADD", .op .div, tok "NE", tok "T", .comma, tok "B"] ++ [.other 10]) =
    .ok (some ⟨[byte 0x98, .expr 1 (checkRange (.pcRel 0 (.sym 7)) (-128) 127), byte 0x42], true, [.other 10]⟩) := by all_rfl

example : line .add (some .ne) [.r8 .t, .r8 .b] = [tok "ADD", .op .div, tok "NE", tok "T", .comma, tok "B"] := by decide +kernel

example : ∃ items, instr C1 7 (line .add (some .ne) [.r8 .t, .r8 .b] ++ [.other 10]) = .ok (some ⟨items, true, [.other 10]⟩) ∧
    Line C1 7 (some .ne) (.alu8 .add .b) false true items :=
  C63_lines_of_the_RC8 C1 7 .add (some .ne) [.r8 .t, .r8 .b] _ [.other 10] rfl rfl (by simp [Opnd.Good]) (by intro x h; cases h; rfl)

end Verif.Cpu.Rc8
