import Verif.Cpu.Dcpu.Props
/-!
# C51: what is refused, and what goes wrong
-/
namespace Verif.Cpu.Dcpu

open Verif.Parse
open Verif.Expr (Src FMath ASym Den Rng I32 u32)

/-- No operand begins here: the end, a comma, a closing parenthesis, or a character that is not `[`, such as the end of the line.
(Reserved words can be names in expressions, which is not modelled.) -/
def NoOperand (rest : Toks) : Prop := ∀ x, rest.head? = some x → x = .comma ∨ x = .rp ∨ ∃ n, x = .other n ∧ n < 256 ∧ n ≠ 91

theorem addressingMode_none (opt : Bool) (C : Ctx) (rest : Toks) (h : NoOperand rest) :
    addressingMode opt C rest = .ok (none, rest) := by
  cases rest with
  | nil => rfl
  | cons x xs =>
    rcases h x rfl with h | h | ⟨n, h, hn, h91⟩
    · subst h; rfl
    · subst h; rfl
    · subst h
      have e : 256 ≤ T.a.num ∧ 256 ≤ T.pop.num := by decide
      unfold addressingMode
      rw [show register (.other n :: xs) = none by simp only [register]; rw [if_neg (by omega)],
        show special (.other n :: xs) = none by simp only [special]; rw [if_neg (by omega)]]
      have hi : indirect C (.other n :: xs) = .ok (none, .other n :: xs) := by
        unfold indirect
        split
        · rename_i h; cases h; exact absurd rfl h91
        · rfl
      simp only
      rw [hi]
      rfl

theorem comma_fail (rest : Toks) (hc : rest.head? ≠ some .comma) : comma rest = .fail := by
  cases rest with
  | nil => rfl
  | cons a as => cases a <;> first | rfl | exact absurd rfl hc

/-- **C51.** An instruction is refused if an operand or the comma is missing. -/
theorem C51_missing (opt : Bool) (C : Ctx) (rest : Toks) :
    (∀ name, (∃ op, (name, op) ∈ mnemonics) ∨ name = "JSR" → NoOperand rest → instr opt C (tok name :: rest) = .fail) ∧
    ∀ name op, (name, op) ∈ mnemonics → ∀ a : Opnd, a.Ok →
      (Ends rest → rest.head? ≠ some .comma → instr opt C (tok name :: (a.toks ++ rest)) = .fail) ∧
      (NoOperand rest → instr opt C (tok name :: (a.toks ++ .comma :: rest)) = .fail) := by
  refine ⟨?_, ?_⟩
  · intro name hn hr
    rcases hn with ⟨op, hn⟩ | rfl
    · obtain ⟨n, d, h, ht, ⟨ha, hb, htab⟩, hj, -⟩ := entries _ hn
      simp only at ht
      rw [ht]
      simp only [instr]
      rw [if_pos ⟨ha, hb⟩, htab, addressingMode_none opt C rest hr]
      rfl
    · rw [show tok "JSR" = .other T.jsr.num from rfl]
      simp only [instr]
      rw [if_pos (by decide), addressingMode_none opt C rest hr]
      rfl
  · intro name op hn a ha'
    obtain ⟨n, d, h, ht, ⟨ha, hb, htab⟩, hj, -⟩ := entries _ hn
    simp only at ht
    rw [ht]
    constructor
    · intro he hc
      simp only [instr]
      rw [if_pos ⟨ha, hb⟩, htab]
      simp only
      rw [addressingMode_opnd opt C a ha' rest he, ok_bind]
      show (if h = .jsr then _ else _) = _
      rw [if_neg hj]
      show (comma rest).bind _ = _
      rw [comma_fail rest hc]; rfl
    · intro hr
      simp only [instr]
      rw [if_pos ⟨ha, hb⟩, htab]
      simp only
      rw [addressingMode_opnd opt C a ha' _ (Ends.comma _), ok_bind]
      show (if h = .jsr then _ else _) = _
      rw [if_neg hj]
      show (comma (.comma :: rest)).bind _ = _
      rw [show comma (.comma :: rest) = .ok rest from rfl, ok_bind, addressingMode_none opt C rest hr]
      rfl

theorem two_registers (opt : Bool) (C : Ctx) (r r' : Fin 8) (rest : Toks) :
    addressingMode opt C (lbr :: tok (regName r) :: .op .add :: tok (regName r') :: rest) = .fail := by
  have hi : indirect C (lbr :: tok (regName r) :: .op .add :: tok (regName r') :: rest) = .fail := by
    rw [tok_reg, tok_reg]
    simp only [indirect]
    rw [component_reg, ok_bind]
    simp only [List.length_cons, parts, indirectAdd]
    rw [component_reg, ok_bind]
    rfl
  unfold addressingMode
  rw [show register (lbr :: tok (regName r) :: .op .add :: tok (regName r') :: rest) = none from rfl,
    show special (lbr :: tok (regName r) :: .op .add :: tok (regName r') :: rest) = none from rfl]
  simp only
  rw [hi]; rfl

/-- **C51.** There is no operand with two registers: `[r + r']` is refused. -/
theorem C51_two_registers (opt : Bool) (C : Ctx) (r r' : Fin 8) (rest : Toks) :
    (∀ name, (∃ op, (name, op) ∈ mnemonics) ∨ name = "JSR" →
      instr opt C (tok name :: lbr :: tok (regName r) :: .op .add :: tok (regName r') :: rest) = .fail) ∧
    ∀ name op, (name, op) ∈ mnemonics → ∀ a : Opnd, a.Ok →
      instr opt C (tok name :: (a.toks ++ .comma :: lbr :: tok (regName r) :: .op .add :: tok (regName r') :: rest)) = .fail := by
  refine ⟨?_, ?_⟩
  · intro name hn
    rcases hn with ⟨op, hn⟩ | rfl
    · obtain ⟨n, d, h, ht, ⟨ha, hb, htab⟩, hj, -⟩ := entries _ hn
      simp only at ht
      rw [ht]
      simp only [instr]
      rw [if_pos ⟨ha, hb⟩, htab, two_registers]
      rfl
    · rw [show tok "JSR" = .other T.jsr.num from rfl]
      simp only [instr]
      rw [if_pos (by decide), two_registers]
      rfl
  · intro name op hn a ha'
    obtain ⟨n, d, h, ht, ⟨ha, hb, htab⟩, hj, -⟩ := entries _ hn
    simp only at ht
    rw [ht]
    simp only [instr]
    rw [if_pos ⟨ha, hb⟩, htab]
    simp only
    rw [addressingMode_opnd opt C a ha' _ (Ends.comma _), ok_bind]
    show (if h = .jsr then _ else _) = _
    rw [if_neg hj]
    show (comma (.comma :: _)).bind _ = _
    rw [comma, ok_bind, two_registers]
    rfl

/-! ### What goes wrong -/

/-- Not so: a literal that does not fit into 16 bits is not refused. `SET A,65536` is assembled as `SET A,0`. -/
theorem C51_literal (opt : Bool) (fm : FMath) (R : Rng) (now : Nat → ASym) (ρ : Den) (C : Ctx) (hk : C.known (.num 65536) = none) :
    ∃ items, instr opt C [tok "SET", tok "A", .comma, .num 65536] = .ok (some (items, [])) ∧
      (codes fm R now ρ items).bind decode = some (.basic .set (.reg 0) (.lit 0), []) ∧
      (Instr.basic .set (.reg 0) (.lit (Tree.num 65536))).meaning (fun t => (C.src t).value fm R now ρ) = none := by
  have hv := value_num fm R now ρ (v := 65536) (by decide)
  refine ⟨[.const 2 0x7C01, .expr 2 (.num 65536)], ?_, ?_, ?_⟩
  · have e : Entry "SET" .set symSet 1 .generic := by unfold Entry; decide +kernel
    refine (instr_two opt C _ _ _ _ _ e (.reg 0) (.lit (.num 65536)) trivial
      ⟨by simp [Tree.Fits], by simp [Tree.Nots], rfl, by simp [Tree.Short], Or.inl (by simp [Tree.Plain])⟩ [] (fun _ h => by cases h)).trans ?_
    have hm : (Opnd.lit (.num 65536)).mode opt C = ⟨31, some (.num 65536)⟩ := by
      show optimize opt C (.num 65536) = _
      simp only [optimize, hk]
    rw [hm]
    have hr : (Opnd.reg 0).mode opt C = ⟨0, none⟩ := rfl
    rw [hr]
    rfl
  · have hc : codes fm R now ρ [.const 2 0x7C01, .expr 2 (.num 65536)] = some [0x7C01, 0] := by
      rw [codes_cons, codes_one]
      simp only [Item.code, hv, Option.map_some]
      rfl
    rw [hc]; rfl
  · have hl : (Val.lit (Tree.num 65536)).meaning (fun t => (C.src t).value fm R now ρ) = none := by
      unfold Val.meaning Val.eval
      show (Option.map _ ((Src.num 65536).value fm R now ρ)).bind _ = _
      rw [hv]; rfl
    simp only [Instr.meaning, hl]
    rfl

/-- Not so: with the option `-mo` the expression of a small negative literal behind `ADD` or `SUB` is used after it has been
freed. -/
theorem C51_add_negative (C : Ctx) (name : String) (hn : name = "ADD" ∨ name = "SUB") (a : Opnd) (ha : a.Ok) (t : Tree) (v : Int)
    (ht : Readable 2 t) (hk : C.known (C.src t) = some v) (hv : -31 ≤ v ∧ v ≤ -1) (rest : Toks) (he : Ends rest) :
    instr true C (tok name :: (a.toks ++ .comma :: (t.toks ++ rest))) = .ub := by
  have hu : u32 v % 65536 = (v % 65536).toNat := by
    have := u32_mod (v := v) (by unfold I32; omega); omega
  have hge : 0xFFE1 ≤ u32 v % 65536 := by omega
  have hm : (Opnd.lit t).mode true C = ⟨31, some (C.src t)⟩ := by
    show optimize true C (C.src t) = _
    simp only [optimize, hk]
    rw [if_neg (by omega)]
  have hs : ∀ d, addSub true C (a.mode true C) ⟨31, some (C.src t)⟩ d = .ub := by
    intro d
    unfold addSub
    rw [if_pos ⟨rfl, rfl⟩]
    simp only [hk]
    rw [if_pos hge]
  rcases hn with rfl | rfl
  · have e : Entry "ADD" .add T.add.num 2 .add := by unfold Entry; decide +kernel
    have := instr_two true C _ _ _ _ _ e a (.lit t) ha ht rest he
    rw [hm] at this
    refine this.trans ?_
    show (addSub true C _ _ 2).bind _ = _
    rw [hs]; rfl
  · have e : Entry "SUB" .sub T.sub.num 3 .sub := by unfold Entry; decide +kernel
    have := instr_two true C _ _ _ _ _ e a (.lit t) ha ht rest he
    rw [hm] at this
    refine this.trans ?_
    show (addSub true C _ _ 3).bind _ = _
    rw [hs]; rfl

/-- Not so: `[--SP]`, the other name of `PUSH`, is read as `PEEK`. -/
theorem C51_push (opt : Bool) (C : Ctx) (name : String) (op : Op) (hn : (name, op) ∈ mnemonics)
    (b : Opnd) (hb : b.Ok) (rest : Toks) (he : Ends rest) (hopt : opt = true → op = .add ∨ op = .sub → ¬ b.SmallNegative C) :
    ∃ items, instr opt C (tok name :: ((Opnd.push false).toks ++ .comma :: (b.toks ++ rest))) = .ok (some (items, rest)) ∧
      ∀ (fm : FMath) (R : Rng) (now : Nat → ASym) (ρ : Den), C.Sound fm R now ρ →
        (b.Small fun t => (C.src t).value fm R now ρ) →
        ∀ tail, ((codes fm R now ρ items).bind fun ws => decode (ws ++ tail)) =
          ((Instr.basic op .peek b.val).meaning fun t => (C.src t).value fm R now ρ).map fun i => (i, tail) := by
  obtain ⟨items, h1, -, h2⟩ := C51_encodes opt C name op hn (.peek false) b trivial hb rest he hopt
  exact ⟨items, h1, fun fm R now ρ hC hs => h2 fm R now ρ hC trivial hs⟩

/-- Not so: an offset cannot be subtracted. `[r - v]` is refused for all registers and numbers. -/
theorem C51_subtract (opt : Bool) (C : Ctx) (r : Fin 8) (v : Int) (rest : Toks) (name : String)
    (hn : (∃ op, (name, op) ∈ mnemonics) ∨ name = "JSR") :
    instr opt C (tok name :: lbr :: tok (regName r) :: .op .sub :: .num v :: rbr :: rest) = .fail := by
  have hi : indirect C (lbr :: tok (regName r) :: .op .sub :: .num v :: rbr :: rest) = .ok (none, rbr :: rest) := by
    rw [tok_reg]
    simp only [indirect]
    rw [component_reg, ok_bind]
    rfl
  have hm : addressingMode opt C (lbr :: tok (regName r) :: .op .sub :: .num v :: rbr :: rest) = .ok (none, rbr :: rest) := by
    unfold addressingMode
    rw [show register (lbr :: tok (regName r) :: .op .sub :: .num v :: rbr :: rest) = none from rfl,
      show special (lbr :: tok (regName r) :: .op .sub :: .num v :: rbr :: rest) = none from rfl]
    simp only
    rw [hi]; rfl
  rcases hn with ⟨op, hn⟩ | rfl
  · obtain ⟨n, d, h, ht, ⟨ha, hb, htab⟩, hj, -⟩ := entries _ hn
    simp only at ht
    rw [ht]
    simp only [instr]
    rw [if_pos ⟨ha, hb⟩, htab, hm]
    rfl
  · rw [show tok "JSR" = .other T.jsr.num from rfl]
    simp only [instr]
    rw [if_pos (by decide), hm]
    rfl

/-- … and where it is not refused, it is wrong: in `[4 + A - -3]` a minus sign is lost, and the offset is 1 instead of 7. -/
theorem C51_subtract_wrong (opt : Bool) (C : Ctx) :
    instr opt C [tok "JSR", lbr, .num 4, .op .add, tok "A", .op .sub, .op .sub, .num 3, rbr] =
      .ok (some ([.const 2 0x4010, .expr 2 (checkSU16 (.bin .sub (.num 4) (.num 3)))], [])) := by
  have hm : addressingMode opt C [lbr, .num 4, .op .add, tok "A", .op .sub, .op .sub, .num 3, rbr] =
      .ok (some ⟨16, some (checkSU16 (.bin .sub (.num 4) (.num 3)))⟩, []) := rfl
  rw [show tok "JSR" = .other T.jsr.num from rfl]
  simp only [instr]
  rw [if_pos (by decide), hm]
  rfl

/-! ### Examples -/

/-- Nothing is known. -/
abbrev nothing : Ctx := ⟨fun _ => 0, 0, fun _ => none⟩

/-- Numbers are known. -/
abbrev numbers : Ctx := ⟨fun _ => 0, 0, fun | .num v => some v | .bin .sub (.num 0) (.num v) => some (-v) | _ => none⟩

example : (Opnd.both (.num 1) 3 (.bin .add (.num 2) (.num 3))).Ok :=
  ⟨⟨by simp [Tree.Fits], by simp [Tree.Nots], rfl, by simp [Tree.Short], Or.inl (by simp [Tree.Plain])⟩, by simp [Tree.Plain],
   ⟨by simp [Tree.Fits, opLevel, Tree.level], by simp [Tree.Nots, Tree.leads], rfl, by simp [Tree.Short], Or.inl (by simp [Tree.Plain])⟩⟩

example : tok "SET" :: ((Opnd.after 6 (.num 0x2000)).toks ++ .comma :: ((Opnd.mem (.num 2)).toks ++ [])) =
    [tok "SET", lbr, tok "I", .op .add, .num 0x2000, rbr, .comma, lbr, .num 2, rbr] := rfl

example : instr false nothing [tok "SET", lbr, tok "I", .op .add, .num 0x2000, rbr, .comma, lbr, .num 2, rbr] =
    .ok (some ([.const 2 0x7961, .expr 2 (checkSU16 (.num 0x2000)), .expr 2 (checkU16 (.num 2))], [])) := rfl

example : decode [0x7961, 0x2000, 2] = some (.basic .set (.idx 6 0x2000) (.mem 2), []) := rfl

example : instr true numbers [tok "SET", tok "A", .comma, .num 31] = .ok (some ([.const 2 0xFC01], [])) := by decide +kernel
example : instr true numbers [tok "SET", tok "A", .comma, .num 32] = .ok (some ([.const 2 0x7C01, .expr 2 (.num 32)], [])) := by decide +kernel
example : decode [0xFC01] = some (.basic .set (.reg 0) (.lit 31), []) := rfl

example : instr true numbers [tok "ADD", tok "A", .comma, .op .sub, .num 1] = .ub := by decide +kernel
example : instr false numbers [tok "ADD", tok "A", .comma, .op .sub, .num 1] =
    .ok (some ([.const 2 0x7C02, .expr 2 (.bin .sub (.num 0) (.num 1))], [])) := rfl

example : instr false nothing [tok "SET", tok "[--SP]", .comma, tok "A"] = instr false nothing [tok "SET", tok "PEEK", .comma, tok "A"] := rfl

example : decode [0x0191, 7] = some (.basic .set (.peek) (.reg 0), [7]) := rfl

/-- The first lines of the example in the specification of the processor. -/
example : decode [0x7C01, 0x0030, 0x7DE1, 0x1000, 0x0020, 0x7803, 0x1000] =
    some (.basic .set (.reg 0) (.lit 0x30), [0x7DE1, 0x1000, 0x0020, 0x7803, 0x1000]) := rfl
example : decode [0x7DE1, 0x1000, 0x0020, 0x7803, 0x1000] = some (.basic .set (.mem 0x1000) (.lit 0x20), [0x7803, 0x1000]) := rfl
example : decode [0x7803, 0x1000] = some (.basic .sub (.reg 0) (.mem 0x1000), []) := rfl

end Verif.Cpu.Dcpu
