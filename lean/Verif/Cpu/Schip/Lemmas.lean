import Verif.Cpu.Schip.Model
import Verif.Cpu.Schip.Spec
namespace Verif.Cpu.Schip

open Verif.Parse
open Verif.Expr (Src FMath ASym Den Rng I32 u32)

/-- The tokens of an operand. -/
def Opnd.toks : Opnd → Toks
  | .reg x hex => [tok (regName x hex)]
  | .imm t => t.toks
  | .i => [tok "I"]
  | .dt => [tok "DT"]
  | .st => [tok "ST"]
  | .ind => [tok "(I)"]
  | .rpl => [tok "RPL"]
  | .v0 t => tok "V0" :: .op .add :: t.toks

/-- Operands with commas between them. -/
def sep : List Opnd → Toks
  | [] => []
  | [o] => o.toks
  | o :: os => o.toks ++ .comma :: sep os

/-- The expressions are readable; character constants have one character. -/
def Opnd.Ok : Opnd → Prop
  | .imm t | .v0 t => Readable 1 t
  | _ => True

/-- The address mode of an operand. -/
def Opnd.mode (C : Ctx) : Opnd → AddressMode
  | .reg x _ => ⟨mREG, x, none⟩
  | .imm t => ⟨mIMM, 0xFF, some (C.src t)⟩
  | .i => ⟨mI, 0xFF, none⟩
  | .dt => ⟨mDT, 0xFF, none⟩
  | .st => ⟨mST, 0xFF, none⟩
  | .ind => ⟨mIIND, 0xFF, none⟩
  | .rpl => ⟨mRPL, 0xFF, none⟩
  | .v0 t => ⟨mIMMV0, 0, some (checkRange (C.src t) 0 4095)⟩

theorem ok_bind {α β : Type} (a : α) (f : α → Outcome β) : (Outcome.ok a).bind f = f a := rfl

theorem tok_reg (x : Fin 16) (hex : Bool) : tok (regName x hex) = .other (6030 + x.val) := by
  revert x hex; decide +kernel

theorem addressMode_opnd (C : Ctx) (o : Opnd) (ho : o.Ok) (rest : Toks) (he : Ends rest) :
    addressMode C (o.toks ++ rest) = .ok (true, o.mode C, rest) := by
  cases o with
  | reg x hex =>
    show addressMode C (tok (regName x hex) :: rest) = _
    rw [tok_reg]
    have hx := x.isLt
    have hg : getRegister (.other (6030 + x.val) :: rest) = (x.val, rest) := by
      show (if 6030 ≤ 6030 + x.val ∧ 6030 + x.val ≤ 6045 then _ else _) = _
      rw [if_pos ⟨by omega, by omega⟩]
      show (6030 + x.val - 6030, rest) = _
      rw [show 6030 + x.val - 6030 = x.val from by omega]
    unfold addressMode
    rw [hg]
    show (if x.val ≠ 0xFF then _ else _) = _
    rw [if_pos (by omega)]
    split
    · rename_i rest'
      rcases he _ rfl with h | h | ⟨n, h⟩ <;> cases h
    · rfl
  | imm t =>
    obtain ⟨a, as, hto, hb⟩ := toks_cons t
    have hr := expr_reads C ho he
    show addressMode C (t.toks ++ rest) = _
    have hg : getRegister (t.toks ++ rest) = (0xFF, t.toks ++ rest) := by
      rw [hto]; cases hb <;> rfl
    unfold addressMode
    rw [hg]
    show (if (0xFF : Nat) ≠ 0xFF then _ else _) = _
    rw [if_neg (by decide), hr]
    rw [hto]
    cases hb <;> rfl
  | i => rfl
  | dt => rfl
  | st => rfl
  | ind => rfl
  | rpl => rfl
  | v0 t =>
    have hr := expr_reads C ho he
    show (expr C 1 (t.toks ++ rest)).bind _ = _
    rw [hr]; rfl

theorem ends_sep (o : Opnd) (os : List Opnd) (rest : Toks) :
    sep (o :: o' :: os) ++ rest = o.toks ++ (.comma :: (sep (o' :: os) ++ rest)) := by
  simp [sep, List.append_assoc]

/-- What is done with operands: what the loop of the parser amounts to, if no operand is missing. -/
theorem operands_one (C : Ctx) (e : Entry) (o : Opnd) (ho : o.Ok) (rest : Toks) (he : Ends rest) (h1 : e.mode1 ≠ 0) (h2 : e.mode2 = 0) :
    operands C e (sep [o] ++ rest) =
      if e.mode1 &&& (o.mode C).mode = 0 then .fail else .ok (o.mode C, noMode, noMode, rest) := by
  unfold operands
  rw [if_neg h1]
  show (addressMode C (o.toks ++ rest)).bind _ = _
  rw [addressMode_opnd C o ho rest he, ok_bind]
  simp only [Bool.not_true, Bool.false_eq_true, if_false, if_pos h2]

theorem operands_two (C : Ctx) (e : Entry) (o o' : Opnd) (ho : o.Ok) (ho' : o'.Ok) (rest : Toks) (he : Ends rest) (h1 : e.mode1 ≠ 0)
    (h2 : e.mode2 ≠ 0) (h3 : e.mode3 = 0) :
    operands C e (sep [o, o'] ++ rest) =
      if e.mode1 &&& (o.mode C).mode = 0 ∨ e.mode2 &&& (o'.mode C).mode = 0 then .fail
      else .ok (o.mode C, o'.mode C, noMode, rest) := by
  unfold operands
  rw [if_neg h1, ends_sep, addressMode_opnd C o ho _ (Ends.comma _), ok_bind]
  simp only [Bool.not_true, Bool.false_eq_true, if_false, if_neg h2]
  by_cases hm : e.mode1 &&& (o.mode C).mode = 0
  · rw [if_pos hm, if_pos (Or.inl hm)]
  · rw [if_neg hm]
    show (addressMode C (o'.toks ++ rest)).bind _ = _
    rw [addressMode_opnd C o' ho' _ he, ok_bind]
    simp only [Bool.not_true, Bool.false_eq_true, if_false, if_pos h3, hm, false_or]

theorem operands_three (C : Ctx) (e : Entry) (o o' o'' : Opnd) (ho : o.Ok) (ho' : o'.Ok) (ho'' : o''.Ok) (rest : Toks) (he : Ends rest)
    (h1 : e.mode1 ≠ 0) (h2 : e.mode2 ≠ 0) (h3 : e.mode3 ≠ 0) :
    operands C e (sep [o, o', o''] ++ rest) =
      if e.mode1 &&& (o.mode C).mode = 0 ∨ e.mode2 &&& (o'.mode C).mode = 0 ∨ e.mode3 &&& (o''.mode C).mode = 0 then .fail
      else .ok (o.mode C, o'.mode C, o''.mode C, rest) := by
  unfold operands
  rw [if_neg h1, ends_sep, addressMode_opnd C o ho _ (Ends.comma _), ok_bind]
  simp only [Bool.not_true, Bool.false_eq_true, if_false, if_neg h2]
  by_cases hm : e.mode1 &&& (o.mode C).mode = 0
  · rw [if_pos hm, if_pos (Or.inl hm)]
  · rw [if_neg hm]
    show (addressMode C (sep [o', o''] ++ rest)).bind _ = _
    rw [ends_sep, addressMode_opnd C o' ho' _ (Ends.comma _), ok_bind]
    simp only [Bool.not_true, Bool.false_eq_true, if_false, if_neg h3]
    by_cases hm' : e.mode2 &&& (o'.mode C).mode = 0
    · rw [if_pos hm', if_pos (Or.inr (Or.inl hm'))]
    · rw [if_neg hm']
      show (addressMode C (o''.toks ++ rest)).bind _ = _
      rw [addressMode_opnd C o'' ho'' _ he, ok_bind]
      simp only [Bool.not_true, Bool.false_eq_true, if_false, hm, hm', false_or]

end Verif.Cpu.Schip
