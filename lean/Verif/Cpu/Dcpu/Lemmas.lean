import Verif.Cpu.Dcpu.Model
import Verif.Cpu.Dcpu.Spec
namespace Verif.Cpu.Dcpu

open Verif.Parse
open Verif.Expr (Src FMath ASym Den Rng I32 u32)

theorem ok_bind {α β : Type} (a : α) (f : α → Outcome β) : (Outcome.ok a).bind f = f a := rfl

/-- The tokens of an operand. -/
def Opnd.toks : Opnd → Toks
  | .reg r => [tok (regName r)]
  | .ind r => [lbr, tok (regName r), rbr]
  | .after r t => lbr :: tok (regName r) :: .op .add :: (t.toks ++ [rbr])
  | .before t r => lbr :: (t.toks ++ [.op .add, tok (regName r), rbr])
  | .both t r u => lbr :: (t.toks ++ .op .add :: tok (regName r) :: .op .add :: (u.toks ++ [rbr]))
  | .pop w => [tok (if w then "POP" else "[SP++]")]
  | .peek w => [tok (if w then "PEEK" else "[SP]")]
  | .push w => [tok (if w then "PUSH" else "[--SP]")]
  | .sp => [tok "SP"]
  | .pc => [tok "PC"]
  | .o => [tok "O"]
  | .mem t => lbr :: (t.toks ++ [rbr])
  | .lit t => t.toks

/-- The expressions are readable; character constants have up to four characters in addresses and two in literals. There are
no character constants before a register. `[--SP]` is left out, see `C51_push`. -/
def Opnd.Ok : Opnd → Prop
  | .after _ t | .mem t => Readable 4 t
  | .before t _ => Readable 4 t ∧ t.Plain
  | .both t _ u => Readable 4 t ∧ t.Plain ∧ Readable 4 u
  | .lit t => Readable 2 t
  | .push w => w = true
  | _ => True

/-- The addressing mode of an operand. -/
def Opnd.mode (opt : Bool) (C : Ctx) : Opnd → Mode
  | .reg r => ⟨r, none⟩
  | .ind r => ⟨8 + r, none⟩
  | .after r t => ⟨16 + r, some (checkSU16 (C.src t))⟩
  | .before t r => ⟨16 + r, some (checkSU16 (C.src t))⟩
  | .both t r u => ⟨16 + r, some (checkSU16 (.bin .add (C.src t) (C.src u)))⟩
  | .pop _ => ⟨24, none⟩
  | .peek _ => ⟨25, none⟩
  | .push _ => ⟨26, none⟩
  | .sp => ⟨27, none⟩
  | .pc => ⟨28, none⟩
  | .o => ⟨29, none⟩
  | .mem t => ⟨30, some (checkU16 (C.src t))⟩
  | .lit t => optimize opt C (C.src t)

theorem tok_reg (r : Fin 8) : tok (regName r) = .other (6016 + r.val) := by
  revert r; decide +kernel

theorem register_reg (r : Fin 8) (rest : Toks) : register (.other (6016 + r.val) :: rest) = some (r.val, rest) := by
  have hr := r.isLt
  have h1 : T.a.num = 6016 := rfl
  have h2 : T.j.num = 6023 := rfl
  unfold register
  simp only
  rw [if_pos ⟨by omega, by omega⟩, show 6016 + r.val - T.a.num = r.val by omega]

theorem register_tree (t : Tree) (rest : Toks) : register (t.toks ++ rest) = none := by
  obtain ⟨a, as, hto, hb⟩ := toks_cons t
  rw [hto]; cases hb <;> rfl

theorem special_tree (t : Tree) (rest : Toks) : special (t.toks ++ rest) = none := by
  obtain ⟨a, as, hto, hb⟩ := toks_cons t
  rw [hto]; cases hb <;> rfl

theorem component_reg (C : Ctx) (r : Fin 8) (rest : Toks) :
    component C (.other (6016 + r.val) :: rest) = .ok (some (some r.val, none), rest) := by
  unfold component
  rw [register_reg]

/-- Where a component is an expression. -/
theorem component_tree (C : Ctx) (t : Tree) (rest : Toks) (rest' : Toks)
    (h : expr C 4 (t.toks ++ rest) = .ok (some (C.src t), rest')) :
    component C (t.toks ++ rest) = .ok (some (none, some (C.src t)), rest') := by
  unfold component
  rw [register_tree, h]; rfl

/-- The token is not the beginning of another part. -/
theorem parts_end (C : Ctx) (n k : Nat) (reg : Option Nat) (a : Option Src) (rest : Toks) :
    parts C (n + 1) reg a (.other k :: rest) = .ok (some (reg, a), .other k :: rest) := rfl

theorem length_pos (a : Tok) (rest : Toks) : ∃ n, (a :: rest).length + 1 = n + 2 := ⟨rest.length, by simp⟩

theorem indirect_opnd (C : Ctx) (toks rest : Toks) (reg : Option Nat) (s : Option Src) (reg' : Option Nat) (s' : Option Src) (rest' : Toks)
    (h1 : component C toks = .ok (some (reg, s), rest))
    (h2 : parts C (rest.length + 1) reg s rest = .ok (some (reg', s'), rbr :: rest')) :
    indirect C (lbr :: toks) = .ok (indirectMode reg' s', rest') := by
  show (component C toks).bind _ = _
  rw [h1, ok_bind]
  show (parts C (rest.length + 1) reg s rest).bind _ = _
  rw [h2]; rfl

theorem addressingMode_lbr (opt : Bool) (C : Ctx) (toks : Toks) (m : Mode) (rest : Toks)
    (h : indirect C (lbr :: toks) = .ok (some m, rest)) : addressingMode opt C (lbr :: toks) = .ok (some m, rest) := by
  unfold addressingMode
  show (indirect C (lbr :: toks)).bind _ = _
  rw [h]; rfl

theorem addressingMode_opnd (opt : Bool) (C : Ctx) (o : Opnd) (ho : o.Ok) (rest : Toks) (he : Ends rest) :
    addressingMode opt C (o.toks ++ rest) = .ok (some (o.mode opt C), rest) := by
  cases o with
  | reg r =>
    show addressingMode opt C (tok (regName r) :: rest) = _
    rw [tok_reg]
    unfold addressingMode
    rw [register_reg]; rfl
  | ind r =>
    show addressingMode opt C (lbr :: tok (regName r) :: rbr :: rest) = _
    rw [tok_reg]
    exact addressingMode_lbr opt C _ _ _ (indirect_opnd C _ _ _ _ _ _ rest (component_reg C r _) (parts_end C _ _ _ _ _))
  | after r t =>
    show addressingMode opt C (lbr :: tok (regName r) :: .op .add :: ((t.toks ++ [rbr]) ++ rest)) = _
    rw [tok_reg, List.append_assoc, List.singleton_append]
    refine addressingMode_lbr opt C _ _ _ (indirect_opnd C _ _ _ _ (some r.val) (some (C.src t)) rest (component_reg C r _) ?_)
    show (indirectAdd C (some r.val) none (t.toks ++ rbr :: rest)).bind _ = _
    unfold indirectAdd
    rw [component_tree C t _ _ (expr_reads C ho (Ends.other 93 rest)), ok_bind, ok_bind]
    exact parts_end C _ _ _ _ _
  | before t r =>
    show addressingMode opt C (lbr :: ((t.toks ++ [.op .add, tok (regName r), rbr]) ++ rest)) = _
    rw [tok_reg, List.append_assoc]
    refine addressingMode_lbr opt C _ _ _ (indirect_opnd C _ _ _ _ (some r.val) (some (C.src t)) rest
      (component_tree C t _ _ (expr_reads_plus C ho.1 ho.2 (6016 + r.val) (rbr :: rest))) ?_)
    show (indirectAdd C none (some (C.src t)) (.other (6016 + r.val) :: rbr :: rest)).bind _ = _
    unfold indirectAdd
    rw [component_reg, ok_bind]
    simp only [if_true, ok_bind]
    exact parts_end C _ _ _ _ _
  | both t r u =>
    show addressingMode opt C (lbr :: ((t.toks ++ .op .add :: tok (regName r) :: .op .add :: (u.toks ++ [rbr])) ++ rest)) = _
    rw [tok_reg, List.append_assoc]
    show addressingMode opt C (lbr :: (t.toks ++ .op .add :: .other (6016 + r.val) :: .op .add :: ((u.toks ++ [rbr]) ++ rest))) = _
    rw [List.append_assoc, List.singleton_append]
    refine addressingMode_lbr opt C _ _ _ (indirect_opnd C _ _ _ _ (some r.val) (some (.bin .add (C.src t) (C.src u))) rest
      (component_tree C t _ _ (expr_reads_plus C ho.1 ho.2.1 (6016 + r.val) _)) ?_)
    show (indirectAdd C none (some (C.src t)) (.other (6016 + r.val) :: .op .add :: (u.toks ++ rbr :: rest))).bind _ = _
    unfold indirectAdd
    rw [component_reg, ok_bind]
    simp only [if_true, ok_bind]
    show (indirectAdd C (some r.val) (some (C.src t)) (u.toks ++ rbr :: rest)).bind _ = _
    unfold indirectAdd
    rw [component_tree C u _ _ (expr_reads C ho.2.2 (Ends.other 93 rest)), ok_bind, ok_bind]
    exact parts_end C _ _ _ _ _
  | pop w => cases w <;> rfl
  | peek w => cases w <;> rfl
  | push w => cases ho; rfl
  | sp => rfl
  | pc => rfl
  | o => rfl
  | mem t =>
    show addressingMode opt C (lbr :: ((t.toks ++ [rbr]) ++ rest)) = _
    rw [List.append_assoc, List.singleton_append]
    exact addressingMode_lbr opt C _ _ _ (indirect_opnd C _ _ _ _ _ _ rest
      (component_tree C t _ _ (expr_reads C ho (Ends.other 93 rest))) (parts_end C _ _ _ _ _))
  | lit t =>
    obtain ⟨a, as, hto, hb⟩ := toks_cons t
    have hr := expr_reads C ho he
    show addressingMode opt C (t.toks ++ rest) = _
    have hi : indirect C (t.toks ++ rest) = .ok (none, t.toks ++ rest) := by
      rw [hto]; cases hb <;> rfl
    unfold addressingMode
    rw [register_tree, special_tree]
    simp only [hi, ok_bind, hr]
    rfl

end Verif.Cpu.Dcpu
