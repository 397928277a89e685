import Verif.Cpu.Rc8.Spec
import Verif.Cpu.Z80.Reading
/-!
# How a line of the RC8 is read
-/
set_option linter.constructorNameAsVariable false

namespace Verif.Cpu.Rc8

open Verif.Parse (Tok Toks Tree)
open Verif.Expr (Src FMath ASym Den wrap)
open Verif.Cpu.X65 (ok_bind EndOfLine)

/-- The bits of registers. -/
def maskOf (rs : List R16) : Nat := rs.foldl (fun m r => m ||| (1 <<< r.ctorIdx)) 0

/-- What an operand is read as. -/
def Opnd.am (C : Ctx) (allowed : Nat) : Opnd → Am
  | .r8 r => ⟨1 <<< r.ctorIdx, r.ctorIdx, none⟩
  | .r16 r => ⟨0x100 <<< r.ctorIdx, r.ctorIdx, none⟩
  | .regs rs => ⟨mMask, maskOf (r16s.filter (covers rs)), none⟩
  | .ptr r .stay => ⟨0x1000 <<< r.ctorIdx, r.ctorIdx, none⟩
  | .ptr r .inc => ⟨if r = .ft then mIncFT else mInc, r.ctorIdx, none⟩
  | .ptr r .dec => ⟨if r = .ft then mDecFT else mDec, r.ctorIdx, none⟩
  | .indC => ⟨mIndC, 0, none⟩
  | .val t => if has allowed mAddr then ⟨mAddr, 0, some (C.src t)⟩ else ⟨mImm, 0, some (checkRange (C.src t) (-32768) 65535)⟩

/-- How long the strings of characters in it may be. -/
def maxOf (allowed : Nat) : Nat := if has allowed mAddr then 1 else 2

/-- Operands that can be read. -/
def Opnd.Good (max : Nat) : Opnd → Prop
  | .val t => Readable max t
  | .regs rs => (listed rs).isSome = true
  | _ => True

theorem register_r8 (A : Nat) (r : R8) (rest : Toks) :
    register A (r.tok :: rest) = if has A (1 <<< r.ctorIdx) then some (⟨1 <<< r.ctorIdx, r.ctorIdx, none⟩, rest) else none := by
  cases r <;> rfl

theorem register_r16 (A : Nat) (r : R16) (rest : Toks) :
    register A (r.tok :: rest) = if has A (0x100 <<< r.ctorIdx) then some (⟨0x100 <<< r.ctorIdx, r.ctorIdx, none⟩, rest) else none := by
  cases r <;> rfl

theorem register_ptr (C : Ctx) (A : Nat) (r : R16) (m : Move) (rest : Toks) :
    register A (ptrTok r m :: rest) = if has A ((Opnd.ptr r m).am C A).mode then some ((Opnd.ptr r m).am C A, rest) else none := by
  cases r <;> cases m <;> rfl

theorem register_indC (C : Ctx) (A : Nat) (rest : Toks) :
    register A (.other T.indC.num :: rest) = if has A mIndC then some (Opnd.indC.am C A, rest) else none := rfl

theorem pair_range (r : R16) : T.ft.num ≤ T.ft.num + r.ctorIdx ∧ T.ft.num + r.ctorIdx ≤ T.hl.num := by cases r <;> decide

theorem tok_pair (r : R16) : r.tok = .other (T.ft.num + r.ctorIdx) := by cases r <;> rfl

/-- One register is not a list. -/
theorem mask_single {rest : Toks} (he : Ends rest) (fuel : Nat) (r : R16) :
    (maskLoop fuel 0 0 (r.tok :: rest)).2.1 ≤ 1 := by
  cases fuel with
  | zero => show (0 : Nat) ≤ 1; decide
  | succ n =>
    rw [tok_pair, maskLoop, if_pos (by cases r <;> rfl)]
    cases rest with
    | nil => simp
    | cons x xs =>
      rcases he x rfl with h | h | ⟨k, h⟩ <;> subst h <;> simp

theorem mask_other (A fuel n : Nat) (hn : isPair n = false) (rest : Toks) : (maskLoop fuel A 0 (.other n :: rest)).2.1 = 0 := by
  cases fuel with
  | zero => rfl
  | succ k =>
    rw [maskLoop, hn]
    simp

/-- The tokens of an expression. -/
theorem register_tree (A : Nat) (t : Tree) (rest : Toks) : register A (t.toks ++ rest) = none := by
  obtain ⟨y, ys, hy, hb⟩ := toks_cons t
  rw [hy]
  cases hb <;> rfl

theorem indirect_tree (A : Nat) (t : Tree) (rest : Toks) : indirect A (t.toks ++ rest) = none := by
  obtain ⟨y, ys, hy, hb⟩ := toks_cons t
  rw [hy]
  cases hb with
  | lp =>
    obtain ⟨z, zs, rfl, hn⟩ := Z80.lp_cons t hy
    show indirect A (.lp :: z :: (zs ++ rest)) = none
    unfold indirect
    split
    · rename_i h; simp only [List.cons.injEq, true_and] at h; exact absurd h.1 (hn _)
    · rfl
  | _ => rfl

theorem mask_tree (fuel : Nat) (t : Tree) (rest : Toks) : (maskLoop fuel 0 0 (t.toks ++ rest)).2.1 = 0 := by
  obtain ⟨y, ys, hy, hb⟩ := toks_cons t
  rw [hy]
  cases fuel with
  | zero => rfl
  | succ n => cases hb <;> rfl

/-- An operand that is not a list of registers. -/
theorem addressing_single (C : Ctx) (A : Nat) (toks : Toks) (h : has A mMask = true → (maskLoop toks.length 0 0 toks).2.1 ≤ 1) :
    addressing C A toks = match register A toks with
      | some r => .ok (some r)
      | none => match indirect A toks with
        | some r => .ok (some r)
        | none => address C A toks := by
  unfold addressing
  by_cases hm : has A mMask = true
  · rw [if_pos hm]
    exact if_neg (Nat.not_le_of_lt (Nat.lt_succ_of_le (h hm)))
  · rw [if_neg hm]; rfl

theorem absent_reads (C : Ctx) {rest : Toks} (he : EndOfLine rest) : addressing C mNone rest = .ok (some (noMode, rest)) := by
  rcases he.cases with rfl | ⟨xs, rfl⟩ <;> rfl

/-- An operand is read as what it is, if it is allowed. -/
theorem addressing_reads (C : Ctx) (A : Nat) (o : Opnd) (hg : o.Good (maxOf A)) (hl : ∀ rs, o ≠ .regs rs)
    (ha : has A (o.am C A).mode = true) {rest : Toks} (he : Ends rest) :
    addressing C A (o.toks ++ rest) = .ok (some (o.am C A, rest)) := by
  cases o with
  | regs rs => exact absurd rfl (hl rs)
  | r8 r =>
    rw [addressing_single C A _ (fun _ => Nat.le_of_lt (Nat.lt_of_lt_of_le (by
      rw [show (Opnd.r8 r).toks ++ rest = r.tok :: rest from rfl]
      have : ∀ f, (maskLoop f 0 0 (r.tok :: rest)).2.1 = 0 := fun f => by cases r <;> exact mask_other 0 f _ rfl rest
      rw [this]; exact Nat.zero_lt_one) (Nat.le_refl 1)))]
    show (match register A (r.tok :: rest) with | some r => _ | none => _) = _
    rw [register_r8, if_pos (show has A (1 <<< r.ctorIdx) = true from ha)]; rfl
  | r16 r =>
    rw [show (Opnd.r16 r).toks ++ rest = r.tok :: rest from rfl, addressing_single C A _ (fun _ => mask_single he _ r)]
    show (match register A (r.tok :: rest) with | some r => _ | none => _) = _
    rw [register_r16, if_pos (show has A (0x100 <<< r.ctorIdx) = true from ha)]; rfl
  | ptr r m =>
    rw [addressing_single C A _ (fun _ => Nat.le_of_lt (Nat.lt_of_lt_of_le (by
      rw [show (Opnd.ptr r m).toks ++ rest = ptrTok r m :: rest from rfl]
      have : ∀ f, (maskLoop f 0 0 (ptrTok r m :: rest)).2.1 = 0 := fun f => by cases r <;> cases m <;> exact mask_other 0 f _ rfl rest
      rw [this]; exact Nat.zero_lt_one) (Nat.le_refl 1)))]
    show (match register A (ptrTok r m :: rest) with | some r => _ | none => _) = _
    rw [register_ptr C, if_pos ha]
  | indC =>
    rw [addressing_single C A _ (fun _ => Nat.le_of_lt (Nat.lt_of_lt_of_le (by
      rw [show Opnd.indC.toks ++ rest = .other T.indC.num :: rest from rfl, mask_other 0 _ _ rfl rest]; exact Nat.zero_lt_one) (Nat.le_refl 1)))]
    show (match register A (.other T.indC.num :: rest) with | some r => _ | none => _) = _
    rw [register_indC C, if_pos (show has A mIndC = true from ha)]
  | val t =>
    rw [addressing_single C A _ (fun _ => by
      rw [show (Opnd.val t).toks ++ rest = t.toks ++ rest from rfl, mask_tree]; decide)]
    show (match register A (t.toks ++ rest) with | some r => _ | none => match indirect A (t.toks ++ rest) with | some r => _ | none => _) = _
    rw [register_tree, indirect_tree]
    show address C A (t.toks ++ rest) = _
    have hg' : Readable (maxOf A) t := hg
    unfold maxOf at hg'
    unfold address Opnd.am
    by_cases h : has A mAddr = true
    · rw [if_pos h] at hg'
      rw [if_pos h, expr_reads C hg' he, ok_bind]
      simp only [h, if_true]
    · rw [if_neg h] at hg'
      rw [if_neg h]
      simp only [h, Bool.false_eq_true, if_false]
      unfold immediate
      have hi : has A mImm = true := by simp only [Opnd.am, h, Bool.false_eq_true, if_false] at ha; exact ha
      rw [if_pos hi, expr_reads C hg' he, ok_bind]

end Verif.Cpu.Rc8
