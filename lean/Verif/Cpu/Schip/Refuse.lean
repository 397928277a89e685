import Verif.Cpu.Schip.Props
/-!
# C50: instructions that are refused
-/
namespace Verif.Cpu.Schip

open Verif.Parse
open Verif.Expr (Src FMath ASym Den Rng I32 u32)

section

variable (cpu : Nat) (C : Ctx) (name : String) (k : Nat) (e : Entry)

theorem instr_one (o : Opnd) (ho : o.Ok) (rest : Toks) (he : Ends rest) (ht : tok name = .other (6000 + k)) (hk : k < 30)
    (hE : table[k]? = some e) (h1 : e.mode1 ≠ 0) (h2 : e.mode2 = 0) :
    instr cpu C (tok name :: (sep [o] ++ rest)) =
      if e.cpu &&& cpu = 0 then .fail else if e.mode1 &&& (o.mode C).mode = 0 then .fail else
        (e.handler.run cpu (o.mode C) noMode noMode e.opcode).bind fun items => .ok (some (items, rest)) := by
  rw [instr_eq cpu C name k e _ ht hk hE, operands_one C e o ho rest he h1 h2]
  split
  · rfl
  · split <;> rfl

theorem instr_two (o o' : Opnd) (ho : o.Ok) (ho' : o'.Ok) (rest : Toks) (he : Ends rest) (ht : tok name = .other (6000 + k)) (hk : k < 30)
    (hE : table[k]? = some e) (h1 : e.mode1 ≠ 0) (h2 : e.mode2 ≠ 0) (h3 : e.mode3 = 0) :
    instr cpu C (tok name :: (sep [o, o'] ++ rest)) =
      if e.cpu &&& cpu = 0 then .fail else
      if e.mode1 &&& (o.mode C).mode = 0 ∨ e.mode2 &&& (o'.mode C).mode = 0 then .fail else
        (e.handler.run cpu (o.mode C) (o'.mode C) noMode e.opcode).bind fun items => .ok (some (items, rest)) := by
  rw [instr_eq cpu C name k e _ ht hk hE, operands_two C e o o' ho ho' rest he h1 h2 h3]
  split
  · rfl
  · split <;> rfl

theorem instr_three (o o' o'' : Opnd) (ho : o.Ok) (ho' : o'.Ok) (ho'' : o''.Ok) (rest : Toks) (he : Ends rest)
    (ht : tok name = .other (6000 + k)) (hk : k < 30)
    (hE : table[k]? = some e) (h1 : e.mode1 ≠ 0) (h2 : e.mode2 ≠ 0) (h3 : e.mode3 ≠ 0) :
    instr cpu C (tok name :: (sep [o, o', o''] ++ rest)) =
      if e.cpu &&& cpu = 0 then .fail else
      if e.mode1 &&& (o.mode C).mode = 0 ∨ e.mode2 &&& (o'.mode C).mode = 0 ∨ e.mode3 &&& (o''.mode C).mode = 0 then .fail else
        (e.handler.run cpu (o.mode C) (o'.mode C) (o''.mode C) e.opcode).bind fun items => .ok (some (items, rest)) := by
  rw [instr_eq cpu C name k e _ ht hk hE, operands_three C e o o' o'' ho ho' ho'' rest he h1 h2 h3]
  split
  · rfl
  · split <;> rfl

theorem comma_fail (rest : Toks) (hc : rest.head? ≠ some .comma) : comma rest = .fail := by
  cases rest with
  | nil => rfl
  | cons a as => cases a <;> first | rfl | exact absurd rfl hc

/-- The second operand is missing. -/
theorem short_two (o : Opnd) (ho : o.Ok) (rest : Toks) (he : Ends rest) (hc : rest.head? ≠ some .comma)
    (ht : tok name = .other (6000 + k)) (hk : k < 30) (hE : table[k]? = some e) (h1 : e.mode1 ≠ 0) (h2 : e.mode2 ≠ 0) :
    instr cpu C (tok name :: (sep [o] ++ rest)) = .fail := by
  rw [instr_eq cpu C name k e _ ht hk hE]
  split
  · rfl
  · unfold operands
    rw [if_neg h1]
    show ((addressMode C (o.toks ++ rest)).bind _).bind _ = _
    rw [addressMode_opnd C o ho rest he, ok_bind]
    simp only [Bool.not_true, Bool.false_eq_true, if_false, if_neg h2, comma_fail rest hc]
    split <;> rfl

/-- The third operand is missing. -/
theorem short_three (o o' : Opnd) (ho : o.Ok) (ho' : o'.Ok) (rest : Toks) (he : Ends rest) (hc : rest.head? ≠ some .comma)
    (ht : tok name = .other (6000 + k)) (hk : k < 30) (hE : table[k]? = some e) (h1 : e.mode1 ≠ 0) (h2 : e.mode2 ≠ 0)
    (h3 : e.mode3 ≠ 0) :
    instr cpu C (tok name :: (sep [o, o'] ++ rest)) = .fail := by
  rw [instr_eq cpu C name k e _ ht hk hE]
  split
  · rfl
  · unfold operands
    rw [if_neg h1, ends_sep, addressMode_opnd C o ho _ (Ends.comma _), ok_bind]
    simp only [Bool.not_true, Bool.false_eq_true, if_false, if_neg h2]
    split
    · rfl
    · show Outcome.bind ((addressMode C (o'.toks ++ rest)).bind _) _ = _
      rw [addressMode_opnd C o' ho' _ he, ok_bind]
      simp only [Bool.not_true, Bool.false_eq_true, if_false, if_neg h3, comma_fail rest hc]
      split <;> rfl

end

theorem length_one {α : Type} {l : List α} (h : l.length = 1) : ∃ a, l = [a] := by
  match l, h with
  | [a], _ => exact ⟨a, rfl⟩

theorem length_two {α : Type} {l : List α} (h : l.length = 2) : ∃ a b, l = [a, b] := by
  match l, h with
  | [a, b], _ => exact ⟨a, b, rfl⟩

theorem length_three {α : Type} {l : List α} (h : l.length = 3) : ∃ a b c, l = [a, b, c] := by
  match l, h with
  | [a, b, c], _ => exact ⟨a, b, c, rfl⟩

/-- **C50.** Operands that the documentation does not list for a mnemonic are refused. -/
theorem C50_refuses (cpu : Nat) (C : Ctx) (name : String) (ops : List Opnd) (ha : (name, ops.length) ∈ arity)
    (hops : ∀ o ∈ ops, o.Ok) (hno : ∀ i, ¬ Means name ops i) (rest : Toks) (he : Ends rest) :
    instr cpu C (tok name :: (sep ops ++ rest)) = .fail := by
  simp only [arity, List.mem_cons, Prod.mk.injEq, List.not_mem_nil, or_false] at ha
  rcases ha with ⟨rfl, hl⟩ | ⟨rfl, hl⟩ | ⟨rfl, hl⟩ | ⟨rfl, hl⟩ | ⟨rfl, hl⟩ | ⟨rfl, hl⟩ | ⟨rfl, hl⟩ | ⟨rfl, hl⟩ | ⟨rfl, hl⟩ | ⟨rfl, hl⟩ | ⟨rfl, hl⟩ | ⟨rfl, hl⟩ | ⟨rfl, hl⟩ | ⟨rfl, hl⟩ | ⟨rfl, hl⟩ | ⟨rfl, hl⟩ | ⟨rfl, hl⟩ | ⟨rfl, hl⟩ | ⟨rfl, hl⟩ | ⟨rfl, hl⟩ | ⟨rfl, hl⟩ | ⟨rfl, hl⟩ | ⟨rfl, hl⟩ | ⟨rfl, hl⟩ | ⟨rfl, hl⟩ | ⟨rfl, hl⟩ | ⟨rfl, hl⟩ | ⟨rfl, hl⟩ | ⟨rfl, hl⟩ | ⟨rfl, hl⟩
  · cases List.length_eq_zero_iff.1 hl
    exact absurd Means.cls (hno _)
  · cases List.length_eq_zero_iff.1 hl
    exact absurd Means.ret (hno _)
  · cases List.length_eq_zero_iff.1 hl
    exact absurd Means.scr (hno _)
  · cases List.length_eq_zero_iff.1 hl
    exact absurd Means.scl (hno _)
  · cases List.length_eq_zero_iff.1 hl
    exact absurd Means.exit (hno _)
  · cases List.length_eq_zero_iff.1 hl
    exact absurd Means.low (hno _)
  · cases List.length_eq_zero_iff.1 hl
    exact absurd Means.high (hno _)
  · obtain ⟨o, rfl⟩ := length_one hl
    rw [instr_one cpu C "SCD" 20 _ o (hops _ (by simp)) rest he (by decide +kernel) (by decide) rfl (by decide) rfl]
    cases o
    case imm n0 => exact absurd (Means.scd n0) (hno _)
    all_goals simp [Opnd.mode, mREG, mIMM, mI, mDT, mST, mIIND, mIMMV0, mRPL, Outcome.bind, Handler.run, ld, ldm, add, skips, jp, cpuALL, cpuSCHIP]
  · obtain ⟨o, rfl⟩ := length_one hl
    rw [instr_one cpu C "JP" 21 _ o (hops _ (by simp)) rest he (by decide +kernel) (by decide) rfl (by decide) rfl]
    cases o
    case imm n0 => exact absurd (Means.jp n0) (hno _)
    case v0 n0 => exact absurd (Means.jpV0 n0) (hno _)
    all_goals simp [Opnd.mode, mREG, mIMM, mI, mDT, mST, mIIND, mIMMV0, mRPL, Outcome.bind, Handler.run, ld, ldm, add, skips, jp, cpuALL, cpuSCHIP]
  · obtain ⟨o, rfl⟩ := length_one hl
    rw [instr_one cpu C "CALL" 22 _ o (hops _ (by simp)) rest he (by decide +kernel) (by decide) rfl (by decide) rfl]
    cases o
    case imm n0 => exact absurd (Means.call n0) (hno _)
    all_goals simp [Opnd.mode, mREG, mIMM, mI, mDT, mST, mIIND, mIMMV0, mRPL, Outcome.bind, Handler.run, ld, ldm, add, skips, jp, cpuALL, cpuSCHIP]
  · obtain ⟨o, o', rfl⟩ := length_two hl
    rw [instr_two cpu C "SE" 17 _ o o' (hops _ (by simp)) (hops _ (by simp)) rest he (by decide +kernel) (by decide) rfl (by decide) (by decide) rfl]
    cases o
    case reg x0 h0 =>
      cases o'
      case imm n1 => exact absurd (Means.seImm x0 h0 n1) (hno _)
      case reg x1 h1 => exact absurd (Means.se x0 h0 x1 h1) (hno _)
      all_goals simp [Opnd.mode, mREG, mIMM, mI, mDT, mST, mIIND, mIMMV0, mRPL, Outcome.bind, Handler.run, ld, ldm, add, skips, jp, cpuALL, cpuSCHIP]
    all_goals simp [Opnd.mode, mREG, mIMM, mI, mDT, mST, mIIND, mIMMV0, mRPL, Outcome.bind, Handler.run, ld, ldm, add, skips, jp, cpuALL, cpuSCHIP]
  · obtain ⟨o, o', rfl⟩ := length_two hl
    rw [instr_two cpu C "SNE" 18 _ o o' (hops _ (by simp)) (hops _ (by simp)) rest he (by decide +kernel) (by decide) rfl (by decide) (by decide) rfl]
    cases o
    case reg x0 h0 =>
      cases o'
      case imm n1 => exact absurd (Means.sneImm x0 h0 n1) (hno _)
      case reg x1 h1 => exact absurd (Means.sne x0 h0 x1 h1) (hno _)
      all_goals simp [Opnd.mode, mREG, mIMM, mI, mDT, mST, mIIND, mIMMV0, mRPL, Outcome.bind, Handler.run, ld, ldm, add, skips, jp, cpuALL, cpuSCHIP]
    all_goals simp [Opnd.mode, mREG, mIMM, mI, mDT, mST, mIIND, mIMMV0, mRPL, Outcome.bind, Handler.run, ld, ldm, add, skips, jp, cpuALL, cpuSCHIP]
  · obtain ⟨o, o', rfl⟩ := length_two hl
    rw [instr_two cpu C "LD" 14 _ o o' (hops _ (by simp)) (hops _ (by simp)) rest he (by decide +kernel) (by decide) rfl (by decide) (by decide) rfl]
    cases o
    case reg x0 h0 =>
      cases o'
      case imm n1 => exact absurd (Means.ldImm x0 h0 n1) (hno _)
      case reg x1 h1 => exact absurd (Means.ld x0 h0 x1 h1) (hno _)
      case dt  => exact absurd (Means.getDelay x0 h0) (hno _)
      all_goals simp [Opnd.mode, mREG, mIMM, mI, mDT, mST, mIIND, mIMMV0, mRPL, Outcome.bind, Handler.run, ld, ldm, add, skips, jp, cpuALL, cpuSCHIP]
    case i  =>
      cases o'
      case imm n1 => exact absurd (Means.ldI n1) (hno _)
      all_goals simp [Opnd.mode, mREG, mIMM, mI, mDT, mST, mIIND, mIMMV0, mRPL, Outcome.bind, Handler.run, ld, ldm, add, skips, jp, cpuALL, cpuSCHIP]
    case dt  =>
      cases o'
      case reg x1 h1 => exact absurd (Means.setDelay x1 h1) (hno _)
      all_goals simp [Opnd.mode, mREG, mIMM, mI, mDT, mST, mIIND, mIMMV0, mRPL, Outcome.bind, Handler.run, ld, ldm, add, skips, jp, cpuALL, cpuSCHIP]
    case st  =>
      cases o'
      case reg x1 h1 => exact absurd (Means.setSound x1 h1) (hno _)
      all_goals simp [Opnd.mode, mREG, mIMM, mI, mDT, mST, mIIND, mIMMV0, mRPL, Outcome.bind, Handler.run, ld, ldm, add, skips, jp, cpuALL, cpuSCHIP]
    all_goals simp [Opnd.mode, mREG, mIMM, mI, mDT, mST, mIIND, mIMMV0, mRPL, Outcome.bind, Handler.run, ld, ldm, add, skips, jp, cpuALL, cpuSCHIP]
  · obtain ⟨o, o', rfl⟩ := length_two hl
    rw [instr_two cpu C "ADD" 16 _ o o' (hops _ (by simp)) (hops _ (by simp)) rest he (by decide +kernel) (by decide) rfl (by decide) (by decide) rfl]
    cases o
    case reg x0 h0 =>
      cases o'
      case imm n1 => exact absurd (Means.addImm x0 h0 n1) (hno _)
      case reg x1 h1 => exact absurd (Means.add x0 h0 x1 h1) (hno _)
      all_goals simp [Opnd.mode, mREG, mIMM, mI, mDT, mST, mIIND, mIMMV0, mRPL, Outcome.bind, Handler.run, ld, ldm, add, skips, jp, cpuALL, cpuSCHIP]
    case i  =>
      cases o'
      case reg x1 h1 => exact absurd (Means.addI x1 h1) (hno _)
      all_goals simp [Opnd.mode, mREG, mIMM, mI, mDT, mST, mIIND, mIMMV0, mRPL, Outcome.bind, Handler.run, ld, ldm, add, skips, jp, cpuALL, cpuSCHIP]
    all_goals simp [Opnd.mode, mREG, mIMM, mI, mDT, mST, mIIND, mIMMV0, mRPL, Outcome.bind, Handler.run, ld, ldm, add, skips, jp, cpuALL, cpuSCHIP]
  · obtain ⟨o, o', rfl⟩ := length_two hl
    rw [instr_two cpu C "OR" 9 _ o o' (hops _ (by simp)) (hops _ (by simp)) rest he (by decide +kernel) (by decide) rfl (by decide) (by decide) rfl]
    cases o
    case reg x0 h0 =>
      cases o'
      case reg x1 h1 => exact absurd (Means.or x0 h0 x1 h1) (hno _)
      all_goals simp [Opnd.mode, mREG, mIMM, mI, mDT, mST, mIIND, mIMMV0, mRPL, Outcome.bind, Handler.run, ld, ldm, add, skips, jp, cpuALL, cpuSCHIP]
    all_goals simp [Opnd.mode, mREG, mIMM, mI, mDT, mST, mIIND, mIMMV0, mRPL, Outcome.bind, Handler.run, ld, ldm, add, skips, jp, cpuALL, cpuSCHIP]
  · obtain ⟨o, o', rfl⟩ := length_two hl
    rw [instr_two cpu C "AND" 8 _ o o' (hops _ (by simp)) (hops _ (by simp)) rest he (by decide +kernel) (by decide) rfl (by decide) (by decide) rfl]
    cases o
    case reg x0 h0 =>
      cases o'
      case reg x1 h1 => exact absurd (Means.and x0 h0 x1 h1) (hno _)
      all_goals simp [Opnd.mode, mREG, mIMM, mI, mDT, mST, mIIND, mIMMV0, mRPL, Outcome.bind, Handler.run, ld, ldm, add, skips, jp, cpuALL, cpuSCHIP]
    all_goals simp [Opnd.mode, mREG, mIMM, mI, mDT, mST, mIIND, mIMMV0, mRPL, Outcome.bind, Handler.run, ld, ldm, add, skips, jp, cpuALL, cpuSCHIP]
  · obtain ⟨o, o', rfl⟩ := length_two hl
    rw [instr_two cpu C "XOR" 12 _ o o' (hops _ (by simp)) (hops _ (by simp)) rest he (by decide +kernel) (by decide) rfl (by decide) (by decide) rfl]
    cases o
    case reg x0 h0 =>
      cases o'
      case reg x1 h1 => exact absurd (Means.xor x0 h0 x1 h1) (hno _)
      all_goals simp [Opnd.mode, mREG, mIMM, mI, mDT, mST, mIIND, mIMMV0, mRPL, Outcome.bind, Handler.run, ld, ldm, add, skips, jp, cpuALL, cpuSCHIP]
    all_goals simp [Opnd.mode, mREG, mIMM, mI, mDT, mST, mIIND, mIMMV0, mRPL, Outcome.bind, Handler.run, ld, ldm, add, skips, jp, cpuALL, cpuSCHIP]
  · obtain ⟨o, o', rfl⟩ := length_two hl
    rw [instr_two cpu C "SUB" 10 _ o o' (hops _ (by simp)) (hops _ (by simp)) rest he (by decide +kernel) (by decide) rfl (by decide) (by decide) rfl]
    cases o
    case reg x0 h0 =>
      cases o'
      case reg x1 h1 => exact absurd (Means.sub x0 h0 x1 h1) (hno _)
      all_goals simp [Opnd.mode, mREG, mIMM, mI, mDT, mST, mIIND, mIMMV0, mRPL, Outcome.bind, Handler.run, ld, ldm, add, skips, jp, cpuALL, cpuSCHIP]
    all_goals simp [Opnd.mode, mREG, mIMM, mI, mDT, mST, mIIND, mIMMV0, mRPL, Outcome.bind, Handler.run, ld, ldm, add, skips, jp, cpuALL, cpuSCHIP]
  · obtain ⟨o, o', rfl⟩ := length_two hl
    rw [instr_two cpu C "SUBN" 11 _ o o' (hops _ (by simp)) (hops _ (by simp)) rest he (by decide +kernel) (by decide) rfl (by decide) (by decide) rfl]
    cases o
    case reg x0 h0 =>
      cases o'
      case reg x1 h1 => exact absurd (Means.subn x0 h0 x1 h1) (hno _)
      all_goals simp [Opnd.mode, mREG, mIMM, mI, mDT, mST, mIIND, mIMMV0, mRPL, Outcome.bind, Handler.run, ld, ldm, add, skips, jp, cpuALL, cpuSCHIP]
    all_goals simp [Opnd.mode, mREG, mIMM, mI, mDT, mST, mIIND, mIMMV0, mRPL, Outcome.bind, Handler.run, ld, ldm, add, skips, jp, cpuALL, cpuSCHIP]
  · obtain ⟨o, rfl⟩ := length_one hl
    rw [instr_one cpu C "SHR" 6 _ o (hops _ (by simp)) rest he (by decide +kernel) (by decide) rfl (by decide) rfl]
    cases o
    case reg x0 h0 => exact absurd (Means.shr x0 h0) (hno _)
    all_goals simp [Opnd.mode, mREG, mIMM, mI, mDT, mST, mIIND, mIMMV0, mRPL, Outcome.bind, Handler.run, ld, ldm, add, skips, jp, cpuALL, cpuSCHIP]
  · obtain ⟨o, rfl⟩ := length_one hl
    rw [instr_one cpu C "SHL" 3 _ o (hops _ (by simp)) rest he (by decide +kernel) (by decide) rfl (by decide) rfl]
    cases o
    case reg x0 h0 => exact absurd (Means.shl x0 h0) (hno _)
    all_goals simp [Opnd.mode, mREG, mIMM, mI, mDT, mST, mIIND, mIMMV0, mRPL, Outcome.bind, Handler.run, ld, ldm, add, skips, jp, cpuALL, cpuSCHIP]
  · obtain ⟨o, o', rfl⟩ := length_two hl
    rw [instr_two cpu C "RND" 19 _ o o' (hops _ (by simp)) (hops _ (by simp)) rest he (by decide +kernel) (by decide) rfl (by decide) (by decide) rfl]
    cases o
    case reg x0 h0 =>
      cases o'
      case imm n1 => exact absurd (Means.rnd x0 h0 n1) (hno _)
      all_goals simp [Opnd.mode, mREG, mIMM, mI, mDT, mST, mIIND, mIMMV0, mRPL, Outcome.bind, Handler.run, ld, ldm, add, skips, jp, cpuALL, cpuSCHIP]
    all_goals simp [Opnd.mode, mREG, mIMM, mI, mDT, mST, mIIND, mIMMV0, mRPL, Outcome.bind, Handler.run, ld, ldm, add, skips, jp, cpuALL, cpuSCHIP]
  · obtain ⟨o, o', o'', rfl⟩ := length_three hl
    rw [instr_three cpu C "DRW" 13 _ o o' o'' (hops _ (by simp)) (hops _ (by simp)) (hops _ (by simp)) rest he (by decide +kernel) (by decide) rfl (by decide) (by decide) (by decide)]
    cases o
    case reg x0 h0 =>
      cases o'
      case reg x1 h1 =>
        cases o''
        case imm n2 => exact absurd (Means.drw x0 h0 x1 h1 n2) (hno _)
        all_goals simp [Opnd.mode, mREG, mIMM, mI, mDT, mST, mIIND, mIMMV0, mRPL, Outcome.bind, Handler.run, ld, ldm, add, skips, jp, cpuALL, cpuSCHIP]
      all_goals simp [Opnd.mode, mREG, mIMM, mI, mDT, mST, mIIND, mIMMV0, mRPL, Outcome.bind, Handler.run, ld, ldm, add, skips, jp, cpuALL, cpuSCHIP]
    all_goals simp [Opnd.mode, mREG, mIMM, mI, mDT, mST, mIIND, mIMMV0, mRPL, Outcome.bind, Handler.run, ld, ldm, add, skips, jp, cpuALL, cpuSCHIP]
  · obtain ⟨o, rfl⟩ := length_one hl
    rw [instr_one cpu C "SKP" 5 _ o (hops _ (by simp)) rest he (by decide +kernel) (by decide) rfl (by decide) rfl]
    cases o
    case reg x0 h0 => exact absurd (Means.skp x0 h0) (hno _)
    all_goals simp [Opnd.mode, mREG, mIMM, mI, mDT, mST, mIIND, mIMMV0, mRPL, Outcome.bind, Handler.run, ld, ldm, add, skips, jp, cpuALL, cpuSCHIP]
  · obtain ⟨o, rfl⟩ := length_one hl
    rw [instr_one cpu C "SKNP" 4 _ o (hops _ (by simp)) rest he (by decide +kernel) (by decide) rfl (by decide) rfl]
    cases o
    case reg x0 h0 => exact absurd (Means.sknp x0 h0) (hno _)
    all_goals simp [Opnd.mode, mREG, mIMM, mI, mDT, mST, mIIND, mIMMV0, mRPL, Outcome.bind, Handler.run, ld, ldm, add, skips, jp, cpuALL, cpuSCHIP]
  · obtain ⟨o, rfl⟩ := length_one hl
    rw [instr_one cpu C "WKP" 7 _ o (hops _ (by simp)) rest he (by decide +kernel) (by decide) rfl (by decide) rfl]
    cases o
    case reg x0 h0 => exact absurd (Means.wkp x0 h0) (hno _)
    all_goals simp [Opnd.mode, mREG, mIMM, mI, mDT, mST, mIIND, mIMMV0, mRPL, Outcome.bind, Handler.run, ld, ldm, add, skips, jp, cpuALL, cpuSCHIP]
  · obtain ⟨o, rfl⟩ := length_one hl
    rw [instr_one cpu C "LDF" 1 _ o (hops _ (by simp)) rest he (by decide +kernel) (by decide) rfl (by decide) rfl]
    cases o
    case reg x0 h0 => exact absurd (Means.ldf x0 h0) (hno _)
    all_goals simp [Opnd.mode, mREG, mIMM, mI, mDT, mST, mIIND, mIMMV0, mRPL, Outcome.bind, Handler.run, ld, ldm, add, skips, jp, cpuALL, cpuSCHIP]
  · obtain ⟨o, rfl⟩ := length_one hl
    rw [instr_one cpu C "LDF10" 2 _ o (hops _ (by simp)) rest he (by decide +kernel) (by decide) rfl (by decide) rfl]
    cases o
    case reg x0 h0 => exact absurd (Means.ldf10 x0 h0) (hno _)
    all_goals simp [Opnd.mode, mREG, mIMM, mI, mDT, mST, mIIND, mIMMV0, mRPL, Outcome.bind, Handler.run, ld, ldm, add, skips, jp, cpuALL, cpuSCHIP]
  · obtain ⟨o, rfl⟩ := length_one hl
    rw [instr_one cpu C "BCD" 0 _ o (hops _ (by simp)) rest he (by decide +kernel) (by decide) rfl (by decide) rfl]
    cases o
    case reg x0 h0 => exact absurd (Means.bcd x0 h0) (hno _)
    all_goals simp [Opnd.mode, mREG, mIMM, mI, mDT, mST, mIIND, mIMMV0, mRPL, Outcome.bind, Handler.run, ld, ldm, add, skips, jp, cpuALL, cpuSCHIP]
  · obtain ⟨o, o', rfl⟩ := length_two hl
    rw [instr_two cpu C "LDM" 15 _ o o' (hops _ (by simp)) (hops _ (by simp)) rest he (by decide +kernel) (by decide) rfl (by decide) (by decide) rfl]
    cases o
    case ind  =>
      cases o'
      case reg x1 h1 => exact absurd (Means.store x1 h1) (hno _)
      all_goals simp [Opnd.mode, mREG, mIMM, mI, mDT, mST, mIIND, mIMMV0, mRPL, Outcome.bind, Handler.run, ld, ldm, add, skips, jp, cpuALL, cpuSCHIP]
    case reg x0 h0 =>
      cases o'
      case ind  => exact absurd (Means.load x0 h0) (hno _)
      case rpl  => exact absurd (Means.loadFlags x0 h0) (hno _)
      all_goals simp [Opnd.mode, mREG, mIMM, mI, mDT, mST, mIIND, mIMMV0, mRPL, Outcome.bind, Handler.run, ld, ldm, add, skips, jp, cpuALL, cpuSCHIP]
    case rpl  =>
      cases o'
      case reg x1 h1 => exact absurd (Means.saveFlags x1 h1) (hno _)
      all_goals simp [Opnd.mode, mREG, mIMM, mI, mDT, mST, mIIND, mIMMV0, mRPL, Outcome.bind, Handler.run, ld, ldm, add, skips, jp, cpuALL, cpuSCHIP]
    all_goals simp [Opnd.mode, mREG, mIMM, mI, mDT, mST, mIIND, mIMMV0, mRPL, Outcome.bind, Handler.run, ld, ldm, add, skips, jp, cpuALL, cpuSCHIP]

/-- **C50.** An instruction with too few operands is refused, if there is at least one. (If there is none, see `C50_missing`.) -/
theorem C50_few (cpu : Nat) (C : Ctx) (name : String) (n : Nat) (ops : List Opnd) (ha : (name, n) ∈ arity) (hl : 0 < ops.length)
    (hn : ops.length < n) (hops : ∀ o ∈ ops, o.Ok) (rest : Toks) (he : Ends rest) (hc : rest.head? ≠ some .comma) :
    instr cpu C (tok name :: (sep ops ++ rest)) = .fail := by
  have h : ops.length = 1 ∧ n ≠ 1 ∨ ops.length = 2 ∧ n = 3 := by
    have : n ≤ 3 := by
      have h : ∀ p ∈ arity, p.2 ≤ 3 := by decide
      exact h _ ha
    omega
  rcases h with ⟨h, h1⟩ | ⟨h, h3⟩
  · obtain ⟨o, rfl⟩ := length_one h
    simp only [arity, List.mem_cons, Prod.mk.injEq, List.not_mem_nil, or_false] at ha
    rcases ha with ⟨rfl, rfl⟩ | ⟨rfl, rfl⟩ | ⟨rfl, rfl⟩ | ⟨rfl, rfl⟩ | ⟨rfl, rfl⟩ | ⟨rfl, rfl⟩ | ⟨rfl, rfl⟩ | ⟨rfl, rfl⟩ | ⟨rfl, rfl⟩ | ⟨rfl, rfl⟩ | ⟨rfl, rfl⟩ | ⟨rfl, rfl⟩ | ⟨rfl, rfl⟩ | ⟨rfl, rfl⟩ | ⟨rfl, rfl⟩ | ⟨rfl, rfl⟩ | ⟨rfl, rfl⟩ | ⟨rfl, rfl⟩ | ⟨rfl, rfl⟩ | ⟨rfl, rfl⟩ | ⟨rfl, rfl⟩ | ⟨rfl, rfl⟩ | ⟨rfl, rfl⟩ | ⟨rfl, rfl⟩ | ⟨rfl, rfl⟩ | ⟨rfl, rfl⟩ | ⟨rfl, rfl⟩ | ⟨rfl, rfl⟩ | ⟨rfl, rfl⟩ | ⟨rfl, rfl⟩
    · exact absurd hn (by simp)
    · exact absurd hn (by simp)
    · exact absurd hn (by simp)
    · exact absurd hn (by simp)
    · exact absurd hn (by simp)
    · exact absurd hn (by simp)
    · exact absurd hn (by simp)
    · exact absurd rfl h1
    · exact absurd rfl h1
    · exact absurd rfl h1
    · exact short_two cpu C "SE" 17 _ o (hops _ (by simp)) rest he hc (by decide +kernel) (by decide) rfl (by decide) (by decide)
    · exact short_two cpu C "SNE" 18 _ o (hops _ (by simp)) rest he hc (by decide +kernel) (by decide) rfl (by decide) (by decide)
    · exact short_two cpu C "LD" 14 _ o (hops _ (by simp)) rest he hc (by decide +kernel) (by decide) rfl (by decide) (by decide)
    · exact short_two cpu C "ADD" 16 _ o (hops _ (by simp)) rest he hc (by decide +kernel) (by decide) rfl (by decide) (by decide)
    · exact short_two cpu C "OR" 9 _ o (hops _ (by simp)) rest he hc (by decide +kernel) (by decide) rfl (by decide) (by decide)
    · exact short_two cpu C "AND" 8 _ o (hops _ (by simp)) rest he hc (by decide +kernel) (by decide) rfl (by decide) (by decide)
    · exact short_two cpu C "XOR" 12 _ o (hops _ (by simp)) rest he hc (by decide +kernel) (by decide) rfl (by decide) (by decide)
    · exact short_two cpu C "SUB" 10 _ o (hops _ (by simp)) rest he hc (by decide +kernel) (by decide) rfl (by decide) (by decide)
    · exact short_two cpu C "SUBN" 11 _ o (hops _ (by simp)) rest he hc (by decide +kernel) (by decide) rfl (by decide) (by decide)
    · exact absurd rfl h1
    · exact absurd rfl h1
    · exact short_two cpu C "RND" 19 _ o (hops _ (by simp)) rest he hc (by decide +kernel) (by decide) rfl (by decide) (by decide)
    · exact short_two cpu C "DRW" 13 _ o (hops _ (by simp)) rest he hc (by decide +kernel) (by decide) rfl (by decide) (by decide)
    · exact absurd rfl h1
    · exact absurd rfl h1
    · exact absurd rfl h1
    · exact absurd rfl h1
    · exact absurd rfl h1
    · exact absurd rfl h1
    · exact short_two cpu C "LDM" 15 _ o (hops _ (by simp)) rest he hc (by decide +kernel) (by decide) rfl (by decide) (by decide)
  · obtain ⟨o, o', rfl⟩ := length_two h
    subst h3
    have : name = "DRW" := by simpa [arity] using ha
    subst this
    exact short_three cpu C "DRW" 13 _ o o' (hops _ (by simp)) (hops _ (by simp)) rest he hc (by decide +kernel) (by decide) rfl (by decide) (by decide) (by decide)

/-- **C50.** The instructions of SUPER-CHIP are refused for CHIP-8; but see `C50_flags`. -/
theorem C50_super (C : Ctx) (name : String) (ops : List Opnd) (i : Instr Tree) (hr : Means name ops i) (hs : i.super = true)
    (hf : ∀ x, i ≠ .saveFlags x ∧ i ≠ .loadFlags x) (rest : Toks) :
    instr cpuCHIP8 C (tok name :: (sep ops ++ rest)) = .fail := by
  cases hr
  case scr => exact (instr_eq _ C "SCR" 28 _ _ (by decide +kernel) (by decide) rfl).trans (if_pos (by decide))
  case scl => exact (instr_eq _ C "SCL" 29 _ _ (by decide +kernel) (by decide) rfl).trans (if_pos (by decide))
  case exit => exact (instr_eq _ C "EXIT" 24 _ _ (by decide +kernel) (by decide) rfl).trans (if_pos (by decide))
  case low => exact (instr_eq _ C "LOW" 25 _ _ (by decide +kernel) (by decide) rfl).trans (if_pos (by decide))
  case high => exact (instr_eq _ C "HIGH" 26 _ _ (by decide +kernel) (by decide) rfl).trans (if_pos (by decide))
  case scd n0 => exact (instr_eq _ C "SCD" 20 _ _ (by decide +kernel) (by decide) rfl).trans (if_pos (by decide))
  case ldf10 x0 h0 => exact (instr_eq _ C "LDF10" 2 _ _ (by decide +kernel) (by decide) rfl).trans (if_pos (by decide))
  case saveFlags x h => exact absurd rfl (hf x).1
  case loadFlags x h => exact absurd rfl (hf x).2
  all_goals exact absurd hs (by simp [Instr.super])

/-- **C50.** `JP` adds no register but `V0`. -/
theorem C50_offset (cpu : Nat) (C : Ctx) (x : Fin 16) (hx : x ≠ 0) (hex : Bool) (rest : Toks) :
    instr cpu C (tok "JP" :: tok (regName x hex) :: .op .add :: rest) = .fail := by
  rw [instr_eq cpu C "JP" 21 _ _ (by decide +kernel) (by decide) rfl]
  split
  · rfl
  · have hne : x.val ≠ 0 := fun h => hx (Fin.ext h)
    have hlt := x.isLt
    have h0 : T.v0.num = 6030 := rfl
    have h1 : T.v15.num = 6045 := rfl
    have ha : addressMode C (tok (regName x hex) :: .op .add :: rest) = .ok (false, ⟨mREG, x.val, none⟩, .op .add :: rest) := by
      rw [tok_reg]
      have hg : getRegister (.other (6030 + x.val) :: .op .add :: rest) = (x.val, .op .add :: rest) := by
        simp only [getRegister]
        rw [if_pos (by omega), h0, show 6030 + x.val - 6030 = x.val by omega]
      unfold addressMode
      rw [hg]
      simp only
      rw [if_pos (by omega), if_neg hne]
    unfold operands
    rw [if_neg (by decide), ha]
    rfl

/-! ### Disagreements -/

/-- Not so: the flags of SUPER-CHIP can be saved and loaded with CHIP-8. -/
theorem C50_flags (C : Ctx) (x : Fin 16) (h : Bool) (rest : Toks) (he : Ends rest) :
    instr cpuCHIP8 C (tok "LDM" :: (sep [.rpl, .reg x h] ++ rest)) = .ok (some ([.const 2 (0xF075 ||| (x.val <<< 8))], rest)) ∧
    instr cpuCHIP8 C (tok "LDM" :: (sep [.reg x h, .rpl] ++ rest)) = .ok (some ([.const 2 (0xF085 ||| (x.val <<< 8))], rest)) := by
  constructor
  · rw [instr_two cpuCHIP8 C "LDM" 15 _ .rpl (.reg x h) trivial trivial rest he (by decide +kernel) (by decide) rfl (by decide) (by decide) rfl]
    simp [Opnd.mode, mREG, mIIND, mRPL, Outcome.bind, Handler.run, ldm, modeReg, cpuALL, cpuCHIP8]
  · rw [instr_two cpuCHIP8 C "LDM" 15 _ (.reg x h) .rpl trivial trivial rest he (by decide +kernel) (by decide) rfl (by decide) (by decide) rfl]
    simp [Opnd.mode, mREG, mIIND, mRPL, Outcome.bind, Handler.run, ldm, modeReg, cpuALL, cpuCHIP8]

/-- Not so: `SCD n` is never assembled. The handler takes the number from the third operand, which there is not. -/
theorem C50_scd (cpu : Nat) (C : Ctx) (n : Tree) (hn : Readable 1 n) (rest : Toks) (he : Ends rest) :
    instr cpu C (tok "SCD" :: (sep [.imm n] ++ rest)) = .fail := by
  rw [instr_one cpu C "SCD" 20 _ (.imm n) hn rest he (by decide +kernel) (by decide) rfl (by decide) rfl]
  simp only [Handler.run, scrd, noMode, check]
  repeat' split
  all_goals rfl

/-- Not so: without its operand an instruction is assembled with the register 255, which becomes another register or
another instruction. -/
theorem C50_missing (C : Ctx) :
    instr cpuSCHIP C [tok "SHL"] = .ok (some ([.const 2 0xFF0E], [])) ∧
    instr cpuSCHIP C [tok "SKP"] = .ok (some ([.const 2 0xFF9E], [])) ∧
    instr cpuSCHIP C [tok "AND", tok "V1", .comma] = .ok (some ([.const 2 0x8FF2], [])) := by
  refine ⟨rfl, rfl, rfl⟩

/-- Not so: the mnemonics `LO` and `HI` of the documentation are not known. -/
theorem C50_lo_hi (cpu : Nat) (C : Ctx) (rest : Toks) :
    instr cpu C (tok "LO" :: rest) = .ok none ∧ instr cpu C (tok "HI" :: rest) = .ok none := by
  have h1 : tok "LO" = .sym "LO".toList := by decide +kernel
  have h2 : tok "HI" = .sym "HI".toList := by decide +kernel
  rw [h1, h2]
  exact ⟨rfl, rfl⟩

/-! ### Examples -/

example : Means "DRW" [.reg 3 false, .reg 10 true, .imm (.bin .add (.num 2) (.num 3))] (.drw 3 10 (.bin .add (.num 2) (.num 3))) :=
  .drw 3 false 10 true _

example : tok "DRW" :: (sep [.reg 3 false, .reg 10 true, .imm (.num 5)]) = [tok "DRW", tok "V3", .comma, tok "VA", .comma, .num 5] := rfl

example : Readable 1 (.bin .add (.num 2) (.num 3)) :=
  ⟨by simp [Tree.Fits, opLevel, Tree.level], by simp [Tree.Nots, Tree.leads], rfl, by simp [Tree.Short], Or.inl (by simp [Tree.Plain])⟩

example : instr cpuCHIP8 ⟨fun _ => 0, 0, fun _ => none⟩ [tok "DRW", tok "V3", .comma, tok "VA", .comma, .num 5] =
    .ok (some ([.expr 2 (.bin .or (.num 0xD3A0) (.bin .and (checkRange (.num 5) 0 16) (.num 15)))], [])) := rfl

example : decode 0xD3A5 = some (.drw 3 10 5) := rfl

example : ("ADD", 2) ∈ arity ∧ ∀ i, ¬ Means "ADD" [.dt, .reg 1 false] i := ⟨by decide, fun i h => by
  generalize hn : "ADD" = s at h
  cases h <;> simp at hn⟩

end Verif.Cpu.Schip
