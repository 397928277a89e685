import Verif.Cpu.M6809.Spec
/-!
# What the parser of modes makes of the operands
-/
set_option linter.constructorNameAsVariable false

namespace Verif.Cpu.M6809

open Verif.Parse (Tok Toks Tree)
open Verif.Expr (Src FMath ASym Den BinOp u32 wrap)
open Verif.Cpu.X65 (EndOfLine ok_bind Front front)

/-- What may follow an operand or its part in brackets: the end or a character. -/
def After (rest : Toks) : Prop := ∀ x, rest.head? = some x → ∃ n, x = .other n ∧ n < 256

theorem After.ends {rest : Toks} (h : After rest) : Ends rest := fun x hx => by
  obtain ⟨n, hn, _⟩ := h x hx
  exact Or.inr (Or.inr ⟨n, hn⟩)

theorem After.eol {rest : Toks} (h : EndOfLine rest) : After rest := fun x hx => ⟨10, h x hx, by decide⟩

theorem After.close (rest : Toks) : After (.other 93 :: rest) := fun x hx => by
  simp only [List.head?_cons, Option.some.injEq] at hx
  exact ⟨93, hx.symm, by decide⟩

theorem After.cases {rest : Toks} (h : After rest) : rest = [] ∨ ∃ n xs, n < 256 ∧ rest = .other n :: xs := by
  cases rest with
  | nil => exact Or.inl rfl
  | cons x xs =>
    obtain ⟨n, hn, hl⟩ := h x rfl
    exact Or.inr ⟨n, xs, hl, by rw [hn]⟩

/-! ### Expressions -/

theorem prefix_reads (f : Force) (t : Tree) (rest : Toks) :
    «prefix» (f.toks ++ (t.toks ++ rest)) = (decide (f = .gt), decide (f = .lt), t.toks ++ rest) := by
  obtain ⟨x, xs, ht, hx⟩ := front t
  rw [ht]
  cases f with
  | no =>
    show «prefix» (x :: (xs ++ rest)) = (false, false, x :: (xs ++ rest))
    unfold «prefix»
    split
    · rename_i e; injection e with e _; subst e; rcases hx with hx | hx <;> cases hx
    · rename_i e; injection e with e _; subst e; rcases hx with hx | hx <;> cases hx
    · rename_i e; injection e with e _; subst e; rcases hx with hx | hx <;> cases hx
    · rfl
  | lt => rfl
  | gt =>
    show «prefix» (.op .gt :: x :: (xs ++ rest)) = (true, false, x :: (xs ++ rest))
    unfold «prefix»
    split
    · rename_i e; cases e; rcases hx with hx | hx <;> cases hx
    · rename_i e; cases e; rfl
    · rename_i e; cases e
    · rename_i h1 h2 h3; exact absurd rfl (h2 _)

/-- The first token of an expression with a prefix. -/
theorem force_front (f : Force) (t : Tree) (rest : Toks) :
    ∃ x, (f.toks ++ (t.toks ++ rest)).head? = some x ∧ x ≠ .comma ∧ ∀ n, x ≠ .other n := by
  obtain ⟨x, xs, ht, hx⟩ := front t
  rw [ht]
  cases f with
  | no =>
    refine ⟨x, rfl, ?_, fun n => ?_⟩
    · rintro rfl; rcases hx with hx | hx <;> cases hx
    · rintro rfl; rcases hx with hx | hx <;> cases hx
  | lt => exact ⟨_, rfl, fun h => (nomatch h), fun n h => (nomatch h)⟩
  | gt => exact ⟨_, rfl, fun h => (nomatch h), fun n h => (nomatch h)⟩

variable {C : Ctx} {A : Nat}

theorem core_mem (hl : has A (M.listS ||| M.listU) = false) {toks : Toks} {x : Tok} (hx : toks.head? = some x) (hc : x ≠ .comma)
    (ho : ∀ n, x ≠ .other n) : core C A toks = memMode C A toks := by
  unfold core
  rw [if_neg (by rw [hl]; decide)]
  cases toks with
  | nil => rfl
  | cons y ys =>
    obtain rfl : y = x := Option.some.inj hx
    cases y with
    | comma => exact absurd rfl hc
    | other n => exact absurd rfl (ho n)
    | _ => rfl

theorem mem_reads {f : Force} {t : Tree} (hr : Readable 2 t) {rest : Toks} (he : Ends rest) :
    (expr C 2 («prefix» (f.toks ++ (t.toks ++ rest))).2.2) = .ok (some (C.src t), rest) := by
  rw [prefix_reads]
  exact expr_reads C hr he

/-- An address. -/
theorem core_addr (hl : has A (M.listS ||| M.listU) = false) {f : Force} {t : Tree} (hr : Readable 2 t) {rest : Toks}
    (he : After rest) : core C A (f.toks ++ (t.toks ++ rest)) =
      plainMode A (decide (f = .gt)) (decide (f = .lt)) (some (C.src t)) rest (f.toks ++ (t.toks ++ rest)) := by
  obtain ⟨x, hx, hc, ho⟩ := force_front f t rest
  rw [core_mem hl hx hc ho]
  unfold memMode
  rw [mem_reads hr he.ends, ok_bind, prefix_reads]
  simp only
  rcases he.cases with rfl | ⟨n, xs, _, rfl⟩ <;> simp only [ite_self]

/-- An offset and a register. -/
theorem core_off (hl : has A (M.listS ||| M.listU) = false) (ha : has A (M.r5 ||| M.r8 ||| M.r16 ||| M.pc8 ||| M.pc16) = true)
    {f : Force} {t : Tree} (hr : Readable 2 t) {r : R} (hi : r ≠ .pcr) (rest : Toks) :
    core C A (f.toks ++ (t.toks ++ .comma :: r.tok :: rest)) =
      match offsetMode C A (decide (f = .gt)) (decide (f = .lt)) (some (C.src t)) r.num with
      | some am => .ok (am, rest)
      | none => plainMode A (decide (f = .gt)) (decide (f = .lt)) (some (C.src t)) (r.tok :: rest)
          (f.toks ++ (t.toks ++ .comma :: r.tok :: rest)) := by
  obtain ⟨x, hx, hc, ho⟩ := force_front f t (.comma :: r.tok :: rest)
  rw [core_mem hl hx hc ho]
  unfold memMode
  rw [mem_reads hr (Ends.comma _), ok_bind, prefix_reads]
  simp only
  rw [if_pos ha]
  unfold R.tok
  simp only
  rw [if_neg (by revert hi; cases r <;> decide)]
  rfl

/-- An offset from the program counter. -/
theorem core_pcr (hl : has A (M.listS ||| M.listU) = false) (ha : has A (M.r5 ||| M.r8 ||| M.r16 ||| M.pc8 ||| M.pc16) = true)
    {f : Force} {t : Tree} (hr : Readable 2 t) (rest : Toks) :
    core C A (f.toks ++ (t.toks ++ .comma :: R.pcr.tok :: rest)) =
      (if has A M.pc8 && decide (f = .lt) then .ok (⟨M.pc8, some 0x8C, some (C.src t)⟩, rest)
       else if has A M.pc16 then .ok (⟨M.pc16, some 0x8D, some (C.src t)⟩, rest)
       else .fail) := by
  obtain ⟨x, hx, hc, ho⟩ := force_front f t (.comma :: R.pcr.tok :: rest)
  rw [core_mem hl hx hc ho]
  unfold memMode
  rw [mem_reads hr (Ends.comma _), ok_bind, prefix_reads]
  simp only
  rw [if_pos ha]
  rfl

/-! ### Registers -/

/-- The bits of a register in the post byte. -/
def R.bits (r : R) : Nat := (r.num - R.x.num) <<< 5

theorem indexReg_num {r : R} (h : r.isIndex = true) : indexReg r.num = some r.bits := by
  cases r <;> first | (cases h; done) | rfl

theorem signs_after (o : BinOp) {rest : Toks} (h : After rest) : signs o rest = (0, rest) := by
  rcases h.cases with rfl | ⟨n, xs, _, rfl⟩ <;> rfl

theorem signs_reg (o : BinOp) (r : R) (rest : Toks) : signs o (r.tok :: rest) = (0, r.tok :: rest) := rfl

theorem core_auto (hl : has A (M.listS ||| M.listU) = false)
    (ha : has A (M.inc1 ||| M.inc2 ||| M.dec1 ||| M.dec2 ||| M.r) = true) (rest : Toks) :
    core C A (.comma :: rest) = autoMode A rest := by
  unfold core
  rw [if_neg (by rw [hl]; decide)]
  exact if_pos ha

theorem auto_of {minus plus : Nat} {toks rest : Toks} {r : R} (hr : r.isIndex = true)
    (hm : signs .sub toks = (minus, r.tok :: rest)) {rest' : Toks} (hp : signs .add rest = (plus, rest')) :
    autoMode A toks =
      (if minus = 0 ∧ plus = 1 ∧ has A M.inc1 then .ok (⟨M.inc1, some (0x80 ||| r.bits), none⟩, rest')
      else if minus = 0 ∧ plus = 2 ∧ has A M.inc2 then .ok (⟨M.inc2, some (0x81 ||| r.bits), none⟩, rest')
      else if minus = 1 ∧ plus = 0 ∧ has A M.dec1 then .ok (⟨M.dec1, some (0x82 ||| r.bits), none⟩, rest')
      else if minus = 2 ∧ plus = 0 ∧ has A M.dec2 then .ok (⟨M.dec2, some (0x83 ||| r.bits), none⟩, rest')
      else if minus = 0 ∧ plus = 0 ∧ has A M.r then .ok (⟨M.r, some (0x84 ||| r.bits), none⟩, rest')
      else .fail) := by
  unfold autoMode
  rw [hm]
  simp only [R.tok]
  rw [indexReg_num hr]
  simp only [hp]

theorem core_acc (hl : has A (M.listS ||| M.listU) = false) {r : R} (hr : r.isIndex = true) (rest : Toks) :
    (has A M.ra = true → core C A (R.a.tok :: .comma :: r.tok :: rest) = .ok (⟨M.ra, some (0x86 ||| r.bits), none⟩, rest)) ∧
    (has A M.rb = true → core C A (R.b.tok :: .comma :: r.tok :: rest) = .ok (⟨M.rb, some (0x85 ||| r.bits), none⟩, rest)) ∧
    (has A M.rd = true → core C A (R.d.tok :: .comma :: r.tok :: rest) = .ok (⟨M.rd, some (0x8B ||| r.bits), none⟩, rest)) := by
  have hn := indexReg_num hr
  refine ⟨fun h => ?_, fun h => ?_, fun h => ?_⟩
  all_goals
    unfold core
    rw [if_neg (by rw [hl]; decide)]
    simp only [R.tok]
  · rw [if_pos (by rw [h]; decide)]
    simp only [accMode, hn]
  · rw [if_neg (by rw [show (R.b.num == R.a.num) = false from by decide]; simp), if_pos (by rw [h]; decide)]
    simp only [accMode, hn]
  · rw [if_neg (by rw [show (R.d.num == R.a.num) = false from by decide]; simp),
      if_neg (by rw [show (R.d.num == R.b.num) = false from by decide]; simp), if_pos (by rw [h]; decide)]
    simp only [accMode, hn]

/-- The stack pointer that can be in a list. -/
def otherStack (A : Nat) : R := if has A M.listS then .s else .u

/-- The bit of a register in a list. -/
def R.listBit (r other : R) : Nat :=
  if r = .ccr then 0x01 else if r = .a then 0x02 else if r = .b then 0x04 else if r = .dpr then 0x08 else if r = .x then 0x10
  else if r = .y then 0x20 else if r = .pcr then 0x80 else if r = other then 0x40 else 0

theorem listBit_reg {r : R} (h : r ∈ listRegs (otherStack A)) :
    listBit A r.num = .ok (r.listBit (otherStack A)) ∧ r.listBit (otherStack A) ≠ 0 := by
  unfold listBit otherStack at *
  generalize has A M.listS = b at *
  revert h
  cases b <;> cases r <;> decide

theorem listBit_char {n : Nat} (h : n < 256) : listBit A n = .ok 0 := by
  have hr (r : R) : n ≠ r.num := by unfold R.num; omega
  unfold listBit
  rw [if_neg (hr _), if_neg (hr _), if_neg (hr _), if_neg (hr _), if_neg (hr _), if_neg (hr _), if_neg (hr _),
    if_neg (by split <;> exact hr _), if_neg (by split <;> exact hr _)]

theorem regList_after (bits : Nat) {rest : Toks} (he : After rest) : regList A bits rest = .ok (bits, rest) := by
  rcases he.cases with rfl | ⟨n, xs, hn, rfl⟩
  · rfl
  · unfold regList
    rw [listBit_char hn, ok_bind, if_pos rfl]

theorem regList_reads : ∀ (rs : List R) (bits : Nat) {rest : Toks}, After rest → (∀ r ∈ rs, r ∈ listRegs (otherStack A)) →
    regList A bits (commaList rs ++ rest) = .ok (rs.foldl (fun b r => b ||| r.listBit (otherStack A)) bits, rest)
  | [], bits, rest, he, _ => regList_after bits he
  | [r], bits, rest, he, h => by
    obtain ⟨h1, h2⟩ := listBit_reg (h r (List.mem_cons_self ..))
    show regList A bits (.other r.num :: rest) = _
    unfold regList
    rw [h1, ok_bind, if_neg h2]
    split
    · rename_i xs
      obtain ⟨n, hn, _⟩ := he _ rfl
      cases hn
    · rfl
  | r :: r' :: rs, bits, rest, he, h => by
    obtain ⟨h1, h2⟩ := listBit_reg (h r (List.mem_cons_self ..))
    show regList A bits (.other r.num :: .comma :: (commaList (r' :: rs) ++ rest)) = _
    rw [regList, h1, ok_bind, if_neg h2]
    exact regList_reads (r' :: rs) _ he fun x hx => h x (List.mem_cons_of_mem _ hx)

theorem core_list (hl : has A (M.listS ||| M.listU) = true) {rs : List R} (h : ∀ r ∈ rs, r ∈ listRegs (otherStack A)) {rest : Toks}
    (he : After rest) : core C A (commaList rs ++ rest) =
      .ok (⟨A &&& (M.listS ||| M.listU), some (rs.foldl (fun b r => b ||| r.listBit (otherStack A)) 0), none⟩, rest) := by
  unfold core
  rw [if_pos hl, regList_reads rs 0 he h, ok_bind]

/-- No operand. -/
theorem core_none {toks : Toks} (h : ∀ x, toks.head? = some x → ∃ n, x = .other n) : core C M.none toks = .ok (⟨M.none, none, none⟩, toks) := by
  cases toks with
  | nil => rfl
  | cons x xs =>
    obtain ⟨n, rfl⟩ := h x rfl
    rfl

/-! ### With and without brackets -/

theorem read_plain {toks : Toks} (h : toks.head? ≠ some (.other 35) ∨ has A M.imm = false) (h' : toks.head? ≠ some (.other 91) ∨ has A M.ind = false) :
    addrMode C A toks = core C A toks := by
  unfold addrMode
  rw [if_neg, if_neg]
  · rintro ⟨h1, h2⟩; rcases h' with h' | h'
    · exact h' h2
    · rw [h'] at h1; cases h1
  · rintro ⟨h1, h2⟩; rcases h with h | h
    · exact h h2
    · rw [h] at h1; cases h1

theorem read_brackets (hi : has A M.ind = true) {toks rest : Toks} {am : Am}
    (h : core C M.indirect (toks ++ .other 93 :: rest) = .ok (am, .other 93 :: rest)) :
    addrMode C A (.other 91 :: (toks ++ [.other 93]) ++ rest) = (bracketed am).bind fun am => .ok (am, rest) := by
  unfold addrMode
  rw [if_neg (by rintro ⟨_, h⟩; cases h), if_pos ⟨hi, rfl⟩]
  rw [show (Tok.other 91 :: (toks ++ [.other 93]) ++ rest).tail = toks ++ .other 93 :: rest from by simp, h, ok_bind]
  rfl

theorem read_imm (hi : has A M.imm = true) {t : Tree} (hr : Readable 2 t) {rest : Toks} (he : Ends rest) :
    addrMode C A (.other 35 :: t.toks ++ rest) = .ok (⟨M.imm, none, some (C.src t)⟩, rest) := by
  unfold addrMode
  rw [if_pos ⟨hi, rfl⟩]
  show exprMode C M.imm (t.toks ++ rest) = _
  unfold exprMode
  rw [expr_reads C hr he, ok_bind]

end Verif.Cpu.M6809
