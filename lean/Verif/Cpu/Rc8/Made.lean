import Verif.Cpu.Rc8.Machine
/-!
# Instructions that are made up of others
-/
namespace Verif.Cpu.Rc8

open Verif.Parse (Tok Toks Tree)
open Verif.Expr (Src FMath ASym Den wrap)

theorem does_exg8 (a b : R8) (ha : a ≠ .t) (hb : b ≠ .t) (hab : a ≠ b) :
    Does [0x10 ||| b.n, 0x10 ||| a.n, 0x10 ||| b.n] fun cpu s => act cpu 0 s (.exg8 a b) := by
  refine Does.to ((doesExg8 b hb).append <| (doesExg8 a ha).append (doesExg8 b hb)) fun cpu s => ?_
  have ha' := Ne.symm ha
  have hb' := Ne.symm hb
  have hab' := Ne.symm hab
  refine State.ext' (fun q => ?_) rfl rfl rfl rfl rfl
  simp only [act, State.set8]
  by_cases h1 : q = a
  · subst h1; simp [hab, ha, ha', hb, hb', hab']
  · by_cases h2 : q = b
    · subst h2; simp [hab, ha, ha', hb, hb', hab']
    · by_cases h3 : q = .t
      · subst h3; simp [hab, ha, ha', hb, hb', hab']
      · simp [h1, h2, h3]

theorem does_exg16 (a b : R16) (ha : a ≠ .ft) (hb : b ≠ .ft) (hab : a ≠ b) :
    Does [0xC8 ||| b.n, 0xC8 ||| a.n, 0xC8 ||| b.n] fun cpu s => act cpu 0 s (.exg16 a b) := by
  refine Does.to ((doesExg16 b hb).append <| (doesExg16 a ha).append (doesExg16 b hb)) fun cpu s => ?_
  cases a <;> cases b <;> first | exact absurd rfl ha | exact absurd rfl hb | exact absurd rfl hab | states

/-! ### Numbers -/

theorem doesAdd16 (p : R16) (n : Nat) (hn : n < 256) : Does [0xBC ||| p.n, n] fun cpu s => act cpu 0 s (.alun16 .add p (signed n)) :=
  .two (by cases p <;> decide) hn _ rfl (fun a => by cases p <;> rfl)

theorem doesAdd8 (q : R8) (n : Nat) (hn : n < 256) : Does [0xA0 ||| q.n, n] fun cpu s => act cpu 0 s (.alun8 .add q n) :=
  .two (by cases q <;> decide) hn _ rfl (fun a => by cases q <;> rfl)

theorem act_add16 {v w : Int} (h : wordOf v = wordOf w) (p : R16) (cpu : Cpu) (s : State) :
    act cpu 0 s (.alun16 .add p v) = act cpu 0 s (.alun16 .add p w) := by
  simp only [act, h]

theorem act_add8 {v w : Int} (h : byteOf v = byteOf w) (q : R8) (cpu : Cpu) (s : State) :
    act cpu 0 s (.alun8 .add q v) = act cpu 0 s (.alun8 .add q w) := by
  simp only [act, h]

theorem act_sub16 (p : R16) (v : Int) (cpu : Cpu) (s : State) :
    act cpu 0 s (.alun16 .add p (-v)) = act cpu 0 s (.alun16 .sub p v) := by
  simp only [act, wordOf, Alu.op, BitVec.ofInt_neg, BitVec.sub_eq_add_neg]

theorem act_sub8 (q : R8) (v : Int) (cpu : Cpu) (s : State) :
    act cpu 0 s (.alun8 .add q (-v)) = act cpu 0 s (.alun8 .sub q v) := by
  simp only [act, byteOf, Alu.op, BitVec.ofInt_neg, BitVec.sub_eq_add_neg]

theorem hi_add (w : Word) (h : Byte) : hi (w + BitVec.ofNat 16 (256 * h.toNat)) = hi w + h := by
  apply BitVec.eq_of_toNat_eq
  have := w.isLt
  have := h.isLt
  simp only [hi, BitVec.toNat_ofNat, BitVec.toNat_add]
  omega

theorem lo_add (w : Word) (h : Byte) : lo (w + BitVec.ofNat 16 (256 * h.toNat)) = lo w := by
  apply BitVec.eq_of_toNat_eq
  have := w.isLt
  have := h.isLt
  simp only [lo, BitVec.toNat_ofNat, BitVec.toNat_add]
  omega

theorem wordOf_eq {v w : Int} : wordOf v = wordOf w ↔ v % 65536 = w % 65536 := by
  constructor
  · intro h
    have := congrArg BitVec.toNat h
    rw [wordOf_toNat, wordOf_toNat] at this
    omega
  · intro h
    apply BitVec.eq_of_toNat_eq
    rw [wordOf_toNat, wordOf_toNat]
    omega

theorem byteOf_eq {v w : Int} : byteOf v = byteOf w ↔ v % 256 = w % 256 := by
  constructor
  · intro h
    have := congrArg BitVec.toNat h
    rw [byteOf_toNat, byteOf_toNat] at this
    omega
  · intro h
    apply BitVec.eq_of_toNat_eq
    rw [byteOf_toNat, byteOf_toNat]
    omega

/-- The low part is added to the pair and the high part to its high register. -/
theorem does_add16 (d : R16) (l h : Nat) (hl : l < 256) (hh : h < 256) (v : Int) (hv : v % 65536 = (signed l + 256 * h) % 65536) :
    Does [0xBC ||| d.n, l, 0xA0 ||| d.hi.n, h] fun cpu s => act cpu 0 s (.alun16 .add d v) := by
  refine Does.to ((doesAdd16 d l hl).append (doesAdd8 d.hi h hh)) fun cpu s => ?_
  have hw : wordOf v = wordOf (signed l) + BitVec.ofNat 16 (256 * (byteOf h).toNat) := by
    apply BitVec.eq_of_toNat_eq
    rw [BitVec.toNat_add, BitVec.toNat_ofNat, wordOf_toNat, wordOf_toNat, byteOf_toNat]
    omega
  refine State.ext' (fun q => ?_) ?_ ?_ ?_ ?_ ?_
  · cases d <;> cases q <;>
      simp [act, State.set, State.set8, R16.hi, R16.lo, Alu.op, hw, ← BitVec.add_assoc, hi_add, lo_add]
  all_goals (cases d <;> simp [act, State.set, State.set8])

theorem does_add16_low (d : R16) (l : Nat) (hl : l < 256) (v : Int) (hv : v % 65536 = signed l % 65536) :
    Does [0xBC ||| d.n, l] fun cpu s => act cpu 0 s (.alun16 .add d v) :=
  Does.to (doesAdd16 d l hl) fun cpu s => act_add16 (wordOf_eq.2 hv.symm) d cpu s

theorem does_add16_high (d : R16) (h : Nat) (hh : h < 256) (v : Int) (hv : v % 65536 = 256 * h % 65536) :
    Does [0xA0 ||| d.hi.n, h] fun cpu s => act cpu 0 s (.alun16 .add d v) := by
  refine Does.to (doesAdd8 d.hi h hh) fun cpu s => ?_
  have hw : wordOf v = BitVec.ofNat 16 (256 * (byteOf h).toNat) := by
    apply BitVec.eq_of_toNat_eq
    rw [BitVec.toNat_ofNat, wordOf_toNat, byteOf_toNat]
    omega
  refine State.ext' (fun q => ?_) ?_ ?_ ?_ ?_ ?_
  · cases d <;> cases q <;>
      simp [act, State.set, State.set8, State.get, R16.hi, R16.lo, Alu.op, hw, hi_add, lo_add, hi_pair, lo_pair]
  all_goals (cases d <;> simp [act, State.set, State.set8])

theorem does_add16_zero (d : R16) (v : Int) (hv : v % 65536 = 0) : Does [] fun cpu s => act cpu 0 s (.alun16 .add d v) := by
  refine Does.to .nil fun cpu s => ?_
  have hw : wordOf v = 0 := by
    apply BitVec.eq_of_toNat_eq
    rw [wordOf_toNat, hv]; rfl
  refine State.ext' (fun q => ?_) ?_ ?_ ?_ ?_ ?_
  · cases d <;> cases q <;>
      simp [act, State.set, State.set8, State.get, R16.hi, R16.lo, Alu.op, hw, hi_pair, lo_pair]
  all_goals (cases d <;> simp [act, State.set, State.set8])

theorem hi_wordOf (v : Int) : hi (wordOf v) = byteOf (v / 256) := by
  apply BitVec.eq_of_toNat_eq
  simp only [hi, BitVec.toNat_ofNat, wordOf_toNat, byteOf_toNat]
  omega

theorem lo_wordOf (v : Int) : lo (wordOf v) = byteOf v := by
  apply BitVec.eq_of_toNat_eq
  simp only [lo, BitVec.toNat_ofNat, wordOf_toNat, byteOf_toNat]
  omega

theorem does_ldn16 (d : R16) (h l : Nat) (hh : h < 256) (hl : l < 256) (v : Int) (hv : v % 65536 = 256 * h + l) :
    Does [0x80 ||| d.hi.n, h, 0x80 ||| d.lo.n, l] fun cpu s => act cpu 0 s (.ldn16 d v) := by
  refine Does.to ((doesLdn d.hi h hh).append (doesLdn d.lo l hl)) fun cpu s => ?_
  have e1 : byteOf (v / 256) = byteOf h := byteOf_eq.2 (by omega)
  have e2 : byteOf v = byteOf l := byteOf_eq.2 (by omega)
  refine State.ext' (fun q => ?_) ?_ ?_ ?_ ?_ ?_
  · cases d <;> cases q <;> simp [act, State.set, State.set8, R16.hi, R16.lo, hi_wordOf, lo_wordOf, e1, e2]
  all_goals (cases d <;> simp [act, State.set, State.set8])

/-- `FT` with the sign of `T`. -/
theorem does_ldn16_ext (h l : Nat) (hl : l < 256) (v : Int) (hv : v % 65536 = 256 * h + l)
    (hs : (h = 255 ∧ 128 ≤ l) ∨ (h = 0 ∧ l < 128)) : Does [0x81, l, 0x49] fun cpu s => act cpu 0 s (.ldn16 .ft v) := by
  refine Does.to ((doesLdn .t l hl).append (.one (op := 0x49) (by decide) .ext rfl (fun a n => rfl))) fun cpu s => ?_
  have e1 : byteOf (v / 256) = byteOf h := byteOf_eq.2 (by omega)
  have e2 : byteOf v = byteOf l := byteOf_eq.2 (by omega)
  have e3 : (if (byteOf l).msb then (255 : Byte) else 0) = byteOf h := by
    rw [BitVec.msb_eq_decide, byteOf_toNat]
    rcases hs with ⟨rfl, h⟩ | ⟨rfl, h⟩
    · rw [if_pos (by simp; omega)]; rfl
    · rw [if_neg (by simp; omega)]; rfl
  refine State.ext' (fun q => ?_) ?_ ?_ ?_ ?_ ?_
  · cases q <;> simp [act, State.set, State.set8, R16.hi, R16.lo, hi_wordOf, lo_wordOf, e1, e2]
    exact e3
  all_goals simp [act, State.set, State.set8]

theorem does_ldn16_same (l : Nat) (hl : l < 256) (v : Int) (hv : v % 65536 = 256 * l + l) :
    Does [0x81, l, 0x78] fun cpu s => act cpu 0 s (.ldn16 .ft v) := by
  refine Does.to ((doesLdn .t l hl).append (.one (op := 0x78) (by decide) (.ld8 .f .t) rfl (fun a n => rfl))) fun cpu s => ?_
  have e0 : v / 256 = 256 * (v / 65536) + l := by omega
  have e1 : byteOf (v / 256) = byteOf l := byteOf_eq.2 (by rw [e0]; omega)
  have e2 : byteOf v = byteOf l := byteOf_eq.2 (by omega)
  refine State.ext' (fun q => ?_) ?_ ?_ ?_ ?_ ?_
  · cases q <;> simp [act, State.set, State.set8, R16.hi, R16.lo, hi_wordOf, lo_wordOf, e1, e2]
  all_goals simp [act, State.set, State.set8]

theorem doesXor (n : Nat) (hn : n < 256) : Does [0xB2, n] fun cpu s => act cpu 0 s (.alun8 .xor .t n) :=
  .two (by decide) hn _ rfl (fun a => rfl)

theorem not_xor (x : Byte) : Alu.op .xor x (byteOf (255 : Nat)) = ~~~x := by
  show x ^^^ BitVec.ofInt 8 255 = ~~~x
  rw [show BitVec.ofInt 8 255 = BitVec.allOnes 8 from rfl, BitVec.xor_allOnes]

theorem does_not8 : Does [0xB2, 0xFF] fun cpu s => act cpu 0 s (.not8 .t) :=
  Does.to (doesXor 255 (by decide)) fun cpu s => by simp only [act, not_xor]

theorem does_not16 : Does [0xB2, 0xFF, 0x18] fun cpu s => act cpu 0 s .not16 := by
  refine Does.to ((doesXor 255 (by decide)).append (.one (op := 0x18) (by decide) (.not8 .f) rfl (fun a n => rfl))) fun cpu s => ?_
  simp only [act, not_xor]
  rfl

theorem does_pickn (r : R16) (n : Nat) (hn : n < 256) (v : Int) (hv : v % 256 = n) :
    Does [0x80 ||| r.lo.n, n, 0x1C ||| r.n] fun cpu s => act cpu 0 s (.pickn r v) := by
  refine Does.to ((doesLdn r.lo n hn).append (.one (op := 0x1C ||| r.n) (by cases r <;> decide) (.pick r) rfl
    (fun a n => by cases r <;> rfl))) fun cpu s => ?_
  simp only [act]
  rw [byteOf_eq.2 (show v % 256 = (n : Int) % 256 by omega)]

/-! ### Stacks -/

theorem stack_stack (o : StackOp) (a b : List R16) (h : ∀ r ∈ a, r ∉ b) (s : State) :
    stackAll o b (stackAll o a s) = stackAll o (a ++ b) s := by
  have hg : ∀ r, r ∈ b → (stackAll o a s).get r = s.get r := by
    intro r hr
    have hn : r ∉ a := fun ha => h r ha hr
    simp only [State.get, stackAll]
    rw [if_neg (by cases r <;> exact hn), if_neg (by cases r <;> exact hn)]
  have hd : ∀ r, r ∈ b → (stackAll o a s).deep r = s.deep r := by
    intro r hr
    have hn : r ∉ a := fun ha => h r ha hr
    simp only [stackAll]
    rw [if_neg hn]
  refine State.ext' (fun q => ?_) ?_ rfl rfl rfl rfl
  · show (if q.pair ∈ b then _ else _) = _
    by_cases hb : q.pair ∈ b
    · rw [if_pos hb, hg _ hb, hd _ hb]
      simp only [stackAll, List.mem_append, hb, or_true, if_true]
    · rw [if_neg hb]
      simp only [stackAll, List.mem_append, hb, or_false]
  · funext r
    show (if r ∈ b then _ else _) = _
    by_cases hb : r ∈ b
    · rw [if_pos hb, hg _ hb, hd _ hb]
      simp only [stackAll, List.mem_append, hb, or_true, if_true]
    · rw [if_neg hb]
      simp only [stackAll, List.mem_append, hb, or_false]

def StackOp.inv : StackOp → StackOp
  | .push => .pop | .pop => .push | .swap => .swap

/-- All registers and one of them back. -/
theorem push_pop (top : Word) (deep : Nat → Word) :
    StackOp.op .pop (StackOp.op .push top deep).1 (StackOp.op .push top deep).2 = (top, deep) := rfl

theorem swap_swap (top : Word) (deep : Nat → Word) :
    StackOp.op .swap (StackOp.op .swap top deep).1 (StackOp.op .swap top deep).2 = (top, deep) := by
  simp only [StackOp.op]
  congr 1
  funext n
  cases n <;> rfl

theorem get_stack (o : StackOp) (rs : List R16) (s : State) (r : R16) (h : r ∈ rs) :
    (stackAll o rs s).get r = (o.op (s.get r) (s.deep r)).1 ∧ (stackAll o rs s).deep r = (o.op (s.get r) (s.deep r)).2 := by
  constructor
  · cases r <;> simp only [State.get, stackAll, R16.hi, R16.lo, R8.pair, h, R8.isHi, if_true, Bool.false_eq_true, if_false, pair_hi_lo]
  · simp only [stackAll]
    rw [if_pos h]

theorem hi_get (s : State) (r : R16) : hi (s.get r) = s.reg r.hi := hi_pair _ _
theorem lo_get (s : State) (r : R16) : lo (s.get r) = s.reg r.lo := lo_pair _ _

/-- An operation on some registers that is taken back for some of them. -/
theorem stack_back (o : StackOp) (ho : o ≠ .pop) (a b : List R16) (s : State) (hb : ∀ r ∈ b, r ∈ a) :
    stackAll o.inv b (stackAll o a s) = stackAll o (a.filter (· ∉ b)) s := by
  have hop : ∀ top deep, o.inv.op (o.op top deep).1 (o.op top deep).2 = (top, deep) := by
    cases o
    · exact push_pop
    · exact absurd rfl ho
    · exact swap_swap
  refine State.ext' (fun q => ?_) ?_ rfl rfl rfl rfl
  · show (if q.pair ∈ b then _ else _) = _
    by_cases h : q.pair ∈ b
    · obtain ⟨h1, h2⟩ := get_stack o a s q.pair (hb _ h)
      rw [if_pos h, h1, h2, hop]
      simp only [stackAll, List.mem_filter, h, decide_not, decide_true, Bool.not_true, Bool.false_eq_true, and_false, if_false]
      cases q <;> simp only [R8.pair, R8.isHi, hi_get, lo_get, R16.hi, R16.lo, if_true, Bool.false_eq_true, if_false]
    · rw [if_neg h]
      simp only [stackAll, List.mem_filter, h, decide_not, decide_false, Bool.not_false, and_true]
  · funext r
    show (if r ∈ b then _ else _) = _
    by_cases h : r ∈ b
    · obtain ⟨h1, h2⟩ := get_stack o a s r (hb _ h)
      rw [if_pos h, h1, h2, hop]
      simp only [stackAll, List.mem_filter, h, decide_not, decide_true, Bool.not_true, Bool.false_eq_true, and_false, if_false]
    · rw [if_neg h]
      simp only [stackAll, List.mem_filter, h, decide_not, decide_false, Bool.not_false, and_true]

/-- A push that is followed by a pop of more registers. -/
theorem stack_pop (a b : List R16) (s : State) (hb : ∀ r ∈ b, r ∈ a) :
    stackAll .pop a (stackAll .push b s) = stackAll .pop (a.filter (· ∉ b)) s := by
  have hg : ∀ r, r ∉ b → (stackAll .push b s).get r = s.get r := by
    intro r hr
    simp only [State.get, stackAll]
    rw [if_neg (by cases r <;> exact hr), if_neg (by cases r <;> exact hr)]
  have hd : ∀ r, r ∉ b → (stackAll .push b s).deep r = s.deep r := by
    intro r hr
    simp only [stackAll]
    rw [if_neg hr]
  refine State.ext' (fun q => ?_) ?_ rfl rfl rfl rfl
  · show (if q.pair ∈ a then _ else _) = _
    by_cases h : q.pair ∈ b
    · obtain ⟨h1, h2⟩ := get_stack .push b s q.pair h
      rw [if_pos (hb _ h), h1, h2, push_pop]
      simp only [stackAll, List.mem_filter, h, decide_not, decide_true, Bool.not_true, Bool.false_eq_true, and_false, if_false]
      cases q <;> simp only [R8.pair, R8.isHi, hi_get, lo_get, R16.hi, R16.lo, if_true, Bool.false_eq_true, if_false]
    · rw [hg _ h, hd _ h]
      simp only [stackAll, List.mem_filter, h, decide_not, decide_false, Bool.not_false, and_true, if_false]
  · funext r
    show (if r ∈ a then _ else _) = _
    by_cases h : r ∈ b
    · obtain ⟨h1, h2⟩ := get_stack .push b s r h
      rw [if_pos (hb _ h), h1, h2, push_pop]
      simp only [stackAll, List.mem_filter, h, decide_not, decide_true, Bool.not_true, Bool.false_eq_true, and_false, if_false]
    · rw [hg _ h, hd _ h]
      simp only [stackAll, List.mem_filter, h, decide_not, decide_false, Bool.not_false, and_true, if_false]

end Verif.Cpu.Rc8
