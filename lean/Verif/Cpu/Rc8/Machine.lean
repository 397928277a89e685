import Verif.Cpu.Rc8.Spec
/-!
# Sequences of instructions
-/
set_option linter.constructorNameAsVariable false

namespace Verif.Cpu.Rc8

/-! ### Halves of words -/

@[simp] theorem hi_pair (h l : Byte) : hi (pair h l) = h := by
  apply BitVec.eq_of_toNat_eq
  have := h.isLt; have := l.isLt
  simp only [hi, pair, BitVec.toNat_ofNat]; omega

@[simp] theorem lo_pair (h l : Byte) : lo (pair h l) = l := by
  apply BitVec.eq_of_toNat_eq
  have := h.isLt; have := l.isLt
  simp only [lo, pair, BitVec.toNat_ofNat]; omega

@[simp] theorem pair_hi_lo (w : Word) : pair (hi w) (lo w) = w := by
  apply BitVec.eq_of_toNat_eq
  have := w.isLt
  simp only [hi, lo, pair, BitVec.toNat_ofNat]; omega

theorem wordOf_toNat (v : Int) : (wordOf v).toNat = (v % 65536).toNat := by
  unfold wordOf; rw [BitVec.toNat_ofInt]; rfl

theorem byteOf_toNat (v : Int) : (byteOf v).toNat = (v % 256).toNat := by
  unfold byteOf; rw [BitVec.toNat_ofInt]; rfl

@[simp] theorem up_down (x : Word) : x + wordOf 1 + wordOf (-1) = x := by
  rw [BitVec.add_assoc, show wordOf 1 + wordOf (-1) = 0 from by decide]; exact BitVec.add_zero x

theorem down (x : Word) : x + wordOf (-1) = x - 1 := by
  rw [show wordOf (-1) = -1 from by decide, BitVec.sub_eq_add_neg]

theorem up (x : Word) : x + wordOf 1 = x + 1 := by rw [show wordOf 1 = 1 from by decide]

theorem ne_succ (x : Word) : x ≠ x + 1 := by
  intro h
  have := congrArg BitVec.toNat h
  have := x.isLt
  rw [BitVec.toNat_add, show (1 : Word).toNat = 1 from rfl] at *
  omega

@[simp] theorem succ_eq (x : Word) : (x + 1#16 = x) = False := eq_false fun h => ne_succ x h.symm
@[simp] theorem eq_succ (x : Word) : (x = x + 1#16) = False := eq_false (ne_succ x)

@[simp] theorem eq_pred (x : Word) : (x = x - 1#16) = False := eq_false fun h => ne_succ (x - 1) (by
  rw [show x - 1 + 1 = x from BitVec.sub_add_cancel ..]; exact h.symm)
@[simp] theorem pred_eq (x : Word) : (x - 1#16 = x) = False := eq_false fun h => (of_eq_false (eq_pred x)) h.symm

/-! ### Execution -/

theorem Runs.trans {cpu : Cpu} {x y z : Word × State} (h : Runs cpu x y) (h' : Runs cpu y z) : Runs cpu x z := by
  induction h with
  | refl => exact h'
  | step a b ih => exact .step a (ih h')

theorem Runs.one {cpu : Cpu} {x y : Word × State} (h : Step cpu x y) : Runs cpu x y := .step h (.refl y)

theorem Loaded.append {cpu : Cpu} {a : Word} {bs cs : List Nat} (h : Loaded cpu a (bs ++ cs)) :
    Loaded cpu a bs ∧ Loaded cpu (a + BitVec.ofNat 16 bs.length) cs := by
  refine ⟨fun i b hb => h i b ?_, fun i b hb => ?_⟩
  · rw [List.getElem?_append_left (by rw [List.getElem?_eq_some_iff] at hb; exact hb.1)]; exact hb
  · have := h (bs.length + i) b (by rw [List.getElem?_append_right (by omega)]; rw [show bs.length + i - bs.length = i by omega]; exact hb)
    rw [← this]
    congr 1
    rw [BitVec.add_assoc]
    congr 1
    apply BitVec.eq_of_toNat_eq
    simp only [BitVec.toNat_add, BitVec.toNat_ofNat]; omega

/-- An instruction of one byte. -/
theorem step1 {cpu : Cpu} {a : Word} {op : Nat} (h : Loaded cpu a [op]) (ho : op < 256) (s : State) (f : Form Int)
    (hd : ∀ n, decode a op n = some (1, f)) : Step cpu (a, s) ((goto cpu (a + 1) s f).getD (a + 1), act cpu (a + 1) s f) := by
  have h0 := h 0 op rfl
  rw [show a + BitVec.ofNat 16 0 = a from BitVec.add_zero a] at h0
  exact .mk a s 1 f (by rw [h0, BitVec.toNat_ofNat, Nat.mod_eq_of_lt (by omega)]; exact hd _)

/-- An instruction of two bytes. -/
theorem step2 {cpu : Cpu} {a : Word} {op n : Nat} (h : Loaded cpu a [op, n]) (ho : op < 256) (hn : n < 256) (s : State) (f : Form Int)
    (hd : decode a op n = some (2, f)) : Step cpu (a, s) ((goto cpu (a + 2) s f).getD (a + 2), act cpu (a + 2) s f) := by
  have h0 := h 0 op rfl
  have h1 := h 1 n rfl
  rw [show a + BitVec.ofNat 16 0 = a from BitVec.add_zero a] at h0
  exact .mk a s 2 f (by
    rw [h0, BitVec.toNat_ofNat, Nat.mod_eq_of_lt (by omega)]
    rw [show cpu.code (a + 1) = BitVec.ofNat 8 n from h1, BitVec.toNat_ofNat, Nat.mod_eq_of_lt (by omega)]; exact hd)

/-- Bytes that do something and go on behind them. -/
def Does (bs : List Nat) (F : Cpu → State → State) : Prop :=
  ∀ cpu a s, Loaded cpu a bs → Runs cpu (a, s) (a + BitVec.ofNat 16 bs.length, F cpu s)

theorem Does.nil : Does [] fun _ s => s := fun cpu a s _ => by
  rw [show a + BitVec.ofNat 16 ([] : List Nat).length = a from BitVec.add_zero a]
  exact .refl _

/-- An instruction that does not jump. -/
def Form.straight {V : Type} : Form V → Bool
  | .reti | .dj .. | .jc .. | .jr _ | .jal _ | .jaln _ | .sys _ => false
  | _ => true

theorem straight_act {f : Form Int} (h : f.straight = true) (cpu : Cpu) (next : Word) (s : State) :
    goto cpu next s f = none ∧ act cpu next s f = act cpu 0 s f := by
  cases f <;> first | exact ⟨rfl, rfl⟩ | cases h

theorem Does.append {bs cs : List Nat} {F G : Cpu → State → State} (h : Does bs F) (h' : Does cs G) :
    Does (bs ++ cs) fun cpu s => G cpu (F cpu s) := fun cpu a s hl => by
  obtain ⟨h1, h2⟩ := hl.append
  have r1 := h cpu a s h1
  have r2 := h' cpu _ (F cpu s) h2
  rw [BitVec.add_assoc] at r2
  rw [List.length_append, show BitVec.ofNat 16 (bs.length + cs.length) = BitVec.ofNat 16 bs.length + BitVec.ofNat 16 cs.length from by
    apply BitVec.eq_of_toNat_eq
    simp only [BitVec.toNat_add, BitVec.toNat_ofNat]; omega]
  exact r1.trans r2

theorem Does.one {op : Nat} (ho : op < 256) (f : Form Int) (hs : f.straight = true) (hd : ∀ a n, decode a op n = some (1, f)) :
    Does [op] fun cpu s => act cpu 0 s f := fun cpu a s hl => by
  have := step1 hl ho s f (hd a)
  obtain ⟨h1, h2⟩ := straight_act hs cpu (a + 1) s
  rw [h1, h2] at this
  exact .one this

theorem Does.two {op n : Nat} (ho : op < 256) (hn : n < 256) (f : Form Int) (hs : f.straight = true) (hd : ∀ a, decode a op n = some (2, f)) :
    Does [op, n] fun cpu s => act cpu 0 s f := fun cpu a s hl => by
  have := step2 hl ho hn s f (hd a)
  obtain ⟨h1, h2⟩ := straight_act hs cpu (a + 2) s
  rw [h1, h2] at this
  exact .one this

theorem Does.to {bs : List Nat} {F G : Cpu → State → State} (h : Does bs F) (he : ∀ cpu s, F cpu s = G cpu s) : Does bs G := by
  rw [show G = F from funext fun cpu => funext fun s => (he cpu s).symm]; exact h

/-- The number of a register. -/
abbrev R8.n (r : R8) : Nat := r.ctorIdx
abbrev R16.n (r : R16) : Nat := r.ctorIdx

theorem State.ext' {s t : State} (h1 : ∀ q, s.reg q = t.reg q) (h2 : s.deep = t.deep) (h3 : s.mem = t.mem) (h4 : s.io = t.io)
    (h5 : s.ctl = t.ctl) (h6 : s.on = t.on) : s = t := by
  obtain ⟨r, d, m, i, c, o⟩ := s
  obtain ⟨r', d', m', i', c', o'⟩ := t
  obtain rfl : r = r' := funext h1
  subst h2 h3 h4 h5 h6
  rfl

theorem swap_if (x a : Word) (u v w : Byte) [Decidable (x = a - 1#16)] [Decidable (x = a)] :
    (if x = a - 1#16 then u else if x = a then v else w) = if x = a then v else if x = a - 1#16 then u else w := by
  by_cases h : x = a - 1#16
  · rw [if_pos h, if_neg (fun h' => of_eq_false (eq_pred a) (h'.symm.trans h)), if_pos h]
  · rw [if_neg h, if_neg h]

theorem same_if (p q : Prop) (u v w : Byte) {d₁ d₂ : Decidable p} {e₁ e₂ : Decidable q} :
    (@ite _ p d₁ u (@ite _ q e₁ v w)) = @ite _ p d₂ u (@ite _ q e₂ v w) := by
  cases Subsingleton.elim d₁ d₂; cases Subsingleton.elim e₁ e₂; rfl

theorem same_if1 (p : Prop) (u v : Byte) {d₁ d₂ : Decidable p} : (@ite _ p d₁ u v) = @ite _ p d₂ u v := by
  cases Subsingleton.elim d₁ d₂; rfl

/-- Compares two states, register by register. -/
macro "states" : tactic =>
  `(tactic| (refine State.ext' (fun q => ?_) ?_ ?_ ?_ ?_ ?_
             all_goals first
      | with_reducible rfl
      | (cases q <;> simp [act, before, after, State.set, State.set8, State.get, R16.hi, R16.lo, read16, read, write, write16, up, down, Alu.op, BitVec.add_sub_cancel, BitVec.sub_add_cancel]; done)
      | (simp [act, before, after, State.set, State.set8, State.get, R16.hi, R16.lo, read16, read, write, write16, up, down, Alu.op, BitVec.add_sub_cancel, BitVec.sub_add_cancel]; done)
      | (funext x; simp [act, before, after, State.set, State.set8, State.get, R16.hi, R16.lo, read16, read, write, write16, up, down, Alu.op, BitVec.add_sub_cancel, BitVec.sub_add_cancel]; done)
      | (funext x; simp [act, before, after, State.set, State.set8, State.get, R16.hi, R16.lo, read16, read, write, write16, up, down, Alu.op, BitVec.add_sub_cancel, BitVec.sub_add_cancel]; first | exact swap_if _ _ _ _ _ | exact same_if _ _ _ _ _ | exact same_if1 _ _ _)))

/-! ### Loads and stores of words -/

/-- The opcode of `LD T,(r)`, `LCO T,(r)` and `LIO T,(r)`. -/
def Space.ld : Space → Nat
  | .data => 0x04 | .code => 0x0C | .io => 0x34

/-- The opcode of `LD (r),T` and `LIO (r),T`. -/
def Space.st : Space → Nat
  | .data => 0x00 | .code => 0xFF | .io => 0x30

theorem dec_load (sp : Space) (p : R16) (a : Word) (n : Nat) : decode a (sp.ld ||| p.n) n = some (1, .load8 sp .t p .stay) := by
  cases sp <;> cases p <;> rfl

theorem dec_store (sp : Space) (p : R16) (hs : sp ≠ .code) (hp : p ≠ .ft) (a : Word) (n : Nat) :
    decode a (sp.st ||| p.n) n = some (1, .store8 sp p .stay .t) := by
  cases sp <;> cases p <;> first | rfl | exact absurd rfl hs | exact absurd rfl hp

theorem dec_add1 (p : R16) (a : Word) : decode a (0xBC ||| p.n) 1 = some (2, .alun16 .add p 1) := by cases p <;> rfl
theorem dec_sub1 (p : R16) (a : Word) : decode a (0xBC ||| p.n) 255 = some (2, .alun16 .add p (-1)) := by cases p <;> rfl
theorem dec_exg (a : Word) (n : Nat) : decode a 0x10 n = some (1, .exg8 .t .f) := rfl

theorem lt_bc (p : R16) : 0xBC ||| p.n < 256 := by cases p <;> decide
theorem lt_ld (sp : Space) (p : R16) : sp.ld ||| p.n < 256 := by cases sp <;> cases p <;> decide
theorem lt_st (sp : Space) (p : R16) : sp.st ||| p.n < 256 := by cases sp <;> cases p <;> decide

theorem doesLd (sp : Space) (p : R16) : Does [sp.ld ||| p.n] fun cpu s => act cpu 0 s (.load8 sp .t p .stay) :=
  .one (lt_ld sp p) _ rfl (dec_load sp p)

theorem doesSt (sp : Space) (p : R16) (hs : sp ≠ .code) (hp : p ≠ .ft) :
    Does [sp.st ||| p.n] fun cpu s => act cpu 0 s (.store8 sp p .stay .t) := .one (lt_st sp p) _ rfl (dec_store sp p hs hp)

theorem doesUp (p : R16) : Does [0xBC ||| p.n, 1] fun cpu s => act cpu 0 s (.alun16 .add p 1) :=
  .two (lt_bc p) (by decide) _ rfl (dec_add1 p)

theorem doesDown (p : R16) : Does [0xBC ||| p.n, 255] fun cpu s => act cpu 0 s (.alun16 .add p (-1)) :=
  .two (lt_bc p) (by decide) _ rfl (dec_sub1 p)

theorem doesExg : Does [0x10] fun cpu s => act cpu 0 s (.exg8 .t .f) := .one (by decide) _ rfl dec_exg

theorem does_load16_stay (sp : Space) (p : R16) (hp : p ≠ .ft) :
    Does [sp.ld ||| p.n, 0xBC ||| p.n, 1, 0x10, sp.ld ||| p.n, 0xBC ||| p.n, 255, 0x10] fun cpu s => act cpu 0 s (.load16 sp .ft p .stay) := by
  refine Does.to ((doesLd sp p).append <| (doesUp p).append <| doesExg.append <| (doesLd sp p).append <| (doesDown p).append doesExg)
    fun cpu s => ?_
  cases p
  · exact absurd rfl hp
  all_goals (cases sp <;> states)

theorem does_load16_inc (sp : Space) (p : R16) (hp : p ≠ .ft) :
    Does [sp.ld ||| p.n, 0xBC ||| p.n, 1, 0x10, sp.ld ||| p.n, 0x10] fun cpu s => act cpu 0 s (.load16 sp .ft p .inc) := by
  refine Does.to ((doesLd sp p).append <| (doesUp p).append <| doesExg.append <| (doesLd sp p).append doesExg) fun cpu s => ?_
  cases p
  · exact absurd rfl hp
  all_goals (cases sp <;> states)

theorem does_load16_dec (sp : Space) (p : R16) (hp : p ≠ .ft) :
    Does [sp.ld ||| p.n, 0xBC ||| p.n, 255, 0x10, sp.ld ||| p.n] fun cpu s => act cpu 0 s (.load16 sp .ft p .dec) := by
  refine Does.to ((doesLd sp p).append <| (doesDown p).append <| doesExg.append <| doesLd sp p) fun cpu s => ?_
  cases p
  · exact absurd rfl hp
  all_goals (cases sp <;> states)

theorem does_store16_stay (sp : Space) (p : R16) (hs : sp ≠ .code) (hp : p ≠ .ft) :
    Does [sp.st ||| p.n, 0xBC ||| p.n, 1, 0x10, sp.st ||| p.n, 0xBC ||| p.n, 255, 0x10] fun cpu s => act cpu 0 s (.store16 sp p .stay .ft) := by
  refine Does.to ((doesSt sp p hs hp).append <| (doesUp p).append <| doesExg.append <| (doesSt sp p hs hp).append <| (doesDown p).append doesExg)
    fun cpu s => ?_
  cases p
  · exact absurd rfl hp
  all_goals (cases sp <;> states)

theorem does_store16_inc (sp : Space) (p : R16) (hs : sp ≠ .code) (hp : p ≠ .ft) :
    Does [sp.st ||| p.n, 0xBC ||| p.n, 1, 0x10, sp.st ||| p.n, 0x10] fun cpu s => act cpu 0 s (.store16 sp p .inc .ft) := by
  refine Does.to ((doesSt sp p hs hp).append <| (doesUp p).append <| doesExg.append <| (doesSt sp p hs hp).append doesExg) fun cpu s => ?_
  cases p
  · exact absurd rfl hp
  all_goals (cases sp <;> states)

theorem does_store16_dec (sp : Space) (p : R16) (hs : sp ≠ .code) (hp : p ≠ .ft) :
    Does [0x10, sp.st ||| p.n, 0xBC ||| p.n, 255, 0x10, sp.st ||| p.n] fun cpu s => act cpu 0 s (.store16 sp p .dec .ft) := by
  refine Does.to (doesExg.append <| (doesSt sp p hs hp).append <| (doesDown p).append <| doesExg.append (doesSt sp p hs hp)) fun cpu s => ?_
  cases p
  · exact absurd rfl hp
  all_goals (cases sp <;> states)

/-! ### Loads and stores of bytes by a pointer that moves -/

theorem does_load8_inc (sp : Space) (p : R16) (hp : p ≠ .ft) :
    Does [sp.ld ||| p.n, 0xBC ||| p.n, 1] fun cpu s => act cpu 0 s (.load8 sp .t p .inc) := by
  refine Does.to ((doesLd sp p).append (doesUp p)) fun cpu s => ?_
  cases p
  · exact absurd rfl hp
  all_goals (cases sp <;> states)

theorem does_load8_dec (sp : Space) (p : R16) (hp : p ≠ .ft) :
    Does [0xBC ||| p.n, 255, sp.ld ||| p.n] fun cpu s => act cpu 0 s (.load8 sp .t p .dec) := by
  refine Does.to ((doesDown p).append (doesLd sp p)) fun cpu s => ?_
  cases p
  · exact absurd rfl hp
  all_goals (cases sp <;> states)

theorem does_store8_inc (sp : Space) (p : R16) (hs : sp ≠ .code) (hp : p ≠ .ft) :
    Does [sp.st ||| p.n, 0xBC ||| p.n, 1] fun cpu s => act cpu 0 s (.store8 sp p .inc .t) := by
  refine Does.to ((doesSt sp p hs hp).append (doesUp p)) fun cpu s => ?_
  cases p
  · exact absurd rfl hp
  all_goals (cases sp <;> states)

theorem does_store8_dec (sp : Space) (p : R16) (hs : sp ≠ .code) (hp : p ≠ .ft) :
    Does [0xBC ||| p.n, 255, sp.st ||| p.n] fun cpu s => act cpu 0 s (.store8 sp p .dec .t) := by
  refine Does.to ((doesDown p).append (doesSt sp p hs hp)) fun cpu s => ?_
  cases p
  · exact absurd rfl hp
  all_goals (cases sp <;> states)

/-! ### Loads and stores by `FT` -/

theorem doesLdFt (q : R8) (hq : q ≠ .t) : Does [0x28 ||| q.n] fun cpu s => act cpu 0 s (.load8 .data q .ft .stay) :=
  .one (by cases q <;> decide) _ rfl (fun a n => by cases q <;> first | rfl | exact absurd rfl hq)

theorem doesStFt (q : R8) (hf : q ≠ .f) (hq : q ≠ .t) : Does [0x20 ||| q.n] fun cpu s => act cpu 0 s (.store8 .data .ft .stay q) :=
  .one (by cases q <;> decide) _ rfl (fun a n => by cases q <;> first | rfl | exact absurd rfl hq | exact absurd rfl hf)

theorem does_loadFt_inc (q : R8) (hq : q ≠ .t) : Does [0x28 ||| q.n, 0xBC, 1] fun cpu s => act cpu 0 s (.load8 .data q .ft .inc) := by
  refine Does.to ((doesLdFt q hq).append (doesUp .ft)) fun cpu s => ?_
  cases q
  case t => exact absurd rfl hq
  all_goals states

theorem does_loadFt_dec (q : R8) (hq : q ≠ .t) : Does [0xBC, 255, 0x28 ||| q.n] fun cpu s => act cpu 0 s (.load8 .data q .ft .dec) := by
  refine Does.to ((doesDown .ft).append (doesLdFt q hq)) fun cpu s => ?_
  cases q
  case t => exact absurd rfl hq
  all_goals states

theorem does_storeFt_inc (q : R8) (hf : q ≠ .f) (hq : q ≠ .t) :
    Does [0x20 ||| q.n, 0xBC, 1] fun cpu s => act cpu 0 s (.store8 .data .ft .inc q) := by
  refine Does.to ((doesStFt q hf hq).append (doesUp .ft)) fun cpu s => ?_
  cases q
  case t => exact absurd rfl hq
  case f => exact absurd rfl hf
  all_goals states

theorem does_storeFt_dec (q : R8) (hf : q ≠ .f) (hq : q ≠ .t) :
    Does [0xBC, 255, 0x20 ||| q.n] fun cpu s => act cpu 0 s (.store8 .data .ft .dec q) := by
  refine Does.to ((doesDown .ft).append (doesStFt q hf hq)) fun cpu s => ?_
  cases q
  case t => exact absurd rfl hq
  case f => exact absurd rfl hf
  all_goals states

theorem does_load16Ft (m : Move) (d : R16) (hd : d ≠ .ft) :
    Does (match m with
      | .stay => [0x28 ||| d.lo.n, 0xBC, 1, 0x28 ||| d.hi.n, 0xBC, 255]
      | .inc => [0x28 ||| d.lo.n, 0xBC, 1, 0x28 ||| d.hi.n]
      | .dec => [0x28 ||| d.hi.n, 0xBC, 255, 0x28 ||| d.lo.n]) fun cpu s => act cpu 0 s (.load16 .data d .ft m) := by
  have hl : d.lo ≠ .t := by cases d <;> first | exact absurd rfl hd | decide
  have hh : d.hi ≠ .t := by cases d <;> decide
  cases m
  · refine Does.to ((doesLdFt _ hl).append <| (doesUp .ft).append <| (doesLdFt _ hh).append (doesDown .ft)) fun cpu s => ?_
    cases d
    · exact absurd rfl hd
    all_goals states
  · refine Does.to ((doesLdFt _ hl).append <| (doesUp .ft).append (doesLdFt _ hh)) fun cpu s => ?_
    cases d
    · exact absurd rfl hd
    all_goals states
  · refine Does.to ((doesLdFt _ hh).append <| (doesDown .ft).append (doesLdFt _ hl)) fun cpu s => ?_
    cases d
    · exact absurd rfl hd
    all_goals states

theorem does_store16Ft (m : Move) (d : R16) (hd : d ≠ .ft) :
    Does (match m with
      | .stay => [0x20 ||| d.lo.n, 0xBC, 1, 0x20 ||| d.hi.n, 0xBC, 255]
      | .inc => [0x20 ||| d.lo.n, 0xBC, 1, 0x20 ||| d.hi.n]
      | .dec => [0x20 ||| d.hi.n, 0xBC, 255, 0x20 ||| d.lo.n]) fun cpu s => act cpu 0 s (.store16 .data .ft m d) := by
  have hl : d.lo ≠ .t := by cases d <;> first | exact absurd rfl hd | decide
  have hl' : d.lo ≠ .f := by cases d <;> decide
  have hh : d.hi ≠ .t := by cases d <;> decide
  have hh' : d.hi ≠ .f := by cases d <;> first | exact absurd rfl hd | decide
  cases m
  · refine Does.to ((doesStFt _ hl' hl).append <| (doesUp .ft).append <| (doesStFt _ hh' hh).append (doesDown .ft)) fun cpu s => ?_
    cases d
    · exact absurd rfl hd
    all_goals states
  · refine Does.to ((doesStFt _ hl' hl).append <| (doesUp .ft).append (doesStFt _ hh' hh)) fun cpu s => ?_
    cases d
    · exact absurd rfl hd
    all_goals states
  · refine Does.to ((doesStFt _ hh' hh).append <| (doesDown .ft).append (doesStFt _ hl' hl)) fun cpu s => ?_
    cases d
    · exact absurd rfl hd
    all_goals states

/-! ### Numbers and exchanges -/

theorem doesLdn (q : R8) (n : Nat) (hn : n < 256) : Does [0x80 ||| q.n, n] fun cpu s => act cpu 0 s (.ldn8 q n) :=
  .two (by cases q <;> decide) hn _ rfl (fun a => by cases q <;> rfl)

theorem doesExg8 (q : R8) (hq : q ≠ .t) : Does [0x10 ||| q.n] fun cpu s => act cpu 0 s (.exg8 .t q) :=
  .one (by cases q <;> decide) _ rfl (fun a n => by cases q <;> first | rfl | exact absurd rfl hq)

theorem doesExg16 (q : R16) (hq : q ≠ .ft) : Does [0xC8 ||| q.n] fun cpu s => act cpu 0 s (.exg16 .ft q) :=
  .one (by cases q <;> decide) _ rfl (fun a n => by cases q <;> first | rfl | exact absurd rfl hq)

end Verif.Cpu.Rc8
