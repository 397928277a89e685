import Verif.Cpu.Rc8.Words
/-!
# The bytes of the instructions of the RC8 without values
-/
set_option linter.constructorNameAsVariable false

namespace Verif.Cpu.Rc8

open Verif.Parse (Tok Toks Tree)
open Verif.Expr (Src FMath ASym Den BinOp I32 toI32 wrap)

def StackOp.base : StackOp → Nat
  | .push => 0xC0 | .pop => 0xC4 | .swap => 0xDC

def StackOp.all : StackOp → Nat
  | .push => 0xF8 | .pop => 0xF9 | .swap => 0xCC

/-- The lists of registers. -/
def subs : List (List R16) :=
  [[.ft], [.bc], [.de], [.hl], [.ft, .bc], [.ft, .de], [.ft, .hl], [.bc, .de], [.bc, .hl], [.de, .hl],
   [.ft, .bc, .de], [.ft, .bc, .hl], [.ft, .de, .hl], [.bc, .de, .hl], [.ft, .bc, .de, .hl]]

def stackCode (o : StackOp) (rs : List R16) : List Nat :=
  match rs.length with
  | 4 => [o.all]
  | 3 =>
    let back := (r16s.filter (· ∉ rs)).map (o.inv.base + ·.ctorIdx)
    if o = .pop then back ++ [o.all] else o.all :: back
  | _ => rs.map (o.base + ·.ctorIdx)

/-- The bytes. -/
def code : Form Tree → List Nat
  | .nop => [0] | .ei => [0x1A] | .di => [0x1B] | .ext => [0x49] | .reti => [0x59]
  | .ld8 d s => if d = .t then [0x58 ||| s.n] else [0x78 ||| d.n]
  | .ld16 d s => if d = .ft then [0xD8 ||| s.n] else [0xD0 ||| d.n]
  | .load8 sp d p m =>
    if d = .t then
      match m with
      | .stay => [sp.ld ||| p.n]
      | .inc => [sp.ld ||| p.n, 0xBC ||| p.n, 1]
      | .dec => [0xBC ||| p.n, 255, sp.ld ||| p.n]
    else match m with
      | .stay => [0x28 ||| d.n]
      | .inc => [0x28 ||| d.n, 0xBC, 1]
      | .dec => [0xBC, 255, 0x28 ||| d.n]
  | .load16 sp d p m =>
    if d = .ft then
      match m with
      | .stay => [sp.ld ||| p.n, 0xBC ||| p.n, 1, 0x10, sp.ld ||| p.n, 0xBC ||| p.n, 255, 0x10]
      | .inc => [sp.ld ||| p.n, 0xBC ||| p.n, 1, 0x10, sp.ld ||| p.n, 0x10]
      | .dec => [sp.ld ||| p.n, 0xBC ||| p.n, 255, 0x10, sp.ld ||| p.n]
    else match m with
      | .stay => [0x28 ||| d.lo.n, 0xBC, 1, 0x28 ||| d.hi.n, 0xBC, 255]
      | .inc => [0x28 ||| d.lo.n, 0xBC, 1, 0x28 ||| d.hi.n]
      | .dec => [0x28 ||| d.hi.n, 0xBC, 255, 0x28 ||| d.lo.n]
  | .store8 sp p m s =>
    if s = .t then
      match m with
      | .stay => [sp.st ||| p.n]
      | .inc => [sp.st ||| p.n, 0xBC ||| p.n, 1]
      | .dec => [0xBC ||| p.n, 255, sp.st ||| p.n]
    else match m with
      | .stay => [0x20 ||| s.n]
      | .inc => [0x20 ||| s.n, 0xBC, 1]
      | .dec => [0xBC, 255, 0x20 ||| s.n]
  | .store16 sp p m s =>
    if s = .ft then
      match m with
      | .stay => [sp.st ||| p.n, 0xBC ||| p.n, 1, 0x10, sp.st ||| p.n, 0xBC ||| p.n, 255, 0x10]
      | .inc => [sp.st ||| p.n, 0xBC ||| p.n, 1, 0x10, sp.st ||| p.n, 0x10]
      | .dec => [0x10, sp.st ||| p.n, 0xBC ||| p.n, 255, 0x10, sp.st ||| p.n]
    else match m with
      | .stay => [0x20 ||| s.lo.n, 0xBC, 1, 0x20 ||| s.hi.n, 0xBC, 255]
      | .inc => [0x20 ||| s.lo.n, 0xBC, 1, 0x20 ||| s.hi.n]
      | .dec => [0x20 ||| s.hi.n, 0xBC, 255, 0x20 ||| s.lo.n]
  | .lcrIn => [0x0B] | .lcrOut => [0x0A]
  | .alu8 o s => [(match o with | .add => 0x40 | .sub => 0x50 | .or => 0x60 | .and => 0x68 | .xor => 0x70) ||| s.n]
  | .alu16 o s => [(match o with | .add => 0xF4 | _ => 0xF0) ||| s.n]
  | .cmp8 s => [0x48 ||| s.n] | .cmp16 s => [0xCC ||| s.n] | .tst s => [0xD4 ||| s.n]
  | .neg8 => [0x51] | .neg16 => [0xF0]
  | .not8 d => if d = .t then [0xB2, 0xFF] else [0x18]
  | .not16 => [0xB2, 0xFF, 0x18]
  | .exg8 a b => if a = .t then [0x10 ||| b.n] else if b = .t then [0x10 ||| a.n] else [0x10 ||| b.n, 0x10 ||| a.n, 0x10 ||| b.n]
  | .exg16 a b => if a = .ft then [0xC8 ||| b.n] else if b = .ft then [0xC8 ||| a.n] else [0xC8 ||| b.n, 0xC8 ||| a.n, 0xC8 ||| b.n]
  | .shift o s => [(match o with | .ls => 0xE0 | .rs => 0xE8 | .rsa => 0xF8) ||| s.n]
  | .stack o rs => stackCode o rs
  | .pick r => [0x1C ||| r.n]
  | .jr r => [0x3C ||| r.n] | .jal r => [0x38 ||| r.n]
  | _ => []

/-- The instructions that these bytes are right for. -/
def fine : Form Tree → Bool
  | .nop | .ei | .di | .ext | .lcrIn | .lcrOut | .tst _ | .neg8 | .neg16 | .not16 | .pick _ => true
  | .ld8 d s => decide ((d = .t) ≠ (s = .t))
  | .ld16 d s => decide ((d = .ft) ≠ (s = .ft))
  | .load8 sp d p m => if d = .t then decide (m = .stay ∨ p ≠ .ft) else decide (sp = .data ∧ p = .ft)
  | .load16 sp d p _ => if d = .ft then decide (p ≠ .ft) else decide (sp = .data ∧ p = .ft)
  | .store8 sp p _ s => if s = .t then decide (p ≠ .ft ∧ sp ≠ .code) else decide (sp = .data ∧ p = .ft ∧ s ≠ .f)
  | .store16 sp p _ s => if s = .ft then decide (p ≠ .ft ∧ sp ≠ .code) else decide (sp = .data ∧ p = .ft)
  | .alu8 o s => decide (o = .add ∨ s ≠ .t)
  | .alu16 o s => decide ((o = .add ∨ o = .sub) ∧ s ≠ .ft)
  | .cmp8 s => decide (s ≠ .t)
  | .cmp16 s => decide (s ≠ .ft)
  | .not8 d => decide (d = .t ∨ d = .f)
  | .exg8 a b => decide (a ≠ b)
  | .exg16 a b => decide (a ≠ b)
  | .shift _ s => decide (s ≠ .f ∧ s ≠ .t)
  | .stack _ rs => decide (rs ∈ subs)
  | _ => false

theorem does_one (o : StackOp) (r : R16) : Does [o.base + r.ctorIdx] fun _ s => stackAll o [r] s :=
  .one (by cases o <;> cases r <;> decide) (.stack o [r]) rfl (fun a n => by cases o <;> cases r <;> rfl)

theorem does_all (o : StackOp) : Does [o.all] fun _ s => stackAll o r16s s :=
  .one (by cases o <;> decide) (.stack o r16s) rfl (fun a n => by cases o <;> rfl)

theorem does_two (o : StackOp) (a b : R16) (h : a ≠ b) : Does [o.base + a.ctorIdx, o.base + b.ctorIdx] fun _ s => stackAll o [a, b] s := by
  refine Does.to ((does_one o a).append (does_one o b)) fun cpu s => stack_stack o [a] [b] ?_ s
  intro r hr hb
  rw [List.mem_singleton] at hr hb
  exact h (hr.symm.trans hb)

theorem does_three (o : StackOp) (x : R16) :
    Does (if o = .pop then [o.inv.base + x.ctorIdx, o.all] else [o.all, o.inv.base + x.ctorIdx])
      fun _ s => stackAll o (r16s.filter (· ∉ [x])) s := by
  have hx : ∀ r ∈ [x], r ∈ r16s := by cases x <;> decide
  by_cases ho : o = .pop
  · subst ho
    rw [if_pos rfl]
    exact Does.to ((does_one .push x).append (does_all .pop)) fun cpu s => stack_pop r16s [x] s hx
  · rw [if_neg ho]
    exact Does.to ((does_all o).append (does_one o.inv x)) fun cpu s => stack_back o ho r16s [x] s hx

theorem does_stack (o : StackOp) (rs : List R16) (h : rs ∈ subs) : Does (stackCode o rs) fun _ s => stackAll o rs s := by
  simp only [subs, List.mem_cons, List.not_mem_nil, or_false] at h
  rcases h with rfl | rfl | rfl | rfl | rfl | rfl | rfl | rfl | rfl | rfl | rfl | rfl | rfl | rfl | rfl
  · exact does_one o .ft
  · exact does_one o .bc
  · exact does_one o .de
  · exact does_one o .hl
  · exact does_two o .ft .bc (by decide)
  · exact does_two o .ft .de (by decide)
  · exact does_two o .ft .hl (by decide)
  · exact does_two o .bc .de (by decide)
  · exact does_two o .bc .hl (by decide)
  · exact does_two o .de .hl (by decide)
  · have := does_three o .hl; cases o <;> exact this
  · have := does_three o .de; cases o <;> exact this
  · have := does_three o .bc; cases o <;> exact this
  · have := does_three o .ft; cases o <;> exact this
  · exact does_all o

theorem exg8_comm (q : R8) (cpu : Cpu) (s : State) : act cpu 0 s (.exg8 .t q) = act cpu 0 s (.exg8 q .t) := by
  refine State.ext' (fun r => ?_) rfl rfl rfl rfl rfl
  cases q <;> cases r <;> rfl

theorem exg16_comm (q : R16) (cpu : Cpu) (s : State) : act cpu 0 s (.exg16 .ft q) = act cpu 0 s (.exg16 q .ft) := by
  refine State.ext' (fun r => ?_) rfl rfl rfl rfl rfl
  cases q <;> cases r <;> rfl

theorem does_code (f : Form Tree) (h : fine f = true) : Does (code f) fun cpu s => act cpu 0 s (f.map fun _ => 0) := by
  cases f
  case nop => exact .one (by decide) _ rfl (fun _ _ => rfl)
  case ei => exact .one (by decide) _ rfl (fun _ _ => rfl)
  case di => exact .one (by decide) _ rfl (fun _ _ => rfl)
  case ext => exact .one (by decide) _ rfl (fun _ _ => rfl)
  case lcrIn => exact .one (by decide) _ rfl (fun _ _ => rfl)
  case lcrOut => exact .one (by decide) _ rfl (fun _ _ => rfl)
  case neg8 => exact .one (by decide) _ rfl (fun _ _ => rfl)
  case neg16 => exact .one (by decide) _ rfl (fun _ _ => rfl)
  case tst r => cases r <;> exact .one (by decide) _ rfl (fun _ _ => rfl)
  case pick r => cases r <;> exact .one (by decide) _ rfl (fun _ _ => rfl)
  case not16 => exact does_not16
  case ld8 d s => cases d <;> cases s <;> first | exact .one (by decide) _ rfl (fun _ _ => rfl) | cases h
  case ld16 d s => cases d <;> cases s <;> first | exact .one (by decide) _ rfl (fun _ _ => rfl) | cases h
  case alu8 o s => cases o <;> cases s <;> first | exact .one (by decide) _ rfl (fun _ _ => rfl) | cases h
  case alu16 o s => cases o <;> cases s <;> first | exact .one (by decide) _ rfl (fun _ _ => rfl) | cases h
  case cmp8 s => cases s <;> first | exact .one (by decide) _ rfl (fun _ _ => rfl) | cases h
  case cmp16 s => cases s <;> first | exact .one (by decide) _ rfl (fun _ _ => rfl) | cases h
  case shift o s => cases o <;> cases s <;> first | exact .one (by decide) _ rfl (fun _ _ => rfl) | cases h
  case not8 d =>
    cases d <;> first | exact .one (by decide) _ rfl (fun _ _ => rfl) | exact does_not8 | cases h
  case stack o rs => exact does_stack o rs (of_decide_eq_true h)
  case exg8 a b =>
    have hab : a ≠ b := of_decide_eq_true h
    dsimp only [code]
    by_cases ha : a = .t
    · subst ha
      rw [if_pos rfl]
      exact doesExg8 b (Ne.symm hab)
    · rw [if_neg ha]
      by_cases hb : b = .t
      · subst hb
        rw [if_pos rfl]
        exact Does.to (doesExg8 a ha) fun cpu s => exg8_comm a cpu s
      · rw [if_neg hb]
        exact does_exg8 a b ha hb hab
  case exg16 a b =>
    have hab : a ≠ b := of_decide_eq_true h
    dsimp only [code]
    by_cases ha : a = .ft
    · subst ha
      rw [if_pos rfl]
      exact doesExg16 b (Ne.symm hab)
    · rw [if_neg ha]
      by_cases hb : b = .ft
      · subst hb
        rw [if_pos rfl]
        exact Does.to (doesExg16 a ha) fun cpu s => exg16_comm a cpu s
      · rw [if_neg hb]
        exact does_exg16 a b ha hb hab
  case load8 sp d p m =>
    dsimp only [fine] at h
    dsimp only [code]
    by_cases hd : d = .t
    · subst hd
      rw [if_pos rfl] at h ⊢
      have h := of_decide_eq_true h
      cases m
      · exact doesLd sp p
      · exact does_load8_inc sp p (h.resolve_left (by decide))
      · exact does_load8_dec sp p (h.resolve_left (by decide))
    · rw [if_neg hd] at h ⊢
      obtain ⟨rfl, rfl⟩ := of_decide_eq_true h
      cases m
      · exact doesLdFt d hd
      · exact does_loadFt_inc d hd
      · exact does_loadFt_dec d hd
  case load16 sp d p m =>
    dsimp only [fine] at h
    dsimp only [code]
    by_cases hd : d = .ft
    · subst hd
      rw [if_pos rfl] at h ⊢
      have h := of_decide_eq_true h
      cases m
      · exact does_load16_stay sp p h
      · exact does_load16_inc sp p h
      · exact does_load16_dec sp p h
    · rw [if_neg hd] at h ⊢
      obtain ⟨rfl, rfl⟩ := of_decide_eq_true h
      have := does_load16Ft m d hd
      cases m <;> exact this
  case store8 sp p m x =>
    dsimp only [fine] at h
    dsimp only [code]
    by_cases hd : x = .t
    · subst hd
      rw [if_pos rfl] at h ⊢
      obtain ⟨h1, h2⟩ := of_decide_eq_true h
      cases m
      · exact doesSt sp p h2 h1
      · exact does_store8_inc sp p h2 h1
      · exact does_store8_dec sp p h2 h1
    · rw [if_neg hd] at h ⊢
      obtain ⟨rfl, rfl, hf⟩ := of_decide_eq_true h
      cases m
      · exact doesStFt x hf hd
      · exact does_storeFt_inc x hf hd
      · exact does_storeFt_dec x hf hd
  case store16 sp p m x =>
    dsimp only [fine] at h
    dsimp only [code]
    by_cases hd : x = .ft
    · subst hd
      rw [if_pos rfl] at h ⊢
      obtain ⟨h1, h2⟩ := of_decide_eq_true h
      cases m
      · exact does_store16_stay sp p h2 h1
      · exact does_store16_inc sp p h2 h1
      · exact does_store16_dec sp p h2 h1
    · rw [if_neg hd] at h ⊢
      obtain ⟨rfl, rfl⟩ := of_decide_eq_true h
      have := does_store16Ft m x hd
      cases m <;> exact this
  all_goals cases h

theorem stack_small : ∀ o : StackOp, ∀ rs ∈ subs, (∀ b ∈ stackCode o rs, b < 256) ∧ (stackCode o rs).length ≤ 100 := by
  intro o; cases o <;> decide +kernel

/-- The bytes are bytes. -/
theorem code_small (f : Form Tree) (h : fine f = true) : (∀ b ∈ code f, b < 256) ∧ (code f).length ≤ 100 := by
  cases f
  case stack o rs => exact stack_small o rs (of_decide_eq_true h)
  case load8 sp d p m => cases sp <;> cases d <;> cases p <;> cases m <;> decide
  case load16 sp d p m => cases sp <;> cases d <;> cases p <;> cases m <;> decide
  case store8 sp p m d => cases sp <;> cases d <;> cases p <;> cases m <;> decide
  case store16 sp p m d => cases sp <;> cases d <;> cases p <;> cases m <;> decide
  case ld8 d s => cases d <;> cases s <;> decide
  case ld16 d s => cases d <;> cases s <;> decide
  case alu8 d s => cases d <;> cases s <;> decide
  case alu16 d s => cases d <;> cases s <;> decide
  case exg8 d s => cases d <;> cases s <;> decide
  case exg16 d s => cases d <;> cases s <;> decide
  case shift d s => cases d <;> cases s <;> decide
  case not8 s => cases s <;> decide
  case tst s => cases s <;> decide
  case pick s => cases s <;> decide
  case cmp8 s => cases s <;> decide
  case cmp16 s => cases s <;> decide
  all_goals first | decide | cases h

theorem fine_val (f : Form Tree) (h : fine f = true) : f.val = none := by
  cases f <;> first | rfl | cases h

theorem fine_straight (f : Form Tree) (h : fine f = true) : (f.map fun _ => (0 : Int)).straight = true := by
  cases f <;> first | rfl | cases h

/-- What they do. -/
theorem Sem.code (C : Ctx) {f : Form Tree} (k : Bool) (h : fine f = true) : Sem C f k ((code f).map byte) :=
  Sem.const C k _ (fine_val f h) (code_small f h).1 (code_small f h).2
    fun pc => Meets.of_does (fine_straight f h) (does_code f h) pc

theorem sem_reti (C : Ctx) (k : Bool) : Sem C .reti k [byte 0x59] :=
  Sem.const C k [0x59] rfl (by decide) (by decide) fun pc => Meets.one (by decide) pc fun _ => rfl

theorem sem_jal (C : Ctx) (k : Bool) (r : R16) : Sem C (.jal r) k [byte (0x38 ||| r.n)] :=
  Sem.const C k [0x38 ||| r.n] rfl (by cases r <;> decide) (by simp) fun pc =>
    Meets.one (by cases r <;> decide) pc fun _ => by cases r <;> rfl

theorem sem_jr (C : Ctx) (k : Bool) (r : R16) : Sem C (.jr r) k [byte (0x3C ||| r.n)] :=
  Sem.const C k [0x3C ||| r.n] rfl (by cases r <;> decide) (by simp) fun pc =>
    Meets.one (by cases r <;> decide) pc fun _ => by cases r <;> rfl

end Verif.Cpu.Rc8
