import Verif.Cpu.Rc8.Lists
/-!
# What the functions of the RC8 make of the operands of a line
-/
set_option linter.constructorNameAsVariable false

namespace Verif.Cpu.Rc8

open Verif.Parse (Tok Toks Tree)
open Verif.Expr (Src FMath ASym Den BinOp I32 toI32 wrap)

/-- What the operands are read as. -/
def fstAm (C : Ctx) (A : Nat) : List Opnd → Am
  | [] => noMode
  | o :: _ => o.am C A

def sndAm (C : Ctx) (A : Nat) : List Opnd → Am
  | [_, o] => o.am C A
  | _ => noMode

/-- Whether the operands may be there. -/
def Allowed (C : Ctx) (e : Entry) : List Opnd → Prop
  | [] => e.first = mNone ∧ e.second = mNone
  | [a] => has e.first (a.am C e.first).mode = true ∧ has e.second mNone = true
  | [a, b] => has e.first (a.am C e.first).mode = true ∧ has e.second (b.am C e.second).mode = true
  | _ => False

/-- The entry of the table for a mnemonic. -/
def entry : Mn → Entry
  | .add => ⟨0x00, false, m8 ||| m16, mImm ||| m8 ||| m16 ||| mNone, .add⟩
  | .and => ⟨0x68, false, m8 ||| mImm, mNone ||| m8 ||| mImm, .bitwise⟩
  | .cmp => ⟨0x00, false, m8 ||| m16, mImm ||| m8notT ||| m16rest ||| mNone, .cmp⟩
  | .di => ⟨0x1B, false, mNone, mNone, .implicit⟩
  | .dj => ⟨0x88, false, m8, mAddr, .dj⟩
  | .ei => ⟨0x1A, false, mNone, mNone, .implicit⟩
  | .exg => ⟨0x10, false, m8 ||| m16, mNone ||| m8 ||| m16, .exg⟩
  | .ext => ⟨0x49, false, mNone, mNone, .implicit⟩
  | .j => ⟨0x3C, true, mInd ||| mAddr, mNone, .j⟩
  | .jal => ⟨0x38, false, mInd ||| mAddr, mNone, .jal⟩
  | .lco => ⟨0x0C, false, mT ||| mFT, mInd ||| mIncDec, .lco⟩
  | .lcr => ⟨0x0A, false, mIndC ||| mT, mIndC ||| mT, .lcr⟩
  | .ld => ⟨0x00, false, m8 ||| m16 ||| mInd ||| mIncDec, mImm ||| m8 ||| m16 ||| mInd ||| mIncDec, .ld⟩
  | .lio => ⟨0x30, false, mIncDec ||| mIndRest ||| mT ||| mFT, mIncDec ||| mInd ||| mT ||| mFT, .lio⟩
  | .ls => ⟨0xE0, false, mFT ||| m8rest ||| mImm, m8rest ||| mImm ||| mNone, .shift⟩
  | .neg => ⟨0x51, false, mT ||| mFT, mNone, .neg⟩
  | .nop => ⟨0x00, false, mNone, mNone, .implicit⟩
  | .not => ⟨0x18, false, mF ||| mT ||| mFT, mNone, .not⟩
  | .or => ⟨0x60, false, m8 ||| mImm, mNone ||| m8 ||| mImm, .bitwise⟩
  | .pick => ⟨0x1C, false, m16, mNone ||| mImm, .pick⟩
  | .pop => ⟨0xC4, false, m16 ||| mMask, mNone, .stack⟩
  | .popa => ⟨0xF9, false, mNone, mNone, .implicit⟩
  | .push => ⟨0xC0, false, m16 ||| mMask, mNone, .stack⟩
  | .pusha => ⟨0xF8, false, mNone, mNone, .implicit⟩
  | .reti => ⟨0x59, false, mNone, mNone, .implicit⟩
  | .rs => ⟨0xE8, false, mFT ||| m8rest ||| mImm, m8rest ||| mImm ||| mNone, .shift⟩
  | .rsa => ⟨0xF8, false, mFT ||| m8rest ||| mImm, m8rest ||| mImm ||| mNone, .shift⟩
  | .sub => ⟨0x00, false, m8 ||| m16, mNone ||| m8 ||| m16 ||| mImm, .sub⟩
  | .swap => ⟨0xDC, false, m16 ||| mMask, mNone, .stack⟩
  | .swapa => ⟨0xCC, false, mNone, mNone, .implicit⟩
  | .sys => ⟨0x9B, false, mImm, mNone, .sys⟩
  | .tst => ⟨0xD4, false, m16, mNone, .tst⟩
  | .xor => ⟨0x70, false, m8 ||| mImm, mNone ||| m8 ||| mImm, .bitwise⟩

theorem entry_eq (m : Mn) : table[m.ctorIdx]? = some (entry m) := by cases m <;> rfl

/-- Whether the assembler knows the value of a word that is loaded when it reads the line. `LD` checks its range twice. -/
def knows (C : Ctx) : Mn → List Opnd → Bool
  | .ld, [.r16 _, .val t] => (C.known (checkRange (checkRange (C.src t) (-32768) 65535) (-32768) 65535)).isSome
  | .jal, [.val t] => (C.known (checkRange (C.src t) (-32768) 65535)).isSome
  | _, _ => false

variable (C : Ctx)

theorem run_ldn16 (A B : Nat) (hB : has B mAddr = false) (d : R16) (t : Tree) : ∃ items,
    (∀ cc, Handler.run .ld C 0 cc ((Opnd.r16 d).am C A) ((Opnd.val t).am C B) = .ok items) ∧
    Sem C (.ldn16 d t) (C.known (checkRange (checkRange (C.src t) (-32768) 65535) (-32768) 65535)).isSome items := by
  obtain ⟨items, h1, h2⟩ := sem_ldn16 C d ((Opnd.r16 d).am C A) rfl t
  refine ⟨items, fun _ => ?_, h2⟩
  unfold Handler.run ld
  simp only [Opnd.am, hB, Bool.false_eq_true, if_false]
  cases d <;> exact h1

theorem run_jaln (A : Nat) (hA : has A mAddr = true) (t : Tree) : ∃ items,
    (∀ cc, Handler.run .jal C 0x38 cc ((Opnd.val t).am C A) noMode = .ok items) ∧
    Sem C (.jaln t) (C.known (checkRange (C.src t) (-32768) 65535)).isSome items := by
  obtain ⟨items, h1, h2⟩ := sem_jaln C t
  refine ⟨items ++ [byte 0x3B], fun _ => ?_, h2⟩
  unfold Handler.run jal
  simp only [Opnd.am, hA, if_true]
  rw [h1]
  rfl

theorem am_val {B : Nat} (hB : has B mAddr = false) (t : Tree) :
    (Opnd.val t).am C B = ⟨mImm, 0, some (checkRange (C.src t) (-32768) 65535)⟩ := by
  simp only [Opnd.am, hB, Bool.false_eq_true, if_false]

theorem add_word (A : Nat) (d : R16) (e : Src) : add C ((Opnd.r16 d).am C A) ⟨mImm, 0, some e⟩ = addWord C ((Opnd.r16 d).am C A) e := by
  have h : ∀ n r, n ∈ [0x100, 0x200, 0x400, 0x800] → addTo C ⟨n, r, none⟩ ⟨mImm, 0, some e⟩ = addWord C ⟨n, r, none⟩ e := by
    intro n r hn
    simp only [List.mem_cons, List.not_mem_nil, or_false] at hn
    unfold addTo
    rw [if_neg (by rintro ⟨_, h⟩; revert h; exact (by decide : ¬ has mImm m8 = true)),
      if_neg (by rintro ⟨_, h⟩; revert h; exact (by decide : ¬ has mImm m16 = true)),
      if_neg (by rintro ⟨h, _⟩; revert h; show ¬ has n m8 = true; rcases hn with rfl | rfl | rfl | rfl <;> decide),
      if_pos ⟨(by show has n m16 = true; rcases hn with rfl | rfl | rfl | rfl <;> decide), (by decide : has mImm mImm = true)⟩]
  cases d <;> exact h _ _ (by decide)

theorem sub_word (A : Nat) (d : R16) (e : Src) :
    sub C ((Opnd.r16 d).am C A) ⟨mImm, 0, some e⟩ = addWord C ((Opnd.r16 d).am C A) (.bin .sub (.num 0) e) := by
  rw [← add_word]
  have h : ∀ n r, n ∈ [0x100, 0x200, 0x400, 0x800] → sub C ⟨n, r, none⟩ ⟨mImm, 0, some e⟩ =
      add C ⟨n, r, none⟩ ⟨mImm, 0, some (.bin .sub (.num 0) e)⟩ := by
    intro n r hn
    simp only [List.mem_cons, List.not_mem_nil, or_false] at hn
    show (if _ then _ else _) = _
    rw [if_neg (by rintro ⟨h, _⟩; revert h; exact (by decide : ¬ has mImm m8 = true)),
      if_neg (by rintro ⟨h, _⟩; revert h; exact (by decide : ¬ has mImm m16rest = true)),
      if_pos ⟨(by show has n (m8 ||| m16) = true; rcases hn with rfl | rfl | rfl | rfl <;> decide), (by decide : has mImm mImm = true)⟩]
  cases d <;> exact h _ _ (by decide)

theorem run_add16 (A B : Nat) (hB : has B mAddr = false) (d : R16) (t : Tree) : ∃ items,
    (∀ cc, Handler.run .add C 0 cc ((Opnd.r16 d).am C A) ((Opnd.val t).am C B) = .ok items) ∧ Sem C (.alun16 .add d t) false items := by
  obtain ⟨items, h1, h2⟩ := sem_add16 C (f := .alun16 .add d t) (t := t) false d ((Opnd.r16 d).am C A) rfl (checkRange (C.src t) (-32768) 65535)
    (fun v => v) rfl (fun fm now ρ => value_word fm now ρ _)
    (fun v pc => by
      show decide (-32768 ≤ v ∧ v < 32640 ∨ 32767 < v ∧ v ≤ 65535) = _
      exact decide_eq_decide.2 (by omega)) (fun _ => rfl) (fun _ _ _ => rfl)
  refine ⟨items, fun _ => ?_, h2⟩
  rw [am_val C hB]
  exact (add_word C A d _).trans h1

theorem run_sub16 (A B : Nat) (hB : has B mAddr = false) (d : R16) (t : Tree) : ∃ items,
    (∀ cc, Handler.run .sub C 0 cc ((Opnd.r16 d).am C A) ((Opnd.val t).am C B) = .ok items) ∧ Sem C (.alun16 .sub d t) false items := by
  obtain ⟨items, h1, h2⟩ := sem_add16 C (f := .alun16 .sub d t) (t := t) false d ((Opnd.r16 d).am C A) rfl
    (.bin .sub (.num 0) (checkRange (C.src t) (-32768) 65535))
    (fun v => -v) rfl (fun fm now ρ => value_neg fm now ρ _)
    (fun v pc => by
      show decide (-32640 < v ∧ v ≤ 32768 ∨ v = -32768) = _
      exact decide_eq_decide.2 (by omega)) (fun _ => rfl) (fun cpu s v => act_sub16 d v cpu s)
  refine ⟨items, fun _ => ?_, h2⟩
  rw [am_val C hB]
  exact (sub_word C A d _).trans h1

theorem run_list (A : Nat) (B : Am) (o : StackOp) (rs : List (R16 × Option R16)) (l : List R16) (h : listed rs = some l) : ∃ items,
    (∀ cc, Handler.run .stack C o.base cc ((Opnd.regs rs).am C A) B = .ok items) ∧ Sem C (.stack o l) false items := by
  obtain ⟨_, hl, h2⟩ := listed_some h
  subst hl
  obtain ⟨h3, h4⟩ := filter_subs (covers rs) h2
  exact ⟨_, fun _ => h4 o, Sem.code C false (decide_eq_true h3)⟩

end Verif.Cpu.Rc8
