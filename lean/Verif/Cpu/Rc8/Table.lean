import Verif.Cpu.Rc8.Runs
/-!
# What the functions of the RC8 make of every line
-/
set_option linter.constructorNameAsVariable false
set_option linter.unusedSimpArgs false
set_option maxRecDepth 4000

namespace Verif.Cpu.Rc8

open Verif.Parse (Tok Toks Tree)
open Verif.Expr (Src FMath ASym Den BinOp I32 toI32 wrap)

variable (C : Ctx)

/-- The function for a line makes items of it that do what the line says. -/
structure Fits (m : Mn) (os : List Opnd) (f : Form Tree) : Prop where
  pass : (entry m).pass = false
  allowed : Allowed C (entry m) os
  made : ∃ items, (∀ cc, (entry m).handler.run C (entry m).base cc (fstAm C (entry m).first os) (sndAm C (entry m).second os) = .ok items) ∧
    Sem C f (knows C m os) items

/-- What is read of operands without expressions. -/
def Opnd.fixed : Opnd → Option Am
  | .r8 r => some ⟨1 <<< r.ctorIdx, r.ctorIdx, none⟩
  | .r16 r => some ⟨0x100 <<< r.ctorIdx, r.ctorIdx, none⟩
  | .ptr r .stay => some ⟨0x1000 <<< r.ctorIdx, r.ctorIdx, none⟩
  | .ptr r .inc => some ⟨if r = .ft then mIncFT else mInc, r.ctorIdx, none⟩
  | .ptr r .dec => some ⟨if r = .ft then mDecFT else mDec, r.ctorIdx, none⟩
  | .indC => some ⟨mIndC, 0, none⟩
  | _ => none

theorem am_fixed (A : Nat) {o : Opnd} {a : Am} (h : o.fixed = some a) : o.am C A = a := by
  cases o with
  | r8 r => exact Option.some.inj h
  | r16 r => exact Option.some.inj h
  | indC => exact Option.some.inj h
  | regs rs => cases h
  | val t => cases h
  | ptr r v => cases v <;> exact Option.some.inj h

theorem Fits.code0 {m : Mn} {f : Form Tree} (hf : fine f = true) (hp : (entry m).pass = false)
    (h1 : (entry m).first = mNone) (h2 : (entry m).second = mNone)
    (h3 : ∀ C cc, (entry m).handler.run C (entry m).base cc noMode noMode = .ok ((code f).map byte)) : Fits C m [] f :=
  ⟨hp, ⟨h1, h2⟩, _, fun cc => h3 C cc, Sem.code C _ hf⟩

theorem Fits.code1 {m : Mn} {o : Opnd} {a : Am} {f : Form Tree} (ho : o.fixed = some a) (hf : fine f = true) (hp : (entry m).pass = false)
    (h1 : has (entry m).first a.mode = true) (h2 : has (entry m).second mNone = true)
    (h3 : ∀ C cc, (entry m).handler.run C (entry m).base cc a noMode = .ok ((code f).map byte)) : Fits C m [o] f :=
  ⟨hp, ⟨(am_fixed C _ ho).symm ▸ h1, h2⟩, _, fun cc => (show fstAm C (entry m).first [o] = a from am_fixed C _ ho).symm ▸ h3 C cc,
    Sem.code C _ hf⟩

theorem Fits.code2 {m : Mn} {o q : Opnd} {a b : Am} {f : Form Tree} (ho : o.fixed = some a) (hq : q.fixed = some b) (hf : fine f = true)
    (hp : (entry m).pass = false) (h1 : has (entry m).first a.mode = true) (h2 : has (entry m).second b.mode = true)
    (h3 : ∀ C cc, (entry m).handler.run C (entry m).base cc a b = .ok ((code f).map byte)) : Fits C m [o, q] f :=
  ⟨hp, ⟨(am_fixed C _ ho).symm ▸ h1, (am_fixed C _ hq).symm ▸ h2⟩, _,
    fun cc => (show fstAm C (entry m).first [o, q] = a from am_fixed C _ ho).symm ▸
      (show sndAm C (entry m).second [o, q] = b from am_fixed C _ hq).symm ▸ h3 C cc, Sem.code C _ hf⟩

theorem allowed_fixed (A : Nat) {o : Opnd} {a : Am} (h : o.fixed = some a) (h1 : has A a.mode = true) : has A (o.am C A).mode = true :=
  (am_fixed C A h).symm ▸ h1

theorem allowed_imm (A : Nat) (t : Tree) (h : has A mAddr = false) (h1 : has A mImm = true) : has A ((Opnd.val t).am C A).mode = true := by
  simp only [Opnd.am, h, Bool.false_eq_true, if_false, h1]

theorem allowed_addr (A : Nat) (t : Tree) (h : has A mAddr = true) : has A ((Opnd.val t).am C A).mode = true := by
  simp only [Opnd.am, h, if_true]

macro "all_rfl" : tactic => `(tactic| with_unfolding_all rfl)

macro "made0" : tactic => `(tactic| exact Fits.code0 C rfl rfl rfl rfl (fun _ _ => by all_rfl))
macro "made1" : tactic => `(tactic| exact Fits.code1 C rfl rfl rfl (by all_rfl) (by all_rfl) (fun _ _ => by all_rfl))
macro "made2" : tactic => `(tactic| exact Fits.code2 C rfl rfl rfl rfl (by all_rfl) (by all_rfl) (fun _ _ => by all_rfl))

macro "byte8" : tactic => `(tactic| exact sem_imm8 C _ _ (by decide) rfl (fun _ _ => rfl) (fun _ _ => rfl)
  (fun _ _ _ _ _ h => by simp only [Form.map, act, h]) (fun _ _ _ _ _ _ => rfl))

macro "any8" : tactic => `(tactic| exact sem_any8 C _ _ (by decide) rfl (fun _ _ => rfl) (fun _ _ => rfl)
  (fun _ _ _ _ _ h => by simp only [Form.map, act, h]) (fun _ _ _ _ _ h => by simp only [Form.map, goto, h]))

macro "run_val" : tactic => `(tactic| simp (decide := true) only [ld, add, addTo, sub, cmp, bitwise, shift, pick, ensureSource, opImm, opReg,
  byte, noMode, lowOf, if_true, if_false])

theorem run_ld8 (r : R8) (e : Src) :
    ld C ⟨1 <<< r.ctorIdx, r.ctorIdx, none⟩ ⟨mImm, 0, some e⟩ = .ok [byte (0x80 ||| r.n), imm (-128) 255 e] := by
  cases r <;> run_val <;> rfl

theorem run_add8 (r : R8) (e : Src) :
    add C ⟨1 <<< r.ctorIdx, r.ctorIdx, none⟩ ⟨mImm, 0, some e⟩ = .ok [byte (0xA0 ||| r.n), imm (-128) 255 e] := by
  cases r <;> run_val <;> rfl

theorem run_sub8 (r : R8) (e : Src) :
    sub C ⟨1 <<< r.ctorIdx, r.ctorIdx, none⟩ ⟨mImm, 0, some e⟩ = .ok [byte (0xA0 ||| r.n), imm (-128) 255 (.bin .sub (.num 0) e)] := by
  cases r <;> run_val <;> rfl

theorem run_cmp8 (r : R8) (e : Src) :
    cmp ⟨1 <<< r.ctorIdx, r.ctorIdx, none⟩ ⟨mImm, 0, some e⟩ = .ok [byte (0xA8 ||| r.n), .expr 1 e] := by
  cases r <;> run_val <;> rfl

theorem run_bits (k : Nat) (e : Src) : bitwise k ⟨mImm, 0, some e⟩ noMode = .ok [byte (0xB0 + ((k >>> 3) &&& 3)), imm (-128) 255 e] ∧
    bitwise k ⟨2, 1, none⟩ ⟨mImm, 0, some e⟩ = .ok [byte (0xB0 + ((k >>> 3) &&& 3)), imm (-128) 255 e] := by
  constructor <;> run_val <;> rfl

theorem run_shift (k : Nat) (e : Src) : shift k ⟨mImm, 0, some e⟩ noMode = .ok [byte (0xB8 + ((k >>> 3) &&& 3)), .expr 1 (checkRange e 0 15)] ∧
    shift k ⟨0x100, 0, none⟩ ⟨mImm, 0, some e⟩ = .ok [byte (0xB8 + ((k >>> 3) &&& 3)), .expr 1 (checkRange e 0 15)] := by
  constructor <;> run_val <;> rfl

theorem run_pick (r : R16) (e : Src) : pick 0x1C ⟨0x100 <<< r.ctorIdx, r.ctorIdx, none⟩ ⟨mImm, 0, some e⟩ =
    .ok [byte (0x80 ||| r.lo.n), .expr 1 (checkRange e 0 255), byte (0x1C ||| r.n)] := by
  cases r <;> run_val <;> rfl

theorem fits_zero (m : Mn) (f : Form Tree) (h : form m [] = some f) : Fits C m [] f := by
  cases m <;> cases h <;> first
    | made0
    | exact ⟨rfl, ⟨rfl, rfl⟩, _, fun _ => rfl, sem_reti C _⟩

theorem fits_r8 (m : Mn) (r : R8) (f : Form Tree) (h : form m [.r8 r] = some f) (hw : f.wrong = false) : Fits C m [.r8 r] f := by
  cases m <;> cases r <;> cases h <;> first | made1 | cases hw

theorem fits_r16 (m : Mn) (r : R16) (f : Form Tree) (h : form m [.r16 r] = some f) : Fits C m [.r16 r] f := by
  cases m <;> cases r <;> cases h <;> made1

theorem fits_ptr (m : Mn) (hj : m ≠ .j) (r : R16) (a : Move) (f : Form Tree) (h : form m [.ptr r a] = some f) : Fits C m [.ptr r a] f := by
  cases m
  case j => exact absurd rfl hj
  case jal =>
    cases a <;> cases h
    refine ⟨rfl, ⟨allowed_fixed C _ rfl (by cases r <;> all_rfl), by all_rfl⟩, _, fun cc => ?_, sem_jal C _ r⟩
    show jal C 0x38 ⟨0x1000 <<< r.ctorIdx, r.ctorIdx, none⟩ = _
    cases r <;> all_rfl
  all_goals cases a <;> cases h

theorem fits_val (m : Mn) (hj : m ≠ .j) (t : Tree) (f : Form Tree) (h : form m [.val t] = some f) : Fits C m [.val t] f := by
  cases m
  case j => exact absurd rfl hj
  case jal => cases h; exact ⟨rfl, ⟨allowed_addr C _ t (by all_rfl), by all_rfl⟩, run_jaln C _ (by all_rfl) t⟩
  case ls =>
    cases h
    exact ⟨rfl, ⟨allowed_imm C _ t (by all_rfl) (by all_rfl), by all_rfl⟩, _, fun _ => (run_shift 0xE0 _).1, sem_shift C _ _ t 0xB8 (by decide) (fun _ _ => rfl)⟩
  case rs =>
    cases h
    exact ⟨rfl, ⟨allowed_imm C _ t (by all_rfl) (by all_rfl), by all_rfl⟩, _, fun _ => (run_shift 0xE8 _).1, sem_shift C _ _ t 0xB9 (by decide) (fun _ _ => rfl)⟩
  case rsa =>
    cases h
    exact ⟨rfl, ⟨allowed_imm C _ t (by all_rfl) (by all_rfl), by all_rfl⟩, _, fun _ => (run_shift 0xF8 _).1, sem_shift C _ _ t 0xBB (by decide) (fun _ _ => rfl)⟩
  case sys => cases h; exact ⟨rfl, ⟨allowed_imm C _ t (by all_rfl) (by all_rfl), by all_rfl⟩, _, fun _ => rfl, by any8⟩
  case and => cases h; exact ⟨rfl, ⟨allowed_imm C _ t (by all_rfl) (by all_rfl), by all_rfl⟩, _, fun _ => (run_bits 0x68 _).1, by byte8⟩
  case or => cases h; exact ⟨rfl, ⟨allowed_imm C _ t (by all_rfl) (by all_rfl), by all_rfl⟩, _, fun _ => (run_bits 0x60 _).1, by byte8⟩
  case xor => cases h; exact ⟨rfl, ⟨allowed_imm C _ t (by all_rfl) (by all_rfl), by all_rfl⟩, _, fun _ => (run_bits 0x70 _).1, by byte8⟩
  all_goals cases h

theorem fits_regs (m : Mn) (rs : List (R16 × Option R16)) (f : Form Tree) (h : form m [.regs rs] = some f) : Fits C m [.regs rs] f := by
  cases m
  case push | pop | swap =>
    obtain ⟨l, hl, rfl⟩ := Option.map_eq_some_iff.1 h
    first
      | exact ⟨rfl, ⟨show has _ mMask = true by all_rfl, by all_rfl⟩, run_list C (entry .push).first noMode .push rs l hl⟩
      | exact ⟨rfl, ⟨show has _ mMask = true by all_rfl, by all_rfl⟩, run_list C (entry .pop).first noMode .pop rs l hl⟩
      | exact ⟨rfl, ⟨show has _ mMask = true by all_rfl, by all_rfl⟩, run_list C (entry .swap).first noMode .swap rs l hl⟩
  all_goals cases h

theorem fits_r8_r8 (m : Mn) (a b : R8) (f : Form Tree) (h : form m [.r8 a, .r8 b] = some f) (hw : f.wrong = false) :
    Fits C m [.r8 a, .r8 b] f := by
  cases m
  case ld => cases a <;> cases b <;> cases h <;> made2
  case exg => cases a <;> cases b <;> cases h <;> first | made2 | cases hw
  all_goals
    cases a <;> cases b <;> cases h <;> first | made2 | cases hw

theorem fits_r16_r16 (m : Mn) (a b : R16) (f : Form Tree) (h : form m [.r16 a, .r16 b] = some f) (hw : f.wrong = false) :
    Fits C m [.r16 a, .r16 b] f := by
  cases m <;> cases a <;> cases b <;> cases h <;> first | made2 | cases hw

theorem fits_r16_r8 (m : Mn) (a : R16) (b : R8) (f : Form Tree) (h : form m [.r16 a, .r8 b] = some f) : Fits C m [.r16 a, .r8 b] f := by
  cases m <;> cases a <;> cases b <;> cases h <;> made2

theorem fits_r8_val (m : Mn) (a : R8) (t : Tree) (f : Form Tree) (h : form m [.r8 a, .val t] = some f) : Fits C m [.r8 a, .val t] f := by
  cases m
  case ld =>
    cases h
    refine ⟨rfl, ⟨allowed_fixed C _ rfl (by cases a <;> all_rfl), allowed_imm C _ t (by all_rfl) (by all_rfl)⟩, _, fun _ => run_ld8 C a _, ?_⟩
    cases a <;> byte8
  case add =>
    cases h
    refine ⟨rfl, ⟨allowed_fixed C _ rfl (by cases a <;> all_rfl), allowed_imm C _ t (by all_rfl) (by all_rfl)⟩, _, fun _ => run_add8 C a _, ?_⟩
    cases a <;> byte8
  case cmp =>
    cases h
    refine ⟨rfl, ⟨allowed_fixed C _ rfl (by cases a <;> all_rfl), allowed_imm C _ t (by all_rfl) (by all_rfl)⟩, _, fun _ => run_cmp8 a _, ?_⟩
    cases a <;> any8
  case sub =>
    cases h
    exact ⟨rfl, ⟨allowed_fixed C _ rfl (by cases a <;> all_rfl), allowed_imm C _ t (by all_rfl) (by all_rfl)⟩, _, fun _ => run_sub8 C a _,
      sem_sub8 C _ a t⟩
  case dj =>
    cases h
    refine ⟨rfl, ⟨allowed_fixed C _ rfl (by cases a <;> all_rfl), allowed_addr C _ t (by all_rfl)⟩,
      [byte (0x88 + a.n), .expr 1 (checkRange (.pcRel 0 (C.src t)) (-128) 127)],
      fun _ => show jumpRel (0x88 + a.ctorIdx) (some (C.src t)) = _ from rfl, ?_⟩
    cases a <;> exact sem_jump C _ _ (by decide) rfl (fun _ _ => rfl) (fun _ _ => rfl)
      (fun _ _ _ _ _ _ => rfl) (fun _ _ _ _ _ h => by simp only [Form.map, goto, h])
  case and =>
    cases a <;> cases h
    exact ⟨rfl, ⟨allowed_fixed C _ rfl (by all_rfl), allowed_imm C _ t (by all_rfl) (by all_rfl)⟩, _, fun _ => (run_bits 0x68 _).2, by byte8⟩
  case or =>
    cases a <;> cases h
    exact ⟨rfl, ⟨allowed_fixed C _ rfl (by all_rfl), allowed_imm C _ t (by all_rfl) (by all_rfl)⟩, _, fun _ => (run_bits 0x60 _).2, by byte8⟩
  case xor =>
    cases a <;> cases h
    exact ⟨rfl, ⟨allowed_fixed C _ rfl (by all_rfl), allowed_imm C _ t (by all_rfl) (by all_rfl)⟩, _, fun _ => (run_bits 0x70 _).2, by byte8⟩
  all_goals cases a <;> cases h

theorem fits_r16_val (m : Mn) (a : R16) (t : Tree) (f : Form Tree) (h : form m [.r16 a, .val t] = some f) : Fits C m [.r16 a, .val t] f := by
  cases m
  case ld =>
    cases h
    exact ⟨rfl, ⟨allowed_fixed C _ rfl (by cases a <;> all_rfl), allowed_imm C _ t (by all_rfl) (by all_rfl)⟩, run_ldn16 C (entry .ld).first (entry .ld).second (by all_rfl) a t⟩
  case add =>
    cases h
    exact ⟨rfl, ⟨allowed_fixed C _ rfl (by cases a <;> all_rfl), allowed_imm C _ t (by all_rfl) (by all_rfl)⟩, run_add16 C (entry .add).first (entry .add).second (by all_rfl) a t⟩
  case sub =>
    cases h
    exact ⟨rfl, ⟨allowed_fixed C _ rfl (by cases a <;> all_rfl), allowed_imm C _ t (by all_rfl) (by all_rfl)⟩, run_sub16 C (entry .sub).first (entry .sub).second (by all_rfl) a t⟩
  case pick =>
    cases h
    exact ⟨rfl, ⟨allowed_fixed C _ rfl (by cases a <;> all_rfl), allowed_imm C _ t (by all_rfl) (by all_rfl)⟩, _, fun _ => run_pick a _,
      sem_pickn C _ a t⟩
  case ls =>
    cases a <;> cases h
    exact ⟨rfl, ⟨allowed_fixed C _ rfl (by all_rfl), allowed_imm C _ t (by all_rfl) (by all_rfl)⟩, _, fun _ => (run_shift 0xE0 _).2,
      sem_shift C _ _ t 0xB8 (by decide) (fun _ _ => rfl)⟩
  case rs =>
    cases a <;> cases h
    exact ⟨rfl, ⟨allowed_fixed C _ rfl (by all_rfl), allowed_imm C _ t (by all_rfl) (by all_rfl)⟩, _, fun _ => (run_shift 0xE8 _).2,
      sem_shift C _ _ t 0xB9 (by decide) (fun _ _ => rfl)⟩
  case rsa =>
    cases a <;> cases h
    exact ⟨rfl, ⟨allowed_fixed C _ rfl (by all_rfl), allowed_imm C _ t (by all_rfl) (by all_rfl)⟩, _, fun _ => (run_shift 0xF8 _).2,
      sem_shift C _ _ t 0xBB (by decide) (fun _ _ => rfl)⟩
  all_goals cases a <;> cases h

theorem fits_r8_ptr (m : Mn) (a : R8) (p : R16) (v : Move) (f : Form Tree) (h : form m [.r8 a, .ptr p v] = some f) :
    Fits C m [.r8 a, .ptr p v] f := by
  cases m
  case ld => cases a <;> cases p <;> cases v <;> cases h <;> made2
  case lco => cases a <;> cases p <;> cases v <;> cases h <;> made2
  case lio => cases a <;> cases p <;> cases v <;> cases h <;> made2
  all_goals cases v <;> cases a <;> cases h

theorem fits_r16_ptr (m : Mn) (a : R16) (p : R16) (v : Move) (f : Form Tree) (h : form m [.r16 a, .ptr p v] = some f)
    (hw : f.wrong = false) : Fits C m [.r16 a, .ptr p v] f := by
  cases m
  case ld => cases a <;> cases p <;> cases v <;> cases h <;> made2
  case lco =>
    cases a <;> cases p <;> cases v <;> cases h <;> first | made2 | cases hw
  case lio =>
    cases a <;> cases p <;> cases v <;> cases h <;> made2
  all_goals cases v <;> cases a <;> cases h

theorem fits_ptr_r8 (m : Mn) (p : R16) (v : Move) (a : R8) (f : Form Tree) (h : form m [.ptr p v, .r8 a] = some f)
    (hw : f.wrong = false) : Fits C m [.ptr p v, .r8 a] f := by
  cases m
  case ld => cases a <;> cases p <;> cases v <;> cases h <;> made2
  case lio =>
    cases a <;> cases p <;> cases v <;> cases h <;> first | made2 | cases hw
  all_goals cases v <;> cases a <;> cases h

theorem fits_ptr_r16 (m : Mn) (p : R16) (v : Move) (a : R16) (f : Form Tree) (h : form m [.ptr p v, .r16 a] = some f)
    (hw : f.wrong = false) : Fits C m [.ptr p v, .r16 a] f := by
  cases m
  case ld => cases a <;> cases p <;> cases v <;> cases h <;> made2
  case lio =>
    cases a <;> cases p <;> cases v <;> cases h <;> first | made2 | cases hw
  all_goals cases v <;> cases a <;> cases h

theorem fits_lcr (m : Mn) (a : R8) (f : Form Tree) :
    (form m [.r8 a, .indC] = some f → Fits C m [.r8 a, .indC] f) ∧ (form m [.indC, .r8 a] = some f → Fits C m [.indC, .r8 a] f) := by
  constructor <;> intro h <;> cases m <;> cases a <;> cases h <;> made2

macro "no_form" h:ident : tactic => `(tactic| repeat' first
  | cases $h:ident
  | (rename R8 => x; cases x)
  | (rename R16 => x; cases x)
  | (rename Move => x; cases x))

/-- Every line but jumps. -/
theorem fits (m : Mn) (hj : m ≠ .j) (os : List Opnd) (f : Form Tree) (h : form m os = some f) (hw : f.wrong = false) : Fits C m os f := by
  rcases os with _ | ⟨a, _ | ⟨b, _ | ⟨c, os⟩⟩⟩
  · exact fits_zero C m f h
  · cases a with
    | r8 r => exact fits_r8 C m r f h hw
    | r16 r => exact fits_r16 C m r f h
    | regs rs => exact fits_regs C m rs f h
    | ptr r v => exact fits_ptr C m hj r v f h
    | indC => cases m <;> no_form h
    | val t => exact fits_val C m hj t f h
  · cases a with
    | r8 r =>
      cases b with
      | r8 q => exact fits_r8_r8 C m r q f h hw
      | val t => exact fits_r8_val C m r t f h
      | ptr p v => exact fits_r8_ptr C m r p v f h
      | indC => exact (fits_lcr C m r f).1 h
      | r16 q => cases m <;> no_form h
      | regs rs => cases m <;> no_form h
    | r16 r =>
      cases b with
      | r8 q => exact fits_r16_r8 C m r q f h
      | r16 q => exact fits_r16_r16 C m r q f h hw
      | val t => exact fits_r16_val C m r t f h
      | ptr p v => exact fits_r16_ptr C m r p v f h hw
      | indC => cases m <;> no_form h
      | regs rs => cases m <;> no_form h
    | ptr p v =>
      cases b with
      | r8 q => exact fits_ptr_r8 C m p v q f h hw
      | r16 q => exact fits_ptr_r16 C m p v q f h hw
      | _ => cases m <;> no_form h
    | indC =>
      cases b with
      | r8 q => exact (fits_lcr C m q f).2 h
      | _ => cases m <;> no_form h
    | regs rs => cases m <;> cases b <;> no_form h
    | val t => cases m <;> cases b <;> no_form h
  · cases m <;> cases a <;> cases b <;> no_form h

end Verif.Cpu.Rc8
