import Verif.Cpu.M6809.Main
/-!
# C60: lines that are refused
-/
set_option linter.constructorNameAsVariable false

namespace Verif.Cpu.M6809

open Verif.Parse (Tok Toks Tree)
open Verif.Expr (Src FMath ASym Den BinOp I32 u32 toI32 wrap)
open Verif.Cpu.X65 (EndOfLine ok_bind value_pc front)
open Verif.Cpu.Z80 (C0 readable_num)

variable {C : Ctx} {dp : Option Nat} {m : Mn} {x : Opnd} {rest toks : Toks}

/-- There is something left that is not the end of the line and not a directive of the processor. -/
def Stuck (toks : Toks) : Prop := ∃ y ys, toks = y :: ys ∧ y ≠ .other 10 ∧ y ≠ .other setdpNum

theorem Stuck.not_eol (h : Stuck toks) : ¬ EndOfLine toks := by
  obtain ⟨y, ys, rfl, hy, _⟩ := h
  exact fun he => hy (he y rfl)

/-- The parser of modes refuses the operand or leaves something. -/
def Bad (r : Read) : Prop := ∀ am rest, r = .ok (am, rest) → Stuck rest

theorem bad_fail : Bad .fail := fun _ _ h => (nomatch h)

theorem bad_ok {am : Am} (h : Stuck rest) : Bad (.ok (am, rest)) := fun _ _ e => by cases e; exact h

/-- The assembler does not come to the end of the line. -/
def Refused (C : Ctx) (dp : Option Nat) (m : Mn) (toks : Toks) : Prop :=
  ∀ r, instr C dp (m.tok :: toks) = .ok r → ¬ EndOfLine r.rest

theorem integer_handle (toks : Toks) : integer C dp (m.tok :: toks) = handle C dp m.entry toks := by
  obtain ⟨h1, h2, h3⟩ := entry_of m
  unfold Mn.tok integer
  simp only
  rw [if_pos ⟨h2, h3⟩, h1]

theorem instr_fail (h : addrMode C m.entry.allowed toks = .fail) : instr C dp (m.tok :: toks) = .fail := by
  unfold instr
  rw [integer_handle]
  unfold handle
  rw [h]
  rfl

theorem directive_stuck {r : Res} (h : Stuck r.rest) : directive C r = .ok r := by
  obtain ⟨y, ys, hr, _, hy⟩ := h
  unfold directive
  rw [hr]
  split
  · rename_i e
    injection e with e _
    subst e
    rw [if_neg (by rintro rfl; exact hy rfl)]
  · rfl

theorem refused_of (hh : m.entry.handler ≠ .regToReg) (hb : Bad (addrMode C m.entry.allowed toks)) : Refused C dp m toks := by
  intro r hr
  unfold instr at hr
  rw [integer_handle] at hr
  unfold handle at hr
  cases ha : addrMode C m.entry.allowed toks with
  | fail => rw [ha] at hr; cases hr
  | ub => rw [ha] at hr; cases hr
  | ok p =>
    obtain ⟨am, rest⟩ := p
    have hs := hb am rest ha
    rw [ha, ok_bind] at hr
    simp only at hr
    rw [if_neg hh] at hr
    generalize emit (resolve C dp am) (m.entry.handler.run m.entry.base (resolve C dp am).mode).2 = o at hr
    cases o with
    | fail => cases hr
    | ub => cases hr
    | ok is =>
      rw [ok_bind, ok_bind] at hr
      split at hr
      · injection hr with hr; subst hr; exact hs.not_eol
      · rw [directive_stuck hs] at hr
        injection hr with hr; subst hr; exact hs.not_eol

theorem refused_pair (hh : m.entry.handler = .regToReg) (ha : m.entry.allowed = M.none)
    (hb : ∀ is rest, regToReg m.entry.base toks = .ok (is, rest) → Stuck rest) (hn : ∀ am rest, addrMode C M.none toks = .ok (am, rest) → rest = toks) :
    Refused C dp m toks := by
  intro r hr
  unfold instr at hr
  rw [integer_handle] at hr
  unfold handle at hr
  rw [ha] at hr
  cases hc : addrMode C M.none toks with
  | fail => rw [hc] at hr; cases hr
  | ub => rw [hc] at hr; cases hr
  | ok p =>
    obtain ⟨am, rest⟩ := p
    obtain rfl := hn am rest hc
    rw [hc, ok_bind] at hr
    simp only at hr
    rw [if_pos hh] at hr
    cases hx : regToReg m.entry.base rest with
    | fail => rw [hx] at hr; cases hr
    | ub => rw [hx] at hr; cases hr
    | ok q =>
      obtain ⟨is, rest'⟩ := q
      rw [hx, ok_bind, ok_bind] at hr
      simp only [if_true] at hr
      injection hr with hr; subst hr
      exact (hb is rest' hx).not_eol

/-! ### The instructions by the modes that are allowed -/

def okClass (m : Mn) : Bool :=
  m.entry.allowed == M.none && (m.entry.handler != .regToReg && takes m .inh || m.entry.handler == .regToReg && takes m .pair) ||
  m.entry.handler != .regToReg && (
    m.entry.allowed == M.imm && takes m .imm8 ||
    m.entry.allowed == M.address && (takes m .rel8 || takes m .rel16) ||
    m.entry.allowed == M.t && takes m .idx ||
    m.entry.allowed == M.q && takes m .idx && takes m .ext ||
    m.entry.allowed == M.p && takes m .idx && takes m .ext && (takes m .imm8 || takes m .imm16 || m == .rol || m == .ror) ||
    m.entry.allowed == (M.imm ||| M.listU) && takes m (.list .u) && [.pshs, .puls].contains m ||
    m.entry.allowed == (M.imm ||| M.listS) && takes m (.list .s) && [.pshu, .pulu].contains m)

theorem classes_ok : Mn.all.all okClass = true := by decide +kernel

/-- An instruction without operand reads nothing. -/
theorem none_reads {am : Am} {rest : Toks} (h : addrMode C M.none toks = .ok (am, rest)) : rest = toks := by
  rw [read_plain (Or.inr (by decide)) (Or.inr (by decide))] at h
  have hm : core C M.none toks = memMode C M.none toks := by
    cases toks with
    | nil => rfl
    | cons y ys => cases y <;> rfl
  rw [hm] at h
  unfold memMode at h
  cases he : expr C 2 («prefix» toks).2.2 with
  | ok r =>
    rw [he, ok_bind] at h
    obtain ⟨e, r⟩ := r
    simp only at h
    rw [if_neg (by decide)] at h
    have hp : plainMode M.none («prefix» toks).1 («prefix» toks).2.1 e r toks = .ok (⟨M.none, none, none⟩, toks) := by
      unfold plainMode
      rw [if_neg (by rw [show has M.none M.extended = false from by decide]; simp), if_neg (by rw [show has M.none M.direct = false from by decide]; simp),
        if_neg (by rw [show has M.none M.address = false from by decide]; simp), if_pos (by decide)]
    rw [hp] at h
    injection h with h
    injection h with _ h
    exact h.symm
  | fail => rw [he] at h; cases h
  | ub => rw [he] at h; cases h

/-! ### Tokens of operands -/

/-- The first token of an operand: it is no word but a register, and not the end of the line. -/
def First (y : Tok) : Prop := y ≠ .other 10 ∧ y ≠ .other setdpNum

theorem reg_first (r : R) : First r.tok := by
  unfold First R.tok
  cases r <;> decide

theorem force_first (f : Force) (t : Tree) (xs : Toks) : ∃ y ys, f.toks ++ (t.toks ++ xs) = y :: ys ∧ First y := by
  obtain ⟨y, hy, _, ho⟩ := force_front f t xs
  cases hx : f.toks ++ (t.toks ++ xs) with
  | nil => rw [hx] at hy; cases hy
  | cons z zs =>
    rw [hx] at hy
    obtain rfl : z = y := Option.some.inj hy
    exact ⟨z, zs, rfl, ho _, ho _⟩

theorem first_of (hx : x.toks ≠ []) (rest : Toks) : Stuck (x.toks ++ rest) := by
  have hb (i : Bool) (ts : Toks) (h : ∃ y ys, ts = y :: ys ∧ First y) : Stuck (brackets i ts ++ rest) := by
    obtain ⟨y, ys, rfl, h1, h2⟩ := h
    cases i with
    | true => exact ⟨_, _, rfl, by decide, by decide⟩
    | false => exact ⟨_, _, rfl, h1, h2⟩
  have hc : First .comma := ⟨fun h => (nomatch h), fun h => (nomatch h)⟩
  cases x with
  | none => exact absurd rfl hx
  | imm t => exact ⟨_, _, rfl, by decide, by decide⟩
  | addr i f t => exact hb i _ (by simpa using force_first f t [])
  | off i f t r => exact hb i _ (by simpa using force_first f t [.comma, r.tok])
  | pcr i f t => exact hb i _ (by simpa using force_first f t [.comma, R.pcr.tok])
  | zero i r | inc1 i r | inc2 i r | dec1 i r | dec2 i r => exact hb i _ ⟨_, _, rfl, hc⟩
  | acc i a r => exact hb i _ ⟨_, _, rfl, reg_first a⟩
  | pair a b => exact ⟨_, _, rfl, reg_first a⟩
  | list rs =>
    cases rs with
    | nil => exact absurd rfl hx
    | cons r rs =>
      cases rs with
      | nil => exact ⟨_, _, rfl, reg_first r⟩
      | cons r' rs => exact ⟨_, _, rfl, reg_first r⟩

/-! ### The parser of modes -/

theorem plain_none {A : Nat} (hn : has A M.none = false) {rest start : Toks} : plainMode A false false none rest start = .fail := by
  unfold plainMode
  rw [hn]
  simp

/-- No expression where one is needed. -/
theorem mem_none {A : Nat} (hn : has A M.none = false) {toks : Toks}
    (h : ∀ y, toks.head? = some y → y = .rp ∨ ∃ n, y = .other n) : memMode C A toks = .fail := by
  unfold memMode
  cases toks with
  | nil =>
    show Outcome.bind (.ok (none, [])) _ = _
    rw [ok_bind]
    simp only [«prefix», plain_none hn, ite_self]
  | cons y ys =>
    rcases h y rfl with rfl | ⟨n, rfl⟩
    · show Outcome.bind (.ok (none, .rp :: ys)) _ = _
      rw [ok_bind]
      simp only [«prefix», plain_none hn, ite_self]
    · show Outcome.bind (.ok (none, .other n :: ys)) _ = _
      rw [ok_bind]
      simp only [«prefix», plain_none hn, ite_self]

/-- Modes that are only read behind `#`. -/
theorem imm_bad (hx : toks.head? ≠ some (.other 35)) : Bad (addrMode C M.imm toks) := by
  rw [read_plain (Or.inl hx) (Or.inr (by decide))]
  have hm : core C M.imm toks = memMode C M.imm toks := by
    cases toks with
    | nil => rfl
    | cons y ys => cases y <;> rfl
  rw [hm]
  unfold memMode
  cases expr C 2 («prefix» toks).2.2 with
  | fail => exact bad_fail
  | ub => exact fun _ _ h => (nomatch h)
  | ok r =>
    obtain ⟨e, r⟩ := r
    rw [ok_bind]
    simp only
    rw [if_neg (by decide)]
    have hp (ext dir : Bool) : plainMode M.imm ext dir e r toks = .fail := by
      unfold plainMode
      rw [if_neg (by rw [show has M.imm M.extended = false from by decide]; simp), if_neg (by rw [show has M.imm M.direct = false from by decide]; simp),
        if_neg (by rw [show has M.imm M.address = false from by decide]; simp), if_neg (by decide)]
    rw [hp]
    exact bad_fail

/-- Two registers of a kind. -/
theorem pair_stuck {b : Nat} {is : List Item} {rest : Toks} (h : regToReg b toks = .ok (is, rest)) :
    ∃ r r' : R, toks = r.tok :: .comma :: r'.tok :: rest ∧ meaning.wide r = meaning.wide r' := by
  unfold regToReg at h
  split at h
  · rename_i n k rest0
    have hr (n c : Nat) (h : exgReg n = some c) : ∃ r : R, n = r.num ∧ (c &&& 8 = 0 ↔ meaning.wide r = true) := by
      unfold exgReg at h
      repeat' split at h
      all_goals first
        | (cases h; done)
        | (rename_i e; injection h with h; subst h; exact ⟨_, e, by decide⟩)
    split at h
    · rename_i c c' e1 e2
      split at h
      · rename_i hw
        obtain ⟨r, rfl, h1⟩ := hr _ _ e1
        obtain ⟨r', rfl, h2⟩ := hr _ _ e2
        refine ⟨r, r', ?_, ?_⟩
        · injection h with h; injection h with _ h; subst h; rfl
        · rw [hw] at h1
          have := h1.symm.trans h2
          cases h3 : meaning.wide r <;> cases h4 : meaning.wide r' <;> simp_all
      · cases h
    · cases h
  · cases h

theorem eol_not {y : Tok} {ys : Toks} (he : EndOfLine rest) (h : rest = y :: ys) : y = .other 10 := he y (by rw [h]; rfl)

/-- Nothing that starts with a register is the end of the line. -/
theorem eol_reg (he : EndOfLine rest) {r : R} {ys : Toks} : rest ≠ r.tok :: ys := fun h =>
  reg_not 10 (by decide) (eol_not he h)

theorem tok_inj {r r' : R} (h : r.tok = r'.tok) : r = r' := by
  unfold R.tok at h
  revert h
  cases r <;> cases r' <;> decide

theorem tree_not_reg {f : Force} {t : Tree} {xs ys : Toks} {r : R} : f.toks ++ (t.toks ++ xs) ≠ r.tok :: ys := fun h => by
  obtain ⟨y, hy, _, ho⟩ := force_front f t xs
  rw [h] at hy
  exact ho r.num (Option.some.inj hy).symm

/-- Operands that start with two registers. -/
theorem two_regs (he : EndOfLine rest) {r r' : R} {ys : Toks} (h : x.toks ++ rest = r.tok :: .comma :: r'.tok :: ys) :
    x.toks = [r.tok, .comma, r'.tok] ∨ Stuck ys := by
  have hb {i : Bool} {ts zs : Toks} (h : brackets i ts ++ rest = r.tok :: zs) : i = false ∧ ts ++ rest = r.tok :: zs := by
    cases i with
    | true =>
      injection h with h _
      exact absurd h.symm (reg_not 91 (by decide))
    | false => exact ⟨rfl, h⟩
  cases x with
  | none => exact absurd h (eol_reg he)
  | imm t =>
    injection h with h _
    exact absurd h.symm (reg_not 35 (by decide))
  | addr i f t => exact absurd (by simpa using (hb h).2) (tree_not_reg (f := f) (t := t) (xs := rest))
  | off i f t r => exact absurd (by simpa using (hb h).2) (tree_not_reg (f := f) (t := t) (xs := .comma :: r.tok :: rest))
  | pcr i f t => exact absurd (by simpa using (hb h).2) (tree_not_reg (f := f) (t := t) (xs := .comma :: R.pcr.tok :: rest))
  | zero i r | inc1 i r | inc2 i r | dec1 i r | dec2 i r => exact absurd (hb h).2 (fun h => by injection h with h _; cases h)
  | acc i a b =>
    obtain ⟨rfl, h⟩ := hb h
    refine Or.inl ?_
    injection h with h1 h; injection h with _ h; injection h with h2 _
    show [a.tok, .comma, b.tok] = _
    rw [h1, h2]
  | pair a b =>
    refine Or.inl ?_
    injection h with h1 h; injection h with _ h; injection h with h2 _
    show [a.tok, .comma, b.tok] = _
    rw [h1, h2]
  | list rs =>
    cases rs with
    | nil => exact absurd h (eol_reg he)
    | cons a rs =>
      cases rs with
      | nil =>
        injection h with _ h
        cases (eol_not he h)
      | cons b rs =>
        injection h with h1 h; injection h with _ h
        cases rs with
        | nil =>
          injection h with h2 _
          refine Or.inl ?_
          show [a.tok, .comma, b.tok] = _
          rw [h1, h2]
        | cons c rs =>
          injection h with _ h
          exact Or.inr ⟨.comma, _, h.symm, fun h => (nomatch h), fun h => (nomatch h)⟩

/-! ### Lists -/

theorem listBit_not {A : Nat} {r : R} (h : r ∉ listRegs (otherStack A)) : listBit A r.num = .fail ∨ listBit A r.num = .ok 0 := by
  unfold listBit otherStack at *
  generalize has A M.listS = b at *
  revert h
  cases b <;> cases r <;> decide

theorem regList_not {A : Nat} : ∀ (rs : List R) (bits : Nat), EndOfLine rest → ∀ b ys, regList A bits (commaList rs ++ rest) = .ok (b, ys) →
    (∀ r ∈ rs, r ∈ listRegs (otherStack A)) ∨ Stuck ys
  | [], _, _, _, _, _ => Or.inl fun _ h => (nomatch h)
  | r :: rs, bits, he, b, ys, h => by
    have hd : ∃ zs, commaList (r :: rs) ++ rest = r.tok :: zs ∧ (rs ≠ [] → zs = .comma :: (commaList rs ++ rest)) := by
      cases rs with
      | nil => exact ⟨_, rfl, fun h => absurd rfl h⟩
      | cons r' rs => exact ⟨_, rfl, fun _ => rfl⟩
    obtain ⟨zs, hz, hc⟩ := hd
    rw [hz] at h
    unfold R.tok at h
    by_cases hm : r ∈ listRegs (otherStack A)
    · cases rs with
      | nil => exact Or.inl fun x hx => by obtain rfl : x = r := by simpa using hx
                                           exact hm
      | cons r' rs =>
        obtain rfl := hc (by simp)
        obtain ⟨h1, h2⟩ := listBit_reg hm
        rw [regList, h1, ok_bind, if_neg h2] at h
        simp only at h
        rcases regList_not (r' :: rs) _ he b ys h with h | h
        · refine Or.inl fun x hx => ?_
          rcases List.mem_cons.1 hx with rfl | hx
          · exact hm
          · exact h x hx
        · exact Or.inr h
    · rw [regList.eq_def] at h
      simp only at h
      rcases listBit_not hm with hl | hl
      · rw [hl] at h; cases h
      · rw [hl, ok_bind, if_pos rfl] at h
        injection h with h; injection h with _ h
        subst h
        exact Or.inr ⟨_, _, rfl, (reg_first r).1, (reg_first r).2⟩

/-- The registers of an operand that is written as a list. -/
def Opnd.regs : Opnd → Option (List R)
  | .none => some []
  | .acc false a r => some [a, r]
  | .pair a b => some [a, b]
  | .list rs => some rs
  | _ => Option.none

theorem regs_toks {rs : List R} (h : x.regs = some rs) : (Opnd.list rs).toks = x.toks := by
  cases x with
  | acc i a r =>
    cases i with
    | true => cases h
    | false => injection h with h; subst h; rfl
  | none | pair a b | list ls => injection h with h; subst h; rfl
  | _ => cases h

/-- Only immediate operands start with `#`. -/
theorem no_hash (hx : ∀ t, x ≠ .imm t) (he : EndOfLine rest) : (x.toks ++ rest).head? ≠ some (.other 35) := by
  cases hn : x.toks with
  | nil =>
    intro h
    cases (he _ h)
  | cons y ys =>
    intro h
    obtain rfl : y = .other 35 := Option.some.inj h
    cases x with
    | imm t => exact hx t rfl
    | none => cases hn
    | addr i f t =>
      cases i with
      | true => cases hn
      | false =>
        obtain ⟨y, hy, _, ho⟩ := force_front f t []
        rw [List.append_nil, show f.toks ++ t.toks = _ from hn] at hy
        exact ho _ (Option.some.inj hy).symm
    | off i f t r =>
      cases i with
      | true => cases hn
      | false =>
        obtain ⟨y, hy, _, ho⟩ := force_front f t [.comma, r.tok]
        rw [← List.append_assoc, show f.toks ++ t.toks ++ _ = _ from hn] at hy
        exact ho _ (Option.some.inj hy).symm
    | pcr i f t =>
      cases i with
      | true => cases hn
      | false =>
        obtain ⟨y, hy, _, ho⟩ := force_front f t [.comma, R.pcr.tok]
        rw [← List.append_assoc, show f.toks ++ t.toks ++ _ = _ from hn] at hy
        exact ho _ (Option.some.inj hy).symm
    | zero i r | inc1 i r | inc2 i r | dec1 i r | dec2 i r => cases i <;> cases hn
    | acc i a r =>
      cases i with
      | true => cases hn
      | false => injection hn with hn _; exact reg_not 35 (by decide) hn
    | pair a b => injection hn with hn _; exact reg_not 35 (by decide) hn
    | list rs =>
      cases rs with
      | nil => cases hn
      | cons a rs => cases rs <;> (injection hn with hn _; exact reg_not 35 (by decide) hn)

theorem list_bad {A : Nat} (hl : has A (M.listS ||| M.listU) = true) (hi : has A M.ind = false) (hx : ∀ t, x ≠ .imm t)
    (he : EndOfLine rest) (hn : ∀ rs, x.regs = some rs → ¬ ∀ r ∈ rs, r ∈ listRegs (otherStack A)) :
    Bad (addrMode C A (x.toks ++ rest)) := by
  have ht := no_hash hx he
  rw [read_plain (Or.inl ht) (Or.inr hi)]
  unfold core
  rw [if_pos hl]
  cases hr : x.regs with
  | some rs =>
    rw [← regs_toks hr]
    cases hc : regList A 0 ((Opnd.list rs).toks ++ rest) with
    | fail => exact bad_fail
    | ub => exact fun _ _ h => (nomatch h)
    | ok p =>
      rw [ok_bind]
      exact bad_ok ((regList_not rs 0 he p.1 p.2 hc).resolve_left (hn rs hr))
  | none =>
    have hs : Stuck (x.toks ++ rest) := first_of (by
      intro h
      cases x with
      | none => cases hr
      | imm t => cases h
      | addr i f t =>
        cases i with
        | true => cases h
        | false =>
          obtain ⟨y, ys, hy, _⟩ := force_first f t []
          rw [List.append_nil, show f.toks ++ t.toks = _ from h] at hy
          cases hy
      | off i f t r =>
        cases i with
        | true => cases h
        | false => simp [Opnd.toks, brackets] at h
      | pcr i f t =>
        cases i with
        | true => cases h
        | false => simp [Opnd.toks, brackets] at h
      | zero i r | inc1 i r | inc2 i r | dec1 i r | dec2 i r => cases i <;> cases h
      | acc i a r => cases i <;> cases h
      | pair a b => cases hr
      | list rs => cases hr) rest
    have hk : regList A 0 (x.toks ++ rest) = .ok (0, x.toks ++ rest) := by
      have ho {ts : Toks} (h : ∀ y, ts.head? = some y → ∀ n, y ≠ .other n) : regList A 0 ts = .ok (0, ts) := by
        cases ts with
        | nil => rfl
        | cons y ys =>
          cases y with
          | other n => exact absurd rfl (h _ rfl n)
          | _ => rfl
      have hb {i : Bool} {ts : Toks} (h : ∀ y, (ts ++ rest).head? = some y → ∀ n, y ≠ .other n) :
          regList A 0 (brackets i ts ++ rest) = .ok (0, brackets i ts ++ rest) := by
        cases i with
        | true =>
          show regList A 0 (.other 91 :: _) = _
          rw [regList.eq_def]
          simp only
          rw [listBit_char (by decide), ok_bind, if_pos rfl]
          rfl
        | false => exact ho h
      have hf {f : Force} {t : Tree} {zs : Toks} : ∀ y, (f.toks ++ (t.toks ++ zs)).head? = some y → ∀ n, y ≠ .other n := by
        obtain ⟨y, hy, _, ho⟩ := force_front f t zs
        intro z hz
        rw [hy] at hz
        cases hz
        exact ho
      cases x with
      | imm t => exact absurd rfl (hx t)
      | addr i f t => exact hb (by simpa using hf (f := f) (t := t) (zs := rest))
      | off i f t r => exact hb (by simpa using hf (f := f) (t := t) (zs := .comma :: r.tok :: rest))
      | pcr i f t => exact hb (by simpa using hf (f := f) (t := t) (zs := .comma :: R.pcr.tok :: rest))
      | zero i r | inc1 i r | inc2 i r | dec1 i r | dec2 i r => exact hb fun y hy n => by cases hy; exact fun h => (nomatch h)
      | acc i a r =>
        cases i with
        | false => cases hr
        | true =>
          show regList A 0 (.other 91 :: _) = _
          rw [regList.eq_def]
          simp only
          rw [listBit_char (by decide), ok_bind, if_pos rfl]
          rfl
      | _ => cases hr
    rw [hk, ok_bind]
    exact bad_ok hs

/-! ### Branches -/

theorem eol_no (he : EndOfLine rest) : ∀ y, rest.head? = some y → y = .rp ∨ ∃ n, y = .other n := fun y hy => Or.inr ⟨10, he y hy⟩

theorem address_core (toks : Toks) : addrMode C M.address toks = memMode C M.address toks := by
  rw [read_plain (Or.inr (by decide)) (Or.inr (by decide))]
  cases toks with
  | nil => rfl
  | cons y ys => cases y <;> rfl

theorem other_no {n : Nat} {ys : Toks} : ∀ y, (Tok.other n :: ys).head? = some y → y = .rp ∨ ∃ n, y = .other n := fun y hy => by
  cases hy; exact Or.inr ⟨_, rfl⟩

theorem address_bad (hg : x.Good) (he : EndOfLine rest) (hx : ∀ f t, x ≠ .addr false f t) : Bad (addrMode C M.address (x.toks ++ rest)) := by
  rw [address_core]
  have hno {toks : Toks} (h : ∀ y, toks.head? = some y → y = .rp ∨ ∃ n, y = .other n) : Bad (memMode C M.address toks) := by
    rw [mem_none (by decide) h]; exact bad_fail
  have hcomma (ys : Toks) : Bad (memMode C M.address (.comma :: ys)) := by
    unfold memMode
    show Bad (Outcome.bind (.ok (none, .comma :: ys)) _)
    rw [ok_bind]
    simp only
    rw [if_neg (by decide), show «prefix» (.comma :: ys) = (false, false, .comma :: ys) from rfl]
    simp only
    rw [plain_none (by decide)]
    exact bad_fail
  have htree {f : Force} {t : Tree} (hr : Readable 2 t) {zs : Toks} : Bad (memMode C M.address (f.toks ++ (t.toks ++ .comma :: zs))) := by
    unfold memMode
    rw [mem_reads hr (Ends.comma _), ok_bind, prefix_reads]
    simp only
    rw [if_neg (by decide)]
    unfold plainMode
    rw [if_neg (by rw [show has M.address M.extended = false from by decide]; simp), if_neg (by rw [show has M.address M.direct = false from by decide]; simp),
      if_pos (by rw [show has M.address M.address = true from by decide]; rfl)]
    exact bad_ok ⟨_, _, rfl, fun h => (nomatch h), fun h => (nomatch h)⟩
  cases x with
  | none => exact hno (eol_no he)
  | imm t => exact hno other_no
  | addr i f t =>
    cases i with
    | true => exact hno other_no
    | false => exact absurd rfl (hx f t)
  | off i f t r =>
    cases i with
    | true => exact hno other_no
    | false =>
      have := htree (f := f) (hg.readable t rfl) (zs := r.tok :: rest)
      simpa [Opnd.toks, brackets] using this
  | pcr i f t =>
    cases i with
    | true => exact hno other_no
    | false =>
      have := htree (f := f) (hg.readable t rfl) (zs := R.pcr.tok :: rest)
      simpa [Opnd.toks, brackets] using this
  | zero i r | inc1 i r | inc2 i r | dec1 i r | dec2 i r =>
    cases i with
    | true => exact hno other_no
    | false => exact hcomma _
  | acc i a r => cases i <;> exact hno other_no
  | pair a b => exact hno other_no
  | list rs =>
    cases rs with
    | nil => exact hno (eol_no he)
    | cons a rs => cases rs <;> exact hno other_no

/-! ### Instructions with all kinds of indices -/

theorem acc_not {mode post : Nat} {r : R} (h : r.isIndex = false) (ys : Toks) : accMode mode post (.comma :: r.tok :: ys) = .fail := by
  cases r <;> first | (cases h; done) | rfl

/-- The operand does not start as one in brackets or with an accumulator. -/
theorem core_other {A : Nat} (hl : has A (M.listS ||| M.listU) = false) (hn : has A M.none = false) {n : Nat} (ha : n ≠ R.a.num) (hb : n ≠ R.b.num)
    (hd : n ≠ R.d.num) (ys : Toks) : core C A (.other n :: ys) = .fail := by
  unfold core
  rw [if_neg (by rw [hl]; decide)]
  simp only
  rw [if_neg (by simp [ha]), if_neg (by simp [hb]), if_neg (by simp [hd]), mem_none hn other_no]

theorem core_acc_bad {A : Nat} (hl : has A (M.listS ||| M.listU) = false) (hn : has A M.none = false)
    (hA : has A M.ra = true ∧ has A M.rb = true ∧ has A M.rd = true) (a : R) {ys : Toks}
    (h : ∀ mode post, a.isAcc = true → Bad (accMode mode post ys)) : Bad (core C A (a.tok :: ys)) := by
  unfold core
  rw [if_neg (by rw [hl]; decide)]
  unfold R.tok
  simp only
  rw [hA.1, hA.2.1, hA.2.2]
  cases a with
  | a => exact h _ _ rfl
  | b => exact h _ _ rfl
  | d => exact h _ _ rfl
  | _ =>
    rw [if_neg (by decide), if_neg (by decide), if_neg (by decide), mem_none hn other_no]
    exact bad_fail

/-- What is common to the modes of the instructions with indices. -/
structure Indexed (A : Nat) : Prop where
  list : has A (M.listS ||| M.listU) = false
  none : has A M.none = false
  acc : has A M.ra = true ∧ has A M.rb = true ∧ has A M.rd = true
  ind : has A M.ind = true

theorem index_bad {A : Nat} (hA : Indexed A) (hg : x.Good) (he : EndOfLine rest)
    (himm : (∃ t, x = .imm t) → has A M.imm = false)
    (haddr : (∃ f t, x = .addr false f t) → A = M.t)
    (hidx : match x with
      | .addr true _ _ | .off .. | .zero .. | .inc2 .. | .dec2 .. | .acc .. | .pcr .. => False
      | .inc1 i _ | .dec1 i _ => i = true
      | .pair a b => ¬ (a.isAcc = true ∧ b.isIndex = true)
      | .list [a, b] => ¬ (a.isAcc = true ∧ b.isIndex = true)
      | _ => True) : Bad (addrMode C A (x.toks ++ rest)) := by
  have hreg (a : R) {ys : Toks} (h : ∀ mode post, a.isAcc = true → Bad (accMode mode post ys)) : Bad (addrMode C A (a.tok :: ys)) := by
    rw [read_plain (Or.inl (by intro h; exact reg_not 35 (by decide) (Option.some.inj h))) (Or.inl (by intro h; exact reg_not 91 (by decide) (Option.some.inj h)))]
    exact core_acc_bad hA.list hA.none hA.acc a h
  have hend : Bad (addrMode C A rest) := by
    rw [read_plain (Or.inl (by intro h; cases (he _ h))) (Or.inl (by intro h; cases (he _ h)))]
    rcases he.cases with rfl | ⟨xs, rfl⟩
    · unfold core
      rw [if_neg (by rw [hA.list]; decide)]
      simp only
      rw [mem_none hA.none (fun y h => by cases h)]
      exact bad_fail
    · rw [core_other hA.list hA.none (by decide) (by decide) (by decide)]
      exact bad_fail
  have hbr {ts : Toks} (h : core C M.indirect (ts ++ .other 93 :: rest) = .fail) : Bad (addrMode C A (.other 91 :: (ts ++ [.other 93]) ++ rest)) := by
    unfold addrMode
    rw [if_neg (by rintro ⟨_, h⟩; cases h), if_pos ⟨hA.ind, rfl⟩]
    rw [show (Tok.other 91 :: (ts ++ [.other 93]) ++ rest).tail = ts ++ .other 93 :: rest from by simp, h]
    exact bad_fail
  cases x with
  | none => exact hend
  | imm t =>
    show Bad (addrMode C A (.other 35 :: _))
    rw [read_plain (Or.inr (himm ⟨t, rfl⟩)) (Or.inl (by intro h; cases h)), core_other hA.list hA.none (by decide) (by decide) (by decide)]
    exact bad_fail
  | addr i f t =>
    cases i with
    | true => exact hidx.elim
    | false =>
      obtain rfl := haddr ⟨f, t, rfl⟩
      obtain ⟨y, hy, _, ho⟩ := force_front f t rest
      show Bad (addrMode C M.t ((f.toks ++ t.toks) ++ rest))
      rw [List.append_assoc, read_plain (Or.inr (by decide)) (Or.inl (by rw [hy]; intro h; exact ho _ (Option.some.inj h))),
        core_addr hA.list (hg.readable t rfl) (After.eol he)]
      unfold plainMode
      rw [if_neg (by rw [show has M.t M.extended = false from by decide]; simp), if_neg (by rw [show has M.t M.direct = false from by decide]; simp),
        if_neg (by rw [show has M.t M.address = false from by decide]; simp), if_neg (by decide)]
      exact bad_fail
  | off i f t r => exact hidx.elim
  | pcr i f t => exact hidx.elim
  | zero i r => exact hidx.elim
  | inc2 i r => exact hidx.elim
  | dec2 i r => exact hidx.elim
  | acc i a r => exact hidx.elim
  | inc1 i r =>
    obtain rfl : i = true := hidx
    refine hbr ?_
    show core C M.indirect (.comma :: _) = _
    rw [core_auto (by decide) (by decide)]
    exact (auto_of (minus := 0) (plus := 1) (rest' := .other 93 :: rest) hg.regs rfl rfl)
  | dec1 i r =>
    obtain rfl : i = true := hidx
    refine hbr ?_
    show core C M.indirect (.comma :: _) = _
    rw [core_auto (by decide) (by decide)]
    exact (auto_of (minus := 1) (plus := 0) (rest' := .other 93 :: rest) hg.regs rfl rfl)
  | pair a b =>
    refine hreg a fun mode post ha => ?_
    have hb : b.isIndex = false := by
      cases hb : b.isIndex with
      | false => rfl
      | true => exact absurd ⟨ha, hb⟩ hidx
    show Bad (accMode mode post (.comma :: b.tok :: rest))
    rw [acc_not hb]
    exact bad_fail
  | list rs =>
    cases rs with
    | nil => exact hend
    | cons a rs =>
      cases rs with
      | nil =>
        refine hreg a fun mode post ha => ?_
        show Bad (accMode mode post rest)
        rcases he.cases with rfl | ⟨xs, rfl⟩ <;> exact bad_fail
      | cons b rs =>
        refine hreg a fun mode post ha => ?_
        cases rs with
        | nil =>
          have hb : b.isIndex = false := by
            cases hb : b.isIndex with
            | false => rfl
            | true => exact absurd ⟨ha, hb⟩ hidx
          show Bad (accMode mode post (.comma :: b.tok :: rest))
          rw [acc_not hb]
          exact bad_fail
        | cons c rs =>
          show Bad (accMode mode post (.comma :: b.tok :: .comma :: (commaList (c :: rs) ++ rest)))
          cases hb : b.isIndex with
          | false => rw [acc_not hb]; exact bad_fail
          | true =>
            unfold R.tok accMode
            simp only
            rw [indexReg_num hb]
            exact bad_ok ⟨_, _, rfl, fun h => (nomatch h), fun h => (nomatch h)⟩

/-! ### All lines -/

/-- The exceptions: the parser takes `#` for instructions that have no such operand (Limits.lean). -/
def hashes : List Mn := [.rol, .ror, .pshs, .puls, .pshu, .pulu]

theorem good_regs {y : Opnd} (h : y.tree = none) (hr : y.Placed) : y.Good := ⟨fun t ht => (by rw [h] at ht; cases ht), hr⟩

/-- **C60.** A line whose operand the processor does not have for the instruction, however its tokens are understood, is refused:
there is a message, or the parser stops before the end of the line (which is a syntax error, xasm/motor/parse.c 155-180). -/
theorem C60_refuse (hg : x.Good) (he : EndOfLine rest) (hn : ∀ y : Opnd, y.Good → y.toks = x.toks → y.legal m = false)
    (hi : (∃ t, x = .imm t) → m ∉ hashes) : ∀ r, instr C dp (m.tok :: (x.toks ++ rest)) = .ok r → ¬ EndOfLine r.rest := by
  show Refused C dp m (x.toks ++ rest)
  have hc := List.all_eq_true.1 classes_ok m (mem_all m)
  unfold okClass at hc
  simp only [Bool.or_eq_true, Bool.and_eq_true, beq_iff_eq, bne_iff_ne, ne_eq] at hc
  have hleg := hn x hg rfl
  have hl (other : R) (hs : takes m (.list other) = true) (ho : other = .u ∨ other = .s) : ∀ rs, x.regs = some rs →
      ¬ ∀ r ∈ rs, r ∈ listRegs other := fun rs hrs h => by
    have hf := hn (.list rs) (good_regs rfl trivial) (regs_toks hrs)
    have ha : rs.all (listRegs other).contains = true := List.all_eq_true.2 fun r hr => List.contains_iff_mem.2 (h r hr)
    simp only [Opnd.legal, Bool.or_eq_false_iff, Bool.and_eq_false_iff] at hf
    rcases ho with rfl | rfl
    · rcases hf.1 with hf | hf
      · rw [hs] at hf; cases hf
      · rw [ha] at hf; cases hf
    · rcases hf.2 with hf | hf
      · rw [hs] at hf; cases hf
      · rw [ha] at hf; cases hf
  have hix (A : Nat) (hA : Indexed A) (hx : takes m .idx = true) (hh : ¬ m.entry.handler = .regToReg) (ha : m.entry.allowed = A)
      (hm : (∃ t, x = .imm t) → has A M.imm = false) (hd : (∃ f t, x = .addr false f t) → A = M.t) : Refused C dp m (x.toks ++ rest) := by
    refine refused_of hh ?_
    rw [ha]
    refine index_bad hA hg he hm hd ?_
    have hp {a b : R} (ht : (Opnd.acc false a b).toks = x.toks) : ¬ (a.isAcc = true ∧ b.isIndex = true) := fun h => by
      have := hn (.acc false a b) (good_regs rfl h) ht
      simp only [Opnd.legal] at this
      rw [hx] at this
      cases this
    cases x with
    | addr i f t =>
      cases i with
      | true => simp only [Opnd.legal] at hleg; rw [hx] at hleg; cases hleg
      | false => trivial
    | off i f t r | zero i r | inc2 i r | dec2 i r | acc i a r | pcr i f t => simp only [Opnd.legal] at hleg; rw [hx] at hleg; cases hleg
    | inc1 i r | dec1 i r =>
      simp only [Opnd.legal] at hleg
      rw [hx] at hleg
      simpa using hleg
    | pair a b => exact hp rfl
    | list rs =>
      match rs with
      | [a, b] => exact hp rfl
      | [] | [_] | _ :: _ :: _ :: _ => trivial
    | none | imm t => trivial
  rcases hc with ⟨ha, hc | hc⟩ | ⟨hh, hc⟩
  · refine refused_of hc.1 ?_
    rw [ha]
    intro am rest' hr
    rw [none_reads hr]
    refine first_of (fun hx => ?_) rest
    have := hn .none (good_regs rfl trivial) (by rw [hx]; rfl)
    simp only [Opnd.legal] at this
    rw [hc.2] at this
    cases this
  · refine refused_pair hc.1 ha (fun is rest' hr => ?_) fun am rest' hr => none_reads hr
    obtain ⟨r, r', ht, hw⟩ := pair_stuck hr
    refine (two_regs he ht).resolve_left fun hx => ?_
    have := hn (.pair r r') (good_regs rfl trivial) hx.symm
    simp only [Opnd.legal] at this
    rw [hc.2, hw] at this
    simp at this
  · rcases hc with ((((((hc | hc) | hc) | hc) | hc) | hc) | hc)
    · refine refused_of hh ?_
      rw [hc.1]
      refine imm_bad (no_hash (fun t hx => ?_) he)
      subst hx
      simp only [Opnd.legal] at hleg
      rw [hc.2] at hleg
      cases hleg
    · refine refused_of hh ?_
      rw [hc.1]
      refine address_bad hg he fun f t hx => ?_
      subst hx
      simp only [Opnd.legal, Bool.or_eq_false_iff] at hleg
      rcases hc.2 with h | h
      · rw [h] at hleg; cases hleg.1.1
      · rw [h] at hleg; cases hleg.1.2
    · exact hix M.t ⟨by decide, by decide, by decide, by decide⟩ hc.2 hh hc.1 (fun _ => by decide) fun _ => rfl
    · refine hix M.q ⟨by decide, by decide, by decide, by decide⟩ hc.1.2 hh hc.1.1 (fun _ => by decide) fun ⟨f, t, hx⟩ => ?_
      subst hx
      simp only [Opnd.legal, Bool.or_eq_false_iff] at hleg
      rw [hc.2] at hleg
      cases hleg.2
    · refine hix M.p ⟨by decide, by decide, by decide, by decide⟩ hc.1.1.2 hh hc.1.1.1 (fun ⟨t, hx⟩ => ?_) fun ⟨f, t, hx⟩ => ?_
      · have hm := hi ⟨t, hx⟩
        subst hx
        simp only [Opnd.legal, Bool.or_eq_false_iff] at hleg
        rw [hleg.1, hleg.2] at hc
        rcases hc.2 with ((h | h) | h) | h
        · cases h
        · cases h
        · exact absurd (by rw [h]; decide) hm
        · exact absurd (by rw [h]; decide) hm
      · subst hx
        simp only [Opnd.legal, Bool.or_eq_false_iff] at hleg
        rw [hc.1.2] at hleg
        cases hleg.2
    · refine refused_of hh ?_
      rw [hc.1.1]
      refine list_bad (by decide) (by decide) (fun t hx => hi ⟨t, hx⟩ ?_) he (hl .u hc.1.2 (Or.inl rfl))
      have := List.contains_iff_mem.1 hc.2
      rcases (by simpa using this : m = .pshs ∨ m = .puls) with rfl | rfl <;> decide
    · refine refused_of hh ?_
      rw [hc.1.1]
      refine list_bad (by decide) (by decide) (fun t hx => hi ⟨t, hx⟩ ?_) he (hl .s hc.1.2 (Or.inr rfl))
      have := List.contains_iff_mem.1 hc.2
      rcases (by simpa using this : m = .pshu ∨ m = .pulu) with rfl | rfl <;> decide

end Verif.Cpu.M6809
