import Verif.Cpu.Z80.Values
import Verif.Cpu.Z80.Tables

/-!
# How a line of the Z80 and the Game Boy is read
-/

namespace Verif.Cpu.Z80

open Verif.Parse (Tok Toks Tree)
open Verif.Expr (Src FMath ASym Den Rng BinOp I32 u32 toI32 meaning wrap value_bin)
open Verif.Cpu.X65 (ok_bind EndOfLine bytesAt le)

theorem enclosed_src (C : Ctx) (t : Tree) : isParens (C.src t) = enclosed t := by
  induction t with
  | plus t ih => exact ih
  | _ => rfl

/-- Names of registers do not stand behind the parenthesis with which an expression begins. -/
theorem lp_cons (t : Tree) : ∀ {xs : Toks}, t.toks = .lp :: xs → ∃ y ys, xs = y :: ys ∧ (∀ n, y ≠ .other n) := by
  induction t with
  | paren t ih =>
    intro xs h
    obtain ⟨y, ys, hy, hb⟩ := toks_cons t
    simp only [Tree.toks, List.cons.injEq, true_and] at h
    refine ⟨y, ys ++ [.rp], by rw [← h, hy]; rfl, fun n hn => ?_⟩
    subst hn
    cases hb
  | bin o l r ihl ihr =>
    intro xs h
    obtain ⟨y, ys, hy, hb⟩ := toks_cons l
    simp only [Tree.toks, hy, List.cons_append, List.cons.injEq] at h
    obtain ⟨rfl, h⟩ := h
    obtain ⟨z, zs, hz, hn⟩ := ihl hy
    exact ⟨z, zs ++ .op o :: r.toks, by rw [← h, hz]; rfl, hn⟩
  | pc s => cases s <;> (intro xs h; simp [Tree.toks] at h)
  | _ => intro xs h; simp [Tree.toks] at h

theorem index_none (C : Ctx) (x : E) (close : Tok) {y : Tok} (ys : Toks) (h : ∀ n, y ≠ .other n) :
    indexMode C x close (y :: ys) = .ok none := by
  cases y <;> first | rfl | exact absurd rfl (h _)

theorem exprMode_reads (C : Ctx) (x : E) {t : Tree} (hr : Readable 2 t) {rest : Toks} (he : Ends rest) :
    exprMode C x (t.toks ++ rest) =
      .ok (some ({mode := if enclosed t then M.immInd else M.imm, e := some x}, some (C.src t)), rest) := by
  unfold exprMode
  rw [expr_reads C hr he, ok_bind]
  simp only [enclosed_src]

theorem addrMode_expr (C : Ctx) (o : Opts) (x : E) {t : Tree} (hr : Readable 2 t) {rest : Toks} (he : Ends rest) :
    addrMode C o x (t.toks ++ rest) =
      .ok (some ({mode := if enclosed t then M.immInd else M.imm, e := some x}, some (C.src t)), rest) := by
  rw [← exprMode_reads C x hr he]
  obtain ⟨y, ys, hy, hb⟩ := toks_cons t
  rw [hy]
  cases hb with
  | lp =>
    obtain ⟨z, zs, rfl, hn⟩ := lp_cons t hy
    show (indexMode C x .rp (z :: (zs ++ rest))).bind _ = _
    rw [index_none C x .rp _ hn, ok_bind]
  | _ => rfl

theorem rg_range (r : Rg) : Rg.b.num ≤ r.num ∧ r.num ≤ Rg.m.num := by cases r <;> decide
theorem rg_all (r : Rg) : Rg.all[r.num - Rg.b.num]? = some r := by cases r <;> decide

theorem addrMode_reg (C : Ctx) (o : Opts) (x : E) (r : Rg) {rest : Toks}
    (hs : rest.head? ≠ some (.op .add) ∧ rest.head? ≠ some (.op .sub)) :
    addrMode C o x (.other r.num :: rest) =
      if (Opv.reg r).usable o then .ok (some (r.am, none), rest) else .fail := by
  unfold addrMode
  show (if _ then _ else _) = _
  rw [if_pos (rg_range r), if_neg (by rintro ⟨_, h | h⟩ <;> first | exact hs.1 h | exact hs.2 h), rg_all r]
  simp only
  unfold Opv.usable has
  show (if (r.am.mode &&& M.half) ≠ 0 then _ else _) = _
  by_cases hm : r.am.mode &&& M.half = 0
  · simp [Opv.am, hm]
  · rw [if_pos hm]
    have hb : (r.am.mode &&& M.half != 0) = true := by simp [hm]
    simp only [Opv.am, hb, Bool.not_true, Bool.false_or, Bool.and_eq_true, decide_eq_true_eq]

theorem Sign.head {t : Tree} (h : Sign t) (rest : Toks) :
    (t.toks ++ rest).head? = some (.op .add) ∨ (t.toks ++ rest).head? = some (.op .sub) := by
  obtain ⟨y, ys, hy, _⟩ := toks_cons t
  unfold Sign at h
  rw [hy] at h ⊢
  exact h

def Opnd.isReg : Opnd → Bool
  | .reg _ => true
  | _ => false

theorem usable_expr (o : Opts) (e : E) (x : Opnd) (h : x.isReg = false) : (x.opv e).usable o = true := by
  have : has (x.opv e).am.mode M.half = false := by
    cases x with
    | reg => cases h
    | idx x _ d => cases x <;> cases d <;> first
      | (show has M.ixInd M.half = false; decide)
      | (show has M.iyInd M.half = false; decide)
      | (show has M.ixDisp M.half = false; decide)
      | (show has M.iyDisp M.half = false; decide)
    | expr t =>
      simp only [Opnd.opv]
      cases paren t
      · show has M.imm M.half = false; decide
      · show has M.immInd M.half = false; decide
    | ind t => show has M.immInd M.half = false; decide
    | spDisp t => show has M.spDisp M.half = false; decide
  unfold Opv.usable
  rw [this]
  rfl

/-- How an operand is read. -/
theorem addrMode_reads (C : Ctx) (o : Opts) (e : E) (x : Opnd) (hg : x.Good) {rest : Toks} (he : Ends rest) :
    addrMode C o e (x.toks ++ rest) =
      if (x.opv e).usable o then .ok (some ((x.opv e).am, x.src C), rest) else .fail := by
  have hs : rest.head? ≠ some (.op .add) ∧ rest.head? ≠ some (.op .sub) := by
    constructor <;> (intro h; rcases he _ h with h | h | ⟨_, h⟩ <;> cases h)
  have hix : ¬ (Rg.b.num ≤ 91 ∧ 91 ≤ Rg.m.num) := by decide
  cases x with
  | reg r => exact addrMode_reg C o e r hs
  | expr t =>
    obtain ⟨hr, hp⟩ := hg
    rw [show (Opnd.expr t).toks = t.toks from rfl, addrMode_expr C o e hr he]
    have hpe : enclosed t = paren t := by
      cases ht : paren t with
      | false => cases hen : enclosed t with
        | false => rfl
        | true => rw [hp hen] at ht; cases ht
      | true => cases t <;> first | rfl | cases ht
    rw [hpe]
    rw [if_pos (usable_expr o e (.expr t) rfl)]
    simp only [Opnd.opv]
    cases paren t <;> rfl
  | ind t =>
    have hr : Readable 2 t := hg
    show addrMode C o e (.other 91 :: (t.toks ++ [.other 93] ++ rest)) = _
    unfold addrMode
    show (if _ then _ else _) = _
    rw [if_neg hix, if_pos rfl, List.append_assoc, if_pos (usable_expr o e (.ind t) rfl)]
    obtain ⟨y, ys, hy, hb⟩ := toks_cons t
    have hi : indexMode C e (.other 93) (t.toks ++ ([.other 93] ++ rest)) = .ok none := by
      rw [hy]
      exact index_none C e _ _ (by rintro n rfl; cases hb)
    rw [hi, ok_bind]
    simp only
    rw [show [Tok.other 93] ++ rest = .other 93 :: rest from rfl, expr_reads C hr (Ends.other 93 rest), ok_bind]
    rfl
  | spDisp t =>
    obtain ⟨hr, hsg⟩ := hg
    show addrMode C o e (.other Rg.sp.num :: (t.toks ++ rest)) = _
    unfold addrMode
    show (if _ then _ else _) = _
    rw [if_pos (rg_range .sp), if_pos ⟨rfl, hsg.head rest⟩, expr_reads C hr he, ok_bind,
      if_pos (usable_expr o e (.spDisp t) rfl)]
    rfl
  | idx x sq d =>
    have hnum : x.rg.num = Rg.ix.num ∨ x.rg.num = Rg.iy.num := by cases x <;> first | exact .inl rfl | exact .inr rfl
    rw [if_pos (usable_expr o e (.idx x sq d) rfl)]
    have key (close : Tok) (hc : Ends (close :: rest)) (hne : close = .other 93 ∨ close = .rp) :
        indexMode C e close (.other x.rg.num :: ((d.elim [] Tree.toks) ++ close :: rest)) =
          .ok (some ((((Opnd.idx x sq d).opv e).am, (Opnd.idx x sq d).src C), rest)) := by
      unfold indexMode
      show (if _ then _ else _) = _
      rw [if_pos hnum]
      cases d with
      | none =>
        have : ¬ (((close :: rest).head? = some (Tok.op .add)) ∨ ((close :: rest).head? = some (Tok.op .sub))) := by
          rcases hne with rfl | rfl <;> simp
        show (if (close :: rest).head? = some (Tok.op .add) ∨ (close :: rest).head? = some (Tok.op .sub) then _ else _) = _
        rw [if_neg this]
        show (if close = close then _ else _) = _
        rw [if_pos rfl]
        cases x <;> rfl
      | some t =>
        obtain ⟨hr, hsg⟩ := hg
        rw [show (some t).elim [] Tree.toks ++ close :: rest = t.toks ++ close :: rest from rfl, if_pos (hsg.head _),
          expr_reads C hr hc, ok_bind]
        show (if close = close then _ else _) = _
        rw [if_pos rfl]
        cases x <;> rfl
    cases sq with
    | true =>
      have hk := key (.other 93) (Ends.other 93 rest) (.inl rfl)
      have ht : (Opnd.idx x true d).toks ++ rest = .other 91 :: .other x.rg.num :: ((d.elim [] Tree.toks) ++ .other 93 :: rest) := by
        cases d <;> simp [Opnd.toks]
      rw [ht]
      unfold addrMode
      show (if _ then _ else _) = _
      rw [if_neg hix, if_pos rfl, hk, ok_bind]
    | false =>
      have hk := key .rp (Ends.rp rest) (.inr rfl)
      have ht : (Opnd.idx x false d).toks ++ rest = .lp :: .other x.rg.num :: ((d.elim [] Tree.toks) ++ .rp :: rest) := by
        cases d <;> simp [Opnd.toks]
      rw [ht]
      show (indexMode C e .rp _).bind _ = _
      rw [hk, ok_bind]

/-- There is no operand. -/
theorem addrMode_none (C : Ctx) (o : Opts) (e : E) {rest : Toks} (he : EndOfLine rest) :
    addrMode C o e rest = .ok (none, rest) := by
  rcases he.cases with rfl | ⟨xs, rfl⟩ <;> rfl

/-! ### Lines -/

theorem tok_num (m : Mn) : ∃ n, m.tok = .other n ∧ (Mn.adc.num ≤ translate n ∧ translate n ≤ Mn.xor.num) ∧
    Mn.all[translate n - Mn.adc.num]? = some m := by
  refine ⟨_, rfl, ?_⟩
  cases m <;> decide

theorem instr_entry (C : Ctx) (o : Opts) (m : Mn) (toks : Toks) :
    instr C o (m.tok :: toks) = (operands C o m.entry toks).bind fun (x, y, rest) =>
      (dispatch o (facts C.known x.2 y.2) m.entry x.1 y.1).bind fun cs =>
        (items x.2 y.2 cs).bind fun is => .ok (some (is, rest)) := by
  obtain ⟨n, hn, hr, ha⟩ := tok_num m
  rw [hn]
  unfold instr
  show (if _ then _ else _) = _
  rw [if_pos hr, ha]

/-- The first operand is `A`, and is left out. -/
def implicit (m : Mn) (x : Opv) : Bool := m.entry.modes2 != 0 && has m.entry.modes1 M.a && has m.entry.modes2 x.am.mode

/-- The expressions that are named: with one operand, both names may stand for its expression. -/
def names (C : Ctx) (m : Mn) : List Opnd → Option Src × Option Src
  | [x] => (x.src C, if implicit m (x.opv .a) then x.src C else none)
  | [x, y] => (x.src C, y.src C)
  | _ => (none, none)

theorem operands_none (C : Ctx) (o : Opts) (i : Instruction) {rest : Toks} (he : EndOfLine rest) :
    operands C o i rest = .ok (({}, none), ({}, none), rest) := by
  unfold operands
  split
  · rfl
  · rw [addrMode_none C o .a he, ok_bind]

theorem toks_ne (x : Opnd) (hg : x.Good) (rest : Toks) : x.toks ++ rest ≠ rest := by
  intro h
  have h := congrArg List.length h
  rw [List.length_append] at h
  have : x.toks.length = 0 := by omega
  have : x.toks = [] := List.eq_nil_of_length_eq_zero this
  cases x with
  | expr t =>
    obtain ⟨y, ys, hy, _⟩ := toks_cons t
    rw [show (Opnd.expr t).toks = t.toks from rfl, hy] at this
    cases this
  | idx x s d => cases s <;> cases d <;> cases this
  | _ => cases this

theorem line_ne {xs : List Opnd} (hx : xs ≠ []) (hg : ∀ x ∈ xs, x.Good) (rest : Toks) : line xs ++ rest ≠ rest := by
  match xs, hx with
  | [x], _ => exact toks_ne x (hg x (by simp)) rest
  | x :: y :: ys, _ =>
    intro h
    have h := congrArg List.length h
    simp only [line, List.length_append, List.length_cons] at h
    omega

/-- A line is read, and the handler is called. -/
theorem instr_plan (C : Ctx) (o : Opts) (m : Mn) (xs : List Opnd) (hl : xs.length ≤ 2) (hg : ∀ x ∈ xs, x.Good) {rest : Toks}
    (he : EndOfLine rest) (is : List Item) :
    instr C o (m.tok :: (line xs ++ rest)) = .ok (some (is, rest)) ↔
      ((plan o (facts C.known (names C m xs).1 (names C m xs).2) m (opvs xs)).bind fun cs =>
        items (names C m xs).1 (names C m xs).2 cs) = .ok is := by
  have fin {α : Type} {x : Outcome α} {f : α → Outcome (List Item)} :
      (x.bind fun cs => (f cs).bind fun is => Outcome.ok (some (is, rest))) = .ok (some (is, rest)) ↔ x.bind f = .ok is := by
    cases x with
    | ok a =>
      rw [ok_bind, ok_bind]
      cases f a with
      | ok i => rw [ok_bind]; simp
      | fail => exact ⟨fun h => (nomatch h), fun h => (nomatch h)⟩
      | ub => exact ⟨fun h => (nomatch h), fun h => (nomatch h)⟩
    | fail => exact ⟨fun h => (nomatch h), fun h => (nomatch h)⟩
    | ub => exact ⟨fun h => (nomatch h), fun h => (nomatch h)⟩
  have left {toks : Toks} (hne : toks ≠ rest) {α : Type} (x : Outcome α) (f : α → Outcome (List Item)) :
      (x.bind fun cs => (f cs).bind fun is => Outcome.ok (some (is, toks))) ≠ .ok (some (is, rest)) := by
    cases x with
    | ok a =>
      rw [ok_bind]
      cases f a with
      | ok i =>
        rw [ok_bind]
        intro h
        simp only [Outcome.ok.injEq, Option.some.injEq, Prod.mk.injEq] at h
        exact hne h.2
      | fail => exact fun h => (nomatch h)
      | ub => exact fun h => (nomatch h)
    | fail => exact fun h => (nomatch h)
    | ub => exact fun h => (nomatch h)
  have failed {f : List Call → Outcome (List Item)} : ¬ (Outcome.bind .fail f = .ok is) := fun h => (nomatch h)
  rw [instr_entry]
  match xs, hl, hg with
  | [], _, _ =>
    rw [show line [] ++ rest = rest from rfl, operands_none C o m.entry he, ok_bind]
    exact fin
  | [x], _, hg =>
    have hx := hg x (by simp)
    show ((operands C o m.entry (x.toks ++ rest)).bind _ = _) ↔ ((plan o _ m [x.opv .a]).bind _ = _)
    unfold operands
    by_cases h1 : m.entry.modes1 = 0
    · rw [if_pos h1, ok_bind]
      have hp (F : Facts) : plan o F m [x.opv .a] = .fail := by
        unfold plan
        split
        · rfl
        · rfl
      rw [hp]
      exact ⟨fun h => absurd h (left (toks_ne x hx rest) _ _), fun h => absurd h failed⟩
    · rw [if_neg h1, addrMode_reads C o .a x hx he.ends]
      by_cases hu : (x.opv .a).usable o = true
      · rw [if_pos hu, ok_bind]
        have hp (F : Facts) : plan o F m [x.opv .a] =
            if implicit m (x.opv .a) then dispatch o F m.entry implicitA (x.opv .a).am else dispatch o F m.entry (x.opv .a).am {} := by
          unfold plan
          rw [if_pos (by simp [hu])]
          exact if_neg h1
        rw [hp]
        have hm : (match ((some ((x.opv .a).am, x.src C), rest) : Option Operand × Toks) with
            | (none, rest) => Outcome.ok ((({}, none) : Operand), (({}, none) : Operand), rest)
            | (some x, .comma :: rest) => (addrMode C o .b rest).bind fun
              | (some y, rest) => .ok (x, y, rest)
              | (none, _) => .fail
            | (some x, rest) =>
              if m.entry.modes2 != 0 && has m.entry.modes1 M.a && has m.entry.modes2 x.1.mode then .ok ((implicitA, x.2), x, rest)
              else .ok (x, ({}, none), rest)) =
            if implicit m (x.opv .a) then .ok ((implicitA, x.src C), ((x.opv .a).am, x.src C), rest)
            else .ok (((x.opv .a).am, x.src C), ({}, none), rest) := by
          rcases he.cases with rfl | ⟨ys, rfl⟩ <;> rfl
        refine Iff.trans (Eq.to_iff (congrArg (fun z => Outcome.bind z _ = _) hm)) ?_
        show _ ↔ ((if implicit m (x.opv .a) then dispatch o (facts C.known (x.src C)
            (if implicit m (x.opv .a) then x.src C else none)) m.entry implicitA (x.opv .a).am
          else dispatch o (facts C.known (x.src C)
            (if implicit m (x.opv .a) then x.src C else none)) m.entry (x.opv .a).am {}).bind fun cs =>
              items (x.src C) (if implicit m (x.opv .a) then x.src C else none) cs) = _
        cases implicit m (x.opv .a)
        · exact fin
        · exact fin
      · rw [if_neg hu]
        have hp (F : Facts) : plan o F m [x.opv .a] = .fail := by
          unfold plan
          exact if_neg (by simp [hu])
        rw [hp]
        exact ⟨fun h => (nomatch h), fun h => absurd h failed⟩
  | [x, y], _, hg =>
    have hx := hg x (by simp)
    have hy := hg y (by simp)
    have ht : line [x, y] ++ rest = x.toks ++ .comma :: (y.toks ++ rest) := by simp [line]
    show ((operands C o m.entry _).bind _ = _) ↔ ((plan o _ m [x.opv .a, y.opv .b]).bind _ = _)
    unfold operands
    by_cases h1 : m.entry.modes1 = 0
    · rw [if_pos h1, ok_bind]
      have hp (F : Facts) : plan o F m [x.opv .a, y.opv .b] = .fail := by
        unfold plan
        split
        · rfl
        · rfl
      rw [hp]
      exact ⟨fun h => absurd h (left (line_ne (by simp) hg rest) _ _), fun h => absurd h failed⟩
    · rw [if_neg h1, ht, addrMode_reads C o .a x hx (Ends.comma _)]
      by_cases hu : (x.opv .a).usable o = true
      · rw [if_pos hu, ok_bind]
        simp only
        rw [addrMode_reads C o .b y hy he.ends]
        by_cases hv : (y.opv .b).usable o = true
        · rw [if_pos hv, ok_bind, ok_bind]
          have hp (F : Facts) : plan o F m [x.opv .a, y.opv .b] = dispatch o F m.entry (x.opv .a).am (y.opv .b).am := by
            unfold plan
            rw [if_pos (by simp [hu, hv])]
            exact if_neg h1
          rw [hp]
          exact fin
        · rw [if_neg hv]
          have hp (F : Facts) : plan o F m [x.opv .a, y.opv .b] = .fail := by
            unfold plan
            exact if_neg (by simp [hv])
          rw [hp]
          exact ⟨fun h => (nomatch h), fun h => absurd h failed⟩
      · rw [if_neg hu]
        have hp (F : Facts) : plan o F m [x.opv .a, y.opv .b] = .fail := by
          unfold plan
          exact if_neg (by simp [hu])
        rw [hp]
        exact ⟨fun h => (nomatch h), fun h => absurd h failed⟩

end Verif.Cpu.Z80
