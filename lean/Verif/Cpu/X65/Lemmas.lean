import Verif.Cpu.X65.Spec
/-!
# Lemmas about the parser of addressing modes
-/
namespace Verif.Cpu.X65

open Verif.Parse (Tok Toks Tree)
open Verif.Expr (Src FMath ASym Den Rng BinOp I32 u32 toI32 meaning wrap value_bin)

theorem ok_bind {α β : Type} (a : α) (f : α → Outcome β) : (Outcome.ok a).bind f = f a := rfl

/-- The end of a line. -/
def EndOfLine (rest : Toks) : Prop := ∀ x, rest.head? = some x → x = .other 10

theorem EndOfLine.ends {rest : Toks} (h : EndOfLine rest) : Ends rest := fun x hx => Or.inr (Or.inr ⟨10, h x hx⟩)

theorem EndOfLine.cases {rest : Toks} (h : EndOfLine rest) : rest = [] ∨ ∃ xs, rest = .other 10 :: xs := by
  cases rest with
  | nil => exact Or.inl rfl
  | cons x xs => exact Or.inr ⟨xs, by rw [h x rfl]⟩

/-- The options of the processors that are specified. -/
def mk (cpu : Cpu) (u : Nat) (syn : Bool) : Opts :=
  {undocumented := u, cpu := cpu, synthesized := syn, m16 := false, x16 := false, allowed := cpu.allowed, bp := 0}

/-! ### First tokens -/

/-- The first token of an expression that is not a parenthesis. -/
def Front : Tok → Bool
  | .num _ | .str _ | .sym _ | .cpl | .not | .at | .fn _ | .atan2 => true
  | .op .sub | .op .add | .op .mul => true
  | _ => false

theorem front (t : Tree) : ∃ x xs, t.toks = x :: xs ∧ (Front x = true ∨ x = .lp) := by
  induction t with
  | pc s => cases s <;> exact ⟨_, _, rfl, Or.inl rfl⟩
  | paren t ih => exact ⟨_, _, rfl, Or.inr rfl⟩
  | bin o l r ihl ihr =>
    obtain ⟨x, xs, h, hb⟩ := ihl
    exact ⟨x, xs ++ .op o :: r.toks, by simp [Tree.toks, h], hb⟩
  | _ => exact ⟨_, _, rfl, Or.inl rfl⟩

/-- An address that is not in parentheses: it neither begins with one nor is it, like `+(5)`, one with signs before it. -/
structure Bare (C : Ctx) (t : Tree) : Prop where
  head : t.toks.head? ≠ some .lp
  whole : isParens (C.src t) = false

theorem Bare.front {C : Ctx} {t : Tree} (h : Bare C t) : ∃ x xs, t.toks = x :: xs ∧ Front x = true := by
  obtain ⟨x, xs, e, hx | hx⟩ := X65.front t
  · exact ⟨x, xs, e, hx⟩
  · exact absurd (by rw [e, hx]; rfl) h.head

theorem Front.not_other {x : Tok} (h : Front x = true) (n : Nat) : x ≠ .other n := by rintro rfl; cases h
theorem Front.not_lp {x : Tok} (h : Front x = true) : x ≠ .lp := by rintro rfl; cases h
theorem Front.not_comma {x : Tok} (h : Front x = true) : x ≠ .comma := by rintro rfl; cases h

/-- Tokens that begin an address without parentheses, or a `<`. -/
def Mem (x : Tok) : Bool := Front x || x = .op .lt

theorem Mem.not_other {x : Tok} (h : Mem x = true) (n : Nat) : x ≠ .other n := by rintro rfl; cases h
theorem Mem.not_lp {x : Tok} (h : Mem x = true) : x ≠ .lp := by rintro rfl; cases h

theorem parenMode_none (C : Ctx) (A : Nat) {toks : Toks} (h : toks.head? ≠ some .lp) : parenMode C A toks = .ok none := by
  cases toks with
  | nil => rfl
  | cons x xs =>
    cases x with
    | lp => exact absurd rfl h
    | _ => rfl

theorem bracketMode_none (C : Ctx) (o : Opts) (A : Nat) {toks : Toks} (h : toks.head? ≠ some (.other 91)) :
    bracketMode C o A toks = .ok none := by
  cases toks with
  | nil => rfl
  | cons x xs =>
    unfold bracketMode
    split
    · rename_i e; cases e; exact absurd rfl h
    · rfl

theorem indirectMode_none (C : Ctx) (A : Nat) {toks : Toks} (h : toks.head? ≠ some .lp) : indirectMode C A toks = .ok none := by
  cases toks with
  | nil => rfl
  | cons x xs =>
    cases x with
    | lp => exact absurd rfl h
    | _ => rfl

theorem orElse_none (y : Mode) : orElse (.ok none) y = y := rfl
theorem orElse_some (r : Am × Toks) (y : Mode) : orElse (.ok (some r)) y = .ok (some r) := rfl

/-- An operand that begins with a token that is not `A`, `Q`, `#`, `(` or `[`. -/
theorem core_mem (C : Ctx) (o : Opts) (A : Nat) (imm : Imm) {toks : Toks} {x : Tok} (hx : toks.head? = some x)
    (hm : Mem x = true) : core C o A imm toks = orElse (memoryMode C o A toks) (noMode A toks) := by
  unfold core
  rw [if_neg (fun h => Mem.not_other hm _ (Option.some.inj (hx.symm.trans h.2))),
    if_neg (fun h => Mem.not_other hm _ (Option.some.inj (hx.symm.trans h.2))),
    if_neg (fun h => Mem.not_other hm _ (Option.some.inj (hx.symm.trans h.2))),
    parenMode_none, bracketMode_none, indirectMode_none, orElse_none, orElse_none, orElse_none]
  · rw [hx]; intro h; exact Mem.not_lp hm (Option.some.inj h)
  · rw [hx]; intro h; exact Mem.not_other hm _ (Option.some.inj h)
  · rw [hx]; intro h; exact Mem.not_lp hm (Option.some.inj h)

theorem prefixOf_front (o : Opts) {toks : Toks} {x : Tok} (hx : toks.head? = some x) (hf : Front x = true) :
    prefixOf o toks = (.no, toks) := by
  cases toks with
  | nil => rfl
  | cons y ys =>
    obtain rfl : y = x := Option.some.inj hx
    unfold prefixOf
    split
    · rename_i e; cases e; cases hf
    · rename_i e; cases e; cases hf
    · rename_i e; cases e; cases hf
    · rfl

/-- The prefix of an address. -/
def forceOf (f : Bool) : Force := if f then .zp else .no

/-- An operand that begins with an address. -/
theorem core_address (C : Ctx) (o : Opts) (A : Nat) (imm : Imm) (f : Bool) {t : Tree} (hr : Readable 2 t) (hb : Bare C t)
    {rest : Toks} (he : Ends rest) (hA : has A M.memory = true) :
    core C o A imm (force f ++ t.toks ++ rest) =
      orElse (addressMode C o A (forceOf f) (C.src t) rest) (noMode A (force f ++ t.toks ++ rest)) := by
  obtain ⟨x, xs, ex, hf⟩ := hb.front
  have hp : prefixOf o (force f ++ t.toks ++ rest) = (forceOf f, t.toks ++ rest) := by
    cases f with
    | true => rfl
    | false =>
      show prefixOf o ([] ++ t.toks ++ rest) = _
      rw [List.nil_append, prefixOf_front o (x := x) (by rw [ex]; rfl) hf]; rfl
  have hm : ∃ y, (force f ++ t.toks ++ rest).head? = some y ∧ Mem y = true := by
    cases f with
    | true => exact ⟨_, rfl, rfl⟩
    | false => exact ⟨x, by show ([] ++ t.toks ++ rest).head? = _; rw [ex]; rfl, by unfold Mem; rw [hf]; rfl⟩
  obtain ⟨y, hy, hm⟩ := hm
  rw [core_mem C o A imm hy hm]
  congr 1
  unfold memoryMode
  rw [if_pos hA, hp]
  show (expr C 2 (t.toks ++ rest)).bind _ = _
  rw [expr_reads C hr he, ok_bind]
  simp only
  rw [hb.whole]
  rfl

/-! ### The second part of the parser -/

/-- Whether the value of an expression is known and in the zero page. -/
def Ctx.small (C : Ctx) (s : Src) : Bool := (C.known s).any fun v => decide (0 ≤ v ∧ v ≤ 255)

theorem knownZp_eq (C : Ctx) {o : Opts} (hbp : o.bp = 0) (s : Src) : knownZp C o s = Ctx.small C s := by
  unfold knownZp Ctx.small
  congr 1
  funext v
  unfold inPage
  rw [hbp]
  simp

theorem inPage_eq {o : Opts} (hbp : o.bp = 0) (v : Int) : inPage o v = decide (0 ≤ v ∧ v ≤ 255) := by
  unfold inPage; rw [hbp]; simp

section

variable {C : Ctx} {junk : Src → Int} {o : Opts} {A : Nat} {imm : Imm} {toks rest : Toks} {am : Am}

/-- Modes that are left as they are. -/
theorem post_same (h : core C o A imm toks = .ok (some (am, rest))) (hm : am.mode ≠ 0)
    (hs : am.forced = true ∨ has am.mode M.handle = false ∨ am.e.bind C.known = none) :
    addrMode C junk o A imm toks = .ok (some (am, rest)) := by
  unfold addrMode
  rw [h, ok_bind]
  simp only
  rw [if_pos, if_neg hm]
  rcases hs with h | h | h
  · exact Or.inl h
  · exact Or.inr (Or.inl (by rw [h]; decide))
  · exact Or.inr (Or.inr h)

/-- A value that is known. -/
theorem post_known (h : core C o A imm toks = .ok (some (am, rest))) (hf : am.forced = false)
    (hh : has am.mode M.handle = true) {s : Src} (he : am.e = some s) {v : Int} (hk : C.known s = some v)
    (h2 : am.mode ≠ M.bitZp ∧ am.mode ≠ M.bitZpAbs) :
    addrMode C junk o A imm toks =
      if inPage o v then
        match zpMode A am.mode with
        | none => .ok (some (am, rest))
        | some m => .ok (some ({am with mode := m, e := some (maskZp s)}, rest))
      else if has am.mode M.page then .fail else .ok (some (am, rest)) := by
  unfold addrMode
  rw [h, ok_bind]
  simp only
  rw [if_neg]
  · simp only [show ¬ (am.mode = M.bitZp ∨ am.mode = M.bitZpAbs) from fun h => h.elim h2.1 h2.2, if_false, he, hk,
      Option.getD_some]
    rfl
  · rw [hf, hh, he]
    show ¬ (false = true ∨ ¬ true = true ∨ C.known s = none)
    rw [hk]
    simp

/-- The second operand of `BBR` and `BBS`. -/
theorem post_known2 (h : core C o A imm toks = .ok (some (am, rest))) (hf : am.forced = false)
    (he : am.e.bind C.known ≠ none) (hm : am.mode = M.bitZpAbs) {s : Src} (he2 : am.e2 = some s) :
    addrMode C junk o A imm toks =
      if inPage o ((C.known s).getD (junk s)) then .ok (some ({am with e2 := some (maskZp s)}, rest)) else .fail := by
  unfold addrMode
  rw [h, ok_bind]
  simp only
  rw [if_neg]
  · have h1 : am.mode = M.bitZp ∨ am.mode = M.bitZpAbs := Or.inr hm
    simp only [h1, if_true, he2]
    rw [hm]
    show (if _ then (Outcome.ok (some (_, rest)) : Mode) else Outcome.fail) = _
    cases am
    cases hm
    rfl
  · rintro (h | h | h)
    · rw [hf] at h; cases h
    · rw [hm] at h; exact h (by decide)
    · exact he h

end

/-! ### Operands -/

/-- The machines that are specified, with their sets of undocumented instructions. -/
def machines : List (Cpu × Nat) := [(.c6502, 0), (.c6502, 1), (.c6502, 2), (.c6502, 3), (.c65C02, 0), (.c65C02S, 0)]

theorem tok_regs {cpu : Cpu} {u : Nat} (h : (cpu, u) ∈ machines) (syn : Bool) :
    tok (mk cpu u syn) "A" = .other T.regA.num ∧ tok (mk cpu u syn) "X" = .other T.regX.num ∧
      tok (mk cpu u syn) "Y" = .other T.regY.num := by
  revert syn
  revert h
  revert cpu u
  have : ∀ p ∈ machines, ∀ syn, tok (mk p.1 p.2 syn) "A" = .other T.regA.num ∧ tok (mk p.1 p.2 syn) "X" = .other T.regX.num ∧
      tok (mk p.1 p.2 syn) "Y" = .other T.regY.num := by decide +kernel
  intro cpu u h syn
  exact this (cpu, u) h syn

theorem small_mask {C : Ctx} {s : Src} (h : Ctx.small C s = true) : ∃ v, C.known s = some v ∧ 0 ≤ v ∧ v ≤ 255 := by
  unfold Ctx.small at h
  cases hk : C.known s with
  | none => rw [hk] at h; cases h
  | some v => rw [hk] at h; exact ⟨v, rfl, of_decide_eq_true h⟩

theorem small_not {C : Ctx} {s : Src} (h : Ctx.small C s = false) {v : Int} (hk : C.known s = some v) : ¬ (0 ≤ v ∧ v ≤ 255) := by
  unfold Ctx.small at h
  rw [hk] at h
  exact of_decide_eq_false h

section

variable {C : Ctx} {o : Opts} {A : Nat} {s : Src} {rest : Toks}

theorem zp_forces : (Force.zp != Force.no) = true := rfl

/-- What an address becomes. -/
def forced (f : Bool) (s : Src) : Src := if f then checkRange s 0 255 else s

theorem address_plain (hbp : o.bp = 0) (he : EndOfLine rest) (hl : has A M.longAbs = false) (f : Bool) :
    addressMode C o A (forceOf f) s rest =
      if has A M.zp && (f || Ctx.small C s) then .ok (some ({mode := M.zp, e := forced f s, forced := f}, rest))
      else if has A M.abs then .ok (some ({mode := M.abs, e := forced f s, forced := f}, rest))
      else .ok none := by
  unfold addressMode
  rcases he.cases with rfl | ⟨xs, rfl⟩ <;> cases f <;>
    simp [forceOf, forced, knownZp_eq C hbp, hl, zp_forces, -Outcome.ok.injEq]

theorem address_x (hbp : o.bp = 0) (hl : has A M.longAbsX = false) (f : Bool) :
    addressMode C o A (forceOf f) s (.comma :: .other T.regX.num :: rest) =
      .ok (some ({mode := if (f || Ctx.small C s) && has A M.zpX then M.zpX else (M.absX ||| M.absX45) &&& A,
                  e := forced f s, forced := f}, rest)) := by
  unfold addressMode
  cases f <;> simp [forceOf, forced, knownZp_eq C hbp, hl, zp_forces, -Outcome.ok.injEq]

theorem address_y (hbp : o.bp = 0) (f : Bool) :
    addressMode C o A (forceOf f) s (.comma :: .other T.regY.num :: rest) =
      .ok (some ({mode := if (f || Ctx.small C s) && has A M.zpY then M.zpY else (M.absY ||| M.absY45) &&& A,
                  e := forced f s, forced := f}, rest)) := by
  unfold addressMode
  have : (Tok.other T.regY.num : Tok) ≠ .other T.regX.num := by decide
  cases f <;> simp [forceOf, forced, knownZp_eq C hbp, this, zp_forces, -Outcome.ok.injEq]

theorem address_two {u : Tree} (hr : Readable 2 u) (he : EndOfLine rest) :
    addressMode C o A .no s (.comma :: (u.toks ++ rest)) =
      .ok (some ({mode := A &&& (M.bitZp ||| M.zpAbs), e := s, e2 := some (C.src u)}, rest)) := by
  obtain ⟨x, xs, ex, hf⟩ := X65.front u
  have hn : ∀ n, (u.toks ++ rest).head? ≠ some (.other n) := by
    intro n h
    rw [ex] at h
    rcases hf with hf | rfl
    · exact Front.not_other hf n (Option.some.inj h)
    · cases h
  unfold addressMode
  simp only [hn, if_false]
  rw [expr_reads C hr he.ends, ok_bind]
  rcases he.cases with rfl | ⟨xs, rfl⟩ <;> rfl

theorem address_three {u v : Tree} (hu : Readable 2 u) (hv : Readable 2 v) (he : EndOfLine rest) :
    addressMode C o A .no s (.comma :: (u.toks ++ .comma :: (v.toks ++ rest))) =
      .ok (some ({mode := M.bitZpAbs, e := s, e2 := some (C.src u), e3 := some (C.src v)}, rest)) := by
  obtain ⟨x, xs, ex, hf⟩ := X65.front u
  have hn : ∀ n, (u.toks ++ .comma :: (v.toks ++ rest)).head? ≠ some (.other n) := by
    intro n h
    rw [ex] at h
    rcases hf with hf | rfl
    · exact Front.not_other hf n (Option.some.inj h)
    · cases h
  unfold addressMode
  simp only [hn, if_false]
  rw [expr_reads C hu (Ends.comma _), ok_bind]
  simp only
  rw [expr_reads C hv he.ends, ok_bind]
  rfl

end

/-- The bits of the modes. -/
def AM.mode : AM → Nat
  | .imp => M.none
  | .acc => M.a
  | .imm => M.imm
  | .zp => M.zp
  | .zpx => M.zpX
  | .zpy => M.zpY
  | .abs | .rel => M.abs
  | .absx => M.absX
  | .absy => M.absY
  | .izx => M.indZpX
  | .izy => M.indZpY
  | .izp => M.indZp
  | .ind => M.indAbs
  | .iax => M.indAbsX
  | .zprel => M.zpAbs
  | .bit => M.bitZp
  | .bitrel => M.bitZpAbs

/-- What has to be allowed for a mode to be found. -/
def sel (A : Nat) (s : Shape) (small : Bool) (am : AM) : Bool :=
  match s, am with
  | .none, .imp => A != 0 && has A M.none
  | .none, .acc => A != 0 && !has A M.none && has A M.a
  | .a, .acc => has A M.a
  | .imm, .imm => !has A M.immImm && has A (M.imm ||| M.immImm) && has A M.imm
  | .mem true, .zp => has A M.memory && !has A M.longAbs && has A M.zp
  | .mem false, .zp => has A M.memory && !has A M.longAbs && has A M.zp && small
  | .mem false, .abs | .mem false, .rel => has A M.memory && !has A M.longAbs && has A M.abs && !(has A M.zp && small)
  | .memX true, .zpx => has A M.memory && !has A M.longAbsX && has A M.zpX
  | .memX false, .zpx => has A M.memory && !has A M.longAbsX && has A M.zpX && small
  | .memX false, .absx =>
    has A M.memory && !has A M.longAbsX && has A M.absX && !(small && has A M.zpX) && (M.absX ||| M.absX45) &&& A == M.absX
  | .memY true, .zpy => has A M.memory && has A M.zpY
  | .memY false, .zpy => has A M.memory && has A M.zpY && small
  | .memY false, .absy =>
    has A M.memory && has A M.absY && !(small && has A M.zpY) && (M.absY ||| M.absY45) &&& A == M.absY
  | .indX, .izx =>
    has A (M.indZpX ||| M.indZpY ||| M.indZpZ ||| M.indAbsX ||| M.indDispSY) && A &&& (M.indZpX ||| M.indAbsX) == M.indZpX &&
      has A M.indZpX
  | .indX, .iax =>
    has A (M.indZpX ||| M.indZpY ||| M.indZpZ ||| M.indAbsX ||| M.indDispSY) && A &&& (M.indZpX ||| M.indAbsX) == M.indAbsX &&
      has A M.indAbsX
  | .indY, .izy => has A (M.indZpX ||| M.indZpY ||| M.indZpZ ||| M.indAbsX ||| M.indDispSY) && has A M.indZpY
  | .ind, .izp => has A (M.indAbs ||| M.indZp) && has A M.indZp
  | .ind, .ind => has A (M.indAbs ||| M.indZp) && has A M.indAbs && !has A M.indZp
  | .two, .zprel => has A M.memory && has A M.zpAbs && A &&& (M.bitZp ||| M.zpAbs) == M.zpAbs
  | .two, .bit => has A M.memory && has A M.bitZp && A &&& (M.bitZp ||| M.zpAbs) == M.bitZp
  | .three, .bitrel => has A M.memory && has A M.bitZpAbs
  | _, _ => false

/-- The expression of an immediate operand. -/
def Pre.src (p : Pre) (s : Src) : Src :=
  match p with
  | .plain => s
  | .low => maskExpr false s
  | .high => maskExpr false (.bin .asr s (.num 8))
  | .bank => maskExpr false (.bin .asr s (.num 16))
  | .swap => maskExpr false (.bin .or (.bin .asl s (.num 8)) (.bin .asr (.bin .and s (.num 0xFF00)) (.num 8)))

/-- Expressions that have the same value in the zero page. -/
def Agree (C : Ctx) (s : Src) (e : Option Src) : Prop :=
  e = some s ∨ e = some (checkRange s 0 255) ∨ (e = some (maskZp s) ∧ Ctx.small C s = true)

/-- The expressions of an operand in a mode. -/
def Parsed (C : Ctx) (am : AM) (x : Opnd) (r : Am) : Prop :=
  match am, x with
  | .imp, _ | .acc, _ => True
  | .imm, .imm p t => r.e = some (p.src (C.src t))
  | .zp, .mem _ t | .zpx, .memX _ t | .zpy, .memY _ t | .izx, .indX t | .izy, .indY t | .izp, .ind t => Agree C (C.src t) r.e
  | .abs, .mem _ t | .rel, .mem _ t | .absx, .memX _ t | .absy, .memY _ t | .ind, .ind t | .iax, .indX t => r.e = some (C.src t)
  | .zprel, .two t u => Agree C (C.src t) r.e ∧ r.e2 = some (C.src u)
  | .bit, .two t u => r.e = some (C.src t) ∧ r.e2 = some (C.src u)
  | .bitrel, .three t u v => r.e = some (C.src t) ∧ Agree C (C.src u) r.e2 ∧ r.e3 = some (C.src v)
  | _, _ => False

/-- Whether the address of an operand is known and in the zero page. -/
def Opnd.small (C : Ctx) : Opnd → Bool
  | .mem _ t | .memX _ t | .memY _ t => Ctx.small C (C.src t)
  | _ => false

/-- Addresses in the zero page: if they are known, they are in it. `(n)` has to be known, and so has the second operand of
`BBR` and `BBS` if the first is. -/
def Opnd.InPage (C : Ctx) (am : AM) : Opnd → Prop
  | .indX t => am = .izx → ∀ v, C.known (C.src t) = some v → 0 ≤ v ∧ v ≤ 255
  | .indY t => ∀ v, C.known (C.src t) = some v → 0 ≤ v ∧ v ≤ 255
  | .ind t => am = .izp → Ctx.small C (C.src t) = true
  | .two t _ => am = .zprel → ∀ v, C.known (C.src t) = some v → 0 ≤ v ∧ v ≤ 255
  | .three t u _ => C.known (C.src t) = Option.none ∨ Ctx.small C (C.src u) = true
  | _ => True

/-- An operand that can be read: the expressions have the necessary parentheses, and addresses have no more. -/
structure Opnd.Good (C : Ctx) (x : Opnd) : Prop where
  readable : ∀ t ∈ x.trees, Readable 2 t
  bare : match x with
    | .mem _ t | .memX _ t | .memY _ t | .two t _ | .three t _ _ => Bare C t
    | _ => True

section

variable {C : Ctx} {junk : Src → Int} {o : Opts} {A : Nat} {imm : Imm} {rest : Toks}

theorem has_comm (a b : Nat) : has a b = has b a := by unfold has; rw [Nat.and_comm]

theorem operand_of {toks : Toks} {r : Am} (h : addrMode C junk o A imm toks = .ok (some (r, rest))) (hm : has A r.mode = true) :
    operand C junk o A imm toks = .ok (r, rest) := by
  unfold operand
  rw [h, ok_bind]
  simp only
  rw [has_comm, if_pos hm]

/-- The mode of an address in the zero page. -/
theorem post_small {toks : Toks} {m : Nat} {s : Src} {e2 : Option Src} (hbp : o.bp = 0)
    (h : core C o A imm toks = .ok (some ({mode := m, e := some s, e2 := e2}, rest)))
    (hm : m ∈ [M.zp, M.zpX, M.zpY, M.indZpX, M.indZpY, M.zpAbs]) (hp : ∀ v, C.known s = some v → 0 ≤ v ∧ v ≤ 255) :
    ∃ e, addrMode C junk o A imm toks = .ok (some ({mode := m, e := e, e2 := e2}, rest)) ∧ Agree C s e := by
  have hf : m ≠ 0 ∧ zpMode A m = some m ∧ (m ≠ M.bitZp ∧ m ≠ M.bitZpAbs) ∧ has m M.handle = true := by
    simp only [List.mem_cons, List.not_mem_nil, or_false] at hm
    rcases hm with rfl | rfl | rfl | rfl | rfl | rfl <;> exact ⟨by decide, rfl, by decide, by decide⟩
  cases hk : C.known s with
  | none => exact ⟨some s, post_same h hf.1 (Or.inr (Or.inr hk)), Or.inl rfl⟩
  | some v =>
    have hv := hp v hk
    refine ⟨some (maskZp s), ?_, Or.inr (Or.inr ⟨rfl, ?_⟩)⟩
    · rw [post_known h rfl hf.2.2.2 rfl hk hf.2.2.1, inPage_eq hbp, if_pos (decide_eq_true hv)]
      show (match zpMode A m with | none => _ | some m => _) = _
      rw [hf.2.1]
    · unfold Ctx.small; rw [hk]; exact decide_eq_true hv

/-- The mode of an address in the whole memory. -/
theorem post_wide {toks : Toks} {m : Nat} {s : Src} (hbp : o.bp = 0)
    (h : core C o A imm toks = .ok (some ({mode := m, e := some s}, rest)))
    (hm : m ∈ [M.abs, M.absX, M.absY, M.indAbs, M.indAbsX]) (hp : Ctx.small C s = false ∨ zpMode A m = none) :
    addrMode C junk o A imm toks = .ok (some ({mode := m, e := some s}, rest)) := by
  have hf : m ≠ 0 ∧ has m M.page = false ∧ (m ≠ M.bitZp ∧ m ≠ M.bitZpAbs) ∧ has m M.handle = true := by
    simp only [List.mem_cons, List.not_mem_nil, or_false] at hm
    rcases hm with rfl | rfl | rfl | rfl | rfl <;> exact ⟨by decide, rfl, by decide, by decide⟩
  cases hk : C.known s with
  | none => exact post_same h hf.1 (Or.inr (Or.inr hk))
  | some v =>
    rw [post_known h rfl hf.2.2.2 rfl hk hf.2.2.1, inPage_eq hbp]
    rcases hp with hp | hp
    · rw [if_neg (fun h => small_not hp hk (of_decide_eq_true h))]
      show (if has m M.page = true then _ else _) = _
      rw [hf.2.1]; rfl
    · show (if _ then (match zpMode A m with | none => _ | some m => _) else if has m M.page = true then _ else _) = _
      rw [hp, hf.2.1]
      split <;> rfl

variable {cpu : Cpu} {u : Nat} {syn : Bool}

theorem operand_none {rest : Toks} (he : EndOfLine rest) {am : AM} (hs : sel A .none false am = true) :
    operand C junk (mk cpu u syn) A imm rest = .ok ({mode := am.mode}, rest) := by
  have hc : core C (mk cpu u syn) A imm rest = noMode A rest := by
    have hh : ∀ n, n ≠ 10 → rest.head? ≠ some (.other n) := by
      intro n hn h
      have := he _ h
      cases this; exact hn rfl
    have hl : rest.head? ≠ some .lp := by intro h; have := he _ h; cases this
    unfold core
    rw [if_neg (fun h => hh _ (by decide) h.2), if_neg (fun h => hh _ (by decide) h.2), if_neg (fun h => hh _ (by decide) h.2),
      parenMode_none _ _ hl, bracketMode_none _ _ _ (hh _ (by decide)), indirectMode_none _ _ hl, orElse_none, orElse_none,
      orElse_none]
    have hm : memoryMode C (mk cpu u syn) A rest = .ok none := by
      unfold memoryMode
      split
      · rcases he.cases with rfl | ⟨xs, rfl⟩ <;> rfl
      · rfl
    rw [hm, orElse_none]
  cases am <;> try cases hs
  · simp only [sel, Bool.and_eq_true, bne_iff_ne, ne_eq] at hs
    have hn : noMode A rest = .ok (some ({mode := M.none}, rest)) := by
      unfold noMode; rw [if_pos (Or.inr hs.2)]
    exact operand_of (post_same (hc.trans hn) (show M.none ≠ 0 by decide) (Or.inr (Or.inl (show has M.none M.handle = false by decide)))) hs.2
  · simp only [sel, Bool.and_eq_true, bne_iff_ne, ne_eq, Bool.not_eq_true'] at hs
    have hn : noMode A rest = .ok (some ({mode := M.a}, rest)) := by
      unfold noMode; rw [if_neg, if_pos hs.2]
      rintro (h | h)
      · exact hs.1.1 h
      · rw [hs.1.2] at h; cases h
    exact operand_of (post_same (hc.trans hn) (show M.a ≠ 0 by decide) (Or.inr (Or.inl (show has M.a M.handle = false by decide)))) hs.2

theorem operand_a (ht : tok (mk cpu u syn) "A" = .other T.regA.num) (hs : has A M.a = true) :
    operand C junk (mk cpu u syn) A imm (tok (mk cpu u syn) "A" :: rest) = .ok ({mode := M.a}, rest) := by
  rw [ht]
  have hc : core C (mk cpu u syn) A imm (.other T.regA.num :: rest) = .ok (some ({mode := M.a}, rest)) := by
    unfold core; rw [if_pos ⟨hs, rfl⟩]; rfl
  exact operand_of (post_same hc (show M.a ≠ 0 by decide) (Or.inr (Or.inl (show has M.a M.handle = false by decide)))) hs

theorem immediate_reads {p : Pre} {t : Tree} (hr : Readable 2 t) (he : Ends rest) :
    immediate C false (p.toks ++ t.toks ++ rest) = .ok (some (p.src (C.src t)), rest) := by
  obtain ⟨x, xs, ex, hf⟩ := X65.front t
  have hx : x ≠ .op .gt ∧ x ≠ .op .lt ∧ x ≠ .op .xor := by
    rcases hf with hf | rfl
    · refine ⟨?_, ?_, ?_⟩ <;> (rintro rfl; cases hf)
    · exact ⟨by decide, by decide, by decide⟩
  have hex := expr_reads C hr he
  rw [ex] at hex ⊢
  cases p with
  | plain =>
    show immediate C false (x :: (xs ++ rest)) = _
    unfold immediate
    split
    · rename_i e; injection e with e; exact absurd e hx.2.1
    · rename_i e; injection e with e; exact absurd e hx.2.1
    · rename_i e; injection e with e; exact absurd e hx.1
    · rename_i e; injection e with e; exact absurd e hx.2.2
    · exact hex
  | low =>
    show immediate C false (.op .lt :: x :: (xs ++ rest)) = _
    unfold immediate
    split
    · rename_i e; cases e; exact absurd rfl hx.1
    · rename_i e; cases e
      show (expr C 2 (x :: xs ++ rest)).bind _ = _
      rw [hex]; rfl
    · rename_i e; cases e
    · rename_i e; cases e
    · rename_i _ h _ _; exact absurd rfl (h _)
  | high =>
    show (expr C 2 (x :: xs ++ rest)).bind _ = _
    rw [hex]; rfl
  | bank =>
    show (expr C 2 (x :: xs ++ rest)).bind _ = _
    rw [hex]; rfl
  | swap =>
    show (expr C 2 (x :: xs ++ rest)).bind _ = _
    rw [hex]; rfl

theorem operand_imm {p : Pre} {t : Tree} (hr : Readable 2 t) (he : Ends rest) (hi : imm.is16 (mk cpu u syn) = false)
    (hs : sel A .imm false .imm = true) :
    operand C junk (mk cpu u syn) A imm (.other 35 :: (p.toks ++ t.toks) ++ rest) =
      .ok ({mode := M.imm, e := some (p.src (C.src t))}, rest) := by
  simp only [sel, Bool.and_eq_true, Bool.not_eq_true'] at hs
  have hc : core C (mk cpu u syn) A imm (.other 35 :: (p.toks ++ t.toks) ++ rest) =
      .ok (some ({mode := M.imm, e := some (p.src (C.src t))}, rest)) := by
    unfold core
    rw [if_neg (fun h => absurd (Option.some.inj h.2) (by decide)), if_neg (fun h => absurd (Option.some.inj h.2) (by decide)),
      if_pos ⟨hs.1.2, rfl⟩]
    show immMode C A (imm.is16 (mk cpu u syn)) (p.toks ++ t.toks ++ rest) = _
    unfold immMode
    rw [hi, immediate_reads hr he, ok_bind]
    simp only
    rw [hs.1.1]; rfl
  exact operand_of (post_same hc (show M.imm ≠ 0 by decide) (Or.inr (Or.inl (show has M.imm M.handle = false by decide)))) hs.2

/-- Addresses. -/
theorem operand_mem {f : Bool} {t : Tree} (hr : Readable 2 t) (hb : Bare C t) (he : EndOfLine rest) {am : AM}
    (hs : sel A (.mem f) (Ctx.small C (C.src t)) am = true) :
    ∃ r, operand C junk (mk cpu u syn) A imm (force f ++ t.toks ++ rest) = .ok (r, rest) ∧ r.mode = am.mode ∧
      Parsed C am (.mem f t) r := by
  have key : has A M.memory = true → has A M.longAbs = false → core C (mk cpu u syn) A imm (force f ++ t.toks ++ rest) =
      orElse (if has A M.zp && (f || Ctx.small C (C.src t)) then
          .ok (some ({mode := M.zp, e := forced f (C.src t), forced := f}, rest))
        else if has A M.abs then .ok (some ({mode := M.abs, e := forced f (C.src t), forced := f}, rest))
        else .ok none) (noMode A (force f ++ t.toks ++ rest)) := by
    intro h1 h2
    rw [core_address C _ A imm f hr hb he.ends h1, address_plain rfl he h2 f]
  cases f with
  | true =>
    cases am <;> try cases hs
    simp only [sel, Bool.and_eq_true, Bool.not_eq_true'] at hs
    have hc := key hs.1.1 hs.1.2
    rw [if_pos (by rw [hs.2]; rfl), orElse_some] at hc
    exact ⟨_, operand_of (post_same hc (show M.zp ≠ 0 by decide) (Or.inl rfl)) hs.2, rfl, Or.inr (Or.inl rfl)⟩
  | false =>
    cases am <;> try cases hs
    · simp only [sel, Bool.and_eq_true, Bool.not_eq_true'] at hs
      have hc := key hs.1.1.1 hs.1.1.2
      rw [if_pos (by rw [hs.1.2, hs.2]; rfl), orElse_some] at hc
      obtain ⟨v, hv, hp⟩ := small_mask hs.2
      obtain ⟨e, h, ha⟩ := post_small (junk := junk) (s := C.src t) rfl hc (by decide) (fun w hw => by rw [hv] at hw; cases hw; exact hp)
      exact ⟨_, operand_of h hs.1.2, rfl, ha⟩
    all_goals
      simp only [sel, Bool.and_eq_true, Bool.not_eq_true', Bool.and_eq_false_iff] at hs
      have hc := key hs.1.1.1 hs.1.1.2
      rw [if_neg, if_pos hs.1.2, orElse_some] at hc
      · refine ⟨_, operand_of (post_wide (junk := junk) (s := C.src t) rfl hc (by decide) ?_) hs.1.2, rfl, rfl⟩
        rcases hs.2 with h | h
        · right
          show (if has A M.zp = true then _ else _) = _
          rw [h]; rfl
        · exact Or.inl h
      · intro h
        rw [Bool.and_eq_true, Bool.false_or] at h
        rcases hs.2 with h' | h'
        · rw [h'] at h; cases h.1
        · rw [h'] at h; cases h.2

theorem operand_memX {f : Bool} {t : Tree} (hr : Readable 2 t) (hb : Bare C t) (ht : tok (mk cpu u syn) "X" = .other T.regX.num)
    {am : AM} (hs : sel A (.memX f) (Ctx.small C (C.src t)) am = true) :
    ∃ r, operand C junk (mk cpu u syn) A imm (force f ++ t.toks ++ [.comma, tok (mk cpu u syn) "X"] ++ rest) = .ok (r, rest) ∧
      r.mode = am.mode ∧ Parsed C am (.memX f t) r := by
  have key : has A M.memory = true → has A M.longAbsX = false → core C (mk cpu u syn) A imm
      (force f ++ t.toks ++ [.comma, tok (mk cpu u syn) "X"] ++ rest) =
      .ok (some ({mode := if (f || Ctx.small C (C.src t)) && has A M.zpX then M.zpX else (M.absX ||| M.absX45) &&& A,
                  e := forced f (C.src t), forced := f}, rest)) := by
    intro h1 h2
    rw [List.append_assoc (force f ++ t.toks), core_address C _ A imm f hr hb (rest := [Tok.comma, tok (mk cpu u syn) "X"] ++ rest)
      (Ends.comma _) h1, ht]
    show orElse (addressMode C _ A (forceOf f) (C.src t) (.comma :: .other T.regX.num :: rest)) _ = _
    rw [address_x rfl h2 f, orElse_some]
  cases f with
  | true =>
    cases am <;> try cases hs
    simp only [sel, Bool.and_eq_true, Bool.not_eq_true'] at hs
    have hc := key hs.1.1 hs.1.2
    rw [if_pos (by rw [hs.2]; rfl)] at hc
    exact ⟨_, operand_of (post_same hc (show M.zpX ≠ 0 by decide) (Or.inl rfl)) hs.2, rfl, Or.inr (Or.inl rfl)⟩
  | false =>
    cases am <;> try cases hs
    · simp only [sel, Bool.and_eq_true, Bool.not_eq_true'] at hs
      have hc := key hs.1.1.1 hs.1.1.2
      rw [if_pos (by rw [hs.1.2, hs.2]; rfl)] at hc
      obtain ⟨v, hv, hp⟩ := small_mask hs.2
      obtain ⟨e, h, ha⟩ := post_small (junk := junk) (s := C.src t) rfl hc (by decide)
        (fun w hw => by rw [hv] at hw; cases hw; exact hp)
      exact ⟨_, operand_of h hs.1.2, rfl, ha⟩
    · simp only [sel, Bool.and_eq_true, Bool.not_eq_true', Bool.and_eq_false_iff, beq_iff_eq] at hs
      have hc := key hs.1.1.1.1 hs.1.1.1.2
      rw [if_neg, hs.2] at hc
      · refine ⟨_, operand_of (post_wide (junk := junk) (s := C.src t) rfl hc (by decide) ?_) hs.1.1.2, rfl, rfl⟩
        rcases hs.1.2 with h | h
        · exact Or.inl h
        · right
          show (if has A M.zpX = true then _ else _) = _
          rw [h]; rfl
      · intro h
        rw [Bool.and_eq_true, Bool.false_or] at h
        rcases hs.1.2 with h' | h'
        · rw [h'] at h; cases h.1
        · rw [h'] at h; cases h.2

theorem operand_memY {f : Bool} {t : Tree} (hr : Readable 2 t) (hb : Bare C t) (ht : tok (mk cpu u syn) "Y" = .other T.regY.num)
    {am : AM} (hs : sel A (.memY f) (Ctx.small C (C.src t)) am = true) :
    ∃ r, operand C junk (mk cpu u syn) A imm (force f ++ t.toks ++ [.comma, tok (mk cpu u syn) "Y"] ++ rest) = .ok (r, rest) ∧
      r.mode = am.mode ∧ Parsed C am (.memY f t) r := by
  have key : has A M.memory = true → core C (mk cpu u syn) A imm
      (force f ++ t.toks ++ [.comma, tok (mk cpu u syn) "Y"] ++ rest) =
      .ok (some ({mode := if (f || Ctx.small C (C.src t)) && has A M.zpY then M.zpY else (M.absY ||| M.absY45) &&& A,
                  e := forced f (C.src t), forced := f}, rest)) := by
    intro h1
    rw [List.append_assoc (force f ++ t.toks), core_address C _ A imm f hr hb (rest := [Tok.comma, tok (mk cpu u syn) "Y"] ++ rest)
      (Ends.comma _) h1, ht]
    show orElse (addressMode C _ A (forceOf f) (C.src t) (.comma :: .other T.regY.num :: rest)) _ = _
    rw [address_y rfl f, orElse_some]
  cases f with
  | true =>
    cases am <;> try cases hs
    simp only [sel, Bool.and_eq_true] at hs
    have hc := key hs.1
    rw [if_pos (by rw [hs.2]; rfl)] at hc
    exact ⟨_, operand_of (post_same hc (show M.zpY ≠ 0 by decide) (Or.inl rfl)) hs.2, rfl, Or.inr (Or.inl rfl)⟩
  | false =>
    cases am <;> try cases hs
    · simp only [sel, Bool.and_eq_true] at hs
      have hc := key hs.1.1
      rw [if_pos (by rw [hs.1.2, hs.2]; rfl)] at hc
      obtain ⟨v, hv, hp⟩ := small_mask hs.2
      obtain ⟨e, h, ha⟩ := post_small (junk := junk) (s := C.src t) rfl hc (by decide)
        (fun w hw => by rw [hv] at hw; cases hw; exact hp)
      exact ⟨_, operand_of h hs.1.2, rfl, ha⟩
    · simp only [sel, Bool.and_eq_true, Bool.not_eq_true', Bool.and_eq_false_iff, beq_iff_eq] at hs
      have hc := key hs.1.1.1
      rw [if_neg, hs.2] at hc
      · refine ⟨_, operand_of (post_wide (junk := junk) (s := C.src t) rfl hc (by decide) ?_) hs.1.1.2, rfl, rfl⟩
        rcases hs.1.2 with h | h
        · exact Or.inl h
        · right
          show (if has A M.zpY = true then _ else _) = _
          rw [h]; rfl
      · intro h
        rw [Bool.and_eq_true, Bool.false_or] at h
        rcases hs.1.2 with h' | h'
        · rw [h'] at h; cases h.1
        · rw [h'] at h; cases h.2

/-- An operand in parentheses. -/
theorem core_lp (toks : Toks) : core C o A imm (.lp :: toks) =
    orElse (parenMode C A (.lp :: toks)) (orElse (indirectMode C A (.lp :: toks))
      (orElse (memoryMode C o A (.lp :: toks)) (noMode A (.lp :: toks)))) := by
  unfold core
  rw [if_neg (fun h => by cases Option.some.inj h.2), if_neg (fun h => by cases Option.some.inj h.2),
    if_neg (fun h => by cases Option.some.inj h.2), bracketMode_none C o A (by intro h; cases h), orElse_none]

theorem operand_indX {t : Tree} (hr : Readable 2 t) (ht : tok (mk cpu u syn) "X" = .other T.regX.num) {am : AM}
    (hs : sel A .indX false am = true) (hp : (Opnd.indX t).InPage C am) :
    ∃ r, operand C junk (mk cpu u syn) A imm (.lp :: t.toks ++ [.comma, tok (mk cpu u syn) "X", .rp] ++ rest) = .ok (r, rest) ∧
      r.mode = am.mode ∧ Parsed C am (.indX t) r := by
  have key : has A (M.indZpX ||| M.indZpY ||| M.indZpZ ||| M.indAbsX ||| M.indDispSY) = true →
      core C (mk cpu u syn) A imm (.lp :: t.toks ++ [.comma, tok (mk cpu u syn) "X", .rp] ++ rest) =
      .ok (some ({mode := A &&& (M.indZpX ||| M.indAbsX), e := some (C.src t)}, rest)) := by
    intro h
    rw [ht]
    show core C (mk cpu u syn) A imm (.lp :: (t.toks ++ [.comma, .other T.regX.num, .rp] ++ rest)) = _
    rw [core_lp]
    have : parenMode C A (.lp :: (t.toks ++ [.comma, .other T.regX.num, .rp] ++ rest)) =
        .ok (some ({mode := A &&& (M.indZpX ||| M.indAbsX), e := some (C.src t)}, rest)) := by
      rw [List.append_assoc]
      unfold parenMode
      show (if _ then _ else _) = _
      rw [if_pos h, expr_reads C hr (rest := [Tok.comma, .other T.regX.num, .rp] ++ rest) (Ends.comma _), ok_bind]
      rfl
    rw [this, orElse_some]
  cases am <;> try cases hs
  · simp only [sel, Bool.and_eq_true, beq_iff_eq] at hs
    have hc := key hs.1.1
    rw [hs.1.2] at hc
    obtain ⟨e, h, ha⟩ := post_small (junk := junk) rfl hc (by decide) (hp rfl)
    exact ⟨_, operand_of h hs.2, rfl, ha⟩
  · simp only [sel, Bool.and_eq_true, beq_iff_eq] at hs
    have hc := key hs.1.1
    rw [hs.1.2] at hc
    exact ⟨_, operand_of (post_wide (junk := junk) rfl hc (by decide) (Or.inr rfl)) hs.2, rfl, rfl⟩

theorem operand_indY {t : Tree} (hr : Readable 2 t) (ht : tok (mk cpu u syn) "Y" = .other T.regY.num) {am : AM}
    (hs : sel A .indY false am = true) (hp : (Opnd.indY t).InPage C am) :
    ∃ r, operand C junk (mk cpu u syn) A imm (.lp :: t.toks ++ [.rp, .comma, tok (mk cpu u syn) "Y"] ++ rest) = .ok (r, rest) ∧
      r.mode = am.mode ∧ Parsed C am (.indY t) r := by
  cases am <;> try cases hs
  simp only [sel, Bool.and_eq_true] at hs
  have hc : core C (mk cpu u syn) A imm (.lp :: t.toks ++ [.rp, .comma, tok (mk cpu u syn) "Y"] ++ rest) =
      .ok (some ({mode := M.indZpY, e := some (C.src t)}, rest)) := by
    rw [ht]
    show core C (mk cpu u syn) A imm (.lp :: (t.toks ++ [.rp, .comma, .other T.regY.num] ++ rest)) = _
    rw [core_lp]
    have : parenMode C A (.lp :: (t.toks ++ [.rp, .comma, .other T.regY.num] ++ rest)) =
        .ok (some ({mode := M.indZpY, e := some (C.src t)}, rest)) := by
      rw [List.append_assoc]
      unfold parenMode
      show (if _ then _ else _) = _
      rw [if_pos hs.1, expr_reads C hr (rest := [Tok.rp, .comma, .other T.regY.num] ++ rest) (Ends.rp _), ok_bind]
      rfl
    rw [this, orElse_some]
  obtain ⟨e, h, ha⟩ := post_small (junk := junk) rfl hc (by decide) hp
  exact ⟨_, operand_of h hs.2, rfl, ha⟩

theorem operand_ind {t : Tree} (hr : Readable 2 t) (he : EndOfLine rest) {am : AM}
    (hs : sel A .ind false am = true) (hp : (Opnd.ind t).InPage C am) :
    ∃ r, operand C junk (mk cpu u syn) A imm (.lp :: t.toks ++ [.rp] ++ rest) = .ok (r, rest) ∧
      r.mode = am.mode ∧ Parsed C am (.ind t) r := by
  have key : has A (M.indAbs ||| M.indZp) = true → core C (mk cpu u syn) A imm (.lp :: t.toks ++ [.rp] ++ rest) =
      .ok (some ({mode := M.indAbs, e := some (C.src t)}, rest)) := by
    intro h
    show core C (mk cpu u syn) A imm (.lp :: (t.toks ++ [.rp] ++ rest)) = _
    rw [core_lp, List.append_assoc]
    have h1 : parenMode C A (.lp :: (t.toks ++ ([.rp] ++ rest))) = .ok none := by
      unfold parenMode
      show (if _ then _ else _) = _
      split
      · rw [expr_reads C hr (rest := [Tok.rp] ++ rest) (Ends.rp _), ok_bind]
        rcases he.cases with rfl | ⟨xs, rfl⟩ <;> rfl
      · rfl
    have h2 : indirectMode C A (.lp :: (t.toks ++ ([.rp] ++ rest))) =
        .ok (some ({mode := M.indAbs, e := some (C.src t)}, rest)) := by
      unfold indirectMode
      show (if _ then _ else _) = _
      rw [if_pos h, expr_reads C hr (rest := [Tok.rp] ++ rest) (Ends.rp _), ok_bind]
      rfl
    rw [h1, orElse_none, h2, orElse_some]
  cases am <;> try cases hs
  · simp only [sel, Bool.and_eq_true] at hs
    obtain ⟨v, hv, hr⟩ := small_mask (hp rfl)
    have hz : zpMode A M.indAbs = some M.indZp := by
      show (if has A M.indZp = true then _ else _) = _
      rw [if_pos hs.2]
    refine ⟨{mode := M.indZp, e := some (maskZp (C.src t))}, operand_of ?_ hs.2, rfl, Or.inr (Or.inr ⟨rfl, hp rfl⟩)⟩
    rw [post_known (key hs.1) rfl (show has M.indAbs M.handle = true by decide) rfl hv
      (show M.indAbs ≠ M.bitZp ∧ M.indAbs ≠ M.bitZpAbs by decide), inPage_eq rfl, if_pos (decide_eq_true hr)]
    show (match zpMode A M.indAbs with | none => _ | some m => _) = _
    rw [hz]
  · simp only [sel, Bool.and_eq_true, Bool.not_eq_true'] at hs
    refine ⟨_, operand_of (post_wide (junk := junk) rfl (key hs.1.1) (by decide) (Or.inr ?_)) hs.1.2, rfl, rfl⟩
    show (if has A M.indZp = true then _ else _) = _
    rw [hs.2]; rfl

theorem operand_two {t w : Tree} (hr : Readable 2 t) (hw : Readable 2 w) (hb : Bare C t) (he : EndOfLine rest) {am : AM}
    (hs : sel A .two false am = true) (hp : (Opnd.two t w).InPage C am) :
    ∃ r, operand C junk (mk cpu u syn) A imm (t.toks ++ .comma :: w.toks ++ rest) = .ok (r, rest) ∧
      r.mode = am.mode ∧ Parsed C am (.two t w) r := by
  have key : has A M.memory = true → core C (mk cpu u syn) A imm (t.toks ++ .comma :: w.toks ++ rest) =
      .ok (some ({mode := A &&& (M.bitZp ||| M.zpAbs), e := some (C.src t), e2 := some (C.src w)}, rest)) := by
    intro h
    rw [List.append_assoc]
    show core C (mk cpu u syn) A imm (force false ++ t.toks ++ (.comma :: (w.toks ++ rest))) = _
    rw [core_address C _ A imm false hr hb (Ends.comma _) h]
    show orElse (addressMode C _ A .no (C.src t) (.comma :: (w.toks ++ rest))) _ = _
    rw [address_two hw he, orElse_some]
  cases am <;> try cases hs
  · simp only [sel, Bool.and_eq_true, beq_iff_eq] at hs
    have hc := key hs.1.1
    rw [hs.2] at hc
    obtain ⟨e, h, ha⟩ := post_small (junk := junk) rfl hc (by decide) (hp rfl)
    exact ⟨_, operand_of h hs.1.2, rfl, ha, rfl⟩
  · simp only [sel, Bool.and_eq_true, beq_iff_eq] at hs
    have hc := key hs.1.1
    rw [hs.2] at hc
    exact ⟨_, operand_of (post_same hc (show M.bitZp ≠ 0 by decide) (Or.inr (Or.inl (show has M.bitZp M.handle = false by decide))))
      hs.1.2, rfl, rfl, rfl⟩

theorem operand_three {t w x : Tree} (hr : Readable 2 t) (hw : Readable 2 w) (hx : Readable 2 x) (hb : Bare C t)
    (he : EndOfLine rest) {am : AM} (hs : sel A .three false am = true) (hp : (Opnd.three t w x).InPage C am) :
    ∃ r, operand C junk (mk cpu u syn) A imm (t.toks ++ .comma :: w.toks ++ .comma :: x.toks ++ rest) = .ok (r, rest) ∧
      r.mode = am.mode ∧ Parsed C am (.three t w x) r := by
  have key : has A M.memory = true → core C (mk cpu u syn) A imm (t.toks ++ .comma :: w.toks ++ .comma :: x.toks ++ rest) =
      .ok (some ({mode := M.bitZpAbs, e := some (C.src t), e2 := some (C.src w), e3 := some (C.src x)}, rest)) := by
    intro h
    rw [List.append_assoc, List.append_assoc]
    show core C (mk cpu u syn) A imm (force false ++ t.toks ++ (.comma :: (w.toks ++ .comma :: (x.toks ++ rest)))) = _
    rw [core_address C _ A imm false hr hb (Ends.comma _) h]
    show orElse (addressMode C _ A .no (C.src t) (.comma :: (w.toks ++ .comma :: (x.toks ++ rest)))) _ = _
    rw [address_three hw hx he, orElse_some]
  cases am <;> try cases hs
  simp only [sel, Bool.and_eq_true] at hs
  have hc := key hs.1
  cases hk : C.known (C.src t) with
  | none => exact ⟨_, operand_of (post_same hc (show M.bitZpAbs ≠ 0 by decide) (Or.inr (Or.inr hk))) hs.2, rfl, rfl, Or.inl rfl, rfl⟩
  | some b =>
    have hsm : Ctx.small C (C.src w) = true := by
      rcases hp with h | h
      · rw [hk] at h; cases h
      · exact h
    obtain ⟨v, hv, hvr⟩ := small_mask hsm
    refine ⟨{mode := M.bitZpAbs, e := some (C.src t), e2 := some (maskZp (C.src w)), e3 := some (C.src x)}, operand_of ?_ hs.2, rfl, rfl,
      Or.inr (Or.inr ⟨rfl, hsm⟩), rfl⟩
    rw [post_known2 hc rfl (by rw [show Option.bind (some (C.src t)) C.known = C.known (C.src t) from rfl, hk]; exact fun h => by cases h)
      rfl rfl, hv, Option.getD_some, inPage_eq rfl, if_pos (decide_eq_true hvr)]

/-- All operands. -/
theorem operand_reads (hm : (cpu, u) ∈ machines) {x : Opnd} (hg : x.Good C) (he : EndOfLine rest) {am : AM}
    (hi : imm.is16 (mk cpu u syn) = false) (hs : sel A x.shape (x.small C) am = true) (hp : x.InPage C am) :
    ∃ r, operand C junk (mk cpu u syn) A imm (x.toks (mk cpu u syn) ++ rest) = .ok (r, rest) ∧ r.mode = am.mode ∧
      Parsed C am x r := by
  obtain ⟨ta, tx, ty⟩ := tok_regs hm syn
  obtain ⟨hr, hb⟩ := hg
  cases x with
  | none =>
    refine ⟨_, operand_none he hs, rfl, ?_⟩
    cases am <;> first | trivial | cases hs
  | a =>
    cases am <;> try cases hs
    exact ⟨_, operand_a ta hs, rfl, trivial⟩
  | imm p t =>
    cases am <;> try cases hs
    exact ⟨_, operand_imm (hr t (by simp [Opnd.trees])) he.ends hi hs, rfl, rfl⟩
  | mem f t => exact operand_mem (hr t (by simp [Opnd.trees])) hb he hs
  | memX f t => exact operand_memX (hr t (by simp [Opnd.trees])) hb tx hs
  | memY f t => exact operand_memY (hr t (by simp [Opnd.trees])) hb ty hs
  | indX t => exact operand_indX (hr t (by simp [Opnd.trees])) tx hs hp
  | indY t => exact operand_indY (hr t (by simp [Opnd.trees])) ty hs hp
  | ind t => exact operand_ind (hr t (by simp [Opnd.trees])) he hs hp
  | two t w => exact operand_two (hr t (by simp [Opnd.trees])) (hr w (by simp [Opnd.trees])) hb he hs hp
  | three t w x =>
    exact operand_three (hr t (by simp [Opnd.trees])) (hr w (by simp [Opnd.trees])) (hr x (by simp [Opnd.trees])) hb he hs hp

end

end Verif.Cpu.X65
