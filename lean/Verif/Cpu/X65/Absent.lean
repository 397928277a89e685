import Verif.Cpu.X65.Refuse
/-!
# C53: addressing modes that an instruction does not have
-/
namespace Verif.Cpu.X65

open Verif.Parse (Tok Toks Tree)
open Verif.Expr (Src FMath ASym Den Rng BinOp I32 u32 toI32 meaning wrap value_bin)

section

variable {C : Ctx} {junk : Src → Int} {A : Nat} {imm : Imm} {cpu : Cpu} {u : Nat} {syn : Bool} {rest : Toks}

/-- What the second part of the parser does to the mode. -/
theorem post_inv {toks : Toks} {r : Am} (h : operand C junk (mk cpu u syn) A imm toks = .ok (r, rest)) :
    has r.mode A = true ∧ ∃ am, core C (mk cpu u syn) A imm toks = .ok (some (am, rest)) ∧
      (r.mode = am.mode ∨ zpMode A am.mode = some r.mode ∧ (am.mode ≠ M.bitZp → am.mode ≠ M.bitZpAbs → (am.e.any (Ctx.small C)) = true)) := by
  unfold operand at h
  obtain ⟨x, hx, h⟩ := bind_ok h
  cases x with
  | none => cases h
  | some x =>
    obtain ⟨r', rest'⟩ := x
    simp only at h
    split at h
    · rename_i hh
      cases h
      refine ⟨hh, ?_⟩
      unfold addrMode at hx
      obtain ⟨y, hy, hx⟩ := bind_ok hx
      cases y with
      | none => cases hx
      | some y =>
        obtain ⟨am, rest''⟩ := y
        simp only at hx
        split at hx
        · split at hx
          · cases hx
          · cases hx; exact ⟨_, hy, Or.inl rfl⟩
        · rename_i hk
          split at hx
          · cases hx
          · rename_i s hs
            split at hx
            · rename_i hin
              split at hx
              · cases hx; exact ⟨_, hy, Or.inl rfl⟩
              · rename_i m hm
                split at hx
                · rename_i h2
                  cases hx
                  exact ⟨_, hy, Or.inr ⟨hm, fun h h' => absurd h2 (fun h2 => h2.elim h h')⟩⟩
                · rename_i h2
                  cases hx
                  refine ⟨_, hy, Or.inr ⟨hm, fun _ _ => ?_⟩⟩
                  rw [if_neg h2] at hs
                  rw [hs]
                  have hk : C.known s ≠ none := by
                    intro e
                    apply hk
                    right; right
                    rw [hs]
                    exact e
                  cases e : C.known s with
                  | none => exact absurd e hk
                  | some v =>
                    rw [e, Option.getD_some, inPage_eq rfl] at hin
                    show Ctx.small C s = true
                    unfold Ctx.small
                    rw [e]
                    exact hin
            · split at hx
              · cases hx
              · cases hx; exact ⟨_, hy, Or.inl rfl⟩
    · cases h

theorem noMode_inv {toks : Toks} {am : Am} (h : noMode A toks = .ok (some (am, rest))) : rest = toks ∧ am.mode ∈ [M.none, M.a] := by
  unfold noMode at h
  split at h
  · cases h; exact ⟨rfl, by decide⟩
  · split at h
    · cases h; exact ⟨rfl, by decide⟩
    · cases h

theorem zpMode_none {r : Nat} {m : Nat} (hm : m ∈ [M.none, M.a]) : zpMode A m ≠ some r := by
  simp only [List.mem_cons, List.not_mem_nil, or_false] at hm
  rcases hm with rfl | rfl
  · show (none : Option Nat) ≠ _; intro h; cases h
  · show (none : Option Nat) ≠ _; intro h; cases h

/-- What the modes of an entry are like on the processors that are specified. -/
def plainModes (A : Nat) : Bool :=
  A != 0 && !has A M.longAbs && !has A M.longAbsX && !has A M.immImm && [0, M.absX].contains ((M.absX ||| M.absX45) &&& A) &&
  [0, M.absY].contains ((M.absY ||| M.absY45) &&& A) && [0, M.bitZp, M.zpAbs].contains (A &&& (M.bitZp ||| M.zpAbs))

/-- The modes that an operand can be read as. -/
def cand (A : Nat) (s : Shape) (small : Bool) : List Nat :=
  match s with
  | .none => [M.none, M.a]
  | .indX => []
  | .a => [M.a]
  | .imm => [M.imm]
  | .mem _ => if small then [M.zp, M.abs] else [M.abs]
  | .memX _ => if small then [M.zpX, M.absX] else [M.absX]
  | .memY _ => if small then [M.zpY, M.absY] else [M.absY]
  | .indY => [M.indZpY]
  | .ind => [M.indAbs, M.indZp]
  | .two => [A &&& (M.bitZp ||| M.zpAbs)]
  | .three => [M.bitZpAbs]

/-- The result for an operand: something is left, or it is read. -/
def Res (C : Ctx) (junk : Src → Int) (A : Nat) (imm : Imm) (o : Opts) (toks rest : Toks) (ms : List Nat) : Prop :=
  ∀ r rest', operand C junk o A imm toks = .ok (r, rest') →
    has r.mode A = true ∧ (rest.length < rest'.length ∨ rest' = rest ∧ r.mode ∈ ms)

theorem res_none {toks : Toks} {ms : List Nat} (hc : core C (mk cpu u syn) A imm toks = noMode A toks) (hl : rest.length < toks.length) :
    Res C junk A imm (mk cpu u syn) toks rest ms := by
  intro r rest' h
  obtain ⟨h1, am, h2, h3⟩ := post_inv h
  refine ⟨h1, Or.inl ?_⟩
  obtain ⟨h4, h5⟩ := noMode_inv (hc.symm.trans h2)
  rw [h4]; exact hl

theorem res_nothing {ms : List Nat} (hc : core C (mk cpu u syn) A imm rest = noMode A rest) (hms : ∀ m ∈ [M.none, M.a], m ∈ ms) :
    Res C junk A imm (mk cpu u syn) rest rest ms := by
  intro r rest' h
  obtain ⟨h1, am, h2, h3⟩ := post_inv h
  refine ⟨h1, Or.inr ?_⟩
  obtain ⟨h4, h5⟩ := noMode_inv (hc.symm.trans h2)
  refine ⟨h4, ?_⟩
  rcases h3 with h3 | h3
  · rw [h3]; exact hms _ h5
  · exact absurd h3.1 (zpMode_none h5)

theorem res_some {toks : Toks} {ms : List Nat} {am : Am} (hc : core C (mk cpu u syn) A imm toks = .ok (some (am, rest)))
    (h1 : has am.mode A = true → am.mode ∈ ms)
    (h2 : ∀ m, zpMode A am.mode = some m → (am.mode ≠ M.bitZp → am.mode ≠ M.bitZpAbs → am.e.any (Ctx.small C) = true) → m ∈ ms) :
    Res C junk A imm (mk cpu u syn) toks rest ms := by
  intro r rest' h
  obtain ⟨h3, am', h4, h5⟩ := post_inv h
  refine ⟨h3, Or.inr ?_⟩
  cases hc.symm.trans h4
  refine ⟨rfl, ?_⟩
  rcases h5 with h5 | h5
  · rw [h5] at h3 ⊢; exact h1 h3
  · exact h2 _ h5.1 h5.2

/-- Operands that begin with a token that is not for them. -/
theorem core_other {n : Nat} (hn : n ≠ T.regA.num ∨ has A M.a = false) (hn' : n ≠ T.regQ.num) (h35 : n ≠ 35 ∨ has A (M.imm ||| M.immImm) = false)
    (h91 : n ≠ 91) (toks : Toks) : core C (mk cpu u syn) A imm (.other n :: toks) = noMode A (.other n :: toks) := by
  unfold core
  rw [if_neg, if_neg (fun h => hn' (by cases h.2; rfl)), if_neg, parenMode_none _ _ (by intro h; cases h),
    bracketMode_none _ _ _ (by intro h; cases h; exact h91 rfl), indirectMode_none _ _ (by intro h; cases h), orElse_none, orElse_none,
    orElse_none]
  · have hm : memoryMode C (mk cpu u syn) A (.other n :: toks) = .ok none := by
      unfold memoryMode
      split
      · rfl
      · rfl
    rw [hm, orElse_none]
  · rintro ⟨h, h'⟩
    cases h'
    rcases h35 with h'' | h''
    · exact h'' rfl
    · rw [h''] at h; cases h
  · rintro ⟨h, h'⟩
    cases h'
    rcases hn with h'' | h''
    · exact h'' rfl
    · rw [h''] at h; cases h

theorem core_nomem {f : Bool} {t : Tree} (hb : Bare C t) (hA : has A M.memory = false) (rest : Toks) :
    core C (mk cpu u syn) A imm (force f ++ t.toks ++ rest) = noMode A (force f ++ t.toks ++ rest) := by
  obtain ⟨x, xs, ex, hf⟩ := hb.front
  have hm : ∃ y, (force f ++ t.toks ++ rest).head? = some y ∧ Mem y = true := by
    cases f with
    | true => exact ⟨_, rfl, rfl⟩
    | false => exact ⟨x, by show ([] ++ t.toks ++ rest).head? = _; rw [ex]; rfl, by unfold Mem; rw [hf]; rfl⟩
  obtain ⟨y, hy, hm⟩ := hm
  rw [core_mem C _ A imm hy hm]
  unfold memoryMode
  rw [hA]
  rfl

theorem long_toks {t : Tree} (hb : Bare C t) (r' : Toks) {rest : Toks} (h : rest.length ≤ r'.length) :
    rest.length < (force false ++ t.toks ++ r').length := by
  obtain ⟨x, xs, ex, _⟩ := hb.front
  rw [ex]
  simp [force]
  omega

theorem readable_paren {t : Tree} (h : Readable 2 t) : Readable 2 (.paren t) :=
  ⟨h.fits, ⟨h.leads, h.nots⟩, rfl, h.short, h.strings⟩

/-- `(n)` is not an address. -/
theorem memory_paren {t : Tree} (h : Readable 2 t) (he : Ends rest) :
    memoryMode C (mk cpu u syn) A (.lp :: t.toks ++ .rp :: rest) = .ok none := by
  unfold memoryMode
  split
  · show (expr C 2 (.lp :: t.toks ++ .rp :: rest)).bind _ = _
    have := expr_reads C (readable_paren h) he
    rw [show (Tree.paren t).toks = .lp :: (t.toks ++ [.rp]) from rfl] at this
    rw [show Tok.lp :: t.toks ++ .rp :: rest = .lp :: (t.toks ++ [.rp]) ++ rest from by simp, this, ok_bind]
    rfl
  · rfl

theorem zp_some {m r : Nat} (h : zpMode A m = some r) : r = m ∨ m = M.abs ∧ r = M.zp ∨ m = M.absX ∧ r = M.zpX ∨ m = M.absY ∧ r = M.zpY ∨
    m = M.indAbs ∧ r = M.indZp ∨ m = M.longIndAbs ∧ r = M.longIndZp := by
  unfold zpMode at h
  repeat' split at h
  all_goals first | (cases h; simp_all; done) | (cases h; done) | skip

theorem res_imm {p : Pre} {t : Tree} (hr : Readable 2 t) (he : Ends rest) (hi : imm.is16 (mk cpu u syn) = false)
    (hA : plainModes A = true) (b : Bool) :
    Res C junk A imm (mk cpu u syn) (.other 35 :: (p.toks ++ t.toks) ++ rest) rest (cand A .imm b) := by
  simp only [plainModes, Bool.and_eq_true, Bool.not_eq_true'] at hA
  cases hm : has A (M.imm ||| M.immImm) with
  | false => exact res_none (core_other (Or.inl (by decide)) (by decide) (Or.inr hm) (by decide) _) (by simp; omega)
  | true =>
    have hc : core C (mk cpu u syn) A imm (.other 35 :: (p.toks ++ t.toks) ++ rest) =
        .ok (some ({mode := M.imm, e := some (p.src (C.src t))}, rest)) := by
      unfold core
      rw [if_neg (fun h => absurd (Option.some.inj h.2) (by decide)), if_neg (fun h => absurd (Option.some.inj h.2) (by decide)),
        if_pos ⟨hm, rfl⟩]
      show immMode C A (imm.is16 (mk cpu u syn)) (p.toks ++ t.toks ++ rest) = _
      unfold immMode
      rw [hi, immediate_reads hr he, ok_bind]
      simp only
      rw [hA.1.1.1.2]; rfl
    refine res_some hc (fun _ => List.mem_singleton.2 rfl) (fun m hm _ => ?_)
    rcases zp_some hm with rfl | ⟨h, _⟩ | ⟨h, _⟩ | ⟨h, _⟩ | ⟨h, _⟩ | ⟨h, _⟩ <;> first | exact List.mem_singleton.2 rfl | (revert h; show M.imm = _ → _; intro h; exact absurd h (by decide))

theorem res_mem {t : Tree} (hr : Readable 2 t) (hb : Bare C t) (he : EndOfLine rest) (hA : plainModes A = true) :
    Res C junk A imm (mk cpu u syn) (force false ++ t.toks ++ rest) rest (cand A (.mem false) (Ctx.small C (C.src t))) := by
  simp only [plainModes, Bool.and_eq_true, Bool.not_eq_true'] at hA
  cases hm : has A M.memory with
  | false => exact res_none (core_nomem hb hm _) (long_toks hb _ (by simp <;> omega))
  | true =>
    have hc : core C (mk cpu u syn) A imm (force false ++ t.toks ++ rest) =
        orElse (if has A M.zp && (false || Ctx.small C (C.src t)) then
            .ok (some ({mode := M.zp, e := forced false (C.src t), forced := false}, rest))
          else if has A M.abs then .ok (some ({mode := M.abs, e := forced false (C.src t), forced := false}, rest))
          else .ok none) (noMode A (force false ++ t.toks ++ rest)) := by
      rw [core_address C _ A imm false hr hb he.ends hm, address_plain rfl he hA.1.1.1.1.1.2 false]
    unfold cand
    split at hc
    · rename_i h
      rw [Bool.and_eq_true, Bool.false_or] at h
      rw [orElse_some] at hc
      rw [h.2]
      refine res_some hc (fun _ => by show M.zp ∈ [M.zp, M.abs]; decide) (fun m hm _ => ?_)
      rcases zp_some hm with rfl | ⟨h, _⟩ | ⟨h, _⟩ | ⟨h, _⟩ | ⟨h, _⟩ | ⟨h, _⟩
      · show M.zp ∈ [M.zp, M.abs]; decide
      all_goals exact absurd (show M.zp = _ from h) (by decide)
    · split at hc
      · rw [orElse_some] at hc
        refine res_some hc (fun _ => by show M.abs ∈ if Ctx.small C (C.src t) then [M.zp, M.abs] else [M.abs]; cases Ctx.small C (C.src t) <;> decide) (fun m hm hs => ?_)
        have hs : Ctx.small C (C.src t) = true := hs (show M.abs ≠ _ by decide) (show M.abs ≠ _ by decide)
        rw [hs]
        rcases zp_some hm with rfl | ⟨_, rfl⟩ | ⟨h, _⟩ | ⟨h, _⟩ | ⟨h, _⟩ | ⟨h, _⟩
        · show M.abs ∈ [M.zp, M.abs]; decide
        · show M.zp ∈ [M.zp, M.abs]; decide
        all_goals exact absurd (show M.abs = _ from h) (by decide)
      · exact res_none hc (long_toks hb _ (Nat.le_refl _))

theorem res_memX {t : Tree} (hr : Readable 2 t) (hb : Bare C t) (ht : tok (mk cpu u syn) "X" = .other T.regX.num) (hA : plainModes A = true) :
    Res C junk A imm (mk cpu u syn) (force false ++ t.toks ++ [.comma, tok (mk cpu u syn) "X"] ++ rest) rest
      (cand A (.memX false) (Ctx.small C (C.src t))) := by
  simp only [plainModes, Bool.and_eq_true, Bool.not_eq_true', List.contains_iff_mem] at hA
  rw [List.append_assoc (force false ++ t.toks)]
  cases hm : has A M.memory with
  | false => exact res_none (core_nomem hb hm _) (long_toks hb _ (by simp <;> omega))
  | true =>
    have hc : core C (mk cpu u syn) A imm (force false ++ t.toks ++ ([.comma, tok (mk cpu u syn) "X"] ++ rest)) =
      .ok (some ({mode := if (false || Ctx.small C (C.src t)) && has A M.zpX then M.zpX else (M.absX ||| M.absX45) &&& A,
                  e := forced false (C.src t), forced := false}, rest)) := by
      rw [core_address C _ A imm false hr hb (rest := [Tok.comma, tok (mk cpu u syn) "X"] ++ rest) (Ends.comma _) hm, ht]
      show orElse (addressMode C _ A (forceOf false) (C.src t) (.comma :: .other T.regX.num :: rest)) _ = _
      rw [address_x rfl hA.1.1.1.1.2 false, orElse_some]
    unfold cand
    split at hc
    · rename_i h
      rw [Bool.and_eq_true, Bool.false_or] at h
      rw [h.1]
      refine res_some hc (fun _ => by show M.zpX ∈ [M.zpX, M.absX]; decide) (fun m hm _ => ?_)
      rcases zp_some hm with rfl | ⟨h, _⟩ | ⟨h, _⟩ | ⟨h, _⟩ | ⟨h, _⟩ | ⟨h, _⟩
      · show M.zpX ∈ [M.zpX, M.absX]; decide
      all_goals exact absurd (show M.zpX = _ from h) (by decide)
    · have hx := hA.1.1.2
      simp only [List.mem_cons, List.not_mem_nil, or_false] at hx
      rcases hx with hx | hx
      · rw [hx] at hc
        refine res_some hc (fun h => by rw [show has 0 A = false from by unfold has; simp] at h; cases h) (fun m hm _ => ?_)
        cases (show (none : Option Nat) = some m from hm)
      · rw [hx] at hc
        refine res_some hc (fun _ => by show M.absX ∈ if Ctx.small C (C.src t) then [M.zpX, M.absX] else [M.absX]; cases Ctx.small C (C.src t) <;> decide) (fun m hm hs => ?_)
        have hs : Ctx.small C (C.src t) = true := hs (show M.absX ≠ _ by decide) (show M.absX ≠ _ by decide)
        rw [hs]
        rcases zp_some hm with rfl | ⟨h, _⟩ | ⟨_, rfl⟩ | ⟨h, _⟩ | ⟨h, _⟩ | ⟨h, _⟩
        · show M.absX ∈ [M.zpX, M.absX]; decide
        · exact absurd (show M.absX = _ from h) (by decide)
        · show M.zpX ∈ [M.zpX, M.absX]; decide
        all_goals exact absurd (show M.absX = _ from h) (by decide)

theorem res_memY {t : Tree} (hr : Readable 2 t) (hb : Bare C t) (ht : tok (mk cpu u syn) "Y" = .other T.regY.num) (hA : plainModes A = true) :
    Res C junk A imm (mk cpu u syn) (force false ++ t.toks ++ [.comma, tok (mk cpu u syn) "Y"] ++ rest) rest
      (cand A (.memY false) (Ctx.small C (C.src t))) := by
  simp only [plainModes, Bool.and_eq_true, Bool.not_eq_true', List.contains_iff_mem] at hA
  rw [List.append_assoc (force false ++ t.toks)]
  cases hm : has A M.memory with
  | false => exact res_none (core_nomem hb hm _) (long_toks hb _ (by simp <;> omega))
  | true =>
    have hc : core C (mk cpu u syn) A imm (force false ++ t.toks ++ ([.comma, tok (mk cpu u syn) "Y"] ++ rest)) =
      .ok (some ({mode := if (false || Ctx.small C (C.src t)) && has A M.zpY then M.zpY else (M.absY ||| M.absY45) &&& A,
                  e := forced false (C.src t), forced := false}, rest)) := by
      rw [core_address C _ A imm false hr hb (rest := [Tok.comma, tok (mk cpu u syn) "Y"] ++ rest) (Ends.comma _) hm, ht]
      show orElse (addressMode C _ A (forceOf false) (C.src t) (.comma :: .other T.regY.num :: rest)) _ = _
      rw [address_y rfl false, orElse_some]
    unfold cand
    split at hc
    · rename_i h
      rw [Bool.and_eq_true, Bool.false_or] at h
      rw [h.1]
      refine res_some hc (fun _ => by show M.zpY ∈ [M.zpY, M.absY]; decide) (fun m hm _ => ?_)
      rcases zp_some hm with rfl | ⟨h, _⟩ | ⟨h, _⟩ | ⟨h, _⟩ | ⟨h, _⟩ | ⟨h, _⟩
      · show M.zpY ∈ [M.zpY, M.absY]; decide
      all_goals exact absurd (show M.zpY = _ from h) (by decide)
    · have hx := hA.1.2
      simp only [List.mem_cons, List.not_mem_nil, or_false] at hx
      rcases hx with hx | hx
      · rw [hx] at hc
        refine res_some hc (fun h => by rw [show has 0 A = false from by unfold has; simp] at h; cases h) (fun m hm _ => ?_)
        cases (show (none : Option Nat) = some m from hm)
      · rw [hx] at hc
        refine res_some hc (fun _ => by show M.absY ∈ if Ctx.small C (C.src t) then [M.zpY, M.absY] else [M.absY]; cases Ctx.small C (C.src t) <;> decide) (fun m hm hs => ?_)
        have hs : Ctx.small C (C.src t) = true := hs (show M.absY ≠ _ by decide) (show M.absY ≠ _ by decide)
        rw [hs]
        rcases zp_some hm with rfl | ⟨h, _⟩ | ⟨h, _⟩ | ⟨_, rfl⟩ | ⟨h, _⟩ | ⟨h, _⟩
        · show M.absY ∈ [M.zpY, M.absY]; decide
        · exact absurd (show M.absY = _ from h) (by decide)
        · exact absurd (show M.absY = _ from h) (by decide)
        · show M.zpY ∈ [M.zpY, M.absY]; decide
        all_goals exact absurd (show M.absY = _ from h) (by decide)

theorem res_indY {t : Tree} (hr : Readable 2 t) (ht : tok (mk cpu u syn) "Y" = .other T.regY.num) (b : Bool) :
    Res C junk A imm (mk cpu u syn) (.lp :: t.toks ++ [.rp, .comma, tok (mk cpu u syn) "Y"] ++ rest) rest (cand A .indY b) := by
  rw [ht, List.append_assoc]
  have hi : indirectMode C A (.lp :: (t.toks ++ ([.rp, .comma, .other T.regY.num] ++ rest))) =
      if has A (M.indAbs ||| M.indZp) then .ok (some ({mode := M.indAbs, e := C.src t}, .comma :: .other T.regY.num :: rest)) else .ok none := by
    show (if _ then _ else _) = _
    rw [expr_reads C hr (rest := [Tok.rp, .comma, .other T.regY.num] ++ rest) (Ends.rp _), ok_bind]
    rfl
  have hp : parenMode C A (.lp :: (t.toks ++ ([.rp, .comma, .other T.regY.num] ++ rest))) =
      if has A (M.indZpX ||| M.indZpY ||| M.indZpZ ||| M.indAbsX ||| M.indDispSY) then .ok (some ({mode := M.indZpY, e := some (C.src t)}, rest))
      else .ok none := by
    show (if _ then _ else _) = _
    rw [expr_reads C hr (rest := [Tok.rp, .comma, .other T.regY.num] ++ rest) (Ends.rp _), ok_bind]
    rfl
  have hm : memoryMode C (mk cpu u syn) A (.lp :: (t.toks ++ ([.rp, .comma, .other T.regY.num] ++ rest))) = .ok none :=
    memory_paren hr (Ends.comma _)
  intro r rest' h
  obtain ⟨h3, am', h4, h5⟩ := post_inv h
  refine ⟨h3, ?_⟩
  rw [show Tok.lp :: t.toks ++ ([.rp, .comma, .other T.regY.num] ++ rest) = .lp :: (t.toks ++ ([.rp, .comma, .other T.regY.num] ++ rest)) from rfl,
    core_lp, hp, hi, hm] at h4
  split at h4
  · rw [orElse_some] at h4
    cases h4
    right
    refine ⟨rfl, List.mem_singleton.2 ?_⟩
    rcases h5 with h5 | h5
    · exact h5
    · rcases zp_some h5.1 with h | ⟨h, _⟩ | ⟨h, _⟩ | ⟨h, _⟩ | ⟨h, _⟩ | ⟨h, _⟩
      · exact h
      all_goals exact absurd (show M.indZpY = _ from h) (by decide)
  · left
    rw [orElse_none] at h4
    split at h4
    · rw [orElse_some] at h4
      cases h4
      simp; omega
    · rw [orElse_none, orElse_none] at h4
      obtain ⟨h6, _⟩ := noMode_inv h4
      rw [h6]
      simp; omega

theorem res_ind {t : Tree} (hr : Readable 2 t) (he : EndOfLine rest) (b : Bool) :
    Res C junk A imm (mk cpu u syn) (.lp :: t.toks ++ [.rp] ++ rest) rest (cand A .ind b) := by
  rw [List.append_assoc]
  have hi : indirectMode C A (.lp :: (t.toks ++ ([.rp] ++ rest))) =
      if has A (M.indAbs ||| M.indZp) then .ok (some ({mode := M.indAbs, e := C.src t}, rest)) else .ok none := by
    show (if _ then _ else _) = _
    rw [expr_reads C hr (rest := [Tok.rp] ++ rest) (Ends.rp _), ok_bind]
    rfl
  have hp : parenMode C A (.lp :: (t.toks ++ ([.rp] ++ rest))) = .ok none := by
    unfold parenMode
    show (if _ then _ else _) = _
    split
    · rw [expr_reads C hr (rest := [Tok.rp] ++ rest) (Ends.rp _), ok_bind]
      rcases he.cases with rfl | ⟨xs, rfl⟩ <;> rfl
    · rfl
  have hm : memoryMode C (mk cpu u syn) A (.lp :: (t.toks ++ ([.rp] ++ rest))) = .ok none := memory_paren hr he.ends
  intro r rest' h
  obtain ⟨h3, am', h4, h5⟩ := post_inv h
  refine ⟨h3, ?_⟩
  rw [show Tok.lp :: t.toks ++ ([.rp] ++ rest) = .lp :: (t.toks ++ ([.rp] ++ rest)) from rfl, core_lp, hp, hi, hm, orElse_none] at h4
  split at h4
  · rw [orElse_some] at h4
    cases h4
    right
    refine ⟨rfl, ?_⟩
    unfold cand
    rcases h5 with h5 | h5
    · rw [h5]; show M.indAbs ∈ [M.indAbs, M.indZp]; decide
    · rcases zp_some h5.1 with h | ⟨h, _⟩ | ⟨h, _⟩ | ⟨h, _⟩ | ⟨_, h⟩ | ⟨h, _⟩
      · rw [h]; show M.indAbs ∈ [M.indAbs, M.indZp]; decide
      rotate_left 3
      · rw [h]; show M.indZp ∈ [M.indAbs, M.indZp]; decide
      all_goals exact absurd (show M.indAbs = _ from h) (by decide)
  · left
    rw [orElse_none, orElse_none] at h4
    obtain ⟨h6, _⟩ := noMode_inv h4
    rw [h6]
    simp; omega

theorem res_two {t w : Tree} (hr : Readable 2 t) (hw : Readable 2 w) (hb : Bare C t) (he : EndOfLine rest) (hA : plainModes A = true) (b : Bool) :
    Res C junk A imm (mk cpu u syn) (t.toks ++ .comma :: w.toks ++ rest) rest (cand A .two b) := by
  simp only [plainModes, Bool.and_eq_true, Bool.not_eq_true', List.contains_iff_mem] at hA
  rw [List.append_assoc]
  show Res C junk A imm (mk cpu u syn) (force false ++ t.toks ++ (.comma :: (w.toks ++ rest))) rest (cand A .two b)
  cases hm : has A M.memory with
  | false => exact res_none (core_nomem hb hm _) (long_toks hb _ (by simp; omega))
  | true =>
    have hc : core C (mk cpu u syn) A imm (force false ++ t.toks ++ (.comma :: (w.toks ++ rest))) =
        .ok (some ({mode := A &&& (M.bitZp ||| M.zpAbs), e := some (C.src t), e2 := some (C.src w)}, rest)) := by
      rw [core_address C _ A imm false hr hb (Ends.comma _) hm]
      show orElse (addressMode C _ A .no (C.src t) (.comma :: (w.toks ++ rest))) _ = _
      rw [address_two hw he, orElse_some]
    refine res_some hc (fun _ => List.mem_singleton.2 rfl) (fun m hm _ => List.mem_singleton.2 ?_)
    have hx := hA.2
    simp only [List.mem_cons, List.not_mem_nil, or_false] at hx
    have hm : zpMode A (A &&& (M.bitZp ||| M.zpAbs)) = some m := hm
    rcases hx with hx | hx | hx <;> rw [hx] at hm ⊢
    · cases (show (none : Option Nat) = some m from hm)
    · cases (show (none : Option Nat) = some m from hm)
    · cases (show some M.zpAbs = some m from hm); rfl

theorem res_three {t w x : Tree} (hr : Readable 2 t) (hw : Readable 2 w) (hx : Readable 2 x) (hb : Bare C t) (he : EndOfLine rest) (b : Bool) :
    Res C junk A imm (mk cpu u syn) (t.toks ++ .comma :: w.toks ++ .comma :: x.toks ++ rest) rest (cand A .three b) := by
  rw [List.append_assoc, List.append_assoc]
  show Res C junk A imm (mk cpu u syn) (force false ++ t.toks ++ (.comma :: (w.toks ++ .comma :: (x.toks ++ rest)))) rest (cand A .three b)
  cases hm : has A M.memory with
  | false => exact res_none (core_nomem hb hm _) (long_toks hb _ (by simp; omega))
  | true =>
    have hc : core C (mk cpu u syn) A imm (force false ++ t.toks ++ (.comma :: (w.toks ++ .comma :: (x.toks ++ rest)))) =
        .ok (some ({mode := M.bitZpAbs, e := some (C.src t), e2 := some (C.src w), e3 := some (C.src x)}, rest)) := by
      rw [core_address C _ A imm false hr hb (Ends.comma _) hm]
      show orElse (addressMode C _ A .no (C.src t) (.comma :: (w.toks ++ .comma :: (x.toks ++ rest)))) _ = _
      rw [address_three hw hx he, orElse_some]
    refine res_some hc (fun _ => List.mem_singleton.2 rfl) (fun m hm _ => List.mem_singleton.2 ?_)
    cases (show some M.bitZpAbs = some m from hm); rfl

/-- All operands but `(n,X)` and those with `<`. -/
theorem operand_cand (hm : (cpu, u) ∈ machines) {x : Opnd} (hg : x.Good C) (he : EndOfLine rest) (hi : imm.is16 (mk cpu u syn) = false)
    (hA : plainModes A = true) (hx : x.shape ∉ [.indX, .mem true, .memX true, .memY true]) :
    Res C junk A imm (mk cpu u syn) (x.toks (mk cpu u syn) ++ rest) rest (cand A x.shape (x.small C)) := by
  obtain ⟨ta, tx, ty⟩ := tok_regs hm syn
  obtain ⟨hr, hb⟩ := hg
  cases x with
  | none =>
    refine res_nothing ?_ (fun m h => h)
    rcases he.cases with rfl | ⟨xs, rfl⟩
    · unfold core
      rw [if_neg (fun h => by cases h.2), if_neg (fun h => by cases h.2), if_neg (fun h => by cases h.2)]
      show orElse (memoryMode C (mk cpu u syn) A []) _ = _
      have : memoryMode C (mk cpu u syn) A [] = .ok none := by
        unfold memoryMode
        split <;> rfl
      rw [this, orElse_none]
    · exact core_other (Or.inl (by decide)) (by decide) (Or.inl (by decide)) (by decide) _
  | a =>
    show Res C junk A imm (mk cpu u syn) (tok (mk cpu u syn) "A" :: rest) rest [M.a]
    rw [ta]
    cases ha : has A M.a with
    | false => exact res_none (core_other (Or.inr ha) (by decide) (Or.inl (by decide)) (by decide) _) (by simp)
    | true =>
      have hc : core C (mk cpu u syn) A imm (.other T.regA.num :: rest) = .ok (some ({mode := M.a}, rest)) := by
        unfold core
        rw [if_pos ⟨ha, rfl⟩]; rfl
      refine res_some hc (fun _ => List.mem_singleton.2 rfl) (fun m hm _ => ?_)
      cases (show (none : Option Nat) = some m from hm)
  | imm p t => exact res_imm (hr t (by simp [Opnd.trees])) he.ends hi hA _
  | mem f t =>
    cases f with
    | true => exact absurd (by simp [Opnd.shape]) hx
    | false => exact res_mem (hr t (by simp [Opnd.trees])) hb he hA
  | memX f t =>
    cases f with
    | true => exact absurd (by simp [Opnd.shape]) hx
    | false => exact res_memX (hr t (by simp [Opnd.trees])) hb tx hA
  | memY f t =>
    cases f with
    | true => exact absurd (by simp [Opnd.shape]) hx
    | false => exact res_memY (hr t (by simp [Opnd.trees])) hb ty hA
  | indX t => exact absurd (by simp [Opnd.shape]) hx
  | indY t => exact res_indY (hr t (by simp [Opnd.trees])) ty _
  | ind t => exact res_ind (hr t (by simp [Opnd.trees])) he _
  | two t w => exact res_two (hr t (by simp [Opnd.trees])) (hr w (by simp [Opnd.trees])) hb he hA _
  | three t w y =>
    exact res_three (hr t (by simp [Opnd.trees])) (hr w (by simp [Opnd.trees])) (hr y (by simp [Opnd.trees])) hb he _

end

/-! ### The table -/

/-- Whether a handler puts something out. -/
def accepts (h : Handler) (o : Opts) (base mode : Nat) : Bool :=
  match h.run o none base mode with
  | .ok (some _) => true
  | _ => false

/-- The modes that an instruction does not have are refused. -/
def okAbsent (cpu : Cpu) (u : Nat) (syn : Bool) (name : String) : Bool :=
  let o := mk cpu u syn
  let ms := (isa cpu u).modes name
  match entryOf o name with
  | none => false
  | some p =>
    !p.imm.is16 o && plainModes (p.modes &&& o.allowed) &&
    shapes.all fun s => [false, true].all fun sm =>
      [Shape.indX, .mem true, .memX true, .memY true].contains s || (pick ms s sm).isSome || (syn && s == .imm) ||
      (cand (p.modes &&& o.allowed) s sm).all fun m =>
        !has m (p.modes &&& o.allowed) || !accepts p.handler o p.base m

theorem absent_ok : ∀ p ∈ machines, ∀ syn : Bool, ∀ r ∈ isa p.1 p.2, okAbsent p.1 p.2 syn r.1 = true := by decide +kernel

theorem run_known' (h : Handler) (o : Opts) (k : Option Int) (base mode : Nat) (hr : o.synthesized = false ∨ mode ≠ M.imm) :
    h.run o k base mode = h.run o none base mode := by
  cases h <;> try rfl
  rcases hr with h | h
  · simp only [Handler.run, handleRotate, h]; rfl
  · simp only [Handler.run, handleRotate, if_neg h]

theorem no816 {C : Ctx} {junk : Src → Int} {o : Opts} (hc : o.cpu ≠ .c65816) (n : Nat) (toks : Toks) (items : List Item) (rest : Toks) :
    instr816 C junk o (.other n :: toks) ≠ .ok (some (items, rest)) := by
  rw [instr816]
  generalize T.brl.num = b at *
  generalize T.xce.num = x at *
  generalize table816[n - b]? = e
  rw [if_neg hc]
  split <;> (intro h; cases h)

theorem no4510 {C : Ctx} {junk : Src → Int} {o : Opts} (hc : o.cpu.is4510 = false) (n : Nat) (toks : Toks) (items : List Item)
    (rest : Toks) : instr4510 C junk o (.other n :: toks) ≠ .ok (some (items, rest)) := by
  rw [instr4510]
  generalize T.asr.num = b at *
  generalize T.tza.num = x at *
  generalize T.adcq.num = b' at *
  generalize T.stq.num = x' at *
  generalize table4510[n - b]? = e
  generalize instrQ C junk o n toks = q
  rw [if_neg (show ¬ o.cpu.is4510 = true from by rw [hc]; decide),
    if_neg (show ¬ o.cpu = .c45GS02 from fun h => by rw [h] at hc; cases hc)]
  split
  · intro h; cases h
  · split <;> (intro h; cases h)

theorem instr_first {C : Ctx} {junk : Src → Int} {o : Opts} (hc : o.cpu ≠ .c65816) (h45 : o.cpu.is4510 = false) {n : Nat}
    {toks rest : Toks} {items : List Item} (h : instr C junk o (.other n :: toks) = .ok (some (items, rest))) :
    integer C junk o (.other n :: toks) = .ok (some (items, rest)) := by
  have h8 := @no816 C junk o hc n toks
  have h4 := @no4510 C junk o h45 n toks
  unfold instr at h
  generalize instr816 C junk o (.other n :: toks) = x8 at *
  generalize instr4510 C junk o (.other n :: toks) = x4 at *
  obtain ⟨a, ha, h⟩ := bind_ok h
  cases a with
  | none =>
    obtain ⟨b, hb, h⟩ := bind_ok h
    cases b with
    | none => exact absurd h (h4 _ _)
    | some b => exact absurd hb (h8 b.1 b.2)
  | some a => cases h; exact ha

theorem handleToken_inv {C : Ctx} {junk : Src → Int} {o : Opts} {i : Nat} {p : Entry} (he : table[i]? = some p) {toks rest : Toks}
    {items : List Item} (h : handleToken C junk o i toks = .ok (some (items, rest))) :
    ∃ r cs, operand C junk o (p.modes &&& o.allowed) p.imm toks = .ok (r, rest) ∧
      p.handler.run o (r.e.bind C.known) p.base r.mode = .ok (some cs) := by
  unfold handleToken at h
  generalize table[i]? = e at *
  cases he
  simp only at h
  split at h
  · obtain ⟨⟨r, rest'⟩, hr, h⟩ := bind_ok h
    simp only at h
    unfold finish at h
    obtain ⟨c, hcs, h⟩ := bind_ok h
    cases c with
    | none => cases h
    | some cs =>
      simp only at h
      obtain ⟨is, _, h⟩ := bind_ok h
      cases h
      exact ⟨r, cs, hr, hcs⟩
  · cases h

theorem instr_inv {C : Ctx} {junk : Src → Int} {o : Opts} {name : String} {p : Entry} (he : entryOf o name = some p) {toks rest : Toks}
    {items : List Item} (hc : o.cpu ≠ .c65816) (h45 : o.cpu.is4510 = false)
    (h : instr C junk o (tok o name :: toks) = .ok (some (items, rest))) :
    ∃ r cs, operand C junk o (p.modes &&& o.allowed) p.imm toks = .ok (r, rest) ∧
      p.handler.run o (r.e.bind C.known) p.base r.mode = .ok (some cs) := by
  unfold entryOf at he
  generalize tok o name = n at *
  split at he
  · split at he
    · rename_i hr'
      have h := instr_first hc h45 h
      rw [integer, if_pos hr'] at h
      exact handleToken_inv he h
    · cases he
  · cases he

theorem imm_cand {A : Nat} (hp : plainModes A = true) {s : Shape} {small : Bool} (h : M.imm ∈ cand A s small) : s = .imm := by
  cases s with
  | imm => rfl
  | two =>
    simp only [plainModes, Bool.and_eq_true] at hp
    have := hp.2
    have h2 : M.imm = _ := List.mem_singleton.1 h
    rw [← h2] at this
    revert this
    decide
  | mem f =>
    have : M.imm ∈ if small then [M.zp, M.abs] else [M.abs] := h
    exfalso; revert this; cases small <;> decide
  | memX f =>
    have : M.imm ∈ if small then [M.zpX, M.absX] else [M.absX] := h
    exfalso; revert this; cases small <;> decide
  | memY f =>
    have : M.imm ∈ if small then [M.zpY, M.absY] else [M.absY] := h
    exfalso; revert this; cases small <;> decide
  | none => exact absurd (show M.imm ∈ [M.none, M.a] from h) (by decide)
  | a => exact absurd (show M.imm ∈ [M.a] from h) (by decide)
  | indX => exact absurd (show M.imm ∈ [] from h) (by decide)
  | indY => exact absurd (show M.imm ∈ [M.indZpY] from h) (by decide)
  | ind => exact absurd (show M.imm ∈ [M.indAbs, M.indZp] from h) (by decide)
  | three => exact absurd (show M.imm ∈ [M.bitZpAbs] from h) (by decide)

/-- **C53.** What an instruction does not have is not assembled: if the processor has the instruction, but no mode for the operand,
then the instruction is refused, or the operand is not read to its end and remains as an error in the line. Excluded are operands
with `<` (`C53_force_ignored`), `(n,X)`, and `#n` if the synthesized shifts are switched on. -/
theorem C53_absent (C : Ctx) (junk : Src → Int) {o : Opts} (ho : Reach o) (hc : o.cpu.Plain) {name : String}
    (hname : (isa o.cpu o.undocumented).modes name ≠ [])
    (x : Opnd) (hg : x.Good C) (hp : pick ((isa o.cpu o.undocumented).modes name) x.shape (x.small C) = none)
    (hx : x.shape ∉ [.indX, .mem true, .memX true, .memY true]) (hsyn : o.synthesized = true → x.shape ≠ .imm)
    (rest : Toks) (he : EndOfLine rest) {items : List Item} {rest' : Toks}
    (h : instr C junk o (tok o name :: (x.toks o ++ rest)) = .ok (some (items, rest'))) : rest.length < rest'.length := by
  obtain ⟨hm, hmk⟩ := reach_mk ho hc
  generalize o.cpu = cpu at *
  generalize o.undocumented = u at *
  generalize o.synthesized = syn at *
  subst hmk
  obtain ⟨q, hq⟩ := List.exists_mem_of_ne_nil _ hname
  obtain ⟨q', hq', rfl⟩ := modes_mem hq
  have hok := absent_ok (cpu, u) hm syn q' hq'
  unfold okAbsent at hok
  simp only at hok
  cases hen : entryOf (mk cpu u syn) q'.1 with
  | none => rw [hen] at hok; cases hok
  | some p =>
    rw [hen] at hok
    simp only [Bool.and_eq_true, List.all_eq_true, Bool.not_eq_true'] at hok
    obtain ⟨⟨h16, hpl⟩, hsh⟩ := hok
    have hsh := hsh x.shape (mem_shapes _) (x.small C) (by cases x.small C <;> simp)
    rw [hp] at hsh
    simp only [Bool.or_eq_true] at hsh
    obtain ⟨r, cs, hop, hrun⟩ := instr_inv hen (show cpu ≠ .c65816 from by rcases hc with rfl | rfl | rfl <;> decide)
      (show cpu.is4510 = false from by rcases hc with rfl | rfl | rfl <;> rfl) h
    obtain ⟨h1, h2⟩ := operand_cand hm hg he h16 hpl hx r rest' hop
    rcases h2 with h2 | ⟨rfl, h2⟩
    · exact h2
    · exfalso
      rcases hsh with ((hsh | hsh) | hsh) | hsh
      · exact hx (List.contains_iff_mem.1 hsh)
      · cases hsh
      · rw [Bool.and_eq_true] at hsh
        exact hsyn hsh.1 (eq_of_beq hsh.2)
      · have hsh := List.all_eq_true.1 hsh _ h2
        rw [h1] at hsh
        simp only [Bool.not_true, Bool.false_or, Bool.not_eq_true'] at hsh
        have hk : (mk cpu u syn).synthesized = false ∨ r.mode ≠ M.imm := by
          cases hs : (mk cpu u syn).synthesized with
          | false => exact Or.inl rfl
          | true =>
            right
            intro hi
            rw [hi] at h2
            exact hsyn hs (imm_cand hpl h2)
        rw [run_known' _ _ _ _ _ hk] at hrun
        unfold accepts at hsh
        rw [hrun] at hsh
        cases hsh

/-- `STA #1` has no meaning, and neither has `CLC 5`: the first is refused, the second leaves its number. -/
example : pick ((isa .c6502 0).modes "STA") .imm false = none ∧ pick ((isa .c6502 0).modes "CLC") (.mem false) true = none ∧
    (isa .c6502 0).modes "STA" ≠ [] ∧
    instr numbers (fun _ => 0) p6502 [tok p6502 "STA", .other 35, .num 1] = .fail ∧
    instr numbers (fun _ => 0) p6502 [tok p6502 "CLC", .num 5] = .ok (some ([.const 1 0x18], [.num 5])) := by decide +kernel

example (rest : Toks) (he : EndOfLine rest) {items : List Item} {rest' : Toks}
    (h : instr numbers (fun _ => 0) p6502 (tok p6502 "STA" :: ((Opnd.imm .plain (.num 1)).toks p6502 ++ rest)) = .ok (some (items, rest'))) :
    rest.length < rest'.length :=
  C53_absent numbers (fun _ => 0) .start (Or.inl rfl) (by decide +kernel) (.imm .plain (.num 1))
    ⟨fun t h => by
      cases List.mem_singleton.1 h
      exact ⟨by simp [Tree.Fits], by simp [Tree.Nots], rfl, by simp [Tree.Short], Or.inl (by simp [Tree.Plain])⟩, trivial⟩
    (by decide +kernel) (by decide) (fun h => by cases h) rest he h

end Verif.Cpu.X65
