import Verif.Cpu.M6809.Props
/-!
# C60: operands with a post byte, pairs and lists of registers
-/
set_option linter.constructorNameAsVariable false

namespace Verif.Cpu.M6809

open Verif.Parse (Tok Toks Tree)
open Verif.Expr (Src FMath ASym Den BinOp I32 u32 toI32 wrap)
open Verif.Cpu.X65 (EndOfLine ok_bind value_pc front)

variable {C : Ctx} {dp : Option Nat} {m : Mn} {x : Opnd} {rest : Toks}

/-- The modes that are allowed for indexed operands, and those that are allowed in brackets. -/
def allowedIndexed : List Nat := [M.p, M.q, M.t, M.indirect]

theorem mem_allowed {A : Nat} (h : A ∈ [M.p, M.q, M.t]) : A ∈ allowedIndexed := by
  simp only [List.mem_cons, List.not_mem_nil, or_false, allowedIndexed] at *
  omega

theorem no_list : ∀ A ∈ allowedIndexed, has A (M.listS ||| M.listU) = false := by decide

/-- Modes with and without brackets. -/
theorem read_post {A : Nat} (hA : A ∈ [M.p, M.q, M.t]) {i : Bool} {toks : Toks} (h35 : (toks ++ rest).head? ≠ some (.other 35))
    (h91 : (toks ++ rest).head? ≠ some (.other 91)) {k p : Nat} {e : Option Src} (hk : has k (M.address ||| M.extended) = false)
    (he : EndOfLine rest)
    (h : ∀ B, (if i then B = M.indirect else B = A) → ∀ rest', After rest' → core C B (toks ++ rest') = .ok (⟨k, some p, e⟩, rest')) :
    addrMode C A (brackets i toks ++ rest) = .ok (⟨if i then k ||| M.ind else k, some (if i then p ||| 0x10 else p), e⟩, rest) := by
  cases i with
  | false =>
    show addrMode C A (toks ++ rest) = _
    rw [read_plain (Or.inl h35) (Or.inl h91), h A rfl rest (After.eol he)]
    rfl
  | true =>
    have hi : ∀ A ∈ [M.p, M.q, M.t], has A M.ind = true := by decide
    show addrMode C A (.other 91 :: (toks ++ [.other 93]) ++ rest) = _
    rw [read_brackets (hi A hA) (h M.indirect rfl _ (After.close rest))]
    unfold bracketed
    simp only
    rw [if_neg (by rw [hk]; decide), ok_bind]
    rfl

theorem idx_allowed (h : takes m .idx = true) : ∃ bs, code m .idx = some bs ∧ m.entry.allowed ∈ [M.p, M.q, M.t] := by
  obtain ⟨bs, hc⟩ := takes_code h
  exact ⟨bs, hc, (fmt_ok hc (by decide)).1⟩

/-- Operands that are only a post byte. -/
theorem becomes_post {i : Bool} {toks : Toks} (h : takes m .idx = true) (hx : x.toks = brackets i toks)
    (h35 : (toks ++ rest).head? ≠ some (.other 35)) (h91 : (toks ++ rest).head? ≠ some (.other 91)) {k p : Nat} {e : Option Src} (he : EndOfLine rest)
    (hk : has k (M.address ||| M.extended) = false) (ha : (if i then k ||| M.ind else k) ≠ M.address)
    (hcall : ((if i then k ||| M.ind else k), [Call.post]) ∈ Fmt.idx.calls)
    (hread : ∀ B ∈ allowedIndexed, (i = false → B ≠ M.indirect) → ∀ rest', After rest' → core C B (toks ++ rest') = .ok (⟨k, some p, e⟩, rest'))
    (hp : (if i then p ||| 0x10 else p) < 256) {arg : Arg} (harg : arg.at dp = arg)
    (hpost : ∀ n, postByte n (if i then p ||| 0x10 else p) [] = some arg)
    (hmean : ∀ fm now ρ, C.Sound fm wrap now ρ → meaning m x (x.value C fm now ρ) dp ρ.pc = some arg) : Becomes C dp m x rest := by
  obtain ⟨bs, hc, hA⟩ := idx_allowed h
  refine becomes_of hc (by decide) (cs := [.post]) (is := [.const 1 (if i then p ||| 0x10 else p)]) (e := e)
    (post := some (if i then p ||| 0x10 else p)) ?_ (resolve_other _ _ ha) hcall rfl he ?_
  · rw [hx]
    refine read_post hA h35 h91 hk he fun B hB rest' hr => hread B ?_ ?_ rest' hr
    · cases i
      · subst hB; exact mem_allowed hA
      · subst hB; decide
    · rintro rfl
      obtain rfl : B = m.entry.allowed := hB
      intro h
      rw [h] at hA
      revert hA; decide
  · intro fm now ρ hs _ _ _
    rw [bytes_const fm now _ hp, hmean fm now ρ hs]
    show Option.map (Arg.at dp) (postByte _ _ []) = _
    rw [hpost, Option.map_some, harg]

theorem reg_not {r : R} (n : Nat) (h : n < 256) : r.tok ≠ .other n := by
  unfold R.tok R.num
  intro h'
  injection h' with h'
  omega

theorem index_bits {r : R} (h : r.isIndex = true) : r.bits = 0 ∧ r = .x ∨ r.bits = 32 ∧ r = .y ∨ r.bits = 64 ∧ r = .u ∨ r.bits = 96 ∧ r = .s := by
  cases r <;> first | (cases h; done) | decide

/-- A register with signs. -/
theorem becomes_zero {i : Bool} {r : R} (hr : r.isIndex = true) (h : takes m .idx = true) (he : EndOfLine rest) :
    Becomes C dp m (.zero i r) rest := by
  refine becomes_post (i := i) (toks := [.comma, r.tok]) (k := M.r) (p := 0x84 ||| r.bits) (e := none) (arg := .mem i (.off r 0)) h rfl
    (fun h => (nomatch h)) (fun h => (nomatch h)) he (by decide) (by cases i <;> decide) (by cases i <;> decide) ?_ ?_ rfl ?_ ?_
  · intro B hB _ rest' hr'
    have h1 : ∀ B ∈ allowedIndexed, has B (M.inc1 ||| M.inc2 ||| M.dec1 ||| M.dec2 ||| M.r) = true ∧ has B M.r = true := by decide
    show core C B (.comma :: (r.tok :: rest')) = _
    rw [core_auto (no_list B hB) (h1 B hB).1, auto_of hr (signs_reg .sub r rest') (signs_after .add hr')]
    simp [(h1 B hB).2]
  · rcases index_bits hr with ⟨hb, _⟩ | ⟨hb, _⟩ | ⟨hb, _⟩ | ⟨hb, _⟩ <;> rw [hb] <;> cases i <;> decide
  · intro n
    rcases index_bits hr with ⟨hb, rfl⟩ | ⟨hb, rfl⟩ | ⟨hb, rfl⟩ | ⟨hb, rfl⟩ <;> rw [hb] <;> cases i <;> rfl
  · intro fm now ρ _
    exact if_pos h

theorem becomes_inc1 {r : R} (hr : r.isIndex = true) (h : takes m .idx = true) (he : EndOfLine rest) :
    Becomes C dp m (.inc1 false r) rest := by
  refine becomes_post (i := false) (toks := [.comma, r.tok, .op .add]) (k := M.inc1) (p := 0x80 ||| r.bits) (e := none)
    (arg := .mem false (.inc1 r)) h rfl
    (fun h => (nomatch h)) (fun h => (nomatch h)) he (by decide) (by decide) (by decide) ?_ ?_ rfl ?_ ?_
  · intro B hB hi rest' hr'
    have h1 : ∀ B ∈ allowedIndexed, B ≠ M.indirect → has B (M.inc1 ||| M.inc2 ||| M.dec1 ||| M.dec2 ||| M.r) = true ∧ has B M.inc1 = true := by decide
    have h1 := h1 B hB (hi rfl)
    show core C B (.comma :: (r.tok :: .op .add :: rest')) = _
    rw [core_auto (no_list B hB) h1.1, auto_of hr (signs_reg .sub r _) (plus := 1) (rest' := rest') (by simp only [signs, signs_after .add hr']; rfl)]
    simp [h1.2]
  · rcases index_bits hr with ⟨hb, _⟩ | ⟨hb, _⟩ | ⟨hb, _⟩ | ⟨hb, _⟩ <;> rw [hb] <;> decide
  · intro n
    rcases index_bits hr with ⟨hb, rfl⟩ | ⟨hb, rfl⟩ | ⟨hb, rfl⟩ | ⟨hb, rfl⟩ <;> rw [hb] <;> rfl
  · intro fm now ρ _
    show (if takes m .idx && !false then _ else _) = _
    rw [h]; rfl

theorem becomes_inc2 {i : Bool} {r : R} (hr : r.isIndex = true) (h : takes m .idx = true) (he : EndOfLine rest) :
    Becomes C dp m (.inc2 i r) rest := by
  refine becomes_post (i := i) (toks := [.comma, r.tok, .op .add, .op .add]) (k := M.inc2) (p := 0x81 ||| r.bits) (e := none)
    (arg := .mem i (.inc2 r)) h rfl
    (fun h => (nomatch h)) (fun h => (nomatch h)) he (by decide) (by cases i <;> decide) (by cases i <;> decide) ?_ ?_ rfl ?_ ?_
  · intro B hB _ rest' hr'
    have h1 : ∀ B ∈ allowedIndexed, has B (M.inc1 ||| M.inc2 ||| M.dec1 ||| M.dec2 ||| M.r) = true ∧ has B M.inc2 = true := by decide
    have h1 := h1 B hB
    show core C B (.comma :: (r.tok :: .op .add :: .op .add :: rest')) = _
    rw [core_auto (no_list B hB) h1.1, auto_of hr (signs_reg .sub r _) (plus := 2) (rest' := rest') (by simp only [signs, signs_after .add hr']; rfl)]
    simp [h1.2]
  · rcases index_bits hr with ⟨hb, _⟩ | ⟨hb, _⟩ | ⟨hb, _⟩ | ⟨hb, _⟩ <;> rw [hb] <;> cases i <;> decide
  · intro n
    rcases index_bits hr with ⟨hb, rfl⟩ | ⟨hb, rfl⟩ | ⟨hb, rfl⟩ | ⟨hb, rfl⟩ <;> rw [hb] <;> cases i <;> rfl
  · intro fm now ρ _
    exact if_pos h

theorem becomes_dec1 {r : R} (hr : r.isIndex = true) (h : takes m .idx = true) (he : EndOfLine rest) :
    Becomes C dp m (.dec1 false r) rest := by
  refine becomes_post (i := false) (toks := [.comma, .op .sub, r.tok]) (k := M.dec1) (p := 0x82 ||| r.bits) (e := none)
    (arg := .mem false (.dec1 r)) h rfl
    (fun h => (nomatch h)) (fun h => (nomatch h)) he (by decide) (by decide) (by decide) ?_ ?_ rfl ?_ ?_
  · intro B hB hi rest' hr'
    have h1 : ∀ B ∈ allowedIndexed, B ≠ M.indirect → has B (M.inc1 ||| M.inc2 ||| M.dec1 ||| M.dec2 ||| M.r) = true ∧ has B M.dec1 = true := by decide
    have h1 := h1 B hB (hi rfl)
    show core C B (.comma :: (.op .sub :: r.tok :: rest')) = _
    rw [core_auto (no_list B hB) h1.1, auto_of (minus := 1) (rest := rest') hr rfl (signs_after .add hr')]
    simp [h1.2]
  · rcases index_bits hr with ⟨hb, _⟩ | ⟨hb, _⟩ | ⟨hb, _⟩ | ⟨hb, _⟩ <;> rw [hb] <;> decide
  · intro n
    rcases index_bits hr with ⟨hb, rfl⟩ | ⟨hb, rfl⟩ | ⟨hb, rfl⟩ | ⟨hb, rfl⟩ <;> rw [hb] <;> rfl
  · intro fm now ρ _
    show (if takes m .idx && !false then _ else _) = _
    rw [h]; rfl

theorem becomes_dec2 {i : Bool} {r : R} (hr : r.isIndex = true) (h : takes m .idx = true) (he : EndOfLine rest) :
    Becomes C dp m (.dec2 i r) rest := by
  refine becomes_post (i := i) (toks := [.comma, .op .sub, .op .sub, r.tok]) (k := M.dec2) (p := 0x83 ||| r.bits) (e := none)
    (arg := .mem i (.dec2 r)) h rfl
    (fun h => (nomatch h)) (fun h => (nomatch h)) he (by decide) (by cases i <;> decide) (by cases i <;> decide) ?_ ?_ rfl ?_ ?_
  · intro B hB _ rest' hr'
    have h1 : ∀ B ∈ allowedIndexed, has B (M.inc1 ||| M.inc2 ||| M.dec1 ||| M.dec2 ||| M.r) = true ∧ has B M.dec2 = true := by decide
    have h1 := h1 B hB
    show core C B (.comma :: (.op .sub :: .op .sub :: r.tok :: rest')) = _
    rw [core_auto (no_list B hB) h1.1, auto_of (minus := 2) (rest := rest') hr rfl (signs_after .add hr')]
    simp [h1.2]
  · rcases index_bits hr with ⟨hb, _⟩ | ⟨hb, _⟩ | ⟨hb, _⟩ | ⟨hb, _⟩ <;> rw [hb] <;> cases i <;> decide
  · intro n
    rcases index_bits hr with ⟨hb, rfl⟩ | ⟨hb, rfl⟩ | ⟨hb, rfl⟩ | ⟨hb, rfl⟩ <;> rw [hb] <;> cases i <;> rfl
  · intro fm now ρ _
    exact if_pos h

theorem becomes_acc {i : Bool} {a r : R} (ha : a.isAcc = true) (hr : r.isIndex = true) (h : takes m .idx = true) (he : EndOfLine rest) :
    Becomes C dp m (.acc i a r) rest := by
  have hacc : ∀ B ∈ allowedIndexed, has B M.ra = true ∧ has B M.rb = true ∧ has B M.rd = true := by decide
  have h35 : ([a.tok, .comma, r.tok] ++ rest).head? ≠ some (.other 35) := fun h => reg_not 35 (by decide) (Option.some.inj h)
  have h91 : ([a.tok, .comma, r.tok] ++ rest).head? ≠ some (.other 91) := fun h => reg_not 91 (by decide) (Option.some.inj h)
  have hcore (B : Nat) (hB : B ∈ allowedIndexed) (rest' : Toks) := core_acc (C := C) (no_list B hB) hr rest'
  have hmean (fm : FMath) (now : Nat → ASym) (ρ : Den) :
      meaning m (.acc i a r) ((Opnd.acc i a r).value C fm now ρ) dp ρ.pc = some (.mem i (.acc a r)) := if_pos h
  cases a with
  | a =>
    refine becomes_post (i := i) (toks := [R.a.tok, .comma, r.tok]) (k := M.ra) (p := 0x86 ||| r.bits) (e := none)
      (arg := .mem i (.acc .a r)) h rfl h35 h91 he (by decide) (by cases i <;> decide) (by cases i <;> decide)
      (fun B hB _ rest' _ => (hcore B hB rest').1 (hacc B hB).1) ?_ rfl ?_ fun fm now ρ _ => hmean fm now ρ
    · rcases index_bits hr with ⟨hb, _⟩ | ⟨hb, _⟩ | ⟨hb, _⟩ | ⟨hb, _⟩ <;> rw [hb] <;> cases i <;> decide
    · intro n
      rcases index_bits hr with ⟨hb, rfl⟩ | ⟨hb, rfl⟩ | ⟨hb, rfl⟩ | ⟨hb, rfl⟩ <;> rw [hb] <;> cases i <;> rfl
  | b =>
    refine becomes_post (i := i) (toks := [R.b.tok, .comma, r.tok]) (k := M.rb) (p := 0x85 ||| r.bits) (e := none)
      (arg := .mem i (.acc .b r)) h rfl h35 h91 he (by decide) (by cases i <;> decide) (by cases i <;> decide)
      (fun B hB _ rest' _ => (hcore B hB rest').2.1 (hacc B hB).2.1) ?_ rfl ?_ fun fm now ρ _ => hmean fm now ρ
    · rcases index_bits hr with ⟨hb, _⟩ | ⟨hb, _⟩ | ⟨hb, _⟩ | ⟨hb, _⟩ <;> rw [hb] <;> cases i <;> decide
    · intro n
      rcases index_bits hr with ⟨hb, rfl⟩ | ⟨hb, rfl⟩ | ⟨hb, rfl⟩ | ⟨hb, rfl⟩ <;> rw [hb] <;> cases i <;> rfl
  | d =>
    refine becomes_post (i := i) (toks := [R.d.tok, .comma, r.tok]) (k := M.rd) (p := 0x8B ||| r.bits) (e := none)
      (arg := .mem i (.acc .d r)) h rfl h35 h91 he (by decide) (by cases i <;> decide) (by cases i <;> decide)
      (fun B hB _ rest' _ => (hcore B hB rest').2.2 (hacc B hB).2.2) ?_ rfl ?_ fun fm now ρ _ => hmean fm now ρ
    · rcases index_bits hr with ⟨hb, _⟩ | ⟨hb, _⟩ | ⟨hb, _⟩ | ⟨hb, _⟩ <;> rw [hb] <;> cases i <;> decide
    · intro n
      rcases index_bits hr with ⟨hb, rfl⟩ | ⟨hb, rfl⟩ | ⟨hb, rfl⟩ | ⟨hb, rfl⟩ <;> rw [hb] <;> cases i <;> rfl
  | _ => cases ha

/-! ### Post bytes with an expression -/

/-- Operands with a post byte and an expression behind it. -/
theorem becomes_expr {i : Bool} {toks : Toks} (h : takes m .idx = true) (hx : x.toks = brackets i toks)
    (h35 : (toks ++ rest).head? ≠ some (.other 35)) (h91 : (toks ++ rest).head? ≠ some (.other 91)) {k p : Nat} {s : Src} (he : EndOfLine rest)
    (hk : has k (M.address ||| M.extended) = false) (ha : (if i then k ||| M.ind else k) ≠ M.address) {c : Call} {it : Item}
    (hcall : ((if i then k ||| M.ind else k), [Call.post, c]) ∈ Fmt.idx.calls)
    (hit : ∀ k p, c.item ⟨k, p, some s⟩ = .ok it)
    (hread : ∀ B ∈ allowedIndexed, (i = false → B ≠ M.indirect) → (i = true → B = M.indirect) →
      ∀ rest', core C B (toks ++ rest') = .ok (⟨k, some p, some s⟩, rest'))
    (hp : (if i then p ||| 0x10 else p) < 256)
    (hmean : ∀ fm now ρ pc, C.Sound fm wrap now ρ → 0 ≤ ρ.pc → ρ.pc < 16777216 → (∀ v, x.value C fm now ρ = some v → x.Near m ρ.pc v) →
      (∀ n : Nat, pc + n = next m .idx ρ.pc (1 + n)) →
      ((bytesAt fm now {ρ with pc := pc} [it]).bind fun ob => postByte (next m .idx ρ.pc (1 + ob.length)) (if i then p ||| 0x10 else p) ob) =
        meaning m x (x.value C fm now ρ) dp ρ.pc)
    (harg : ∀ v pc a, meaning m x v dp pc = some a → a.at dp = a) : Becomes C dp m x rest := by
  obtain ⟨bs, hc, hA⟩ := idx_allowed h
  refine becomes_of hc (by decide) (cs := [.post, c]) (is := [.const 1 (if i then p ||| 0x10 else p), it]) (e := some s)
    (post := some (if i then p ||| 0x10 else p)) ?_ (resolve_other _ _ ha) hcall ?_ he ?_
  · rw [hx]
    refine read_post hA h35 h91 hk he fun B hB rest' hr => hread B ?_ ?_ ?_ rest'
    · cases i
      · subst hB; exact mem_allowed hA
      · subst hB; decide
    · rintro rfl
      obtain rfl : B = m.entry.allowed := hB
      intro h
      rw [h] at hA
      revert hA; decide
    · rintro rfl; exact hB
  · show Outcome.bind (Call.item _ .post) _ = _
    rw [show Call.item ⟨if i then k ||| M.ind else k, some (if i then p ||| 0x10 else p), some s⟩ .post =
      .ok (.const 1 (if i then p ||| 0x10 else p)) from rfl, ok_bind]
    show Outcome.bind (Outcome.bind (Call.item _ c) _) _ = _
    rw [hit, ok_bind]
    rfl
  · intro fm now ρ hs h0 h1 hn
    rw [bytes_const fm now _ hp]
    have hm := hmean fm now ρ (ρ.pc + bs.length + 1) hs h0 h1 hn fun n => by rw [next_eq hc]; omega
    rw [← hm]
    show Option.map _ (Option.bind (Option.map _ (bytesAt fm now {ρ with pc := ρ.pc + bs.length + 1} [it])) _) = _
    cases hb : bytesAt fm now {ρ with pc := ρ.pc + bs.length + 1} [it] with
    | none => rfl
    | some ob =>
      rw [hb] at hm
      simp only [Option.map_some, Option.bind_some, List.length_cons] at hm ⊢
      rw [Nat.add_comm ob.length 1]
      show Option.map _ (postByte _ _ ob) = _
      cases hpb : postByte (next m .idx ρ.pc (1 + ob.length)) (if i then p ||| 0x10 else p) ob with
      | none => rfl
      | some a =>
        rw [hpb] at hm
        rw [Option.map_some, harg _ _ a hm.symm]

theorem expr_head (f : Force) (t : Tree) (toks : Toks) (n : Nat) : (f.toks ++ t.toks ++ toks).head? ≠ some (.other n) := by
  rw [List.append_assoc]
  obtain ⟨y, hy, _, ho⟩ := force_front f t toks
  rw [hy]
  exact fun h => ho n (Option.some.inj h)

theorem becomes_indirect {f : Force} {t : Tree} (hr : Readable 2 t) (h : takes m .idx = true) (he : EndOfLine rest) :
    Becomes C dp m (.addr true f t) rest := by
  obtain ⟨bs, hc, hA⟩ := idx_allowed h
  have hi : ∀ A ∈ [M.p, M.q, M.t], has A M.ind = true := by decide
  refine becomes_of hc (by decide) (cs := [.post, .e16]) (am := ⟨M.extInd ||| M.ind, some 0x9F, some (C.src t)⟩)
    (is := [.const 1 0x9F, .expr 2 (checkRange (C.src t) (-32768) 65535)]) ?_ (resolve_other _ _ (by decide)) (by decide) rfl he ?_
  · show addrMode C _ (.other 91 :: (f.toks ++ t.toks ++ [.other 93]) ++ rest) = _
    have hcore := core_addr (C := C) (A := M.indirect) (by decide) (f := f) hr (After.close rest)
    have hcore' : ∃ k, has k (M.address ||| M.extended) = true ∧
        core C M.indirect (f.toks ++ t.toks ++ .other 93 :: rest) = .ok (⟨k, none, some (C.src t)⟩, .other 93 :: rest) := by
      rw [List.append_assoc, hcore]
      cases f
      · exact ⟨M.address, by decide, rfl⟩
      · exact ⟨M.address, by decide, rfl⟩
      · exact ⟨M.extended, by decide, rfl⟩
    obtain ⟨k, hk, hcore'⟩ := hcore'
    rw [read_brackets (hi _ hA) hcore']
    unfold bracketed
    rw [if_pos hk, ok_bind]
  · intro fm now ρ _ _ _ _
    rw [bytes_const fm now _ (by decide), bytes_e16]
    show Option.map _ (Option.bind (Option.map _ (((C.src t).value fm wrap now {ρ with pc := ρ.pc + bs.length + 1}).bind _)) _) = _
    rw [value_pc]
    show _ = (if takes m .idx = true then ((C.src t).value fm wrap now ρ).bind _ else _)
    rw [if_pos h]
    cases (C.src t).value fm wrap now ρ with
    | none => rfl
    | some v =>
      simp only [Option.bind_some]
      cases fit16 v with
      | none => rfl
      | some n =>
        show some (Arg.mem true (.addr (256 * (n / 256) + n % 256))) = some (.mem true (.addr n))
        rw [Nat.div_add_mod]

theorem near_bound {bs : List Nat} (hl : bs.length ≤ 2) {pc : Int} (h0 : 0 ≤ pc) (h1 : pc < 16777216) :
    0 ≤ pc + bs.length + 1 ∧ pc + bs.length + 1 < 16777300 := by omega

theorem becomes_pcr {i : Bool} {f : Force} {t : Tree} (hr : Readable 2 t) (h : takes m .idx = true) (he : EndOfLine rest) :
    Becomes C dp m (.pcr i f t) rest := by
  obtain ⟨bs, hc, hA⟩ := idx_allowed h
  have hbs := (code_bytes hc).1
  have hm (v : Option Int) (pc : Int) : meaning m (.pcr i f t) v dp pc = v.bind fun v =>
      if f = .lt then (near8 v (next m .idx pc 2)).map fun n => .mem i (.pcr n)
      else (near16 v (next m .idx pc 3)).map fun n => .mem i (.pcr n) := if_pos h
  have hpc : ∀ B ∈ allowedIndexed, has B (M.r5 ||| M.r8 ||| M.r16 ||| M.pc8 ||| M.pc16) = true ∧ has B M.pc8 = true ∧ has B M.pc16 = true := by
    decide
  have harg : ∀ v pc a, meaning m (.pcr i f t) v dp pc = some a → a.at dp = a := by
    intro v pc a ha
    rw [hm] at ha
    obtain ⟨w, _, ha⟩ := Option.bind_eq_some_iff.1 ha
    split at ha <;> (obtain ⟨n, _, rfl⟩ := Option.map_eq_some_iff.1 ha; rfl)
  have hcore (B : Nat) (hB : B ∈ allowedIndexed) (rest' : Toks) : core C B ((f.toks ++ t.toks ++ [.comma, R.pcr.tok]) ++ rest') =
      if f = .lt then .ok (⟨M.pc8, some 0x8C, some (C.src t)⟩, rest') else .ok (⟨M.pc16, some 0x8D, some (C.src t)⟩, rest') := by
    rw [List.append_assoc, List.append_assoc]
    refine (core_pcr (no_list B hB) (hpc B hB).1 hr rest').trans ?_
    rw [(hpc B hB).2.1, (hpc B hB).2.2]
    cases f <;> rfl
  have h35 : (f.toks ++ t.toks ++ [.comma, R.pcr.tok] ++ rest).head? ≠ some (.other 35) := by
    rw [List.append_assoc]; exact expr_head f t _ 35
  have h91 : (f.toks ++ t.toks ++ [.comma, R.pcr.tok] ++ rest).head? ≠ some (.other 91) := by
    rw [List.append_assoc]; exact expr_head f t _ 91
  by_cases hf : f = .lt
  · refine becomes_expr (i := i) (toks := f.toks ++ t.toks ++ [.comma, R.pcr.tok]) (k := M.pc8) (p := 0x8C) (s := C.src t) (c := .rel8)
      (it := .expr 1 (checkRange (.pcRel (-1) (C.src t)) (-128) 255)) h rfl h35 h91 he (by decide) (by cases i <;> decide) (by cases i <;> decide)
      (fun _ _ => rfl) (fun B hB _ _ rest' => by rw [hcore B hB rest', if_pos hf]) (by cases i <;> decide) ?_ harg
    intro fm now ρ pc hs h0 h1 hn hnext
    have hb : 0 ≤ pc ∧ pc < 16777300 := by
      have := hnext 0
      rw [next_eq hc] at this
      omega
    rw [hm, bytes_rel8 fm now _ _ hb.1 hb.2]
    show Option.bind (Option.bind ((C.src t).value fm wrap now {ρ with pc := pc}) _) _ = _
    rw [value_pc]
    show _ = ((C.src t).value fm wrap now ρ).bind _
    have hn : ∀ v, (C.src t).value fm wrap now ρ = some v → _ := hn
    cases hv : (C.src t).value fm wrap now ρ with
    | none => rfl
    | some v =>
      have hn := hn v hv
      rw [hf] at hn
      have hn : ¬(128 ≤ v - next m .idx ρ.pc 2 ∧ v - next m .idx ρ.pc 2 ≤ 255) := hn
      simp only [Option.bind_some]
      rw [if_pos hf, show v - (pc + 1) = v - next m .idx ρ.pc 2 from by rw [← hnext 1]; rfl]
      cases hfit : fit8 (v - next m .idx ρ.pc 2) with
      | none => rw [target_byte_none hfit]; rfl
      | some n =>
        rw [target_byte hfit hn]
        cases i <;> rfl
  · refine becomes_expr (i := i) (toks := f.toks ++ t.toks ++ [.comma, R.pcr.tok]) (k := M.pc16) (p := 0x8D) (s := C.src t) (c := .rel16)
      (it := .expr 2 (checkRange (.pcRel (-2) (C.src t)) (-32768) 65535)) h rfl h35 h91 he (by decide) (by cases i <;> decide) (by cases i <;> decide)
      (fun _ _ => rfl) (fun B hB _ _ rest' => by rw [hcore B hB rest', if_neg hf]) (by cases i <;> decide) ?_ harg
    intro fm now ρ pc hs h0 h1 hn hnext
    have hb : 0 ≤ pc ∧ pc < 16777300 := by
      have := hnext 0
      rw [next_eq hc] at this
      omega
    rw [hm, bytes_rel16 fm now _ _ hb.1 hb.2]
    show Option.bind (Option.bind ((C.src t).value fm wrap now {ρ with pc := pc}) _) _ = _
    rw [value_pc]
    show _ = ((C.src t).value fm wrap now ρ).bind _
    cases hv : (C.src t).value fm wrap now ρ with
    | none => rfl
    | some v =>
      simp only [Option.bind_some]
      rw [if_neg hf, show v - (pc + 2) = v - next m .idx ρ.pc 3 from by rw [← hnext 2]; rfl, target_word]
      cases fit16 (v - next m .idx ρ.pc 3) with
      | none => rfl
      | some n => cases i <;> rfl

/-! ### Offsets -/

theorem off_mean {i : Bool} {f : Force} {t : Tree} {r : R} (h : takes m .idx = true) (v : Option Int) (pc : Int) :
    meaning m (.off i f t r) v dp pc = v.bind fun v =>
      if f = .lt then if -128 ≤ v ∧ v ≤ 127 then some (.mem i (.off r (a16 v))) else none
      else (fit16 v).map fun n => .mem i (.off r n) := if_pos h

theorem off_arg {i : Bool} {f : Force} {t : Tree} {r : R} (h : takes m .idx = true) (v : Option Int) (pc : Int) (a : Arg)
    (ha : meaning m (.off i f t r) v dp pc = some a) : a.at dp = a := by
  rw [off_mean h] at ha
  obtain ⟨w, _, ha⟩ := Option.bind_eq_some_iff.1 ha
  split at ha
  · split at ha
    · cases ha; rfl
    · cases ha
  · obtain ⟨n, _, rfl⟩ := Option.map_eq_some_iff.1 ha; rfl

theorem off_core {i : Bool} {f : Force} {t : Tree} (hr : Readable 2 t) {r : R} (hx : r ≠ .pcr) {B : Nat} (hB : B ∈ allowedIndexed)
    {am : Am} (h : offsetMode C B (decide (f = .gt)) (decide (f = .lt)) (some (C.src t)) r.num = some am) (rest' : Toks) :
    core C B ((f.toks ++ t.toks ++ [.comma, r.tok]) ++ rest') = .ok (am, rest') := by
  have hpc : ∀ B ∈ allowedIndexed, has B (M.r5 ||| M.r8 ||| M.r16 ||| M.pc8 ||| M.pc16) = true := by decide
  rw [List.append_assoc, List.append_assoc]
  refine (core_off (no_list B hB) (hpc B hB) hr hx rest').trans ?_
  rw [h]

/-- An offset in a byte behind the post byte. -/
theorem becomes_off8 {i : Bool} {f : Force} {t : Tree} (hr : Readable 2 t) (h : takes m .idx = true) (he : EndOfLine rest)
    (hcore : ∀ B ∈ allowedIndexed, (i = false → B ≠ M.indirect) → (i = true → B = M.indirect) →
      offsetMode C B (decide (f = .gt)) (decide (f = .lt)) (some (C.src t)) R.x.num = some ⟨M.r8, some 0x88, some (C.src t)⟩)
    (hv : f = .lt ∨ ∃ v, C.known (C.src t) = some v ∧ -128 ≤ v ∧ v ≤ 127) : Becomes C dp m (.off i f t .x) rest := by
  refine becomes_expr (i := i) (toks := f.toks ++ t.toks ++ [.comma, R.x.tok]) (k := M.r8) (p := 0x88) (s := C.src t) (c := .e8)
    (it := .expr 1 (checkRange (C.src t) (-128) 255)) h rfl (by rw [List.append_assoc]; exact expr_head f t _ 35)
    (by rw [List.append_assoc]; exact expr_head f t _ 91) he (by decide) (by cases i <;> decide) (by cases i <;> decide)
    (fun _ _ => rfl) (fun B hB h1 h2 rest' => off_core (i := i) hr (by decide) hB (hcore B hB h1 h2) rest') (by cases i <;> decide) ?_ (off_arg h)
  intro fm now ρ pc hs h0 h1 hn _
  rw [off_mean h, bytes_e8, value_pc]
  show _ = ((C.src t).value fm wrap now ρ).bind _
  have hn : ∀ v, (C.src t).value fm wrap now ρ = some v → _ := hn
  have hfin (v : Int) (hr : -128 ≤ v ∧ v ≤ 127) : (Option.bind ((fit8 v).map fun n => [n]) fun ob =>
      postByte (next m .idx ρ.pc (1 + ob.length)) (if i then 0x88 ||| 0x10 else 0x88) ob) = some (.mem i (.off .x (a16 v))) := by
    unfold fit8
    rw [if_pos (by omega)]
    have hs8 : a16 (s8 (v % 256).toNat) = a16 v := by unfold a16 s8; split <;> omega
    cases i
    · show some (Arg.mem false (.off .x (a16 (s8 (v % 256).toNat)))) = _
      rw [hs8]
    · show some (Arg.mem true (.off .x (a16 (s8 (v % 256).toNat)))) = _
      rw [hs8]
  rcases hv with rfl | ⟨v, hk, hr1⟩
  · cases hv : (C.src t).value fm wrap now ρ with
    | none => rfl
    | some v =>
      have hn : ¬(128 ≤ v ∧ v ≤ 255) := hn v hv
      simp only [Option.bind_some]
      rw [if_pos trivial]
      by_cases hr1 : -128 ≤ v ∧ v ≤ 127
      · rw [if_pos hr1, hfin v hr1]
      · rw [if_neg hr1]
        unfold fit8
        rw [if_neg (by omega)]
        rfl
  · rw [hs _ _ hk]
    simp only [Option.bind_some]
    rw [hfin v hr1]
    by_cases hf : f = .lt
    · rw [if_pos hf, if_pos hr1]
    · rw [if_neg hf]
      unfold fit16
      rw [if_pos (by omega)]
      rfl

/-- An offset in two bytes behind the post byte. -/
theorem becomes_off16 {i : Bool} {f : Force} {t : Tree} (hr : Readable 2 t) (h : takes m .idx = true) (he : EndOfLine rest) (hf : f ≠ .lt)
    (hcore : ∀ B ∈ allowedIndexed, (i = false → B ≠ M.indirect) → (i = true → B = M.indirect) →
      offsetMode C B (decide (f = .gt)) (decide (f = .lt)) (some (C.src t)) R.x.num = some ⟨M.r16, some 0x89, some (C.src t)⟩) :
    Becomes C dp m (.off i f t .x) rest := by
  refine becomes_expr (i := i) (toks := f.toks ++ t.toks ++ [.comma, R.x.tok]) (k := M.r16) (p := 0x89) (s := C.src t) (c := .e16)
    (it := .expr 2 (checkRange (C.src t) (-32768) 65535)) h rfl (by rw [List.append_assoc]; exact expr_head f t _ 35)
    (by rw [List.append_assoc]; exact expr_head f t _ 91) he (by decide) (by cases i <;> decide) (by cases i <;> decide)
    (fun _ _ => rfl) (fun B hB h1 h2 rest' => off_core (i := i) hr (by decide) hB (hcore B hB h1 h2) rest') (by cases i <;> decide) ?_ (off_arg h)
  intro fm now ρ pc hs h0 h1 hn _
  rw [off_mean h, bytes_e16, value_pc]
  show _ = ((C.src t).value fm wrap now ρ).bind _
  cases hv : (C.src t).value fm wrap now ρ with
  | none => rfl
  | some v =>
    simp only [Option.bind_some]
    rw [if_neg hf]
    cases fit16 v with
    | none => rfl
    | some n =>
      cases i
      · show some (Arg.mem false (.off .x (256 * (n / 256) + n % 256))) = some (.mem false (.off .x n))
        rw [Nat.div_add_mod]
      · show some (Arg.mem true (.off .x (256 * (n / 256) + n % 256))) = some (.mem true (.off .x n))
        rw [Nat.div_add_mod]

/-- Five bits. -/
theorem five_bits : ∀ (b : Fin 4) (v : Fin 32), ((b.val <<< 5) ||| v.val) = 32 * b.val + v.val := by decide

theorem post5 (n : Int) {p : Nat} (h : p < 128) : postByte n p [] =
    some (.mem false (.off (index p) (a16 (if p % 32 < 16 then (p % 32 : Nat) else (p % 32 : Nat) - 32)))) := by
  unfold postByte
  rw [if_pos h, if_pos rfl]

theorem becomes_off5 {t : Tree} (hr : Readable 2 t) {r : R} (hi : r.isIndex = true) (h : takes m .idx = true) (he : EndOfLine rest)
    {v : Int} (hv : C.known (C.src t) = some v) (h5 : -16 ≤ v ∧ v ≤ 15) : Becomes C dp m (.off false .no t r) rest := by
  have hpcr : r ≠ .pcr := by rintro rfl; cases hi
  have h35 : (Force.no.toks ++ t.toks ++ [.comma, r.tok] ++ rest).head? ≠ some (.other 35) := by
    rw [List.append_assoc]; exact expr_head .no t _ 35
  have h91 : (Force.no.toks ++ t.toks ++ [.comma, r.tok] ++ rest).head? ≠ some (.other 91) := by
    rw [List.append_assoc]; exact expr_head .no t _ 91
  have hw : width v = some .w5 := by unfold width; rw [if_pos h5]
  have hb5 : ∀ B ∈ allowedIndexed, B ≠ M.indirect → has B M.r5 = true := by decide
  have hmode (B : Nat) (hB : B ∈ allowedIndexed) (hne : B ≠ M.indirect) :
      offsetMode C B (decide (Force.no = .gt)) (decide (Force.no = .lt)) (some (C.src t)) r.num =
        if v = 0 then some ⟨M.r, some (r.bits ||| 0x84), some (C.src t)⟩ else some ⟨M.r5, some (r.bits ||| (u32 v &&& 0x1F)), some (C.src t)⟩ := by
    unfold offsetMode
    rw [indexReg_num hi]
    simp only [Option.bind_some, hv, hw, hb5 B hB hne]
    by_cases hz : v = 0
    · subst hz; rfl
    · simp [hz]
  have hmean (fm : FMath) (now : Nat → ASym) (ρ : Den) (hs : C.Sound fm wrap now ρ) :
      meaning m (.off false .no t r) ((Opnd.off false .no t r).value C fm now ρ) dp ρ.pc = some (.mem false (.off r (a16 v))) := by
    rw [off_mean h]
    show ((C.src t).value fm wrap now ρ).bind _ = _
    rw [hs _ _ hv, Option.bind_some, if_neg (by decide)]
    unfold fit16
    rw [if_pos (by omega)]
    rfl
  by_cases hz : v = 0
  · refine becomes_post (i := false) (toks := Force.no.toks ++ t.toks ++ [.comma, r.tok]) (k := M.r) (p := r.bits ||| 0x84) (e := some (C.src t))
      (arg := .mem false (.off r (a16 v))) h rfl h35 h91 he (by decide) (by decide) (by decide)
      (fun B hB hne rest' _ => off_core (i := false) hr hpcr hB ((hmode B hB (hne rfl)).trans (if_pos hz)) rest') ?_ rfl ?_ hmean
    · rcases index_bits hi with ⟨hb, _⟩ | ⟨hb, _⟩ | ⟨hb, _⟩ | ⟨hb, _⟩ <;> rw [hb] <;> decide
    · intro n
      subst hz
      rcases index_bits hi with ⟨hb, rfl⟩ | ⟨hb, rfl⟩ | ⟨hb, rfl⟩ | ⟨hb, rfl⟩ <;> rw [hb] <;> rfl
  · have hm : u32 v &&& 0x1F = (v % 32).toNat := by
      rw [show (0x1F : Nat) = 2 ^ 5 - 1 from rfl, Nat.and_two_pow_sub_one_eq_mod]
      unfold u32; omega
    have hbits : ∃ b : Fin 4, r.bits = b.val <<< 5 ∧ index (32 * b.val + (v % 32).toNat) = r := by
      have h32 : ∀ (b : Fin 4) (w : Fin 32), index (32 * b.val + w.val) = [R.x, .y, .u, .s][b.val] := by decide
      have h32 := fun b => h32 b ⟨(v % 32).toNat, by omega⟩
      rcases index_bits hi with ⟨hb, rfl⟩ | ⟨hb, rfl⟩ | ⟨hb, rfl⟩ | ⟨hb, rfl⟩
      · exact ⟨0, hb, h32 0⟩
      · exact ⟨1, hb, h32 1⟩
      · exact ⟨2, hb, h32 2⟩
      · exact ⟨3, hb, h32 3⟩
    obtain ⟨b, hb, hidx⟩ := hbits
    have hp : r.bits ||| (u32 v &&& 0x1F) = 32 * b.val + (v % 32).toNat := by
      rw [hm, hb]
      exact five_bits b ⟨(v % 32).toNat, by omega⟩
    have hbl := b.isLt
    refine becomes_post (i := false) (toks := Force.no.toks ++ t.toks ++ [.comma, r.tok]) (k := M.r5) (p := r.bits ||| (u32 v &&& 0x1F)) (e := some (C.src t))
      (arg := .mem false (.off r (a16 v))) h rfl h35 h91 he (by decide) (by decide) (by decide)
      (fun B hB hne rest' _ => off_core (i := false) hr hpcr hB ((hmode B hB (hne rfl)).trans (if_neg hz)) rest') ?_ rfl ?_ hmean
    · rw [if_neg (by decide), hp]; omega
    · intro n
      have hv32 : (if (32 * b.val + (v % 32).toNat) % 32 < 16 then (((32 * b.val + (v % 32).toNat) % 32 : Nat) : Int)
          else (((32 * b.val + (v % 32).toNat) % 32 : Nat) : Int) - 32) = v := by
        rw [show (32 * b.val + (v % 32).toNat) % 32 = (v % 32).toNat from by omega]
        split <;> omega
      rw [if_neg (by decide), hp, post5 n (by omega), hidx, hv32]

theorem becomes_off {i : Bool} {f : Force} {t : Tree} (hr : Readable 2 t) {r : R} (hi : r.isIndex = true) (h : takes m .idx = true)
    (hright : (Opnd.off i f t r).Right C dp m) (he : EndOfLine rest) : Becomes C dp m (.off i f t r) rest := by
  have h8 : ∀ B ∈ allowedIndexed, has B M.r8 = true ∧ has B M.r16 = true := by decide
  cases f with
  | lt =>
    obtain rfl : r = .x := hright
    refine becomes_off8 hr h he (fun B hB _ _ => ?_) (Or.inl rfl)
    unfold offsetMode
    rw [indexReg_num hi]
    simp [h8 B hB]
  | gt =>
    obtain rfl : r = .x := hright
    refine becomes_off16 hr h he (by decide) (fun B hB _ _ => ?_)
    unfold offsetMode
    rw [indexReg_num hi]
    simp [h8 B hB]
  | no =>
    obtain ⟨v, hv, h1, h2, h3⟩ := hright
    by_cases h5 : -16 ≤ v ∧ v ≤ 15
    · cases i with
      | false => exact becomes_off5 hr hi h he hv h5
      | true =>
        obtain rfl : r = .x := h3.resolve_right fun h => by cases h.1
        refine becomes_off8 hr h he (fun B hB _ hB' => ?_) (Or.inr ⟨v, hv, by omega, by omega⟩)
        rw [hB' rfl]
        have hw : width v = some .w5 := by unfold width; rw [if_pos h5]
        unfold offsetMode
        rw [indexReg_num hi]
        simp only [Option.bind_some, hv, hw]
        rfl
    · obtain rfl : r = .x := h3.resolve_right fun h => h5 h.2
      by_cases h7 : -128 ≤ v ∧ v ≤ 127
      · refine becomes_off8 hr h he (fun B hB _ hB' => ?_) (Or.inr ⟨v, hv, h7⟩)
        have hw : width v = some .w8 := by unfold width; rw [if_neg h5, if_pos h7]
        unfold offsetMode
        rw [indexReg_num hi]
        simp [hv, hw, h8 B hB]
      · refine becomes_off16 hr h he (by decide) (fun B hB _ hB' => ?_)
        have hw : width v = some .w16 := by unfold width; rw [if_neg h5, if_neg h7, if_pos ⟨h1, h2⟩]
        unfold offsetMode
        rw [indexReg_num hi]
        simp [hv, hw, h8 B hB]

/-! ### Pairs and lists -/

theorem becomes_pair {a b : R} (h : takes m .pair = true) (hw : meaning.wide a = meaning.wide b) (he : EndOfLine rest) :
    Becomes C dp m (.pair a b) rest := by
  obtain ⟨bs, hc⟩ := takes_code h
  obtain ⟨ha, hh, rfl⟩ := pair_ok hc
  have hreg : ∀ a b : R, meaning.wide a = meaning.wide b → ∃ k l, exgReg a.num = some k ∧ exgReg b.num = some l ∧ k &&& 0x8 = l &&& 0x8 ∧
      ((k <<< 4) ||| l) < 256 ∧ pairReg (((k <<< 4) ||| l) / 16) = some a ∧ pairReg (((k <<< 4) ||| l) % 16) = some b ∧
      (((k <<< 4) ||| l) / 16 < 8 ↔ ((k <<< 4) ||| l) % 16 < 8) := by
    intro a b
    cases a <;> cases b <;> intro h <;> first
      | (exact absurd h (by decide))
      | exact ⟨_, _, rfl, rfl, by decide, by decide, rfl, rfl, by decide⟩
  obtain ⟨k, l, hk, hl, hkl, hp, h1, h2, h3⟩ := hreg a b hw
  refine ⟨true, [.const 1 m.entry.base, .const 1 ((k <<< 4) ||| l)], ?_, ?_⟩
  · refine instr_of ?_ he
    unfold handle
    rw [ha, read_plain (Or.inr (by decide)) (Or.inr (by decide)), core_none (toks := (Opnd.pair a b).toks ++ rest) (fun y hy => ⟨a.num, (Option.some.inj hy).symm⟩), ok_bind]
    simp only
    rw [if_pos hh]
    have : regToReg m.entry.base ((Opnd.pair a b).toks ++ rest) = .ok ([.const 1 m.entry.base, .const 1 ((k <<< 4) ||| l)], rest) := by
      show regToReg m.entry.base (.other a.num :: .comma :: .other b.num :: rest) = _
      unfold regToReg
      simp only
      rw [hk, hl]
      exact if_pos hkl
    rw [this, ok_bind]
  · intro fm now ρ _ _ _ _
    have hb := (code_bytes hc).2 m.entry.base (List.mem_cons_self ..)
    rw [bytes_const fm now ρ hb, bytes_const fm now _ hp]
    show Option.map _ (decode ρ.pc ([m.entry.base] ++ [(k <<< 4) ||| l])) = _
    rw [decode_code hc]
    show Option.map _ (Option.map _ ((pairReg (((k <<< 4) ||| l) / 16)).bind fun a => (pairReg (((k <<< 4) ||| l) % 16)).bind fun b =>
      if ((k <<< 4) ||| l) / 16 < 8 ↔ ((k <<< 4) ||| l) % 16 < 8 then some (Arg.pair a b) else none)) = _
    rw [h1, h2]
    simp only [Option.bind_some]
    rw [if_pos h3]
    show _ = Option.map _ (if takes m .pair = true then if meaning.wide a = meaning.wide b then _ else _ else _)
    rw [if_pos h, if_pos hw]
    rfl

/-- The bits of registers. -/
def mask (q : R → Bool) (other : R) : Nat :=
  (q .ccr).toNat * 1 + (q .a).toNat * 2 + (q .b).toNat * 4 + (q .dpr).toNat * 8 + (q .x).toNat * 16 + (q .y).toNat * 32 +
  (q other).toNat * 64 + (q .pcr).toNat * 128

theorem mask_step : ∀ (c a b d x y o p : Bool) (k : Fin 8),
    (c.toNat * 1 + a.toNat * 2 + b.toNat * 4 + d.toNat * 8 + x.toNat * 16 + y.toNat * 32 + o.toNat * 64 + p.toNat * 128) ||| 2 ^ k.val =
    ((c || k == 0).toNat * 1 + (a || k == 1).toNat * 2 + (b || k == 2).toNat * 4 + (d || k == 3).toNat * 8 + (x || k == 4).toNat * 16 +
      (y || k == 5).toNat * 32 + (o || k == 6).toNat * 64 + (p || k == 7).toNat * 128) := by decide +kernel

theorem mask_or {q : R → Bool} {other r : R} (ho : other = .u ∨ other = .s) (h : r ∈ listRegs other) :
    mask q other ||| r.listBit other = mask (fun s => q s || s == r) other := by
  have hk := mask_step (q .ccr) (q .a) (q .b) (q .dpr) (q .x) (q .y) (q other) (q .pcr)
  rcases ho with rfl | rfl
  all_goals
    simp only [listRegs, List.mem_cons, List.not_mem_nil, or_false] at h
    rcases h with rfl | rfl | rfl | rfl | rfl | rfl | rfl | rfl
    · exact hk 0
    · exact hk 1
    · exact hk 2
    · exact hk 3
    · exact hk 4
    · exact hk 5
    · exact hk 6
    · exact hk 7

theorem mask_list {other : R} (ho : other = .u ∨ other = .s) : ∀ (rs : List R) (q : R → Bool), (∀ r ∈ rs, r ∈ listRegs other) →
    rs.foldl (fun b r => b ||| r.listBit other) (mask q other) = mask (fun s => q s || rs.contains s) other
  | [], q, _ => by simp [mask]
  | r :: rs, q, h => by
    rw [List.foldl_cons, mask_or ho (h r (List.mem_cons_self ..)), mask_list ho rs _ fun s hs => h s (List.mem_cons_of_mem _ hs)]
    congr 1
    funext s
    rw [List.contains_cons, Bool.or_assoc]

theorem mask_selected (q : R → Bool) (other : R) :
    mask q other < 256 ∧ selected (mask q other) (listRegs other) = (listRegs other).filter q := by
  unfold mask
  simp only [listRegs, List.filter]
  generalize q .ccr = c
  generalize q .a = a
  generalize q .b = b
  generalize q .dpr = d
  generalize q .x = x
  generalize q .y = y
  generalize q other = o
  generalize q .pcr = p
  cases c <;> cases a <;> cases b <;> cases d <;> cases x <;> cases y <;> cases o <;> cases p <;> exact ⟨by decide, rfl⟩

theorem list_post {other : R} (ho : other = .u ∨ other = .s) {rs : List R} (h : ∀ r ∈ rs, r ∈ listRegs other) :
    rs.foldl (fun b r => b ||| r.listBit other) 0 < 256 ∧
    selected (rs.foldl (fun b r => b ||| r.listBit other) 0) (listRegs other) = (listRegs other).filter rs.contains := by
  have h0 := mask_list ho rs (fun _ => false) h
  rw [show mask (fun _ => false) other = 0 from rfl] at h0
  rw [h0]
  obtain ⟨h1, h2⟩ := mask_selected (fun s => false || rs.contains s) other
  exact ⟨h1, h2.trans (by simp only [Bool.false_or])⟩

theorem becomes_list {other : R} (ho : other = .u ∨ other = .s) {rs : List R} (h : takes m (.list other) = true)
    (hu : other = .s → takes m (.list .u) = false) (hrs : ∀ r ∈ rs, r ∈ listRegs other) (he : EndOfLine rest) :
    Becomes C dp m (.list rs) rest := by
  obtain ⟨bs, hc⟩ := takes_code h
  obtain ⟨hp, hsel⟩ := list_post ho hrs
  have hhead : (commaList rs ++ rest).head? ≠ some (.other 35) := by
    match rs with
    | [] =>
      intro h
      have := he _ h
      cases this
    | [r] => exact fun h => reg_not 35 (by decide) (Option.some.inj h)
    | r :: _ :: _ => exact fun h => reg_not 35 (by decide) (Option.some.inj h)
  have hbytes (fm : FMath) (now : Nat → ASym) (ρ : Den) (pc n : Int) : ((bytesAt fm now {ρ with pc := pc}
      [.const 1 (rs.foldl (fun b r => b ||| r.listBit other) 0)]).bind fun ob => operand n (.list other) ob).map (Arg.at dp) =
        some (.list ((listRegs other).filter rs.contains)) := by
    rw [bytes_const fm now _ hp]
    show Option.map _ (some (Arg.list (selected _ (listRegs other)))) = _
    rw [hsel]
    rfl
  have hall : rs.all (listRegs other).contains = true := List.all_eq_true.2 fun r hr => List.contains_iff_mem.2 (hrs r hr)
  have hmean (v : Option Int) (pc : Int) : meaning m (.list rs) v dp pc = some (.list ((listRegs other).filter rs.contains)) := by
    show (if takes m (.list .u) = true then meaning.inList .u rs else if takes m (.list .s) = true then meaning.inList .s rs else none) = _
    rcases ho with rfl | rfl
    · rw [if_pos h]; unfold meaning.inList; rw [if_pos hall]
    · rw [if_neg (by rw [hu rfl]; decide), if_pos h]; unfold meaning.inList; rw [if_pos hall]
  rcases ho with rfl | rfl
  · have ha : m.entry.allowed = M.imm ||| M.listU := by simpa [Fmt.allowed] using (fmt_ok hc (by decide)).1
    refine becomes_of hc (by decide) (k := M.listU) (cs := [.post]) (post := some (rs.foldl (fun b r => b ||| r.listBit .u) 0)) (e := none) ?_ (resolve_other _ _ (by decide)) (by decide) rfl he ?_
    · show addrMode C _ (commaList rs ++ rest) = _
      rw [ha, read_plain (Or.inl hhead) (Or.inr (by decide))]
      exact core_list (by decide) hrs (After.eol he)
    · intro fm now ρ _ _ _ _
      rw [hmean]
      exact hbytes fm now ρ (ρ.pc + bs.length) 0
  · have ha : m.entry.allowed = M.imm ||| M.listS := by simpa [Fmt.allowed] using (fmt_ok hc (by decide)).1
    refine becomes_of hc (by decide) (k := M.listS) (cs := [.post]) (post := some (rs.foldl (fun b r => b ||| r.listBit .s) 0)) (e := none) ?_ (resolve_other _ _ (by decide)) (by decide) rfl he ?_
    · show addrMode C _ (commaList rs ++ rest) = _
      rw [ha, read_plain (Or.inl hhead) (Or.inr (by decide))]
      exact core_list (by decide) hrs (After.eol he)
    · intro fm now ρ _ _ _ _
      rw [hmean]
      exact hbytes fm now ρ (ρ.pc + bs.length) 0

end Verif.Cpu.M6809
