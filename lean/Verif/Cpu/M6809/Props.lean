import Verif.Cpu.M6809.Values
/-!
# C60: lines of the 6809 become the instructions that they name
-/
set_option linter.constructorNameAsVariable false

namespace Verif.Cpu.M6809

open Verif.Parse (Tok Toks Tree)
open Verif.Expr (Src FMath ASym Den BinOp I32 u32 toI32 wrap)
open Verif.Cpu.X65 (EndOfLine ok_bind value_pc front)

/-- What is left out, as far as it is visible in the line: offsets from `Y`, `U` and `S` that need their own bytes, offsets that are not
known or too large, and known addresses that do not exist. -/
def Opnd.Right (C : Ctx) (dp : Option Nat) (m : Mn) : Opnd → Prop
  | .off i .no t r => ∃ v, C.known (C.src t) = some v ∧ -32768 ≤ v ∧ v ≤ 32767 ∧ (r = .x ∨ i = false ∧ -16 ≤ v ∧ v ≤ 15)
  | .off _ _ _ r => r = .x
  | .addr false .no t => takes m .ext = true → ∀ d v, dp = some d → C.known (C.src t) = some v → -32768 ≤ v ∧ v ≤ 65535
  | _ => True

/-- What is left out of the values: those that need an unsigned byte where the processor has one with sign. -/
def Opnd.Near (m : Mn) (x : Opnd) (pc v : Int) : Prop :=
  match x with
  | .addr false _ _ => takes m .rel8 = true → ¬(128 ≤ v - next m .rel8 pc 1 ∧ v - next m .rel8 pc 1 ≤ 255)
  | .off _ .lt _ _ => ¬(128 ≤ v ∧ v ≤ 255)
  | .pcr _ .lt _ => ¬(128 ≤ v - next m .idx pc 2 ∧ v - next m .idx pc 2 ≤ 255)
  | _ => True

/-- The value of the expression of an operand. -/
def Opnd.value (C : Ctx) (fm : FMath) (now : Nat → ASym) (ρ : Den) (x : Opnd) : Option Int :=
  x.tree.bind fun t => (C.src t).value fm wrap now ρ

/-- The parser accepts the line, and wherever the bytes are put, they are the instruction that is written; or there are no bytes and
the line has no meaning. -/
def Becomes (C : Ctx) (dp : Option Nat) (m : Mn) (x : Opnd) (rest : Toks) : Prop :=
  ∃ done items, instr C dp (m.tok :: (x.toks ++ rest)) = .ok ⟨done, items, dp, rest⟩ ∧
    ∀ fm now ρ, C.Sound fm wrap now ρ → 0 ≤ ρ.pc → ρ.pc < 16777216 → (∀ v, x.value C fm now ρ = some v → x.Near m ρ.pc v) →
      ((bytesAt fm now ρ items).bind (decode ρ.pc)).map (Ins.at dp) =
        (meaning m x (x.value C fm now ρ) dp ρ.pc).map (⟨.mn m, ·⟩)

variable {C : Ctx} {dp : Option Nat} {m : Mn} {x : Opnd} {rest : Toks}

/-! ### From the modes to the instructions -/

theorem emit_consts (am : Am) : ∀ (bs : List Nat) {cs : List Call} {is : List Item}, emit am cs = .ok is →
    emit am (bs.map .const ++ cs) = .ok (bs.map (.const 1) ++ is)
  | [], _, _, h => h
  | b :: bs, cs, is, h => by
    show Outcome.bind (Call.item am (.const b)) _ = _
    rw [show Call.item am (.const b) = .ok (.const 1 b) from rfl, ok_bind]
    show Outcome.bind (emit am (bs.map .const ++ cs)) _ = _
    rw [emit_consts am bs h, ok_bind]
    rfl

theorem directive_eol {r : Res} (h : EndOfLine r.rest) : directive C r = .ok r := by
  unfold directive
  split
  · rename_i n xs hr
    have h10 := h (.other n) (by rw [hr]; rfl)
    cases h10
    rw [if_neg (by decide)]
  · rfl

theorem instr_of {toks : Toks} {r : Res} (h : handle C dp m.entry toks = .ok r) (he : EndOfLine r.rest) :
    instr C dp (m.tok :: toks) = .ok r := by
  obtain ⟨h1, h2, h3⟩ := entry_of m
  unfold instr
  have hi : integer C dp (m.tok :: toks) = .ok r := by
    unfold Mn.tok integer
    simp only
    rw [if_pos ⟨h2, h3⟩, h1]
    exact h
  rw [hi, ok_bind]
  split
  · rfl
  · exact directive_eol he

theorem code_bytes {f : Fmt} {bs : List Nat} (hc : code m f = some bs) : bs.length ≤ 2 ∧ ∀ b ∈ bs, b < 256 := by
  refine ⟨?_, isCode_bytes (code_isCode hc)⟩
  have h := code_isCode hc
  unfold isCode at h
  split at h
  · show 1 ≤ 2; decide
  · exact Nat.le_refl 2
  · cases h

/-- A mode that has been read, what is put out for it and the bytes behind the opcode. -/
theorem becomes_of {f : Fmt} {bs : List Nat} (hc : code m f = some bs) (hf : f ∈ formats) {am : Am} {k : Nat} {post : Option Nat} {e : Option Src} {cs : List Call} {is : List Item}
    (hrd : addrMode C m.entry.allowed (x.toks ++ rest) = .ok (am, rest)) (hres : resolve C dp am = ⟨k, post, e⟩)
    (hcall : (k, cs) ∈ f.calls) (hem : emit ⟨k, post, e⟩ cs = .ok is) (he : EndOfLine rest)
    (hb : ∀ fm now ρ, C.Sound fm wrap now ρ → 0 ≤ ρ.pc → ρ.pc < 16777216 → (∀ v, x.value C fm now ρ = some v → x.Near m ρ.pc v) →
      ((bytesAt fm now {ρ with pc := ρ.pc + bs.length} is).bind fun ob => operand (next m f ρ.pc ob.length) f ob).map (Arg.at dp) =
        meaning m x (x.value C fm now ρ) dp ρ.pc) : Becomes C dp m x rest := by
  obtain ⟨_, hh, hr⟩ := fmt_ok hc hf
  have hr := hr _ hcall
  simp only at hr
  refine ⟨(m.entry.handler.run m.entry.base k).1, bs.map (.const 1) ++ is, ?_, ?_⟩
  · refine instr_of ?_ he
    unfold handle
    rw [hrd, ok_bind]
    simp only
    rw [hres, if_neg hh]
    simp only
    rw [hr, emit_consts _ bs hem, ok_bind]
  · intro fm now ρ hs h0 h1 hn
    rw [bytes_consts fm now bs ρ (code_bytes hc).2, ← hb fm now ρ hs h0 h1 hn]
    cases bytesAt fm now {ρ with pc := ρ.pc + bs.length} is with
    | none => rfl
    | some ob =>
      simp only [Option.map_some, Option.bind_some]
      rw [decode_code hc]
      cases operand (next m f ρ.pc ob.length) f ob with
      | none => rfl
      | some a => rfl

/-- Modes other than plain addresses stay what they are. -/
theorem resolve_other {k : Nat} (post : Option Nat) (e : Option Src) (h : k ≠ M.address) : resolve C dp ⟨k, post, e⟩ = ⟨k, post, e⟩ := if_neg h

theorem resolve_address (am : Am) (h : am.mode = M.address) :
    (resolve C dp am = {am with mode := M.extended}) ∨
    (resolve C dp am = {am with mode := M.direct} ∧ ∃ d v, dp = some d ∧ am.e.bind C.known = some v ∧ u32 v &&& 0xFF00 = d) := by
  unfold resolve
  rw [if_pos h]
  split
  · rename_i d v hv
    split
    · rename_i hd
      exact Or.inr ⟨rfl, d, v, rfl, hv, hd⟩
    · exact Or.inl rfl
  · exact Or.inl rfl

/-! ### The formats -/

theorem takes_code {f : Fmt} (h : takes m f = true) : ∃ bs, code m f = some bs := Option.isSome_iff_exists.1 h

theorem next_eq {f : Fmt} {bs : List Nat} (hc : code m f = some bs) (pc : Int) (n : Nat) : next m f pc n = pc + bs.length + n := by
  unfold next; rw [hc]; rfl

theorem becomes_none (h : takes m .inh = true) (he : EndOfLine rest) : Becomes C dp m .none rest := by
  obtain ⟨bs, hc⟩ := takes_code h
  have ha : m.entry.allowed = M.none := by simpa [Fmt.allowed] using (fmt_ok hc (by decide)).1
  refine becomes_of hc (by decide) (am := ⟨M.none, none, none⟩) (cs := []) (is := []) ?_ (resolve_other _ _ (by decide)) (by decide) rfl he ?_
  · show addrMode C _ rest = _
    rw [ha, read_plain (Or.inr (by decide)) (Or.inr (by decide)), core_none fun y hy => ⟨10, he y hy⟩]
  · intro fm now ρ _ _ _ _
    show _ = (if takes m .inh = true then some Arg.none else none)
    rw [if_pos h]; rfl

theorem becomes_imm {t : Tree} (hr : Readable 2 t) (h : takes m .imm8 = true ∨ takes m .imm16 = true) (he : EndOfLine rest) :
    Becomes C dp m (.imm t) rest := by
  have hrd {A : Nat} (hi : has A M.imm = true) : addrMode C A ((Opnd.imm t).toks ++ rest) = .ok (⟨M.imm, none, some (C.src t)⟩, rest) :=
    read_imm hi hr he.ends
  by_cases h8 : takes m .imm8 = true
  · obtain ⟨bs, hc⟩ := takes_code h8
    have ha : m.entry.allowed ∈ [M.p, M.imm] := (fmt_ok hc (by decide)).1
    have hi : ∀ A ∈ [M.p, M.imm], has A M.imm = true := by decide
    refine becomes_of hc (by decide) (cs := [.e8]) (hrd (hi _ ha)) (resolve_other _ _ (by decide)) (by decide) rfl he ?_
    intro fm now ρ _ _ _ _
    rw [bytes_e8, value_pc]
    show _ = (if takes m .imm8 = true then _ else _)
    rw [if_pos h8]
    show _ = ((C.src t).value fm wrap now ρ).bind _
    cases (C.src t).value fm wrap now ρ with
    | none => rfl
    | some v => simp only [Option.bind_some]; cases fit8 v <;> rfl
  · have h16 := h.resolve_left h8
    obtain ⟨bs, hc⟩ := takes_code h16
    have ha : m.entry.allowed ∈ [M.p] := (fmt_ok hc (by decide)).1
    have hi : ∀ A ∈ [M.p], has A M.imm = true := by decide
    refine becomes_of hc (by decide) (cs := [.e16]) (hrd (hi _ ha)) (resolve_other _ _ (by decide)) (by decide) rfl he ?_
    intro fm now ρ _ _ _ _
    rw [bytes_e16, value_pc]
    show _ = (if takes m .imm8 = true then _ else if takes m .imm16 = true then _ else _)
    rw [if_neg h8, if_pos h16]
    show _ = ((C.src t).value fm wrap now ρ).bind _
    cases (C.src t).value fm wrap now ρ with
    | none => rfl
    | some v =>
      simp only [Option.bind_some]
      cases fit16 v with
      | none => rfl
      | some n =>
        show some (Arg.imm (256 * (n / 256) + n % 256)) = some (.imm n)
        rw [Nat.div_add_mod]

/-- What an address is read as. -/
theorem read_addr {A : Nat} (hl : has A (M.listS ||| M.listU) = false) (f : Force) {t : Tree} (hr : Readable 2 t) (he : EndOfLine rest) :
    addrMode C A (f.toks ++ t.toks ++ rest) =
      plainMode A (decide (f = .gt)) (decide (f = .lt)) (some (C.src t)) rest (f.toks ++ (t.toks ++ rest)) := by
  rw [List.append_assoc]
  obtain ⟨y, hy, _, ho⟩ := force_front f t rest
  rw [read_plain (Or.inl (by rw [hy]; exact fun h => ho 35 (Option.some.inj h))) (Or.inl (by rw [hy]; exact fun h => ho 91 (Option.some.inj h))),
    core_addr hl hr (After.eol he)]

theorem resolve_branch (s : Src) : ∃ k, resolve C dp ⟨M.address, none, some s⟩ = ⟨k, none, some s⟩ ∧
    (k = M.extended ∨ k = M.direct) := by
  rcases resolve_address (C := C) (dp := dp) ⟨M.address, none, some s⟩ rfl with h | ⟨h, _⟩
  · exact ⟨_, h, Or.inl rfl⟩
  · exact ⟨_, h, Or.inr rfl⟩

theorem read_branch (f : Force) {t : Tree} (hr : Readable 2 t) (he : EndOfLine rest) :
    addrMode C M.address (f.toks ++ t.toks ++ rest) = .ok (⟨M.address, none, some (C.src t)⟩, rest) := by
  rw [read_addr (by decide) f hr he]
  cases f <;> rfl

theorem target_byte {n : Nat} {v nx : Int} (h : fit8 (v - nx) = some n) (hn : ¬(128 ≤ v - nx ∧ v - nx ≤ 255)) :
    near8 v nx = some (a16 (nx + s8 n)) := by
  unfold fit8 at h
  split at h
  · rename_i hr
    cases h
    unfold near8
    rw [if_pos (by omega)]
    congr 1
    unfold a16 s8
    split <;> omega
  · cases h

theorem target_byte_none {v nx : Int} (h : fit8 (v - nx) = none) : near8 v nx = none := by
  unfold fit8 at h
  split at h
  · cases h
  · unfold near8; rw [if_neg (by omega)]

theorem target_word (v nx : Int) : near16 v nx = (fit16 (v - nx)).map fun n => a16 (nx + (256 * (n / 256) + n % 256 : Nat)) := by
  unfold near16 fit16
  split
  · simp only [Option.map_some]
    congr 1
    unfold a16
    omega
  · rfl

theorem becomes_rel8 {f : Force} {t : Tree} (hr : Readable 2 t) (h : takes m .rel8 = true) (he : EndOfLine rest) :
    Becomes C dp m (.addr false f t) rest := by
  obtain ⟨bs, hc⟩ := takes_code h
  have ha : m.entry.allowed = M.address := by simpa [Fmt.allowed] using (fmt_ok hc (by decide)).1
  obtain ⟨k, hres, hm⟩ := resolve_branch (C := C) (dp := dp) (C.src t)
  have hl := (code_bytes hc).1
  refine becomes_of hc (by decide) (cs := [.rel8]) (is := [.expr 1 (checkRange (.pcRel (-1) (C.src t)) (-128) 255)])
    (am := ⟨M.address, none, some (C.src t)⟩) ?_ hres ?_ ?_ he ?_
  · rw [ha]; exact read_branch f hr he
  · rcases hm with hm | hm <;> (subst hm; decide)
  · rfl
  · intro fm now ρ _ h0 h1 hn
    rw [bytes_rel8 _ _ _ _ (by show 0 ≤ ρ.pc + _; omega) (by show ρ.pc + _ < _; omega), value_pc]
    show _ = (if takes m .rel8 = true then _ else _)
    rw [if_pos h]
    show _ = ((C.src t).value fm wrap now ρ).bind _
    have hn : ∀ v, (C.src t).value fm wrap now ρ = some v → _ := hn
    cases hv : (C.src t).value fm wrap now ρ with
    | none => rfl
    | some v =>
      have hn := hn v hv h
      simp only [Option.bind_some]
      rw [show v - (ρ.pc + bs.length + 1) = v - next m .rel8 ρ.pc 1 from by rw [next_eq hc]; rfl]
      cases hfit : fit8 (v - next m .rel8 ρ.pc 1) with
      | none => rw [target_byte_none hfit]; rfl
      | some n => rw [target_byte hfit hn]; rfl

theorem becomes_rel16 {f : Force} {t : Tree} (hr : Readable 2 t) (h : takes m .rel16 = true) (h8 : takes m .rel8 = false)
    (he : EndOfLine rest) : Becomes C dp m (.addr false f t) rest := by
  obtain ⟨bs, hc⟩ := takes_code h
  have ha : m.entry.allowed = M.address := by simpa [Fmt.allowed] using (fmt_ok hc (by decide)).1
  obtain ⟨k, hres, hm⟩ := resolve_branch (C := C) (dp := dp) (C.src t)
  have hl := (code_bytes hc).1
  refine becomes_of hc (by decide) (cs := [.rel16]) (is := [.expr 2 (checkRange (.pcRel (-2) (C.src t)) (-32768) 65535)])
    (am := ⟨M.address, none, some (C.src t)⟩) ?_ hres ?_ ?_ he ?_
  · rw [ha]; exact read_branch f hr he
  · rcases hm with hm | hm <;> (subst hm; decide)
  · rfl
  · intro fm now ρ _ h0 h1 _
    rw [bytes_rel16 _ _ _ _ (by show 0 ≤ ρ.pc + _; omega) (by show ρ.pc + _ < _; omega), value_pc]
    show _ = (if takes m .rel8 = true then _ else if takes m .rel16 = true then _ else _)
    rw [if_neg (by rw [h8]; decide), if_pos h]
    show _ = ((C.src t).value fm wrap now ρ).bind _
    cases hv : (C.src t).value fm wrap now ρ with
    | none => rfl
    | some v =>
      simp only [Option.bind_some]
      rw [show v - (ρ.pc + bs.length + 2) = v - next m .rel16 ρ.pc 2 from by rw [next_eq hc]; rfl, target_word]
      cases fit16 (v - next m .rel16 ρ.pc 2) <;> rfl

theorem and_page {v : Int} {d : Nat} (h : u32 v &&& 0xFF00 = d) : d + (v % 256).toNat = a16 v := by
  have h1 := X65.and_ff00 (u32 v)
  have h2 : (u32 v &&& 0xFF00) % 256 = 0 := by
    have := Nat.and_mod_two_pow (a := u32 v) (b := 0xFF00) (n := 8)
    simpa using this
  rw [h] at h1 h2
  unfold a16
  unfold u32 at h1
  omega

theorem becomes_ext {f : Force} {t : Tree} (hr : Readable 2 t) (h : takes m .ext = true) (h8 : takes m .rel8 = false)
    (h16 : takes m .rel16 = false) (hright : (Opnd.addr false f t).Right C dp m) (he : EndOfLine rest) :
    Becomes C dp m (.addr false f t) rest := by
  obtain ⟨bs, hc⟩ := takes_code h
  obtain ⟨bs', hc'⟩ := takes_code ((dir_ext m).trans h)
  have ha : m.entry.allowed ∈ [M.p, M.q] := (fmt_ok hc (by decide)).1
  have hl : ∀ A ∈ [M.p, M.q], has A (M.listS ||| M.listU) = false := by decide
  have hmean (v : Option Int) (pc : Int) : meaning m (.addr false f t) v dp pc =
      if f = .lt then v.map fun v => .mem false ((Ea.dir (v % 256).toNat).at dp)
      else v.bind fun v => (fit16 v).map fun n => .mem false (.addr n) := by
    show (if takes m .rel8 = true then _ else if takes m .rel16 = true then _ else if takes m .ext = true then _ else _) = _
    rw [if_neg (by rw [h8]; decide), if_neg (by rw [h16]; decide), if_pos h]
  have hbytes (fm : FMath) (now : Nat → ASym) (ρ : Den) (hf : f ≠ .lt) :
      ((bytesAt fm now {ρ with pc := ρ.pc + bs.length} [.expr 2 (checkRange (C.src t) (-32768) 65535)]).bind fun ob =>
        operand (next m .ext ρ.pc ob.length) .ext ob).map (Arg.at dp) =
        meaning m (.addr false f t) ((Opnd.addr false f t).value C fm now ρ) dp ρ.pc := by
    rw [hmean, if_neg hf, bytes_e16, value_pc]
    show _ = ((C.src t).value fm wrap now ρ).bind _
    cases (C.src t).value fm wrap now ρ with
    | none => rfl
    | some v =>
      simp only [Option.bind_some]
      cases fit16 v with
      | none => rfl
      | some n =>
        show some (Arg.mem false (.addr (256 * (n / 256) + n % 256))) = some (.mem false (.addr n))
        rw [Nat.div_add_mod]
  have hread := fun (A : Nat) (hA : A ∈ [M.p, M.q]) => read_addr (C := C) (rest := rest) (hl A hA) f hr he
  cases f with
  | gt =>
    refine becomes_of hc (by decide) (cs := [.e16]) (am := ⟨M.extended, none, some (C.src t)⟩) ?_ (resolve_other _ _ (by decide)) (by decide)
      rfl he fun fm now ρ _ _ _ _ => hbytes fm now ρ (by decide)
    refine (hread _ ha).trans ?_
    revert ha
    generalize m.entry.allowed = A
    intro ha
    simp only [List.mem_cons, List.not_mem_nil, or_false] at ha
    rcases ha with rfl | rfl <;> rfl
  | lt =>
    refine becomes_of hc' (by decide) (cs := [.low8]) (am := ⟨M.direct, none, some (C.src t)⟩) ?_ (resolve_other _ _ (by decide)) (by decide)
      rfl he ?_
    · refine (hread _ ha).trans ?_
      revert ha
      generalize m.entry.allowed = A
      intro ha
      simp only [List.mem_cons, List.not_mem_nil, or_false] at ha
      rcases ha with rfl | rfl <;> rfl
    · intro fm now ρ _ _ _ _
      rw [hmean, if_pos rfl, bytes_low8, value_pc]
      show _ = ((C.src t).value fm wrap now ρ).map _
      cases (C.src t).value fm wrap now ρ <;> rfl
  | no =>
    have hrd : addrMode C m.entry.allowed ((Opnd.addr false .no t).toks ++ rest) = .ok (⟨M.address, none, some (C.src t)⟩, rest) := by
      refine (hread _ ha).trans ?_
      revert ha
      generalize m.entry.allowed = A
      intro ha
      simp only [List.mem_cons, List.not_mem_nil, or_false] at ha
      rcases ha with rfl | rfl <;> rfl
    rcases resolve_address (C := C) (dp := dp) ⟨M.address, none, some (C.src t)⟩ rfl with hres | ⟨hres, d, v, hd, hv, hvd⟩
    · exact becomes_of hc (by decide) (cs := [.e16]) hrd hres (by decide) rfl he fun fm now ρ _ _ _ _ => hbytes fm now ρ (by decide)
    · refine becomes_of hc' (by decide) (cs := [.low8]) hrd hres (by decide) rfl he ?_
      intro fm now ρ hs _ _ _
      have hv : C.known (C.src t) = some v := hv
      have hval := hs _ _ hv
      rw [hmean, if_neg (by decide), bytes_low8, value_pc]
      show _ = ((C.src t).value fm wrap now ρ).bind _
      rw [hval]
      simp only [Option.map_some, Option.bind_some]
      unfold fit16
      rw [if_pos (hright h d v hd hv), ← and_page hvd, hd]
      rfl

end Verif.Cpu.M6809
