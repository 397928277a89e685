import Verif.Cpu.X65.Rows

/-!
# C53: the encodings of the 6502, the 65C02 and the 65C02S
-/

namespace Verif.Cpu.X65

open Verif.Parse (Tok Toks Tree)
open Verif.Expr (Src FMath ASym Den Rng BinOp I32 u32 toI32 meaning wrap value_bin)

theorem mode_imm (am : AM) : am ≠ .imm → am.mode ≠ M.imm := by cases am <;> decide

theorem modes_mem {I : Isa} {name : String} {r : AM × Nat} (h : r ∈ I.modes name) : ∃ q ∈ I, q.1 = name := by
  unfold Isa.modes at h
  obtain ⟨q, hq, _⟩ := List.mem_flatMap.1 h
  obtain ⟨h1, h2⟩ := List.mem_filter.1 hq
  exact ⟨q, h1, eq_of_beq h2⟩

theorem row_ok {cpu : Cpu} {u : Nat} (hm : (cpu, u) ∈ machines) (syn : Bool) {name : String} {r : AM × Nat}
    (h : r ∈ (isa cpu u).modes name) : okRow cpu u syn name = true := by
  obtain ⟨q, hq, rfl⟩ := modes_mem h
  exact rows_ok (cpu, u) hm syn q hq

theorem run_known (h : Handler) (o : Opts) (k : Option Int) (base mode : Nat) (hr : h ≠ .rotate ∨ mode ≠ M.imm) :
    h.run o k base mode = h.run o none base mode := by
  cases h <;> try rfl
  rcases hr with h | h
  · exact absurd rfl h
  · simp only [Handler.run, handleRotate, if_neg h]

theorem handleToken_entry {C : Ctx} {junk : Src → Int} {o : Opts} {i : Nat} {p : Entry} (he : table[i]? = some p)
    (hc : p.cpu.includes o.cpu = true) {toks rest : Toks} {r : Am}
    (ho : operand C junk o (p.modes &&& o.allowed) p.imm toks = .ok (r, rest)) {cs : List Call}
    (hr : p.handler.run o (r.e.bind C.known) p.base r.mode = .ok (some cs)) {items : List Item} (hi : emit r cs = .ok items) :
    handleToken C junk o i toks = .ok (some (items, rest)) := by
  unfold handleToken
  generalize table = T at *
  simp only [he, if_pos hc, ho, ok_bind, hr, finish, hi]

theorem instr_entry {C : Ctx} {junk : Src → Int} {o : Opts} {name : String} {p : Entry} (he : entryOf o name = some p)
    (hc : p.cpu.includes o.cpu = true) {toks rest : Toks} {r : Am}
    (ho : operand C junk o (p.modes &&& o.allowed) p.imm toks = .ok (r, rest)) {cs : List Call}
    (hr : p.handler.run o (r.e.bind C.known) p.base r.mode = .ok (some cs)) {items : List Item} (hi : emit r cs = .ok items) :
    instr C junk o (tok o name :: toks) = .ok (some (items, rest)) := by
  unfold entryOf at he
  generalize tok o name = n at *
  split at he
  · split at he
    · rename_i hr'
      have := handleToken_entry he hc ho hr hi
      unfold instr integer
      simp only [if_pos hr']
      rw [this, ok_bind]
    · cases he
  · cases he

theorem imm_calls {C : Ctx} {p : Pre} {t : Tree} {r : Am} (hP : Parsed C .imm (.imm p t) r) {code : Nat} (hc : code < 256) :
    ∃ items, emit r [.const code, .u8 .e] = .ok items ∧ ∀ (fm : FMath) (now : Nat → ASym) (ρ : Den),
      bytesAt fm wrap now ρ items =
        (((C.src t).value fm wrap now ρ).map p.byte).bind fun v => (page v).map fun b => [code, b] := by
  obtain ⟨m, e, e2, e3, f⟩ := r
  cases (hP : e = _)
  refine ⟨[.const 1 code, .expr 1 (checkRange (p.src (C.src t)) 0 255)], rfl, fun fm now ρ => ?_⟩
  simp only [bytesAt]
  rw [value_page, value_pre, value_pc]
  show (some (code % 256 ^ 1)).bind _ = _
  cases (C.src t).value fm wrap now ρ with
  | none => rfl
  | some v =>
    simp only [Option.bind_some, Option.map_some]
    unfold page
    split
    · rename_i h
      show some [code % 256 ^ 1 % 256, (p.byte v).toNat % 256] = some [code, (p.byte v).toNat]
      rw [show code % 256 ^ 1 % 256 = code from by omega, show (p.byte v).toNat % 256 = (p.byte v).toNat from by omega]
    · rfl

/-- **C53.** On the 6502, the 65C02 and the 65C02S, an instruction and an operand become the bytes of the data sheet: the
opcode of the instruction in the mode that is meant by the operand, and the operand. Branches count from the next instruction.
There are no bytes if the operand is too large. The undocumented instructions are included, except RLA (`C53_rla`).
A value in the zero page must not be known to be outside, and `(n)` has to be known (`C53_out_of_page`, `C53_indirect_label`,
`C53_bbr_label`); the number behind `BIT` must not be negative (`C53_bit_negative`). -/
theorem C53_encode (C : Ctx) (junk : Src → Int) {o : Opts} (ho : Reach o) (hc : o.cpu.Plain) {name : String} {am : AM} {code : Nat}
    (hrow : (am, code) ∈ (isa o.cpu o.undocumented).modes name) (hrla : name ≠ "RLA")
    (x : Opnd) (hg : x.Good C) (hp : pick ((isa o.cpu o.undocumented).modes name) x.shape (x.small C) = some am)
    (hin : x.InPage C am) (rest : Toks) (he : EndOfLine rest) :
    ∃ items, instr C junk o (tok o name :: (x.toks o ++ rest)) = .ok (some (items, rest)) ∧
      ∀ (fm : FMath) (now : Nat → ASym) (ρ : Den), C.Sound fm wrap now ρ → 0 ≤ ρ.pc → ρ.pc < 16777216 →
        (name = "BIT" → am = .imm → ∀ v ∈ x.values fun t => (C.src t).value fm wrap now ρ, ∀ w ∈ v, 0 ≤ w) →
        bytesAt fm wrap now ρ items = (x.values fun t => (C.src t).value fm wrap now ρ).bind (am.bytes code ρ.pc) := by
  obtain ⟨hm, hmk⟩ := reach_mk ho hc
  generalize o.cpu = cpu at *
  generalize o.undocumented = u at *
  generalize o.synthesized = syn at *
  subst hmk
  have hok := row_ok hm syn hrow
  unfold okRow at hok
  simp only at hok
  cases hen : entryOf (mk cpu u syn) name with
  | none => rw [hen] at hok; cases hok
  | some p =>
    rw [hen] at hok
    simp only [Bool.and_eq_true, List.all_eq_true, Bool.not_eq_true'] at hok
    obtain ⟨⟨⟨hcpu, h16⟩, hsel⟩, hms⟩ := hok
    have hsel := hsel x.shape (mem_shapes _) (x.small C) (by cases x.small C <;> simp)
    rw [hp] at hsel
    obtain ⟨⟨⟨hlt, hbit⟩, hrot⟩, hrun⟩ := hms (am, code) hrow
    have hlt := of_decide_eq_true hlt
    have hrot : p.handler ≠ .rotate ∨ am.mode ≠ M.imm := by
      rcases of_decide_eq_true hrot with h | h
      · exact Or.inl h
      · right; revert h; exact mode_imm am
    have hrun : p.handler.run (mk cpu u syn) none p.base am.mode = .ok (some (rowCalls name am code)) := by
      rw [Bool.or_eq_true] at hrun
      rcases hrun with h | h
      · exact absurd (eq_of_beq h) hrla
      · exact of_decide_eq_true h
    obtain ⟨r, hop, hmode, hP⟩ := operand_reads (junk := junk) (imm := p.imm) hm hg he h16 hsel hin
    have hrun' : p.handler.run (mk cpu u syn) (r.e.bind C.known) p.base r.mode = .ok (some (rowCalls name am code)) := by
      rw [hmode, run_known _ _ _ _ _ hrot, hrun]
    by_cases hb : name = "BIT" ∧ am = .imm
    · obtain ⟨hb1, rfl⟩ := hb
      have hcalls : rowCalls name .imm code = [.const code, .u8 .e] := if_pos ⟨hb1, rfl⟩
      cases x <;> try exact False.elim hP
      rename_i pr t
      obtain ⟨items, hem, hby⟩ := imm_calls hP hlt
      refine ⟨items, instr_entry hen hcpu hop (hrun'.trans (by rw [hcalls])) hem, fun fm now ρ _ _ _ hpos => ?_⟩
      rw [hby]
      have hpos := hpos hb1 rfl
      show _ = (((C.src t).value fm wrap now ρ).map fun v => [pr.byte v]).bind _
      cases hv : (C.src t).value fm wrap now ρ with
      | none => rfl
      | some v =>
        have h0 : 0 ≤ pr.byte v := by
          refine hpos [pr.byte v] ?_ _ (List.mem_cons_self ..)
          show ((C.src t).value fm wrap now ρ).map _ = _
          rw [hv]; rfl
        simp only [Option.bind_some, Option.map_some]
        show _ = if -128 ≤ pr.byte v ∧ pr.byte v ≤ 255 then some [code, (pr.byte v % 256).toNat] else none
        unfold page
        by_cases h : pr.byte v ≤ 255
        · rw [if_pos ⟨h0, h⟩, if_pos ⟨by omega, h⟩, Option.map_some, show (pr.byte v).toNat = (pr.byte v % 256).toNat from by omega]
        · rw [if_neg (fun h' => h h'.2), if_neg (fun h' => h h'.2)]; rfl
    · have hcalls : rowCalls name am code = am.calls code := if_neg hb
      have hbit' : am = .bit ∨ am = .bitrel → code ∈ [0x0F, 0x8F, 0x07, 0x87] := by
        intro h
        rw [Bool.or_eq_true] at hbit
        rcases hbit with h' | h'
        · have := of_decide_eq_true h'; rcases h with h | h
          · exact absurd h this.1
          · exact absurd h this.2
        · exact List.contains_iff_mem.1 h'
      have hn : am = .imp ∨ am = .acc → x = .none ∨ x = .a := by
        rintro (rfl | rfl)
        all_goals
          cases x with
          | none => exact Or.inl rfl
          | a => exact Or.inr rfl
          | mem f t => cases f <;> cases hsel
          | memX f t => cases f <;> cases hsel
          | memY f t => cases f <;> cases hsel
          | _ => cases hsel
      obtain ⟨items, hem, hby⟩ := emitted hP hlt hbit' hn
      exact ⟨items, instr_entry hen hcpu hop (hrun'.trans (by rw [hcalls])) hem, fun fm now ρ hS h0 h1 _ => hby fm now ρ hS h0 h1⟩

end Verif.Cpu.X65
