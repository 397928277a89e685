import Verif.Cpu.X65.Props
/-!
# C53: instructions of other processors, and where the encodings are wrong
-/
namespace Verif.Cpu.X65

open Verif.Parse (Tok Toks Tree)
open Verif.Expr (Src FMath ASym Den Rng BinOp I32 u32 toI32 meaning wrap value_bin)

/-! ### Instructions of other processors -/

/-- The instructions that the 65C816 adds to those of the 65C02. -/
def names65816 : List String :=
  ["BRL", "COP", "JML", "JSL", "MVN", "MVP", "PEA", "PEI", "PER", "PHB", "PHD", "PHK", "PLB", "PLD", "REP", "RTL", "SEP", "TCD",
   "TCS", "TDC", "TSC", "TXY", "TYX", "WDM", "XBA", "XCE"]

/-- The instructions of the greater processors. -/
def greater : List String := (isa65C02 ++ isa65C02S).map (·.1) ++ names65816

/-- An instruction is refused by its entry, or by the parser for the 65C816. -/
def refused (o : Opts) (name : String) : Bool :=
  match tok o name with
  | .other n =>
    if T.adc.num ≤ n ∧ n ≤ T.smb7.num then (table[n - T.adc.num]?).any fun p => !p.cpu.includes o.cpu
    else decide (T.brl.num ≤ n ∧ n ≤ T.xce.num ∧ o.cpu ≠ .c65816)
  | _ => false

theorem refused_ok : ∀ p ∈ machines, ∀ syn : Bool, ∀ name ∈ greater,
    (!(isa p.1 p.2).modes name == [] || (p.1 == .c65C02 && (name == "STP" || name == "WAI")) || refused (mk p.1 p.2 syn) name) = true := by
  decide +kernel

theorem handleToken_refused {C : Ctx} {junk : Src → Int} {o : Opts} {i : Nat} (h : (table[i]?).any (fun p => !p.cpu.includes o.cpu) = true)
    (toks : Toks) : handleToken C junk o i toks = .fail := by
  unfold handleToken
  generalize table = tab at *
  cases ht : tab[i]? with
  | none => rw [ht] at h; cases h
  | some p =>
    rw [ht] at h
    simp only [Option.any_some, Bool.not_eq_true'] at h
    simp only [h, Bool.false_eq_true, if_false]

theorem fail_bind {α β : Type} (f : α → Outcome β) : (Outcome.fail : Outcome α).bind f = .fail := rfl

theorem instr816_refused {C : Ctx} {junk : Src → Int} {o : Opts} {n : Nat} (h1 : T.brl.num ≤ n) (h2 : n ≤ T.xce.num)
    (h3 : o.cpu ≠ .c65816) (toks : Toks) : instr816 C junk o (.other n :: toks) = .fail := by
  rw [instr816]
  generalize T.brl.num = b at *
  generalize T.xce.num = x at *
  generalize table816[n - b]? = e
  rw [if_pos ⟨h1, h2⟩, if_neg h3]

theorem instr_refused {C : Ctx} {junk : Src → Int} {o : Opts} {name : String} (h : refused o name = true) (toks : Toks) :
    instr C junk o (tok o name :: toks) = .fail := by
  unfold refused at h
  generalize tok o name = x at *
  split at h
  · rename_i n
    split at h
    · rename_i hr
      unfold instr integer
      simp only [if_pos hr]
      rw [handleToken_refused h, fail_bind]
    · rename_i hr
      obtain ⟨h1, h2, h3⟩ := of_decide_eq_true h
      unfold instr integer
      simp only [if_neg hr, ok_bind]
      rw [instr816_refused h1 h2 h3, fail_bind]
  · cases h

/-- **C53.** The instructions that another processor adds are refused on a processor that does not have them, whatever stands
behind them; except `STP` and `WAI` on the 65C02 (`C53_stp`). -/
theorem C53_wrong_cpu (C : Ctx) (junk : Src → Int) {o : Opts} (ho : Reach o) (hc : o.cpu.Plain) {name : String} (hn : name ∈ greater)
    (hm : (isa o.cpu o.undocumented).modes name = []) (hs : o.cpu = .c65C02 → name ≠ "STP" ∧ name ≠ "WAI") (toks : Toks) :
    instr C junk o (tok o name :: toks) = .fail := by
  obtain ⟨hm', hmk⟩ := reach_mk ho hc
  have h := refused_ok _ hm' o.synthesized name hn
  simp only [Bool.or_eq_true] at h
  rcases h with (h | h) | h
  · rw [hm] at h; cases h
  · simp only [Bool.and_eq_true, Bool.or_eq_true] at h
    have := hs (eq_of_beq h.1)
    rcases h.2 with h | h
    · exact absurd (eq_of_beq h) this.1
    · exact absurd (eq_of_beq h) this.2
  · rw [← hmk] at h
    exact instr_refused h toks

/-! ### The code determines the instruction -/

/-- Other names for the same instruction and mode. -/
def synonyms : List ((String × AM) × (String × AM)) :=
  [(("BCC", .rel), ("BLT", .rel)), (("BCS", .rel), ("BGE", .rel)), (("BRK", .imp), ("BRK", .imm)), (("DEC", .acc), ("DEA", .imp)),
   (("INC", .acc), ("INA", .imp)), (("BBR", .bitrel), ("BBR0", .zprel)), (("BBS", .bitrel), ("BBS0", .zprel)),
   (("RMB", .bit), ("RMB0", .zp)), (("SMB", .bit), ("SMB0", .zp))]

/-- Instructions, modes and codes. -/
def Isa.rows (I : Isa) : List ((String × AM) × Nat) := I.flatMap fun (n, ms) => ms.map fun (am, c) => ((n, am), c)

theorem Isa.mem_rows {I : Isa} {name : String} {am : AM} {code : Nat} (h : (am, code) ∈ I.modes name) : ((name, am), code) ∈ I.rows := by
  unfold Isa.modes at h
  obtain ⟨q, hq, hm⟩ := List.mem_flatMap.1 h
  obtain ⟨h1, h2⟩ := List.mem_filter.1 hq
  cases eq_of_beq h2
  exact List.mem_flatMap.2 ⟨q, h1, List.mem_map.2 ⟨(am, code), hm, rfl⟩⟩

theorem rows_distinct : (machines.all fun p => (isa p.1 p.2).rows.all fun r => (isa p.1 p.2).rows.all fun s =>
    r.2 != s.2 || decide (r.1 = s.1 ∨ (r.1, s.1) ∈ synonyms ∨ (s.1, r.1) ∈ synonyms)) = true := by decide +kernel

/-- **C53.** No two instructions have the same code, except for other names of the same instruction. So the bytes of `C53_encode`
say which instruction was written. -/
theorem C53_distinct {cpu : Cpu} {u : Nat} (hm : (cpu, u) ∈ machines) {name name' : String} {am am' : AM} {code : Nat}
    (h : (am, code) ∈ (isa cpu u).modes name) (h' : (am', code) ∈ (isa cpu u).modes name') :
    (name, am) = (name', am') ∨ ((name, am), (name', am')) ∈ synonyms ∨ ((name', am'), (name, am)) ∈ synonyms := by
  have := List.all_eq_true.1 (List.all_eq_true.1 (List.all_eq_true.1 rows_distinct _ hm) _ (Isa.mem_rows h)) _ (Isa.mem_rows h')
  simpa using this

/-! ### Wrong encodings -/

/-- Numbers and differences of numbers are known. -/
abbrev numbers : Ctx := ⟨fun _ => 0, 0, fun | .num v => some v | .bin .sub (.num a) (.num b) => some (a - b) | _ => none⟩

/-- The processors without special options. -/
abbrev p6502 : Opts := mk .c6502 0 false
abbrev p65C02 : Opts := mk .c65C02 0 false
abbrev p65C02S : Opts := mk .c65C02S 0 false

/-- **C53, negation.** The 65C02 does not have `STP` and `WAI`, but they are assembled. -/
theorem C53_stp (C : Ctx) (junk : Src → Int) :
    (isa .c65C02 0).modes "STP" = [] ∧ (isa .c65C02 0).modes "WAI" = [] ∧
    instr C junk p65C02 [tok p65C02 "STP"] = .ok (some ([.const 1 0xDB], [])) ∧
    instr C junk p65C02 [tok p65C02 "WAI"] = .ok (some ([.const 1 0xCB], [])) :=
  ⟨by decide +kernel, by decide +kernel, rfl, rfl⟩

/-- **C53, negation.** `RLA` is assembled as `SRE`: every mode has the code of `SRE`. Below: `RLA $12` is 27 12, but 47 12 is
put out. -/
theorem C53_rla (C : Ctx) (junk : Src → Int) {o : Opts} (ho : Reach o) (hc : o.cpu = .c6502) (hu : o.undocumented ≠ 0) {am : AM} {code : Nat}
    (hrow : (am, code) ∈ seven 0x47 0x57 0x4F 0x5F 0x5B 0x43 0x53)
    (x : Opnd) (hg : x.Good C) (hp : pick ((isa o.cpu o.undocumented).modes "RLA") x.shape (x.small C) = some am)
    (hin : x.InPage C am) (rest : Toks) (he : EndOfLine rest) :
    ∃ items, instr C junk o (tok o "RLA" :: (x.toks o ++ rest)) = .ok (some (items, rest)) ∧
      ∀ (fm : FMath) (now : Nat → ASym) (ρ : Den), C.Sound fm wrap now ρ → 0 ≤ ρ.pc → ρ.pc < 16777216 →
        bytesAt fm wrap now ρ items = (x.values fun t => (C.src t).value fm wrap now ρ).bind (am.bytes code ρ.pc) := by
  obtain ⟨hm, hmk⟩ := reach_mk ho (Or.inl hc)
  generalize o.cpu = cpu at *
  generalize o.undocumented = u at *
  generalize o.synthesized = syn at *
  subst hmk hc
  have hu' : u = 1 ∨ u = 2 ∨ u = 3 := by
    simp only [machines, List.mem_cons, Prod.mk.injEq, List.not_mem_nil, or_false] at hm
    omega
  have key : ∀ u ∈ [1, 2, 3], ∀ syn : Bool, ∀ r ∈ seven 0x47 0x57 0x4F 0x5F 0x5B 0x43 0x53,
      ((entryOf (mk .c6502 u syn) "RLA").any fun p => p.cpu.includes .c6502 && !p.imm.is16 (mk .c6502 u syn) &&
        (shapes.all fun s => [false, true].all fun sm =>
          match pick ((isa .c6502 u).modes "RLA") s sm with
          | none => true
          | some am => sel (p.modes &&& (mk .c6502 u syn).allowed) s sm am) &&
        decide (p.handler ≠ .rotate) &&
        decide (r.1 ≠ .bit ∧ r.1 ≠ .bitrel ∧ r.1 ≠ .imp ∧ r.1 ≠ .acc ∧ r.2 < 256) &&
        decide (p.handler.run (mk .c6502 u syn) none p.base r.1.mode = .ok (some (r.1.calls r.2)))) = true := by
    decide +kernel
  have key := key u (by rcases hu' with rfl | rfl | rfl <;> decide) syn _ hrow
  cases hen : entryOf (mk .c6502 u syn) "RLA" with
  | none => rw [hen] at key; cases key
  | some p =>
    rw [hen] at key
    simp only [Option.any_some, Bool.and_eq_true, List.all_eq_true, Bool.not_eq_true', decide_eq_true_eq] at key
    obtain ⟨⟨⟨⟨⟨hcpu, h16⟩, hsel⟩, hrot⟩, hk⟩, hrun⟩ := key
    have hsel := hsel x.shape (mem_shapes _) (x.small C) (by cases x.small C <;> simp)
    rw [hp] at hsel
    obtain ⟨r, hop, hmode, hP⟩ := operand_reads (junk := junk) (imm := p.imm) hm hg he h16 hsel hin
    have hrun' : p.handler.run (mk .c6502 u syn) (r.e.bind C.known) p.base r.mode = .ok (some (am.calls code)) := by
      rw [hmode, run_known _ _ _ _ _ (Or.inl hrot), hrun]
    obtain ⟨items, hem, hby⟩ := emitted hP hk.2.2.2.2 (fun h => by rcases h with h | h <;> simp [h] at hk)
      (fun h => by rcases h with h | h <;> simp [h] at hk)
    exact ⟨items, instr_entry hen hcpu hop hrun' hem, hby⟩

example : (isa .c6502 1).modes "RLA" = seven 0x27 0x37 0x2F 0x3F 0x3B 0x23 0x33 ∧
    instr numbers (fun _ => 0) (mk .c6502 1 false) [tok (mk .c6502 1 false) "RLA", .num 0x12] =
      instr numbers (fun _ => 0) (mk .c6502 1 false) [tok (mk .c6502 1 false) "SRE", .num 0x12] := by decide +kernel

/-- **C53, negation.** The 65C02 has `LDA (n)`, but it is refused if the address is a label. -/
theorem C53_indirect_label :
    pick ((isa .c65C02 0).modes "LDA") .ind false = some .izp ∧
    instr numbers (fun _ => 0) p65C02 [tok p65C02 "LDA", .lp, .sym ['l'], .rp] = .fail ∧
    (instr numbers (fun _ => 0) p65C02 [tok p65C02 "LDA", .lp, .num 0x12, .rp]).bind (fun r => .ok (r.map (·.2))) = .ok (some []) :=
  ⟨by decide +kernel, by decide +kernel, by decide +kernel⟩

/-- **C53, negation.** Whether `BBR 3,label,target` is assembled depends on memory that is not set: the value of the label, which
is not known. -/
theorem C53_bbr_label :
    instr numbers (fun _ => 0x100) p65C02S [tok p65C02S "BBR", .num 3, .comma, .sym ['l'], .comma, .num 0x10] = .fail ∧
    (instr numbers (fun _ => 0) p65C02S [tok p65C02S "BBR", .num 3, .comma, .sym ['l'], .comma, .num 0x10]).bind
      (fun r => .ok (r.map (·.2))) = .ok (some []) :=
  ⟨by decide +kernel, by decide +kernel⟩

/-- **C53, negation.** `BIT #-1` has no bytes, although `LDA #-1` has. -/
theorem C53_bit_negative (fm : FMath) (now : Nat → ASym) (ρ : Den) :
    ∃ a b, instr numbers (fun _ => 0) p65C02 [tok p65C02 "BIT", .other 35, .op .sub, .num 1] = .ok (some (a, [])) ∧
      instr numbers (fun _ => 0) p65C02 [tok p65C02 "LDA", .other 35, .op .sub, .num 1] = .ok (some (b, [])) ∧
      bytesAt fm wrap now ρ a = none ∧ bytesAt fm wrap now ρ b = some [0xA9, 0xFF] :=
  ⟨[.const 1 0x89, .expr 1 (checkRange (.bin .sub (.num 0) (.num 1)) 0 255)],
   [.const 1 0xA9, .expr 1 (.bin .and (checkRange (.bin .sub (.num 0) (.num 1)) (-128) 255) (.num 0xFF))], by decide +kernel, by decide +kernel, rfl, by
    show ((some 0xA9 : Option Nat).bind fun c => (bytesAt fm wrap now _ _).map fun bs => le 1 c ++ bs) = _
    rw [bytesAt, code_su8]; rfl⟩

/-- **C53, negation.** The synthesized `ASL #n` is `n` times `ASL`; if `n` is negative it is nothing, without a message. -/
theorem C53_shift_negative (junk : Src → Int) :
    instr numbers junk (mk .c6502 0 true) [tok (mk .c6502 0 true) "ASL", .other 35, .num 3] =
      .ok (some ([.const 1 0x0A, .const 1 0x0A, .const 1 0x0A], [])) ∧
    instr numbers junk (mk .c6502 0 true) [tok (mk .c6502 0 true) "ASL", .other 35, .op .sub, .num 1] = .ok (some ([], [])) :=
  ⟨rfl, rfl⟩

/-- **C53, negation.** A `<` asks for the zero page. If the instruction has no such mode, it is ignored: `LDA <n,Y` is
`LDA n,Y` with a range check. -/
theorem C53_force_ignored :
    pick ((isa .c6502 0).modes "LDA") (.memY true) true = none ∧
    instr numbers (fun _ => 0) p6502 [tok p6502 "LDA", .op .lt, .num 0x12, .comma, tok p6502 "Y"] =
      .ok (some ([.const 1 0xB9, .expr 2 (.bin .and (checkRange (checkRange (.num 0x12) 0 255) 0 0xFFFF) (.num 0xFFFF))], [])) := by
  decide +kernel

/-- A known address outside the zero page is refused where only the zero page is possible. -/
theorem C53_out_of_page (junk : Src → Int) :
    instr numbers junk p6502 [tok p6502 "LDA", .lp, .num 0x100, .rp, .comma, tok p6502 "Y"] = .fail ∧
    instr numbers junk p6502 [tok p6502 "LDA", .lp, .num 0x100, .comma, tok p6502 "X", .rp] = .fail ∧
    instr numbers junk p65C02 [tok p65C02 "LDA", .lp, .num 0x100, .rp] = .fail ∧
    instr numbers junk p65C02S [tok p65C02S "BBR", .num 3, .comma, .num 0x100, .comma, .num 0x10] = .fail :=
  ⟨rfl, rfl, rfl, rfl⟩

/-! ### Examples -/

/-- `LDA $12,X` with `$12` known, and `BNE` to a label. -/
example : (am : AM) → am = .zpx → (Opnd.memX false (.num 0x12)).Good numbers ∧ (Opnd.memX false (.num 0x12)).InPage numbers am ∧
    pick ((isa .c6502 0).modes "LDA") (Opnd.memX false (.num 0x12)).shape ((Opnd.memX false (.num 0x12)).small numbers) = some am := by
  rintro _ rfl
  exact ⟨⟨fun t h => by cases List.mem_singleton.1 h; exact ⟨by simp [Tree.Fits], by simp [Tree.Nots], rfl, by simp [Tree.Short], Or.inl (by simp [Tree.Plain])⟩,
    ⟨by decide, by decide⟩⟩, trivial, by decide +kernel⟩

example : Reach p6502 ∧ p6502.cpu.Plain := ⟨.start, Or.inl rfl⟩

example : (AM.zpx, 0xB5) ∈ (isa .c6502 0).modes "LDA" ∧ AM.zpx.bytes 0xB5 0x1000 [0x12] = some [0xB5, 0x12] ∧
    (AM.rel, 0xD0) ∈ (isa .c6502 0).modes "BNE" ∧ AM.rel.bytes 0xD0 0x1000 [0x1000] = some [0xD0, 0xFE] ∧
    AM.rel.bytes 0xD0 0x1000 [0x1082] = none := by decide +kernel

example : instr numbers (fun _ => 0) p6502 [tok p6502 "LDA", .num 0x12, .comma, tok p6502 "X"] =
    .ok (some ([.const 1 0xB5, .expr 1 (checkRange (.bin .and (.num 0x12) (.num 0xFF)) 0 255)], [])) := by decide +kernel

example (toks : Toks) : instr numbers (fun _ => 0) p6502 (tok p6502 "STZ" :: toks) = .fail :=
  C53_wrong_cpu _ _ .start (Or.inl rfl) (by decide) (by decide +kernel) (fun h => by cases h) toks

end Verif.Cpu.X65
