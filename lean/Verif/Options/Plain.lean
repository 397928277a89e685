import Verif.Options.Limits
import Verif.Cpu.X65.Rows
/-!
# C64 and C53: a source that causes no message has options for which the instructions are specified

At the end, the coprocessors and groups of the 680x0.
-/
namespace Verif.Options

open Verif.Cpu

variable {M E D : Type}

/-- An option belongs to the processor, or leaves what belongs to it; messages stay. -/
theorem parse_cases {cfg : Cfg M E D} {lib : Lib} {t : List Char} {s s' : State M E} (h : parse cfg lib t s = .ok s') :
    s'.saved = s.saved ∧ ((s'.cur.machine = s.cur.machine ∧ (s'.messages = [] → s.messages = [])) ∨
      ∃ t, s'.cur.machine = (cfg.parse lib t (s.cur.machine, s.cur.pixels)).1 ∧
        s'.messages = given s.cur.disabled (cfg.parse lib t (s.cur.machine, s.cur.pixels)).2.2 ++ s.messages) := by
  have hw : ∀ n, ((warn n s).messages = [] → s.messages = []) := by
    intro n
    unfold warn
    split
    · exact id
    · exact fun h => by cases h
  have key : ∀ o : Option (Opts M), (∀ o', o = some o' → o'.machine = s.cur.machine) → apply o s = s' →
      s'.saved = s.saved ∧ ((s'.cur.machine = s.cur.machine ∧ (s'.messages = [] → s.messages = [])) ∨
        ∃ t, s'.cur.machine = (cfg.parse lib t (s.cur.machine, s.cur.pixels)).1 ∧
          s'.messages = given s.cur.disabled (cfg.parse lib t (s.cur.machine, s.cur.pixels)).2.2 ++ s.messages) := by
    intro o ho e
    obtain ⟨h1, h2, -, -⟩ := apply_same o s ho
    subst e
    refine ⟨h2, .inl ⟨h1, ?_⟩⟩
    cases o with
    | none => exact hw _
    | some o => exact id
  unfold parse at h
  split at h
  · refine key _ (fun o' e => ?_) (Outcome.ok.inj h)
    obtain ⟨n, -, rfl⟩ := Option.map_eq_some_iff.1 e
    rfl
  · refine key _ (fun o' e => ?_) (Outcome.ok.inj h)
    unfold binary at e
    split at e
    · cases e; rfl
    · cases e
  · refine key _ (fun o' e => ?_) (Outcome.ok.inj h)
    unfold endianness at e
    split at e <;> cases e <;> rfl
  · cases h; exact ⟨rfl, .inl ⟨rfl, id⟩⟩
  · unfold addPath at h
    split at h
    · cases h
    · cases h; exact ⟨rfl, .inl ⟨rfl, id⟩⟩
  · cases h; exact ⟨rfl, .inr ⟨_, rfl, rfl⟩⟩
  · refine key _ (fun o' e => ?_) (Outcome.ok.inj h)
    unfold disable at e
    split at e
    · obtain ⟨n, -, rfl⟩ := Option.map_eq_some_iff.1 e
      rfl
    · cases e
  · rename_i t
    generalize hf : fill lib t s.cur = r at h
    cases r with
    | ok o =>
      refine key o (fun o' e => ?_) (Outcome.ok.inj h)
      subst e
      unfold fill at hf
      split at hf
      · split at hf
        · cases hf; rfl
        · split at hf
          · cases hf; rfl
          · cases hf
      · cases hf
    | fail => cases h
    | ub => cases h
  · cases h
    obtain ⟨h1, h2, -, -⟩ := warn_same warnOption s
    exact ⟨h2, .inl ⟨congrArg Opts.machine h1, hw _⟩⟩

/-- What holds of the options before and after `onOptionsUpdated`. -/
structure Half (o : X65.Opts) : Prop where
  allowed : o.allowed = o.cpu.allowed
  small : o.cpu ≠ .c65816 → o.m16 = false ∧ o.x16 = false
  undoc : o.undocumented ≤ 3 ∧ (o.cpu ≠ .c6502 → o.undocumented = 0)

theorem check_nil {o : X65.Opts} (h : ∀ n ∈ x65Check o, n = 7) : o.cpu ≠ .c6502 → o.undocumented = 0 := by
  intro hc
  unfold x65Check at h
  split at h
  · cases h _ List.mem_cons_self
  · rename_i hn
    exact Decidable.byContradiction fun hu => hn ⟨hc, hu⟩

theorem x65Parse_half {lib : Lib} {t : List Char} {o : X65.Opts} (ho : Half o) (h : ∀ n ∈ (x65Parse lib t o).2, n = 7) :
    Half (x65Parse lib t o).1 := by
  unfold x65Parse at h ⊢
  split at h
  · exact ho
  · dsimp only at h ⊢
    split at h
    · rename_i hn
      rw [if_pos hn]
      refine ⟨ho.allowed, ho.small, ?_, fun hc => check_nil h hc⟩
      show (lib.strtol _).toNat ≤ 3
      omega
    · cases h _ List.mem_cons_self
  · dsimp only at h ⊢
    split at h
    · rename_i c hn
      exact ⟨rfl, fun hc => ⟨decide_eq_false hc, decide_eq_false hc⟩, by show 0 ≤ 3; omega, fun _ => rfl⟩
    · cases h _ List.mem_cons_self
  · split
    · exact ⟨ho.allowed, ho.small, ho.undoc⟩
    · exact ho
  · exact ho

theorem x65Directive_half {d : X65Dir} {o : X65.Opts} (ho : Half o) : Half (x65Directive d o).1 := by
  unfold x65Directive
  cases d with
  | bits a b =>
    dsimp only
    split
    · rename_i hc
      exact ⟨ho.allowed, fun h => absurd hc h, ho.undoc⟩
    · exact ho
  | setBp n =>
    dsimp only
    split
    · exact ⟨ho.allowed, ho.small, ho.undoc⟩
    · exact ho

/-- As long as there has been no message, all options, also those that are saved, belong together. -/
def Quiet (s : State X65.Opts Words) : Prop := s.messages = [] → Half s.cur.machine ∧ ∀ o ∈ s.saved, Half o.machine

theorem parse_quiet {lib : Lib} {t : List Char} {s s' : State X65.Opts Words} (hs : Quiet s) (h : parse x65 lib t s = .ok s') :
    Quiet s' := by
  obtain ⟨h1, h2⟩ := parse_cases h
  intro hm
  rcases h2 with ⟨h2, h3⟩ | ⟨t, h2, h3⟩
  · rw [h1, h2]
    exact hs (h3 hm)
  · rw [hm] at h3
    obtain ⟨h4, h5⟩ := List.append_eq_nil_iff.1 h3.symm
    obtain ⟨k1, k2⟩ := hs h5
    rw [h1, h2]
    refine ⟨x65Parse_half (lib := lib) (t := t) k1 (fun n hn => ?_), k2⟩
    have := List.filter_eq_nil_iff.1 h4 n hn
    simp only [decide_eq_true_eq, not_or] at this
    exact Decidable.not_not.1 this.1

theorem parseAll_quiet {lib : Lib} : ∀ {ts : List (List Char)} {s s' : State X65.Opts Words}, Quiet s →
    parseAll x65 lib ts s = .ok s' → Quiet s'
  | [], s, s', hs, h => by cases h; exact hs
  | t :: ts, s, s', hs, h => by
    unfold parseAll at h
    generalize hp : parse x65 lib t s = r at h
    cases r with
    | ok s₁ => exact parseAll_quiet (parse_quiet hs hp) h
    | fail => cases h
    | ub => cases h

theorem updated_quiet {s s' : State X65.Opts Words} (hs : Quiet s) (h : updated x65 s = .ok s') : Quiet s' := by
  unfold updated at h
  generalize hu : x65.updated s.cur.machine s.env = r at h
  cases r with
  | ok r =>
    cases h
    intro hm
    obtain ⟨k1, k2⟩ := hs hm
    refine ⟨?_, k2⟩
    show Half r.1
    change x65Updated _ _ = _ at hu
    unfold x65Updated at hu
    split at hu
    · cases hu; exact k1
    · generalize undefine _ _ = l at hu
      cases l with
      | ok l =>
        cases hu
        show Half (if _ then _ else _)
        split
        · exact k1
        · exact ⟨k1.allowed, k1.small, k1.undoc⟩
      | fail => cases hu
      | ub => cases hu
  | fail => cases h
  | ub => cases h

theorem step_quiet {lib : Lib} {d : Dir X65Dir} {s s' : State X65.Opts Words} (hs : Quiet s) (h : step x65 lib d s = .ok s') :
    Quiet s' := by
  cases d with
  | push =>
    cases (show Outcome.ok _ = Outcome.ok s' from h)
    intro hm
    obtain ⟨k1, k2⟩ := hs hm
    exact ⟨k1, fun o ho => (List.mem_cons.1 ho).elim (fun e => e ▸ k1) (k2 o)⟩
  | pop =>
    cases hv : s.saved with
    | nil =>
      rw [C64_empty x65 lib hv] at h
      cases h
      split
      · exact hs
      · exact fun hm => by cases hm
    | cons o os =>
      refine updated_quiet (s := {s with cur := o, saved := os}) (fun hm => ?_) (by rw [← h]; unfold step; simp only [hv])
      obtain ⟨-, k2⟩ := hs hm
      rw [hv] at k2
      exact ⟨k2 o List.mem_cons_self, fun x hx => k2 x (List.mem_cons_of_mem _ hx)⟩
  | opt ts =>
    change (parseAll x65 lib ts s).bind (updated x65) = _ at h
    generalize hp : parseAll x65 lib ts s = r at h
    cases r with
    | ok s₁ => exact updated_quiet (parseAll_quiet hs hp) h
    | fail => cases h
    | ub => cases h
  | machine d =>
    cases (show Outcome.ok _ = Outcome.ok s' from h)
    intro hm
    obtain ⟨k1, k2⟩ := hs (List.append_eq_nil_iff.1 hm).2
    exact ⟨x65Directive_half k1, k2⟩

theorem run_quiet {lib : Lib} : ∀ {ds : List (Dir X65Dir)} {s s' : State X65.Opts Words}, Quiet s → run x65 lib ds s = .ok s' →
    Quiet s'
  | [], s, s', hs, h => by cases h; exact hs
  | d :: ds, s, s', hs, h => by
    unfold run at h
    generalize hp : step x65 lib d s = r at h
    cases r with
    | ok s₁ => exact run_quiet (step_quiet hs hp) h
    | fail => cases h
    | ub => cases h

/-- The options of the specified processors can all be set one after the other. -/
theorem reach_of_mk {c : X65.Cpu} {u : Nat} (h : (c, u) ∈ X65.machines) (syn : Bool) : X65.Reach (X65.mk c u syn) := by
  have key : ∀ p ∈ X65.machines, ∀ syn, ∃ n : Int,
      (X65.Opts.default.parse (.cpu n)).bind (fun o => o.updated.parse (.undocumented p.2)) = .ok (X65.mk p.1 p.2 false) ∧
      ((X65.mk p.1 p.2 false).updated.parse (.synthesized syn)) = .ok (X65.mk p.1 p.2 syn) ∧
      (X65.mk p.1 p.2 syn).updated = X65.mk p.1 p.2 syn := by
    intro p hp syn
    simp only [X65.machines, List.mem_cons, List.not_mem_nil, or_false] at hp
    rcases hp with rfl | rfl | rfl | rfl | rfl | rfl
    · exact ⟨0, rfl, rfl, rfl⟩
    · exact ⟨0, rfl, rfl, rfl⟩
    · exact ⟨0, rfl, rfl, rfl⟩
    · exact ⟨0, rfl, rfl, rfl⟩
    · exact ⟨1, rfl, rfl, rfl⟩
    · exact ⟨2, rfl, rfl, rfl⟩
  obtain ⟨n, h1, h2, h3⟩ := key _ h syn
  generalize hq : X65.Opts.default.parse (.cpu n) = r at h1
  cases r with
  | ok o =>
    rw [← h3]
    change o.updated.parse (.undocumented u) = .ok (X65.mk c u false) at h1
    exact .option _ (.option _ (.option _ .start hq) h1) h2
  | fail => cases h1
  | ub => cases h1

/-- **C64 for the 6502.** If a source has set its options without any message, in whatever order it has set, saved and restored them, and
the processor is now a 6502, 65C02 or 65C02S, the options are among those for which C53 specifies the instructions. -/
theorem C64_6502_reach (base : List (String × X65.T)) (lib : Lib) {ds : List (Dir X65Dir)} {s : State X65.Opts Words}
    (hs : run x65 lib ds (start base) = .ok s) (hm : s.messages = []) (hc : s.cur.machine.cpu.Plain) : X65.Reach s.cur.machine := by
  have hq : Quiet (start base) := fun _ => ⟨⟨rfl, fun _ => ⟨rfl, rfl⟩, by show 0 ≤ 3; omega, fun _ => rfl⟩, fun o ho => by cases ho⟩
  obtain ⟨⟨ha, h16, hu, hu'⟩, -⟩ := run_quiet hq hs hm
  have hb : s.cur.machine.bp = 0 := (reach_ok base lib ds _ _ (start_ok base) hs).cur.resolve_left
    (by rcases hc with h | h | h <;> rw [h] <;> decide)
  generalize s.cur.machine = o at *
  obtain ⟨u, cpu, syn, m16, x16, al, bp⟩ := o
  simp only at ha h16 hu hu' hb hc
  obtain ⟨rfl, rfl⟩ := h16 (by rcases hc with rfl | rfl | rfl <;> decide)
  subst hb ha
  refine reach_of_mk (c := cpu) (u := u) ?_ syn
  rcases hc with rfl | rfl | rfl
  · have : u = 0 ∨ u = 1 ∨ u = 2 ∨ u = 3 := by omega
    rcases this with rfl | rfl | rfl | rfl <;> decide
  · cases hu' (by decide); decide
  · cases hu' (by decide); decide

/-- `PUSHO`, `OPT "mc4"`, `SETBP 512`, `POPO`, `OPT "mu1"`. -/
example : ∃ s, run x65 lib0 [.push, .opt [['m', 'c', '4']], .machine (.setBp 512), .pop, .opt [['m', 'u', '1']]] (start []) = .ok s ∧
    s.messages = [] ∧ s.cur.machine = X65.mk .c6502 1 false := ⟨_, rfl, rfl, rfl⟩

/-- Options that the 6502 does not know set nothing; the warning can be switched off. -/
theorem C64_6502_unknown (lib : Lib) (s : State X65.Opts Words) (c : Char) (t : List Char)
    (h : c ∉ ['u', 'c', 's'] ∨ c = 's' ∧ t.length ≠ 1) : parse x65 lib ('m' :: c :: t) s = .ok (warn 7 s) := by
  have key : x65Parse lib (c :: t) s.cur.machine = (s.cur.machine, [7]) := by
    unfold x65Parse
    split
    · rename_i e; cases e
    · rename_i e; cases e; simp at h
    · rename_i e; cases e; simp at h
    · rename_i e; cases e
      rw [if_neg (by simpa using h)]
    · rfl
  show Outcome.ok _ = _
  simp only [x65, key]
  exact congrArg Outcome.ok (given_warn s)

/-- `OPT "w7","mx"` gives no warning, `OPT "mx"` does. -/
example : ∃ s s', run x65 lib0 [.opt ["w7".toList, "mx".toList]] (start []) = .ok s ∧ s.messages = [] ∧
    run x65 lib0 [.opt ["mx".toList]] (start []) = .ok s' ∧ s'.messages = [7] := ⟨_, _, rfl, rfl, rfl, rfl⟩

/-! ### The 680x0 -/

/-- Processors and coprocessors with their bits (xasm/680x0/m68k_options.h 25-41). -/
inductive Chip where
  | m68000 | m68010 | m68020 | m68030 | m68040 | m68060 | m68080

inductive Coprocessor where
  | none | m6888x | m68040 | m68060 | m68080

def Chip.bit : Chip → Nat
  | .m68000 => 0x01 | .m68010 => 0x02 | .m68020 => 0x04 | .m68030 => 0x08 | .m68040 => 0x10 | .m68060 => 0x20 | .m68080 => 0x40

def Coprocessor.bit : Coprocessor → Nat
  | .none => 0 | .m6888x => 0x01 | .m68040 => 0x02 | .m68060 => 0x08 | .m68080 => 0x20

/-- The processors to which a coprocessor can be connected, or which contain it. That of the 68080 is accepted with all of them. -/
def Coprocessor.Fits : Coprocessor → Chip → Prop
  | .none, _ | .m68080, _ => True
  | .m6888x, c => c = .m68020 ∨ c = .m68030
  | .m68040, c => c = .m68040
  | .m68060, c => c = .m68060

theorem fits_errors (c : Chip) (f : Coprocessor) {o : M68k} (hc : o.cpu = c.bit) (hf : o.fpu = f.bit) :
    (f.Fits c → m68kErrors o = 0) ∧ (¬f.Fits c → m68kErrors o = 1) := by
  unfold m68kErrors
  rw [hc, hf]
  cases c <;> cases f <;> simp [Coprocessor.Fits, Coprocessor.bit, Chip.bit]

theorem updated_m68k {s s' : State M68k Groups} (h : updated m68k s = .ok s') :
    s'.cur.machine = s.cur.machine ∧ s'.env.errors = s.env.errors + m68kErrors s.cur.machine ∧
      ∀ n, n ∈ s'.env.names ↔ n ∈ s.env.names ∨ n ∈ platformGroups s.cur.machine.platform := by
  cases (show Outcome.ok _ = Outcome.ok s' from h)
  refine ⟨rfl, rfl, fun n => ?_⟩
  show n ∈ s.env.names ++ _ ↔ _
  rw [List.mem_append, List.mem_filter]
  by_cases hn : n ∈ s.env.names <;> simp [hn]

/-- **C64 for the 680x0.** `OPT`, and `POPO` for options that have been saved, give one error if the coprocessor does not fit the
processor and none otherwise, and create the groups of the platform; the others stay. -/
theorem C64_680x0 (lib : Lib) {d : Dir M68kDir} {s s' : State M68k Groups} (hd : (∃ ts, d = .opt ts) ∨ d = .pop ∧ s.saved ≠ [])
    (h : step m68k lib d s = .ok s') {c : Chip} {f : Coprocessor} (hc : s'.cur.machine.cpu = c.bit) (hf : s'.cur.machine.fpu = f.bit) :
    (f.Fits c → s'.env.errors = s.env.errors) ∧ (¬f.Fits c → s'.env.errors = s.env.errors + 1) ∧
    ∀ n, n ∈ s'.env.names ↔ n ∈ s.env.names ∨ s'.cur.machine.platform = 1 ∧ n ∈ ["CODE_C", "DATA_C", "BSS_C"] ∨
      s'.cur.machine.platform = 3 ∧ n ∈ ["DATA_VA", "BSS_VA", "DATA_VB", "BSS_VB", "DATA_D", "BSS_D"] := by
  have key : ∃ s₁ : State M68k Groups, s₁.env = s.env ∧ updated m68k s₁ = .ok s' := by
    rcases hd with ⟨ts, rfl⟩ | ⟨rfl, hv⟩
    · change (parseAll m68k lib ts s).bind (updated m68k) = _ at h
      generalize hp : parseAll m68k lib ts s = r at h
      cases r with
      | ok s₁ => exact ⟨s₁, (parseAll_keeps (plain m68k fun _ _ => ⟨_, rfl⟩) (m := s.cur.machine) trivial hp).2.2.1, h⟩
      | fail => cases h
      | ub => cases h
    · cases he : s.saved with
      | nil => exact absurd he hv
      | cons o os => exact ⟨{s with cur := o, saved := os}, rfl, by rw [← h]; unfold step; simp only [he]⟩
  obtain ⟨s₁, h1, h2⟩ := key
  obtain ⟨h3, h4, h5⟩ := updated_m68k h2
  rw [h3] at hc hf ⊢
  rw [h1] at h4 h5
  obtain ⟨k1, k2⟩ := fits_errors c f hc hf
  refine ⟨fun hx => by rw [h4, k1 hx]; rfl, fun hx => by rw [h4, k2 hx], fun n => ?_⟩
  rw [h5]
  unfold platformGroups
  split
  · rename_i e; simp [e]
  · rename_i e; simp [e]
  · rename_i e1 e3
    constructor
    · rintro (hn | hn)
      · exact .inl hn
      · cases hn
    · rintro (hn | ⟨hn, -⟩ | ⟨hn, -⟩)
      · exact .inl hn
      · exact absurd hn e1
      · exact absurd hn e3

/-- What holds of the options of a processor at the beginning and is kept by single options, `onOptionsUpdated` and directives, holds of all
options, also those that are saved. -/
theorem run_inv {cfg : Cfg M E D} {lib : Lib} {P : M → Prop} (hp : ∀ t m g, P m → P (cfg.parse lib t (m, g)).1)
    (hu : ∀ m e m' e', P m → cfg.updated m e = .ok (m', e') → P m') :
    ∀ {ds : List (Dir D)} {s s' : State M E}, (∀ d, .machine d ∈ ds → ∀ m, P m → P (cfg.directive d m).1) →
      P s.cur.machine → (∀ o ∈ s.saved, P o.machine) → run cfg lib ds s = .ok s' → P s'.cur.machine ∧ ∀ o ∈ s'.saved, P o.machine := by
  have upd : ∀ s s' : State M E, P s.cur.machine → updated cfg s = .ok s' → P s'.cur.machine ∧ s'.saved = s.saved := by
    intro s s' h1 h
    unfold updated at h
    generalize hx : cfg.updated s.cur.machine s.env = r at h
    cases r with
    | ok r => cases h; exact ⟨hu _ _ _ _ h1 hx, rfl⟩
    | fail => cases h
    | ub => cases h
  have all : ∀ (ts : List (List Char)) (s s' : State M E), P s.cur.machine → parseAll cfg lib ts s = .ok s' →
      P s'.cur.machine ∧ s'.saved = s.saved := by
    intro ts
    induction ts with
    | nil => intro s s' h1 h; cases h; exact ⟨h1, rfl⟩
    | cons t ts ih =>
      intro s s' h1 h
      unfold parseAll at h
      generalize hx : parse cfg lib t s = r at h
      cases r with
      | ok s₁ =>
        obtain ⟨k1, k2⟩ := parse_cases hx
        have k3 : P s₁.cur.machine := by
          rcases k2 with ⟨k2, -⟩ | ⟨t, k2, -⟩
          · rw [k2]; exact h1
          · rw [k2]; exact hp _ _ _ h1
        obtain ⟨j1, j2⟩ := ih s₁ s' k3 h
        exact ⟨j1, j2.trans k1⟩
      | fail => cases h
      | ub => cases h
  intro ds
  induction ds with
  | nil => intro s s' _ h1 h2 h; cases h; exact ⟨h1, h2⟩
  | cons d ds ih =>
    intro s s' hd h1 h2 h
    unfold run at h
    generalize hx : step cfg lib d s = r at h
    cases r with
    | ok s₁ =>
      have key : P s₁.cur.machine ∧ ∀ o ∈ s₁.saved, P o.machine := by
        cases d with
        | push =>
          cases (show Outcome.ok _ = Outcome.ok s₁ from hx)
          exact ⟨h1, fun o ho => (List.mem_cons.1 ho).elim (fun e => e ▸ h1) (h2 o)⟩
        | pop =>
          cases hv : s.saved with
          | nil =>
            rw [C64_empty cfg lib hv] at hx
            cases hx
            split
            · exact ⟨h1, h2⟩
            · exact ⟨h1, h2⟩
          | cons o os =>
            rw [hv] at h2
            obtain ⟨k1, k2⟩ := upd {s with cur := o, saved := os} s₁ (h2 o List.mem_cons_self) (by rw [← hx]; unfold step; simp only [hv])
            rw [k2]
            exact ⟨k1, fun x hm => h2 x (List.mem_cons_of_mem _ hm)⟩
        | opt ts =>
          change (parseAll cfg lib ts s).bind (updated cfg) = _ at hx
          generalize hy : parseAll cfg lib ts s = r at hx
          cases r with
          | ok s₂ =>
            obtain ⟨k1, k2⟩ := all ts s s₂ h1 hy
            obtain ⟨j1, j2⟩ := upd s₂ s₁ k1 hx
            exact ⟨j1, fun x hm => h2 x (k2 ▸ j2 ▸ hm)⟩
          | fail => cases hx
          | ub => cases hx
        | machine d =>
          cases (show Outcome.ok _ = Outcome.ok s₁ from hx)
          exact ⟨hd d List.mem_cons_self _ h1, h2⟩
      exact ih (fun d hm => hd d (List.mem_cons_of_mem _ hm)) key.1 key.2 h
    | fail => cases h
    | ub => cases h

/-- The directives that exist: `MC68000` to `MC68080`, and `FPU6888X` to `FPU68080` (xasm/680x0/m68k_parse_directive.c 34-77). -/
inductive M68kDir.Exists : M68kDir → Prop
  | cpu (c : Chip) : M68kDir.Exists (.cpu c.bit)
  | fpu (f : Coprocessor) : f ≠ .none → M68kDir.Exists (.fpu f.bit)

/-- In every state that a source can reach, the options are those of one processor, of one coprocessor or none, and of one of the four
platforms: `C64_680x0` tells what `OPT` and `POPO` do. -/
theorem C64_680x0_options (lib : Lib) {ds : List (Dir M68kDir)} (hd : ∀ d, .machine d ∈ ds → d.Exists) {s : State M68k Groups}
    (hs : run m68k lib ds m68kStart = .ok s) :
    ∃ (c : Chip) (f : Coprocessor), s.cur.machine.cpu = c.bit ∧ s.cur.machine.fpu = f.bit ∧ s.cur.machine.platform < 4 := by
  refine (run_inv (P := fun o : M68k => ∃ (c : Chip) (f : Coprocessor), o.cpu = c.bit ∧ o.fpu = f.bit ∧ o.platform < 4)
    (fun t o g ho => ?_) (fun o e o' e' ho h => ?_) (fun d hm o ho => ?_) ⟨.m68000, .none, rfl, rfl, by decide⟩
    (fun o ho => by cases ho) hs).1
  · obtain ⟨c, f, hc, hf, hp⟩ := ho
    show ∃ (c : Chip) (f : Coprocessor), (m68kParse t o).1.cpu = c.bit ∧ (m68kParse t o).1.fpu = f.bit ∧ (m68kParse t o).1.platform < 4
    unfold m68kParse
    split
    · exact ⟨c, f, hc, hf, hp⟩
    · exact ⟨.m68000, f, rfl, hf, hp⟩
    · exact ⟨.m68010, f, rfl, hf, hp⟩
    · exact ⟨.m68020, f, rfl, hf, hp⟩
    · exact ⟨.m68030, f, rfl, hf, hp⟩
    · exact ⟨.m68040, f, rfl, hf, hp⟩
    · exact ⟨.m68060, f, rfl, hf, hp⟩
    · exact ⟨.m68080, f, rfl, hf, hp⟩
    · exact ⟨c, .m6888x, hc, rfl, hp⟩
    · exact ⟨c, .m6888x, hc, rfl, hp⟩
    · exact ⟨c, .m6888x, hc, rfl, hp⟩
    · exact ⟨c, .m68040, hc, rfl, hp⟩
    · exact ⟨c, .m68060, hc, rfl, hp⟩
    · exact ⟨c, .m68080, hc, rfl, hp⟩
    · exact ⟨c, f, hc, hf, by show 1 < 4; omega⟩
    · exact ⟨c, f, hc, hf, by show 3 < 4; omega⟩
    · exact ⟨c, f, hc, hf, by show 0 < 4; omega⟩
    · exact ⟨c, f, hc, hf, by show 2 < 4; omega⟩
    · exact ⟨c, f, hc, hf, hp⟩
    · exact ⟨c, f, hc, hf, hp⟩
    · exact ⟨c, f, hc, hf, hp⟩
    · exact ⟨c, f, hc, hf, hp⟩
    · exact ⟨c, f, hc, hf, hp⟩
  · cases (show Outcome.ok _ = Outcome.ok (o', e') from h)
    exact ho
  · obtain ⟨c, f, hc, hf, hp⟩ := ho
    cases hd d hm with
    | cpu c => exact ⟨c, f, rfl, hf, hp⟩
    | fpu f _ => exact ⟨c, f, hc, rfl, hp⟩

/-- The last digit of the name but one. -/
def Chip.digit : Chip → Char
  | .m68000 => '0' | .m68010 => '1' | .m68020 => '2' | .m68030 => '3' | .m68040 => '4' | .m68060 => '6' | .m68080 => '8'

/-- The options of the 680x0 set what the text of `m68k_PrintOptions` (xasm/680x0/m68k_options.c 169-179) says, and nothing else. -/
theorem C64_680x0_letters (lib : Lib) (s : State M68k Groups) :
    (∀ c : Chip, parse m68k lib ['m', 'c', c.digit] s = .ok {s with cur := {s.cur with machine := {s.cur.machine with cpu := c.bit}}}) ∧
    (∀ p : Char × Coprocessor, p ∈ [('1', .m6888x), ('2', .m6888x), ('x', .m6888x), ('4', .m68040), ('6', .m68060), ('8', .m68080)] →
      parse m68k lib ['m', 'f', p.1] s = .ok {s with cur := {s.cur with machine := {s.cur.machine with fpu := p.2.bit}}}) ∧
    (∀ p : Char × Nat, p ∈ [('g', 0), ('a', 1), ('s', 2), ('f', 3)] →
      parse m68k lib ['m', 'g', p.1] s = .ok {s with cur := {s.cur with machine := {s.cur.machine with platform := p.2}}}) ∧
    (∀ p : Char × Bool, p ∈ [('y', true), ('Y', true), ('n', false), ('N', false)] →
      parse m68k lib ['m', 'm', p.1] s = .ok {s with cur := {s.cur with machine := {s.cur.machine with trackMovem := p.2}}}) := by
  refine ⟨fun c => ?_, fun p hp => ?_, fun p hp => ?_, fun p hp => ?_⟩
  · cases c <;> rfl
  all_goals
    simp only [List.mem_cons, List.not_mem_nil, or_false] at hp
  · rcases hp with rfl | rfl | rfl | rfl | rfl | rfl <;> rfl
  · rcases hp with rfl | rfl | rfl | rfl <;> rfl
  · rcases hp with rfl | rfl | rfl | rfl <;> rfl

/-- All other texts set nothing; the warning can be switched off. -/
theorem C64_680x0_refused (lib : Lib) (s : State M68k Groups) {t : List Char} (h0 : t ≠ [])
    (h : t ∉ ["c0", "c1", "c2", "c3", "c4", "c6", "c8", "f1", "f2", "fx", "f4", "f6", "f8", "ga", "gf", "gg", "gs", "my", "mY", "mn", "mN"].map
      String.toList) : parse m68k lib ('m' :: t) s = .ok (warn 7 s) := by
  have key : m68kParse t s.cur.machine = (s.cur.machine, [7]) := by
    unfold m68kParse
    split
    · exact absurd rfl h0
    all_goals first | rfl | exact absurd (by decide) h
  show Outcome.ok _ = _
  simp only [m68k, key]
  exact congrArg Outcome.ok (given_warn s)

/-- `OPT "mc2","mf1"` gives no error, `OPT "mc4","mf1"` does. -/
example : ∃ s s', run m68k lib0 [.opt ["mc2".toList, "mf1".toList]] m68kStart = .ok s ∧ s.env.errors = 0 ∧
    s.cur.machine.cpu = Chip.m68020.bit ∧ s.cur.machine.fpu = Coprocessor.m6888x.bit ∧
    run m68k lib0 [.opt ["mc4".toList, "mf1".toList]] m68kStart = .ok s' ∧ s'.env.errors = 1 := ⟨_, _, rfl, rfl, rfl, rfl, rfl, rfl⟩

end Verif.Options
