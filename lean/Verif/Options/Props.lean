import Verif.Options.Lemmas
/-!
# C64: `POPO` restores the options that `PUSHO` has saved
-/
namespace Verif.Options

open Verif.Cpu

variable {M E D : Type}

/-- Sequences in which every `PUSHO` has its `POPO`. -/
inductive Balanced : List (Dir D) → Prop
  | nil : Balanced []
  | sets {d : Dir D} {ds : List (Dir D)} : d ≠ .push → d ≠ .pop → Balanced ds → Balanced (d :: ds)
  | nest {a b : List (Dir D)} : Balanced a → Balanced b → Balanced (.push :: a ++ .pop :: b)

theorem balanced_keeps {cfg : Cfg M E D} (L : Law cfg) {lib : Lib} {ds : List (Dir D)} (h : Balanced ds) :
    ∀ {s : State M E}, Ok L s → run cfg lib ds s ≠ .fail ∧
      ∀ s', run cfg lib ds s = .ok s' → Ok L s' ∧ s'.saved = s.saved ∧ s.paths <+: s'.paths := by
  induction h with
  | nil => exact fun hs => ⟨(fun h => by cases h), fun s' h => by cases h; exact ⟨hs, rfl, List.prefix_rfl⟩⟩
  | @sets d ds hp hq _ ih =>
    intro s hs
    have hd : d.Sets := by cases d <;> first | exact absurd rfl hp | exact absurd rfl hq | trivial
    obtain ⟨h1, h2⟩ := step_sets L (lib := lib) hd hs
    unfold run
    generalize he : step cfg lib d s = r at *
    cases r with
    | ok s₁ =>
      obtain ⟨k1, k2, k3⟩ := h2 s₁ rfl
      obtain ⟨i1, i2⟩ := ih k1
      refine ⟨i1, fun s' h => ?_⟩
      obtain ⟨j1, j2, j3⟩ := i2 s' h
      exact ⟨j1, j2.trans k2, k3.trans j3⟩
    | fail => exact absurd rfl h1
    | ub => exact ⟨(fun h => by cases h), fun s' h => by cases h⟩
  | @nest a b _ _ iha ihb =>
    intro s hs
    show run cfg lib (a ++ .pop :: b) {s with saved := s.cur :: s.saved} ≠ _ ∧ ∀ s', run cfg lib (a ++ .pop :: b) {s with saved := s.cur :: s.saved} = _ → _
    rw [run_append]
    obtain ⟨h1, h2⟩ := iha (step_push L hs)
    generalize he : run cfg lib a {s with saved := s.cur :: s.saved} = r at *
    cases r with
    | ok s₁ =>
      obtain ⟨k1, k2, k3⟩ := h2 s₁ rfl
      obtain ⟨e, hp, hE⟩ := step_pop L (lib := lib) k1 k2
      show (step cfg lib .pop s₁).bind _ ≠ _ ∧ ∀ s', (step cfg lib .pop s₁).bind _ = _ → _
      rw [hp]
      have hok : Ok L {s₁ with cur := s.cur, saved := s.saved, env := e} := ⟨hs.cur, hs.saved, hE⟩
      obtain ⟨i1, i2⟩ := ihb hok
      refine ⟨i1, fun s' h => ?_⟩
      obtain ⟨j1, j2, j3⟩ := i2 s' h
      exact ⟨j1, j2, k3.trans j3⟩
    | fail => exact absurd rfl h1
    | ub => exact ⟨(fun h => by cases h), fun s' h => by cases h⟩

/-- **C64.** Whatever is set between `PUSHO` and its `POPO`, afterwards all options and those that have been saved before are what they
were, and what the processor derives from its options belongs to them. There is no internal error. -/
theorem C64_restored {cfg : Cfg M E D} (L : Law cfg) (lib : Lib) {ds : List (Dir D)} (h : Balanced ds) {s : State M E} (hs : Ok L s) :
    run cfg lib (.push :: ds ++ [.pop]) s ≠ .fail ∧
    ∀ s', run cfg lib (.push :: ds ++ [.pop]) s = .ok s' → s'.cur = s.cur ∧ s'.saved = s.saved ∧ L.Env s.cur.machine s'.env := by
  refine ⟨(balanced_keeps L (.nest h .nil) hs).1, fun s' he => ?_⟩
  change run cfg lib (ds ++ [.pop]) {s with saved := s.cur :: s.saved} = _ at he
  rw [run_append] at he
  obtain ⟨-, h2⟩ := balanced_keeps L (lib := lib) h (step_push L hs)
  generalize hr : run cfg lib ds {s with saved := s.cur :: s.saved} = r at *
  cases r with
  | ok s₁ =>
    obtain ⟨k1, k2, -⟩ := h2 s₁ rfl
    change (step cfg lib .pop s₁).bind _ = _ at he
    obtain ⟨e, hp, hE⟩ := step_pop L (lib := lib) k1 k2
    rw [hp] at he
    cases he
    exact ⟨rfl, rfl, hE⟩
  | fail => cases he
  | ub => cases he

/-- `POPO` without `PUSHO` changes nothing; there is a warning, unless it has been switched off. -/
theorem C64_empty (cfg : Cfg M E D) (lib : Lib) {s : State M E} (h : s.saved = []) :
    step cfg lib .pop s = .ok (if 2 ∈ s.cur.disabled then s else {s with messages := 2 :: s.messages}) := by
  obtain ⟨cur, saved, paths, env, messages⟩ := s
  subst h
  rfl

/-! ### The processors -/

/-- For processors whose options do not change by `onOptionsUpdated` nothing has to be obeyed. These are all but the 6502 family
(`z80_OptionsUpdated`, `m6809_OptionsUpdated`, `x10c_OptionsUpdated`, `mips_OptionsUpdated`, `rc8_OptionsUpdated`,
`schip_OptionsUpdated`, which do nothing, and `m68k_OptionsUpdated`). -/
def plain (cfg : Cfg M E D) (h : ∀ m e, ∃ e', cfg.updated m e = .ok (m, e')) : Law cfg where
  good _ := True
  Env _ _ := True
  From _ _ := True
  refl _ := trivial
  option _ _ _ _ _ _ := trivial
  updated _ m' e _ _ _ := (h m' e).elim fun e' he => ⟨m', e', he, trivial, trivial⟩
  restored _ m' e _ _ _ := (h m' e).elim fun e' he => ⟨e', he, trivial⟩
  directive _ _ _ := ⟨trivial, fun _ _ => trivial⟩

/-- **C64 for the other processors.** -/
theorem C64_others {cfg : Cfg M E D} (hc : ∀ m e, ∃ e', cfg.updated m e = .ok (m, e')) (lib : Lib) {ds : List (Dir D)} (h : Balanced ds)
    {s s' : State M E} (he : run cfg lib (.push :: ds ++ [.pop]) s = .ok s') : s'.cur = s.cur ∧ s'.saved = s.saved := by
  obtain ⟨h1, h2, -⟩ := (C64_restored (plain cfg hc) lib h (s := s) ⟨trivial, fun _ _ => trivial, trivial⟩).2 s' he
  exact ⟨h1, h2⟩

theorem define_eq : ∀ ws l, define ws l = ws.reverse ++ l
  | [], l => rfl
  | w :: ws, l => by
    show define ws (w :: l) = _
    rw [define_eq ws, List.reverse_cons, List.append_assoc]; rfl

theorem undefine_perm : ∀ (ws p l : List (String × X65.T)), ws.Perm p → undefine ws (p ++ l) = .ok l
  | [], p, l, h => by rw [List.nil_perm.1 h]; rfl
  | w :: ws, p, l, h => by
    have hw : w ∈ p := h.mem_iff.1 List.mem_cons_self
    unfold undefine
    rw [if_pos (List.mem_append_left _ hw), List.erase_append_left _ hw]
    exact undefine_perm ws (p.erase w) l (by simpa using h.erase w)

/-- The words that every processor of the family has, the last one first (`x65_DefineTokens`, xasm/6502/x65_tokens.c 342-347), and
those of the motor, which are any. -/
def tableOf (base : List (String × X65.T)) (o : X65.Opts) : Words := ⟨define (extra o.cpu o.undocumented) base, o.cpu, o.undocumented⟩

theorem removed (base : List (String × X65.T)) (m : X65.Opts) :
    undefine (extra (tableOf base m).cpu (tableOf base m).undocumented) (tableOf base m).list = .ok base := by
  show undefine (extra m.cpu m.undocumented) (define _ _) = _
  rw [define_eq]
  exact undefine_perm _ _ _ (List.reverse_perm _).symm

/-- The 6502: the words are those of the processor, and the base page is 0 for those that have none. -/
def x65Law (base : List (String × X65.T)) : Law x65 where
  good o := o.cpu.is4510 = true ∨ o.bp = 0
  Env o e := e = tableOf base o
  From o o' := o'.bp = o.bp
  refl _ := rfl
  option lib t m m' g h := by
    show (x65Parse lib t m').1.bp = _
    rw [← h]
    unfold x65Parse
    split
    · rfl
    · dsimp only; split <;> rfl
    · dsimp only; split <;> rfl
    · split <;> rfl
    · rfl
  updated m m' e hg hf he := by
    subst he
    show ∃ m'' e', x65Updated m' _ = .ok (m'', e') ∧ e' = tableOf base m'' ∧ (m''.cpu.is4510 = true ∨ m''.bp = 0)
    unfold x65Updated
    by_cases h : (tableOf base m).cpu = m'.cpu ∧ (tableOf base m).undocumented = m'.undocumented
    · rw [if_pos h]
      obtain ⟨h1, h2⟩ := h
      refine ⟨m', _, rfl, ?_, ?_⟩
      · unfold tableOf at *
        dsimp only at h1 h2
        rw [h1, h2]
      · change m.cpu = m'.cpu at h1
        rw [← h1, hf]; exact hg
    · rw [if_neg h, removed]
      by_cases hc : m'.cpu.is4510 = true
      · exact ⟨m', _, by rw [if_pos hc]; rfl, rfl, .inl hc⟩
      · exact ⟨{m' with bp := 0}, _, by rw [if_neg hc]; rfl, rfl, .inr rfl⟩
  restored m m' e _ hg he := by
    subst he
    refine ⟨tableOf base m', ?_, rfl⟩
    show x65Updated m' _ = _
    unfold x65Updated
    by_cases h : (tableOf base m).cpu = m'.cpu ∧ (tableOf base m).undocumented = m'.undocumented
    · rw [if_pos h]
      obtain ⟨h1, h2⟩ := h
      unfold tableOf at *
      dsimp only at h1 h2
      rw [h1, h2]
    · rw [if_neg h, removed]
      by_cases hc : m'.cpu.is4510 = true
      · rw [if_pos hc]; rfl
      · have : m'.bp = 0 := hg.resolve_left hc
        rw [if_neg hc, ← this]; rfl
  directive d m hg := by
    show ((x65Directive d m).1.cpu.is4510 = true ∨ (x65Directive d m).1.bp = 0) ∧
      ∀ e, e = tableOf base m → e = tableOf base (x65Directive d m).1
    unfold x65Directive
    cases d with
    | bits a b =>
      dsimp only
      split
      · exact ⟨hg, fun _ he => he⟩
      · exact ⟨hg, fun _ he => he⟩
    | setBp n =>
      dsimp only
      split
      · rename_i h; exact ⟨.inl h, fun _ he => he⟩
      · exact ⟨hg, fun _ he => he⟩

/-- The state in which a source begins, without options on the command line (`opt_Open`,
xasm/motor/options.c 186-206, with the configuration in xasm/6502/x65_main.c 32-39). -/
def start (base : List (String × X65.T)) : State X65.Opts Words :=
  ⟨⟨false, ['0', '1'], ['0', '1', '2', '3'], 0xFF, 1, [], false, X65.Opts.default⟩, [], [], tableOf base X65.Opts.default, []⟩

/-- The states that a source can reach. -/
theorem reach_ok (base : List (String × X65.T)) (lib : Lib) : ∀ (ds : List (Dir X65Dir)) (a b : State X65.Opts Words),
    Ok (x65Law base) a → run x65 lib ds a = .ok b → Ok (x65Law base) b := by
  intro ds
  induction ds with
  | nil => intro a b ha hr; cases hr; exact ha
  | cons d ds ih =>
    intro a b ha hr
    unfold run at hr
    by_cases hp : d = .push
    · subst hp
      exact ih _ b (step_push _ ha) hr
    by_cases hq : d = .pop
    · subst hq
      cases hv : a.saved with
      | nil =>
        rw [C64_empty x65 lib hv] at hr
        refine ih _ b ?_ hr
        split
        · exact ha
        · exact ⟨ha.cur, ha.saved, ha.env⟩
      | cons o os =>
        obtain ⟨e, hp, hE⟩ := step_pop (x65Law base) (lib := lib) ha hv
        rw [hp] at hr
        have hm : ∀ x ∈ o :: os, (x65Law base).good x.machine := fun x hx => ha.saved x (hv ▸ hx)
        exact ih _ b ⟨hm o List.mem_cons_self, fun x hx => hm x (List.mem_cons_of_mem _ hx), hE⟩ hr
    · have hd : d.Sets := by cases d <;> first | exact absurd rfl hp | exact absurd rfl hq | trivial
      obtain ⟨-, h2⟩ := step_sets (x65Law base) (lib := lib) hd ha
      generalize hx : step x65 lib d a = r at *
      cases r with
      | ok a₁ => exact ih a₁ b (h2 a₁ rfl).1 hr
      | fail => cases hr
      | ub => cases hr

theorem start_ok (base : List (String × X65.T)) : Ok (x65Law base) (start base) := ⟨.inr rfl, (fun o ho => by cases ho), rfl⟩

/-- **C64 for the 6502.** The options, the base page and the words are restored, in every state that a source can reach. -/
theorem C64_6502 (base : List (String × X65.T)) (lib : Lib) {ds es : List (Dir X65Dir)} (h : Balanced es) {s s' : State X65.Opts Words}
    (hs : run x65 lib ds (start base) = .ok s) (he : run x65 lib (.push :: es ++ [.pop]) s = .ok s') :
    s'.cur = s.cur ∧ s'.saved = s.saved ∧ s'.env.list = s.env.list := by
  have hr := reach_ok base lib ds _ _ (start_ok base) hs
  obtain ⟨h1, h2, h3⟩ := (C64_restored (x65Law base) lib h hr).2 s' he
  exact ⟨h1, h2, congrArg Words.list (h3.trans hr.env.symm)⟩

/-- **C64 for the 6502.** In every state that a source can reach, the words are those of the current options: the words of the 6502, the
65C02 and the 65C816, and those which C53 names for the processor and its undocumented instructions. No other words are
left over. The base page is 0 for processors that have none. -/
theorem C64_6502_words (lib : Lib) {ds : List (Dir X65Dir)} {s : State X65.Opts Words}
    (hs : run x65 lib ds (start (X65.words6502 ++ X65.words65C02 ++ X65.words65816)) = .ok s) :
    s.env.list.Perm (X65.words s.cur.machine) ∧ (s.cur.machine.cpu.is4510 = false → s.cur.machine.bp = 0) := by
  have hr := reach_ok _ lib ds _ _ (start_ok _) hs
  refine ⟨?_, fun hc => hr.cur.resolve_left (by rw [hc]; exact Bool.false_ne_true)⟩
  rw [show s.env = _ from hr.env]
  show (define (extra s.cur.machine.cpu s.cur.machine.undocumented) _).Perm _
  rw [define_eq]
  have e : X65.words s.cur.machine = extra s.cur.machine.cpu s.cur.machine.undocumented ++
      (X65.words6502 ++ X65.words65C02 ++ X65.words65816) := by
    unfold X65.words extra
    simp only [List.append_assoc]
  rw [e]
  exact List.Perm.append_right _ (List.reverse_perm _)

end Verif.Options
