import Verif.Options.Model
/-!
# Lemmas about options
-/
namespace Verif.Options

variable {M E D : Type}

/-- What a processor has to obey: what is kept besides the options belongs to the options (`Env`) whenever these are *good*, and
options that are good stay what they are.
`From m m'` are the options that `OPT` can make of `m` before `onOptionsUpdated`. -/
structure Law (cfg : Cfg M E D) where
  good : M → Prop
  Env : M → E → Prop
  From : M → M → Prop
  refl : ∀ m, From m m
  option : ∀ lib t m m' g, From m m' → From m (cfg.parse lib t (m', g)).1
  updated : ∀ m m' e, good m → From m m' → Env m e → ∃ m'' e', cfg.updated m' e = .ok (m'', e') ∧ Env m'' e' ∧ good m''
  restored : ∀ m m' e, good m → good m' → Env m e → ∃ e', cfg.updated m' e = .ok (m', e') ∧ Env m' e'
  directive : ∀ d m, good m → good (cfg.directive d m).1 ∧ ∀ e, Env m e → Env (cfg.directive d m).1 e

/-- States between two lines. -/
structure Ok {cfg : Cfg M E D} (L : Law cfg) (s : State M E) : Prop where
  cur : L.good s.cur.machine
  saved : ∀ o ∈ s.saved, L.good o.machine
  env : L.Env s.cur.machine s.env

theorem warn_same (n : Nat) (s : State M E) :
    (warn n s).cur = s.cur ∧ (warn n s).saved = s.saved ∧ (warn n s).env = s.env ∧ (warn n s).paths = s.paths := by
  unfold warn
  split <;> exact ⟨rfl, rfl, rfl, rfl⟩

/-- The warning about an option of the processor. -/
theorem given_warn (s : State M E) :
    ({s with messages := given s.cur.disabled [7] ++ s.messages} : State M E) = warn 7 s := by
  unfold warn given
  by_cases h : 7 ∈ s.cur.disabled <;> simp [h]

theorem apply_same (o : Option (Opts M)) (s : State M E) (h : ∀ o', o = some o' → o'.machine = s.cur.machine) :
    (apply o s).cur.machine = s.cur.machine ∧ (apply o s).saved = s.saved ∧ (apply o s).env = s.env ∧ (apply o s).paths = s.paths := by
  cases o with
  | none =>
    obtain ⟨h1, h2, h3, h4⟩ := warn_same warnOption s
    exact ⟨congrArg Opts.machine h1, h2, h3, h4⟩
  | some o => exact ⟨h o rfl, rfl, rfl, rfl⟩

/-- One option leaves the stack and what belongs to the processor, and paths are only added. -/
theorem parse_keeps {cfg : Cfg M E D} (L : Law cfg) {lib : Lib} {t : List Char} {s s' : State M E} {m : M}
    (hm : L.From m s.cur.machine) (h : parse cfg lib t s = .ok s') :
    L.From m s'.cur.machine ∧ s'.saved = s.saved ∧ s'.env = s.env ∧ s.paths <+: s'.paths := by
  have key : ∀ o : Option (Opts M), (∀ o', o = some o' → o'.machine = s.cur.machine) → apply o s = s' →
      L.From m s'.cur.machine ∧ s'.saved = s.saved ∧ s'.env = s.env ∧ s.paths <+: s'.paths := by
    intro o ho e
    obtain ⟨h1, h2, h3, h4⟩ := apply_same o s ho
    subst e
    exact ⟨h1 ▸ hm, h2, h3, h4 ▸ List.prefix_rfl⟩
  unfold parse at h
  split at h
  · refine key _ (fun o' e => ?_) (Outcome.ok.inj h)
    obtain ⟨n, -, rfl⟩ := Option.map_eq_some_iff.1 e
    rfl
  · refine key _ (fun o' e => ?_) (Outcome.ok.inj h)
    unfold binary at e
    split at e
    · cases e; rfl
    · cases e
  · refine key _ (fun o' e => ?_) (Outcome.ok.inj h)
    unfold endianness at e
    split at e <;> cases e <;> rfl
  · cases h; exact ⟨hm, rfl, rfl, List.prefix_rfl⟩
  · unfold addPath at h
    split at h
    · cases h
    · cases h; exact ⟨hm, rfl, rfl, List.prefix_append _ _⟩
  · cases h; exact ⟨L.option _ _ _ _ _ hm, rfl, rfl, List.prefix_rfl⟩
  · refine key _ (fun o' e => ?_) (Outcome.ok.inj h)
    unfold disable at e
    split at e
    · obtain ⟨n, -, rfl⟩ := Option.map_eq_some_iff.1 e
      rfl
    · cases e
  · rename_i t
    generalize hf : fill lib t s.cur = r at h
    cases r with
    | ok o =>
      refine key o (fun o' e => ?_) (Outcome.ok.inj h)
      subst e
      unfold fill at hf
      split at hf
      · split at hf
        · cases hf; rfl
        · split at hf
          · cases hf; rfl
          · cases hf
      · cases hf
    | fail => cases h
    | ub => cases h
  · cases h
    obtain ⟨h1, h2, h3, h4⟩ := warn_same warnOption s
    exact ⟨h1 ▸ hm, h2, h3, h4 ▸ List.prefix_rfl⟩

theorem parse_no_fail (cfg : Cfg M E D) (lib : Lib) (t : List Char) (s : State M E) : parse cfg lib t s ≠ .fail := by
  unfold parse
  split <;> try exact fun h => by cases h
  · unfold addPath
    split <;> exact fun h => by cases h
  · unfold fill
    split
    · split
      · exact fun h => by cases h
      · split <;> exact fun h => by cases h
    · exact fun h => by cases h

theorem parseAll_keeps {cfg : Cfg M E D} (L : Law cfg) {lib : Lib} {m : M} : ∀ {ts : List (List Char)} {s s' : State M E},
    L.From m s.cur.machine → parseAll cfg lib ts s = .ok s' →
    L.From m s'.cur.machine ∧ s'.saved = s.saved ∧ s'.env = s.env ∧ s.paths <+: s'.paths
  | [], s, s', hm, h => by cases h; exact ⟨hm, rfl, rfl, List.prefix_rfl⟩
  | t :: ts, s, s', hm, h => by
    unfold parseAll at h
    generalize hp : parse cfg lib t s = r at h
    cases r with
    | ok s₁ =>
      obtain ⟨h1, h2, h3, h4⟩ := parse_keeps L hm hp
      obtain ⟨k1, k2, k3, k4⟩ := parseAll_keeps L h1 h
      exact ⟨k1, k2.trans h2, k3.trans h3, h4.trans k4⟩
    | fail => cases h
    | ub => cases h

theorem parseAll_no_fail (cfg : Cfg M E D) (lib : Lib) : ∀ (ts : List (List Char)) (s : State M E), parseAll cfg lib ts s ≠ .fail
  | [], s => fun h => by cases h
  | t :: ts, s => by
    unfold parseAll
    generalize hp : parse cfg lib t s = r
    cases r with
    | ok s₁ => exact parseAll_no_fail cfg lib ts s₁
    | fail => exact absurd hp (parse_no_fail cfg lib t s)
    | ub => exact fun h => by cases h

/-- Directives that neither save nor restore. -/
def Dir.Sets : Dir D → Prop
  | .push | .pop => False
  | _ => True

theorem step_sets {cfg : Cfg M E D} (L : Law cfg) {lib : Lib} {d : Dir D} (hd : d.Sets) {s : State M E} (hs : Ok L s) :
    step cfg lib d s ≠ .fail ∧ ∀ s', step cfg lib d s = .ok s' → Ok L s' ∧ s'.saved = s.saved ∧ s.paths <+: s'.paths := by
  cases d with
  | push => exact hd.elim
  | pop => exact hd.elim
  | opt ts =>
    show (parseAll cfg lib ts s).bind (Options.updated cfg) ≠ _ ∧ ∀ s', (parseAll cfg lib ts s).bind (Options.updated cfg) = _ → _
    generalize hp : parseAll cfg lib ts s = r
    cases r with
    | ok s₁ =>
      obtain ⟨h1, h2, h3, h4⟩ := parseAll_keeps L (L.refl _) hp
      obtain ⟨m, e', hm, he, hg⟩ := L.updated _ _ _ hs.cur h1 hs.env
      rw [← h3] at hm
      have e : updated cfg s₁ = .ok {s₁ with cur := {s₁.cur with machine := m}, env := e'} := by
        unfold updated
        rw [hm]; rfl
      refine ⟨fun h => ?_, fun s' h => ?_⟩
      · cases e.symm.trans h
      · cases e.symm.trans h
        exact ⟨⟨hg, fun o ho => hs.saved o (h2 ▸ ho), he⟩, h2, h4⟩
    | fail => exact absurd hp (parseAll_no_fail cfg lib ts s)
    | ub => exact ⟨(fun h => by cases h), fun s' h => by cases h⟩
  | machine d =>
    obtain ⟨h1, h2⟩ := L.directive d _ hs.cur
    refine ⟨(fun h => by cases (show Outcome.ok _ = Outcome.fail from h)), fun s' h => ?_⟩
    cases (show Outcome.ok _ = Outcome.ok s' from h)
    exact ⟨⟨h1, hs.saved, h2 _ hs.env⟩, rfl, List.prefix_rfl⟩

theorem step_push {cfg : Cfg M E D} (L : Law cfg) {s : State M E} (hs : Ok L s) : Ok L {s with saved := s.cur :: s.saved} := by
  refine ⟨hs.cur, fun o ho => ?_, hs.env⟩
  rcases List.mem_cons.1 ho with rfl | ho
  · exact hs.cur
  · exact hs.saved o ho

theorem step_pop {cfg : Cfg M E D} (L : Law cfg) {lib : Lib} {s : State M E} (hs : Ok L s) {o : Opts M} {os : List (Opts M)}
    (h : s.saved = o :: os) : ∃ e, step cfg lib .pop s = .ok {s with cur := o, saved := os, env := e} ∧ L.Env o.machine e := by
  obtain ⟨e, he, hE⟩ := L.restored _ o.machine _ hs.cur (hs.saved o (by rw [h]; exact List.mem_cons_self)) hs.env
  refine ⟨e, ?_, hE⟩
  unfold step
  simp only [h]
  unfold updated
  rw [he]
  rfl

theorem run_append (cfg : Cfg M E D) (lib : Lib) : ∀ (a b : List (Dir D)) (s : State M E),
    run cfg lib (a ++ b) s = (run cfg lib a s).bind fun s => run cfg lib b s
  | [], b, s => rfl
  | d :: a, b, s => by
    show (step cfg lib d s).bind (fun s => run cfg lib (a ++ b) s) = ((step cfg lib d s).bind fun s => run cfg lib a s).bind _
    cases step cfg lib d s with
    | ok s₁ => exact run_append cfg lib a b s₁
    | fail => rfl
    | ub => rfl

end Verif.Options
