import Verif.Config.Options
/-!
# C45: what the options of the linker mean
-/
namespace Verif.Config

/-! ## The meaning of a command line, from the arguments alone -/

/-- Options `a`, `c` and `t` select the target machine. -/
def IsTarget (a : List Char) : Prop := ∃ c arg, a = c :: arg ∧ lower c ∈ ['a', 'c', 't']

instance (a : List Char) : Decidable (IsTarget a) :=
  match a with
  | [] => isFalse (by rintro ⟨_, _, h, _⟩; cases h)
  | c :: arg =>
    if h : lower c ∈ ['a', 'c', 't'] then isTrue ⟨c, arg, rfl, h⟩
    else isFalse (by rintro ⟨c', _, e, h'⟩; cases e; exact h h')

/-- The argument of option `x`. -/
def argOf (x : Char) (a : List Char) : Option (List Char) :=
  match a with
  | [] => none
  | c :: arg => if lower c = x then some arg else none

/-- The arguments of all options `x`, in order. -/
def argsOf (x : Char) (args : List (List Char)) : List (List Char) := args.filterMap (argOf x)

/-- The formats that options `f` name. -/
def formatsOf (args : List (List Char)) : List Format :=
  (argsOf 'f' args).filterMap fun arg => (formatOption.find? fun x => x.1.toList == arg.map lower).map (·.2)

/-- An option that is all right by itself. -/
def ValidOpt (rl : List Char → Outcome Choice) (a : List Char) : Prop :=
  ∃ c arg, a = c :: arg ∧
    ((lower c ∈ ['e', 'l', 'm', 'o', 's'] ∧ arg ≠ []) ∨
     (lower c = 'f' ∧ ∃ f, (f ∈ formatOption ∧ f.1.toList = arg.map lower)) ∨
     (lower c = 'a' ∧ ∃ ch cfg, rl (arg.map lower) = .ok ch ∧ ch.cfg = .ok cfg) ∨
     (lower c = 'c' ∧ ∃ n ch cfg, (n, ch) ∈ configOption ∧ n.toList = arg.map lower ∧ ch.cfg = .ok cfg) ∨
     (lower c = 't' ∧ ∃ n ch cfg, (n, ch) ∈ targetOption ∧ n.toList = arg.map lower ∧ ch.cfg = .ok cfg))

/-! ## Names -/

theorem named_iff {α : Type} : ∀ {t : List (String × α)}, (t.map (·.1.toList)).Nodup → ∀ {name : List Char} {x : α},
    named t name = .ok x ↔ ∃ n, (n, x) ∈ t ∧ n.toList = name
  | [], _, name, x => by simp [named]
  | y :: t, hn, name, x => by
    have hn' := List.nodup_cons.1 (show (y.1.toList :: t.map (·.1.toList)).Nodup from hn)
    have ih := named_iff hn'.2 (name := name) (x := x)
    unfold named at ih ⊢
    rw [List.find?_cons]
    by_cases hy : y.1.toList = name
    · simp only [hy, beq_self_eq_true]
      constructor
      · intro h
        cases h
        exact ⟨y.1, List.mem_cons_self, hy⟩
      · rintro ⟨n, hm, hname⟩
        rcases List.mem_cons.1 hm with rfl | hm
        · rfl
        · refine absurd (List.mem_map.2 ⟨(n, x), hm, ?_⟩) hn'.1
          simp only [hy, hname]
    · have : (y.1.toList == name) = false := by simpa using hy
      simp only [this]
      rw [ih]
      constructor
      · rintro ⟨n, hm, hname⟩
        exact ⟨n, List.mem_cons_of_mem _ hm, hname⟩
      · rintro ⟨n, hm, hname⟩
        rcases List.mem_cons.1 hm with rfl | hm
        · exact absurd hname hy
        · exact ⟨n, hm, hname⟩

theorem named_not_ub {α : Type} (t : List (String × α)) (name : List Char) : named t name ≠ .ub := by
  unfold named; split <;> simp

theorem formats_nodup : (formatOption.map (·.1.toList)).Nodup := by decide +kernel
theorem configs_nodup : (configOption.map (·.1.toList)).Nodup := by decide +kernel
theorem targets_nodup : (targetOption.map (·.1.toList)).Nodup := by decide +kernel

/-! ## One option -/

/-- The target machine that an option selects. -/
def TargetOf (rl : List Char → Outcome Choice) (a : List Char) (ch : Choice) : Prop :=
  (∃ cfg, ch.cfg = .ok cfg) ∧ ∃ c arg, a = c :: arg ∧
    ((lower c = 'a' ∧ rl (arg.map lower) = .ok ch) ∨
     (lower c = 'c' ∧ ∃ n, (n, ch) ∈ configOption ∧ n.toList = arg.map lower) ∨
     (lower c = 't' ∧ ∃ n, (n, ch) ∈ targetOption ∧ n.toList = arg.map lower))

theorem setChoice_ok {o o' : Opts} {ch : Outcome Choice} : setChoice o ch = .ok o' ↔
    o.choice = none ∧ ∃ c, ch = .ok c ∧ (∃ cfg, c.cfg = .ok cfg) ∧
      o' = { o with choice := some c, format := c.format <|> o.format } := by
  unfold setChoice
  cases o.choice with
  | some _ => simp
  | none =>
    cases ch with
    | fail => simp
    | ub => simp
    | ok c =>
      cases hc : c.cfg with
      | fail => simp [hc]
      | ub => simp [hc]
      | ok cfg => simp [hc, eq_comm]

/-- What one option does. -/
structure StepOk (rl : List Char → Outcome Choice) (o : Opts) (a : List Char) (o' : Opts) : Prop where
  valid : ValidOpt rl a
  target : IsTarget a → o.choice = none ∧ ∃ ch, TargetOf rl a ch ∧ o'.choice = some ch ∧ o'.format = (ch.format <|> o.format)
  other : ¬ IsTarget a → o'.choice = o.choice ∧ o'.format = ((formatsOf [a]).getLast? <|> o.format)
  map : o'.map = (argOf 'm' a <|> o.map)
  list : o'.list = (argOf 'l' a <|> o.list)
  output : o'.output = (argOf 'o' a <|> o.output)
  smart : o'.smart = (argOf 's' a <|> o.smart)
  entry : o'.entry = (argOf 'e' a <|> (o.entry <|> argOf 's' a))

theorem step_ok {rl : List Char → Outcome Choice} {o o' : Opts} {a : List Char} (h : handleOption rl o a = .ok o') :
    StepOk rl o a o' := by
  cases a with
  | nil => simp [handleOption] at h
  | cons c arg =>
    simp only [handleOption] at h
    split at h
    case h_1 hc =>
      obtain ⟨h1, ch, h2, h3, rfl⟩ := setChoice_ok.1 h
      obtain ⟨cfg, h3⟩ := h3
      refine ⟨⟨c, arg, rfl, .inr (.inr (.inl ⟨hc, ch, cfg, h2, h3⟩))⟩, fun _ => ⟨h1, ch, ⟨⟨cfg, h3⟩, c, arg, rfl, .inl ⟨hc, h2⟩⟩, rfl, rfl⟩,
        fun hn => absurd ⟨c, arg, rfl, by simp [hc]⟩ hn, ?_, ?_, ?_, ?_, ?_⟩ <;> simp [argOf, hc]
    case h_2 hc =>
      obtain ⟨h1, ch, h2, h3, rfl⟩ := setChoice_ok.1 h
      obtain ⟨cfg, h3⟩ := h3
      obtain ⟨n, h2, h4⟩ := (named_iff configs_nodup).1 h2
      refine ⟨⟨c, arg, rfl, .inr (.inr (.inr (.inl ⟨hc, n, ch, cfg, h2, h4, h3⟩)))⟩,
        fun _ => ⟨h1, ch, ⟨⟨cfg, h3⟩, c, arg, rfl, .inr (.inl ⟨hc, n, h2, h4⟩)⟩, rfl, rfl⟩,
        fun hn => absurd ⟨c, arg, rfl, by simp [hc]⟩ hn, ?_, ?_, ?_, ?_, ?_⟩ <;> simp [argOf, hc]
    case h_9 hc =>
      obtain ⟨h1, ch, h2, h3, rfl⟩ := setChoice_ok.1 h
      obtain ⟨cfg, h3⟩ := h3
      obtain ⟨n, h2, h4⟩ := (named_iff targets_nodup).1 h2
      refine ⟨⟨c, arg, rfl, .inr (.inr (.inr (.inr ⟨hc, n, ch, cfg, h2, h4, h3⟩)))⟩,
        fun _ => ⟨h1, ch, ⟨⟨cfg, h3⟩, c, arg, rfl, .inr (.inr ⟨hc, n, h2, h4⟩)⟩, rfl, rfl⟩,
        fun hn => absurd ⟨c, arg, rfl, by simp [hc]⟩ hn, ?_, ?_, ?_, ?_, ?_⟩ <;> simp [argOf, hc]
    case h_4 hc =>
      cases hf : named formatOption (arg.map lower) with
      | fail => simp [hf] at h
      | ub => simp [hf] at h
      | ok f =>
        simp only [hf, Outcome.ok.injEq] at h
        subst h
        obtain ⟨n, h2, h4⟩ := (named_iff formats_nodup).1 hf
        have e : formatsOf [c :: arg] = [f] := by
          unfold named at hf
          simp only [formatsOf, argsOf, List.filterMap_cons, argOf, hc, if_true, List.filterMap_nil]
          split at hf
          · next x hx => cases hf; simp [hx]
          · cases hf
        refine ⟨⟨c, arg, rfl, .inr (.inl ⟨hc, (n, f), h2, h4⟩)⟩, ?_, fun _ => ⟨rfl, by simp [e]⟩, ?_, ?_, ?_, ?_, ?_⟩
        · rintro ⟨c', arg', e, hm⟩
          cases e
          simp [hc] at hm
        all_goals simp [argOf, hc]
    case h_10 => cases h
    all_goals
      rename_i hc
      unfold nonEmpty at h
      split at h
      · cases h
      · next hne =>
        cases h
        refine ⟨⟨c, arg, rfl, .inl ⟨by simp [hc], hne⟩⟩, ?_, fun _ => ⟨rfl, ?_⟩, ?_, ?_, ?_, ?_, ?_⟩
        · rintro ⟨c', arg', e, hm⟩
          cases e
          simp [hc] at hm
        all_goals simp [argOf, hc, formatsOf, argsOf]

theorem step_total {rl : List Char → Outcome Choice} {o : Opts} {a : List Char} (h : ValidOpt rl a)
    (ht : IsTarget a → o.choice = none) : ∃ o', handleOption rl o a = .ok o' := by
  obtain ⟨c, arg, rfl, h⟩ := h
  simp only [handleOption]
  rcases h with ⟨hc, hne⟩ | ⟨hc, f, hf, hn⟩ | ⟨hc, ch, cfg, h1, h2⟩ | ⟨hc, n, ch, cfg, h1, h2, h3⟩ | ⟨hc, n, ch, cfg, h1, h2, h3⟩
  · simp only [List.mem_cons, List.not_mem_nil, or_false] at hc
    rcases hc with hc | hc | hc | hc | hc <;> simp [hc, nonEmpty, hne]
  · have := (named_iff formats_nodup (name := arg.map lower) (x := f.2)).2 ⟨f.1, hf, hn⟩
    simp [hc, this]
  · have := ht ⟨c, arg, rfl, by simp [hc]⟩
    simp [hc, setChoice, this, h1, h2]
  · have := ht ⟨c, arg, rfl, by simp [hc]⟩
    simp [hc, setChoice, this, (named_iff configs_nodup).2 ⟨n, h1, h2⟩, h3]
  · have := ht ⟨c, arg, rfl, by simp [hc]⟩
    simp [hc, setChoice, this, (named_iff targets_nodup).2 ⟨n, h1, h2⟩, h3]

/-! ## All options -/

theorem orElse_assoc {α : Type} (a b c : Option α) : ((a <|> b) <|> c) = (a <|> (b <|> c)) := by cases a <;> rfl

theorem getLast_cons {α : Type} (x : α) (l : List α) : (x :: l).getLast? = (l.getLast? <|> some x) := by
  rw [List.getLast?_cons]
  cases l.getLast? <;> rfl

theorem argsOf_last (x : Char) (a : List Char) (as : List (List Char)) :
    (argsOf x (a :: as)).getLast? = ((argsOf x as).getLast? <|> argOf x a) := by
  unfold argsOf
  rw [List.filterMap_cons]
  cases argOf x a with
  | none => cases (List.filterMap (argOf x) as).getLast? <;> rfl
  | some b => exact getLast_cons b _

theorem argsOf_head (x : Char) (a : List Char) (as : List (List Char)) :
    (argsOf x (a :: as)).head? = (argOf x a <|> (argsOf x as).head?) := by
  unfold argsOf
  rw [List.filterMap_cons]
  cases argOf x a <;> rfl

theorem formatsOf_append (as bs : List (List Char)) : formatsOf (as ++ bs) = formatsOf as ++ formatsOf bs := by
  unfold formatsOf argsOf
  rw [List.filterMap_append, List.filterMap_append]

theorem getLast_append {α : Type} (l m : List α) : (l ++ m).getLast? = (m.getLast? <|> l.getLast?) := by
  rw [List.getLast?_append]
  cases m.getLast? <;> rfl

theorem formatsOf_last (a : List Char) (as : List (List Char)) :
    (formatsOf (a :: as)).getLast? = ((formatsOf as).getLast? <|> (formatsOf [a]).getLast?) := by
  rw [show a :: as = [a] ++ as from rfl, formatsOf_append, getLast_append]

theorem handleOptions_cons {rl : List Char → Outcome Choice} {o o' : Opts} {a : List Char} {as : List (List Char)} :
    handleOptions rl o (a :: as) = .ok o' ↔ ∃ o₁, handleOption rl o a = .ok o₁ ∧ handleOptions rl o₁ as = .ok o' := by
  rw [handleOptions]
  cases handleOption rl o a <;> simp

theorem handleOptions_append {rl : List Char → Outcome Choice} {o' : Opts} : ∀ {as : List (List Char)} {o : Opts}
    {bs : List (List Char)}, handleOptions rl o (as ++ bs) = .ok o' ↔
      ∃ o₁, handleOptions rl o as = .ok o₁ ∧ handleOptions rl o₁ bs = .ok o'
  | [], o, bs => by simp [handleOptions]
  | a :: as, o, bs => by
    rw [List.cons_append, handleOptions_cons]
    constructor
    · rintro ⟨o₁, h1, h2⟩
      obtain ⟨o₂, h3, h4⟩ := handleOptions_append.1 h2
      exact ⟨o₂, handleOptions_cons.2 ⟨o₁, h1, h3⟩, h4⟩
    · rintro ⟨o₂, h3, h4⟩
      obtain ⟨o₁, h1, h3⟩ := handleOptions_cons.1 h3
      exact ⟨o₁, h1, handleOptions_append.2 ⟨o₂, h3, h4⟩⟩

theorem opts_fields {rl : List Char → Outcome Choice} : ∀ {args : List (List Char)} {o o' : Opts},
    handleOptions rl o args = .ok o' →
    o'.map = ((argsOf 'm' args).getLast? <|> o.map) ∧ o'.list = ((argsOf 'l' args).getLast? <|> o.list) ∧
    o'.output = ((argsOf 'o' args).getLast? <|> o.output) ∧ o'.smart = ((argsOf 's' args).getLast? <|> o.smart) ∧
    o'.entry = ((argsOf 'e' args).getLast? <|> (o.entry <|> (argsOf 's' args).head?)) ∧
    (∀ a ∈ args, ValidOpt rl a) ∧
    (o.choice.isSome → ∀ a ∈ args, ¬ IsTarget a) ∧ (args.filter (fun a => IsTarget a)).length ≤ 1 ∧
    ((∀ a ∈ args, ¬ IsTarget a) → o'.choice = o.choice ∧ o'.format = ((formatsOf args).getLast? <|> o.format))
  | [], o, o', h => by
    cases h
    simp [argsOf, formatsOf]
  | a :: args, o, o', h => by
    obtain ⟨o₁, h1, h2⟩ := handleOptions_cons.1 h
    have hs := step_ok h1
    obtain ⟨i1, i2, i3, i4, i5, i6, i7, i8, i9⟩ := opts_fields h2
    refine ⟨?_, ?_, ?_, ?_, ?_, ?_, ?_, ?_, ?_⟩
    · rw [i1, hs.map, argsOf_last, orElse_assoc]
    · rw [i2, hs.list, argsOf_last, orElse_assoc]
    · rw [i3, hs.output, argsOf_last, orElse_assoc]
    · rw [i4, hs.smart, argsOf_last, orElse_assoc]
    · rw [i5, hs.entry, argsOf_last, argsOf_head]
      simp only [orElse_assoc]
    · intro b hb
      rcases List.mem_cons.1 hb with rfl | hb
      · exact hs.valid
      · exact i6 b hb
    · intro hc b hb
      rcases List.mem_cons.1 hb with rfl | hb
      · intro ht
        rw [(hs.target ht).1] at hc
        cases hc
      · refine i7 ?_ b hb
        by_cases ht : IsTarget a
        · obtain ⟨_, ch, _, e, _⟩ := hs.target ht
          simp [e]
        · rw [(hs.other ht).1]; exact hc
    · by_cases ht : IsTarget a
      · obtain ⟨_, ch, _, e, _⟩ := hs.target ht
        have hno := i7 (by simp [e])
        have : args.filter (fun a => IsTarget a) = [] := by
          rw [List.filter_eq_nil_iff]
          intro b hb
          simpa using hno b hb
        rw [List.filter_cons_of_pos (by simpa using ht), this]
        simp
      · rw [List.filter_cons_of_neg (by simpa using ht)]
        exact i8
    · intro hno
      obtain ⟨j1, j2⟩ := i9 fun b hb => hno b (List.mem_cons_of_mem _ hb)
      obtain ⟨k1, k2⟩ := hs.other (hno a List.mem_cons_self)
      exact ⟨j1.trans k1, by rw [j2, k2, formatsOf_last a args, orElse_assoc]⟩

theorem opts_total {rl : List Char → Outcome Choice} : ∀ {args : List (List Char)} {o : Opts},
    (∀ a ∈ args, ValidOpt rl a) → (args.filter (fun a => IsTarget a)).length ≤ 1 →
    (o.choice.isSome → ∀ a ∈ args, ¬ IsTarget a) → ∃ o', handleOptions rl o args = .ok o'
  | [], o, _, _, _ => ⟨o, rfl⟩
  | a :: args, o, hv, hl, hc => by
    obtain ⟨o₁, h1⟩ := step_total (o := o) (hv a List.mem_cons_self) (by
      intro ht
      cases hc' : o.choice with
      | none => rfl
      | some _ => exact absurd ht (hc (by simp [hc']) a List.mem_cons_self))
    have hs := step_ok h1
    obtain ⟨o₂, h2⟩ := opts_total (args := args) (o := o₁) (fun b hb => hv b (List.mem_cons_of_mem _ hb)) (by
      by_cases ht : IsTarget a
      · rw [List.filter_cons_of_pos (by simpa using ht)] at hl
        simp only [List.length_cons] at hl
        omega
      · rwa [List.filter_cons_of_neg (by simpa using ht)] at hl) (by
      intro hsome b hb
      by_cases ht : IsTarget a
      · rw [List.filter_cons_of_pos (by simpa using ht)] at hl
        simp only [List.length_cons] at hl
        have : args.filter (fun a => IsTarget a) = [] := by
          rw [← List.length_eq_zero_iff]; omega
        rw [List.filter_eq_nil_iff] at this
        simpa using this b hb
      · rw [(hs.other ht).1] at hsome
        exact hc hsome b (List.mem_cons_of_mem _ hb))
    exact ⟨o₂, handleOptions_cons.2 ⟨o₁, h1, h2⟩⟩

/-- C45. The options are accepted exactly if each of them is all right and at most one of them selects the target
machine. -/
theorem C45_accepted (rl : List Char → Outcome Choice) (args : List (List Char)) :
    (∃ o, handleOptions rl {} args = .ok o) ↔
      (∀ a ∈ args, ValidOpt rl a) ∧ (args.filter (fun a => IsTarget a)).length ≤ 1 := by
  constructor
  · rintro ⟨o, h⟩
    obtain ⟨-, -, -, -, -, i6, -, i8, -⟩ := opts_fields h
    exact ⟨i6, i8⟩
  · rintro ⟨h1, h2⟩
    exact opts_total h1 h2 (by simp)

/-- C45. Files, root and entry point: the last option counts; without option `-e` the entry point is that of the first
option `-s`. -/
theorem C45_values {rl : List Char → Outcome Choice} {args : List (List Char)} {o : Opts}
    (h : handleOptions rl {} args = .ok o) :
    o.map = (argsOf 'm' args).getLast? ∧ o.list = (argsOf 'l' args).getLast? ∧ o.output = (argsOf 'o' args).getLast? ∧
    o.smart = (argsOf 's' args).getLast? ∧ o.entry = ((argsOf 'e' args).getLast? <|> (argsOf 's' args).head?) := by
  obtain ⟨i1, i2, i3, i4, i5, -⟩ := opts_fields h
  have e : ∀ x : Option (List Char), (x <|> none) = x := by intro x; cases x <;> rfl
  have e' : ∀ x : Option (List Char), (none <|> x) = x := fun _ => rfl
  simp only [e, e'] at i1 i2 i3 i4 i5
  exact ⟨i1, i2, i3, i4, i5⟩

/-- C45. The output format: the last option `-f` behind the one that selects the machine, else the format that belongs to
the machine, else the last option `-f` before it. -/
theorem C45_format {rl : List Char → Outcome Choice} {pre post : List (List Char)} {t : List Char} {o : Opts}
    (h : handleOptions rl {} (pre ++ t :: post) = .ok o) (ht : IsTarget t) :
    ∃ ch, TargetOf rl t ch ∧ o.choice = some ch ∧
      o.format = ((formatsOf post).getLast? <|> (ch.format <|> (formatsOf pre).getLast?)) := by
  obtain ⟨o₁, h1, h2⟩ := handleOptions_append.1 h
  obtain ⟨o₂, h2, h3⟩ := handleOptions_cons.1 h2
  obtain ⟨hn, ch, hch, hc, hf⟩ := (step_ok h2).target ht
  obtain ⟨-, -, -, -, -, -, i7, -, i9⟩ := opts_fields h3
  obtain ⟨j1, j2⟩ := i9 (i7 (by simp [hc]))
  obtain ⟨-, -, -, -, -, -, -, -, k9⟩ := opts_fields h1
  have hpre : ∀ a ∈ pre, ¬ IsTarget a := by
    obtain ⟨-, -, -, -, -, -, -, i8, -⟩ := opts_fields h
    intro a ha hta
    rw [List.filter_append, List.filter_cons_of_pos (by simpa using ht), List.length_append, List.length_cons] at i8
    have : a ∈ pre.filter (fun a => IsTarget a) := List.mem_filter.2 ⟨ha, by simpa using hta⟩
    have := List.length_pos_of_mem this
    omega
  refine ⟨ch, hch, j1.trans hc, ?_⟩
  rw [j2, hf, (k9 hpre).2]
  have e : ∀ x : Option Format, (x <|> none) = x := by intro x; cases x <;> rfl
  simp only [e]

/-- Machines of option `-c` come without a format. -/
theorem configs_no_format : ∀ x ∈ configOption, x.2.format = none := by decide +kernel

/-- C45. With `-c` the order of options does not matter for the format: it is that of the last option `-f`. -/
theorem C45_format_config {rl : List Char → Outcome Choice} {args : List (List Char)} {t : List Char} {o : Opts}
    (h : handleOptions rl {} args = .ok o) (hm : t ∈ args) (ht : (argOf 'c' t).isSome) :
    o.format = (formatsOf args).getLast? := by
  obtain ⟨pre, post, rfl⟩ := List.append_of_mem hm
  cases t with
  | nil => simp [argOf] at ht
  | cons c arg =>
    have hc : lower c = 'c' := by
      unfold argOf at ht
      simp only at ht
      split at ht
      · assumption
      · cases ht
    obtain ⟨ch, ⟨hcfg, c', arg', e, hch⟩, hcho, hf⟩ := C45_format h ⟨c, arg, rfl, by simp [hc]⟩
    cases e
    have hnone : ch.format = none := by
      rcases hch with ⟨h1, _⟩ | ⟨_, n, h1, _⟩ | ⟨h1, _⟩
      · rw [hc] at h1; exact absurd h1 (by decide)
      · exact configs_no_format _ h1
      · rw [hc] at h1; exact absurd h1 (by decide)
    have hft : formatsOf [c :: arg] = [] := by simp [formatsOf, argsOf, argOf, hc]
    rw [hf, hnone, formatsOf_append, getLast_append, formatsOf_last, hft]
    cases (formatsOf post).getLast? <;> rfl

/-- C45. What is accepted: exactly one machine, a format that this machine allows, no map file and no list file for
relocatable formats, no overlays unless the format has them. -/
theorem C45_checked {rl : List Char → Outcome Choice} {args : List (List Char)} {o : Opts} {c : Cfg} {f : Format} :
    commandLine rl args = .ok (o, c, f) ↔ handleOptions rl {} args = .ok o ∧
      ∃ ch, o.choice = some ch ∧ ch.cfg = .ok c ∧ o.format = some f ∧ f ∈ ch.allowed ∧
        (f = .amigaExecutable ∨ f = .amigaLinkObject → o.map = none ∧ o.list = none) ∧
        (needsOverlay c = true → f = .cbmPrg ∨ f = .mega65Prg) := by
  unfold commandLine
  cases ho : handleOptions rl {} args with
  | fail => simp
  | ub => simp
  | ok o₁ =>
    have key : checkOptions o₁ = .ok (c, f) ↔ ∃ ch, o₁.choice = some ch ∧ ch.cfg = .ok c ∧ o₁.format = some f ∧ f ∈ ch.allowed ∧
        (f = .amigaExecutable ∨ f = .amigaLinkObject → o₁.map = none ∧ o₁.list = none) ∧
        (needsOverlay c = true → f = .cbmPrg ∨ f = .mega65Prg) := by
      unfold checkOptions
      cases hch : o₁.choice with
      | none => simp
      | some ch =>
        cases hc : ch.cfg with
        | fail => simp [hc]
        | ub => simp [hc]
        | ok c' =>
          cases hf : o₁.format with
          | none => simp [hc]
          | some f' =>
            simp only [hc, Option.some.injEq, Outcome.ok.injEq, exists_eq_left']
            by_cases ha : f' ∈ ch.allowed
            · rw [if_neg (by simpa using ha)]
              by_cases hr : (supportsReloc f' && (o₁.map.isSome || o₁.list.isSome)) = true
              · rw [if_pos hr]
                simp only [supportsReloc, Bool.and_eq_true, Bool.or_eq_true, beq_iff_eq, Option.isSome_iff_ne_none] at hr
                constructor
                · intro h; cases h
                · rintro ⟨rfl, rfl, -, h, -⟩
                  obtain ⟨h1, h2⟩ := h hr.1
                  simp [h1, h2] at hr
              · rw [if_neg hr]
                by_cases hv : (needsOverlay c' && !supportsOverlay f') = true
                · rw [if_pos hv]
                  simp only [supportsOverlay, Bool.and_eq_true, Bool.not_eq_true', Bool.or_eq_false_iff, beq_eq_false_iff_ne] at hv
                  constructor
                  · intro h; cases h
                  · rintro ⟨rfl, rfl, -, -, h⟩
                    rcases h hv.1 with e | e
                    · exact absurd e hv.2.1
                    · exact absurd e hv.2.2
                · rw [if_neg hv]
                  unfold supportsReloc at hr
                  unfold supportsOverlay at hv
                  simp only [Outcome.ok.injEq, Prod.mk.injEq]
                  constructor
                  · rintro ⟨rfl, rfl⟩
                    refine ⟨rfl, rfl, ha, ?_, ?_⟩
                    · intro hf'
                      cases hm : o₁.map <;> cases hl : o₁.list <;> simp [hm, hl, hf'] at hr ⊢
                    · intro hn
                      simpa [hn, Decidable.or_iff_not_imp_left] using hv
                  · rintro ⟨h1, h2, -⟩
                    exact ⟨h1, h2⟩
            · rw [if_pos ha]
              constructor
              · intro h; cases h
              · rintro ⟨rfl, rfl, h, -⟩
                exact absurd h ha
    simp only
    cases hk : checkOptions o₁ with
    | ok r =>
      simp only [Outcome.ok.injEq, Prod.mk.injEq]
      rw [hk, Outcome.ok.injEq] at key
      constructor
      · rintro ⟨rfl, h⟩; exact ⟨rfl, key.1 h⟩
      · rintro ⟨rfl, h⟩; exact ⟨rfl, key.2 h⟩
    | fail =>
      rw [hk] at key
      simp only [reduceCtorEq, false_iff, Outcome.ok.injEq] at key ⊢
      rintro ⟨rfl, h⟩; exact key h
    | ub =>
      rw [hk] at key
      simp only [reduceCtorEq, false_iff, Outcome.ok.injEq] at key ⊢
      rintro ⟨rfl, h⟩; exact key h

/-! ## Examples, and what is not as documented -/

/-- What becomes of a command line, for layout files that cannot be read. -/
def outcome (args : List String) : Option (Format × Option String × Option String × Option String) :=
  match commandLine (fun _ => .fail) (args.map (·.toList)) with
  | .ok (o, _, f) => some (f, o.smart.map String.ofList, o.entry.map String.ofList, o.output.map String.ofList)
  | _ => none

example : outcome ["cngb", "fngb", "sMain", "eStart", "ogame.gb"] = some (.gameBoy, some "Main", some "Start", some "game.gb") := by
  decide +kernel

example : outcome ["fngb", "ogame.gb", "CNGB"] = some (.gameBoy, none, none, some "game.gb") := by decide +kernel

example : outcome ["cngb", "fngb", "csmd"] = none := by decide +kernel
example : outcome ["cngb", "fsmd"] = none := by decide +kernel
example : outcome ["camiga", "famigaexe", "mmap"] = none := by decide +kernel

/-- With `-t`, an earlier `-f` is forgotten. -/
theorem C45_format_forgotten : outcome ["fbin", "tg"] = some (.gameBoy, none, none, none) ∧
    outcome ["tg", "fbin"] = some (.binary, none, none, none) := by decide +kernel

/-- With two options `-s`, sections are kept for the second symbol, and the program starts at the first. -/
theorem C45_two_roots : outcome ["cngb", "fngb", "sFirst", "sSecond"] = some (.gameBoy, some "Second", some "First", none) := by
  decide +kernel

theorem lower_lower (c : Char) : lower (lower c) = lower c := by
  unfold lower
  by_cases h : 'A' ≤ c ∧ c ≤ 'Z'
  · rw [if_pos h, if_neg]
    rintro ⟨-, h2⟩
    have h3 : 'A'.toNat ≤ c.toNat := h.1
    have h4 : c.toNat ≤ 'Z'.toNat := h.2
    have e1 : 'A'.toNat = 65 := rfl
    have e2 : 'Z'.toNat = 90 := rfl
    have key : ∀ n < 26, ¬ Char.ofNat (65 + n + 32) ≤ 'Z' := by decide
    refine key (c.toNat - 65) (by omega) ?_
    rwa [show 65 + (c.toNat - 65) + 32 = c.toNat + 32 by omega]
  · rw [if_neg h, if_neg h]

/-- The name of a layout file is turned into lower case, so that a file with capital letters in its name cannot be
read. -/
theorem C45_layout_name_lowered (rl : List Char → Outcome Choice) (o : Opts) (name : List Char) :
    handleOption rl o ('a' :: name) = handleOption rl o ('a' :: name.map lower) := by
  have e : lower 'a' = 'a' := by decide
  simp only [handleOption, e, List.map_map]
  congr 2
  exact (List.map_congr_left fun c _ => (lower_lower c).symm)

/-- Names for option `-c` in the help text (xlink/main.c 104-129). -/
def documentedConfigs : List String :=
  ["amiga", "cbm64", "cbm128", "cbm128f", "cbm128fl", "cbm128fh", "cbm264", "ngb", "ngbs", "smd", "sms", "smsb", "hc8b", "hc8s",
   "hc8sh", "hc8m", "hc8mh", "hc8l", "fxa2560x", "fxf256jrs", "coco", "mega65"]

/-- Names for option `-f` in the help text (xlink/main.c 134-148). -/
def documentedFormats : List String :=
  ["amigaexe", "amigalink", "bin", "cbm", "ngb", "smd", "sms", "hc800", "hc800k", "fxpgz", "fxkup", "fxkupp", "cocobin", "mega65"]

/-- Of the names of formats all are accepted; of the names of machines these are not. -/
theorem C45_documented :
    (documentedFormats.all fun n => (formatOption.map (·.1)).contains n) = true ∧
    documentedConfigs.filter (fun n => !(configOption.map (·.1)).contains n) =
      ["cbm64", "cbm128", "cbm128f", "cbm128fl", "cbm128fh", "cbm264", "sms", "hc8b"] := by decide +kernel

end Verif.Config
