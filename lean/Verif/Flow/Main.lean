import Verif.Flow.Steps
/-!
# C49: structured programs mean what their structure says
-/
namespace Verif.Flow

open Verif.Lexer (Dir Complete isFalseBranch begins ends)

variable {α σ : Type} {sem : Sem α σ} {files : List Char → Option (Prog α)}

/-- What the assembler does for a job that ends in the given way. -/
def Does (sem : Sem α σ) (files : List Char → Option (Prog α)) : Job α → Env α σ → Exit → Env α σ → Prop
  | .prog pl u p, e, x, e' => ∀ (f : Frame α) (fs : List (Frame α)) (rest : List (Item α)), rest ≠ [] → Stack pl (f :: fs) →
      f.unique = u → f.items = p.lines ++ rest →
      match x with
      | .normal => Steps sem files (State.of (f :: fs) e) (State.of ({ f with items := rest } :: fs) e')
      | .rexit => ∀ (g : Frame α) (gs : List (Frame α)) (q rest' : List (Item α)), fs = g :: gs → rest = q ++ .endr :: rest' →
          Complete (· = .endr) (dirs sem q) → rest' ≠ [] →
          (∃ n, f.kind = .rept n) ∧ Steps sem files (State.of (f :: fs) e) (State.of ({ g with items := rest' } :: gs) e')
      | .mexit => fs ≠ [] →
          pl = .macro ∧ Steps sem files (State.of (f :: fs) e) ⟨fs, bodies e'.macros, e'.next, e'.s⟩
  | .loop m body n, e, _, e' => match n with
    | 0 => e' = e
    | k + 1 => ∀ (pl : Place) (g : Frame α) (gs : List (Frame α)) (args : Args) (rest' : List (Item α)), Stack pl (g :: gs) → pl.inMacro = m →
        g.items = body.lines ++ .endr :: rest' → rest' ≠ [] →
        Steps sem files (State.of (⟨.rept k, g.items, args, e.next⟩ :: g :: gs) { e with next := (e.next + 1) % 2 ^ 32 })
          (State.of ({ g with items := rest' } :: gs) e')

/-- The beginning of a program leads to a program and what follows it. -/
def Leads (sem : Sem α σ) (files : List Char → Option (Prog α)) (pl : Place) (u : Nat) (p : Prog α) (e : Env α σ) (k : Prog α)
    (after : List (Item α)) (e1 : Env α σ) : Prop :=
  ∀ (f : Frame α) (fs : List (Frame α)) (rest : List (Item α)), rest ≠ [] → Stack pl (f :: fs) → f.unique = u → f.items = p.lines ++ rest →
    Steps sem files (State.of (f :: fs) e) (State.of ({ f with items := k.lines ++ (after ++ rest) } :: fs) e1)

/-- The rest of the program decides. -/
theorem does_step {pl : Place} {u : Nat} {p k : Prog α} {e e1 e' : Env α σ} {x : Exit} (hl : Leads sem files pl u p e k [] e1)
    (hk : Does sem files (.prog pl u k) e1 x e') : Does sem files (.prog pl u p) e x e' := by
  intro f fs rest hr hst hu hf
  have h1 := hl f fs rest hr hst hu hf
  have h2 := hk { f with items := k.lines ++ rest } fs rest hr hst.with_items hu rfl
  cases x with
  | normal => exact h1.trans h2
  | rexit =>
    intro g gs q rest' h3 h4 h5 h6
    obtain ⟨h7, h8⟩ := h2 g gs q rest' h3 h4 h5 h6
    exact ⟨h7, h1.trans h8⟩
  | mexit =>
    intro h3
    obtain ⟨h7, h8⟩ := h2 h3
    exact ⟨h7, h1.trans h8⟩

/-- A program inside a block is left. -/
theorem does_inner {pl : Place} {u : Nat} {p k : Prog α} {after : List (Item α)} {e e1 e' : Env α σ} {x : Exit}
    (hl : Leads sem files pl u p e k after e1) (ha : Complete (· = .endr) (dirs sem after)) (hx : x ≠ .normal)
    (hk : Does sem files (.prog pl u k) e1 x e') : Does sem files (.prog pl u p) e x e' := by
  intro f fs rest hr hst hu hf
  have h1 := hl f fs rest hr hst hu hf
  have h2 := hk { f with items := k.lines ++ (after ++ rest) } fs (after ++ rest) (by simp [hr]) hst.with_items hu rfl
  cases x with
  | normal => exact absurd rfl hx
  | rexit =>
    intro g gs q rest' h3 h4 h5 h6
    obtain ⟨h7, h8⟩ := h2 g gs (after ++ q) rest' h3 (by rw [h4]; simp)
      (by rw [dirs, List.filterMap_append]; exact Complete.append ha h5) h6
    exact ⟨h7, h1.trans h8⟩
  | mexit =>
    intro h3
    obtain ⟨h7, h8⟩ := h2 h3
    exact ⟨h7, h1.trans h8⟩

/-- A program that ends leads to what follows it. -/
theorem Leads.trans {pl : Place} {u : Nat} {p k k' : Prog α} {after after' : List (Item α)} {e e1 e2 : Env α σ}
    (hl : Leads sem files pl u p e k after e1) (hk : Does sem files (.prog pl u k) e1 .normal e2)
    (h : ∀ (f : Frame α) (fs : List (Frame α)) (rest : List (Item α)), rest ≠ [] → Stack pl (f :: fs) → f.unique = u → f.items = after ++ rest →
      Steps sem files (State.of (f :: fs) e2) (State.of ({ f with items := k'.lines ++ (after' ++ rest) } :: fs) e2)) :
    Leads sem files pl u p e k' after' e2 := by
  intro f fs rest hr hst hu hf
  have h1 := hl f fs rest hr hst hu hf
  have h2 := hk { f with items := k.lines ++ (after ++ rest) } fs (after ++ rest) (by simp [hr]) hst.with_items hu rfl
  have h3 := h { f with items := after ++ rest } fs rest hr hst.with_items hu rfl
  exact (h1.trans h2).trans h3

theorem steps_one {a b : State α σ} (h : step sem (texts files) a = .ok (.more b)) : Steps sem files a b := .head h (.refl _)

/-- `ENDC` and the rest of the program. -/
theorem endc_steps {k : Prog α} {e : Env α σ} (f : Frame α) (fs : List (Frame α)) (rest : List (Item α)) (hf : f.items = (.endc :: k.lines) ++ rest) :
    Steps sem files (State.of (f :: fs) e) (State.of ({ f with items := k.lines ++ ([] ++ rest) } :: fs) e) :=
  steps_one (step_endc hf)

/-- `ELSE` behind the part for which the condition holds. -/
theorem else_steps {no k : Prog α} {e : Env α σ} (f : Frame α) (fs : List (Frame α)) (rest : List (Item α))
    (hf : f.items = (.else :: (no.lines ++ .endc :: k.lines)) ++ rest) :
    Steps sem files (State.of (f :: fs) e) (State.of ({ f with items := k.lines ++ ([] ++ rest) } :: fs) e) := by
  have hf' : f.items = .else :: (no.lines ++ .endc :: (k.lines ++ rest)) := by simpa using hf
  refine steps_one (step_else hf' ?_)
  exact skipItems_found sem (p := (· = .endc)) (by intro d; simp) (complete_lines sem no (stop_ends .cond)) rfl rfl rfl (by simp)

theorem cond_true {pl : Place} {u : Nat} {t : Test} {a : α} {p yes : Prog α} {after : List (Item α)} {e : Env α σ} {c : Prop} {s' : σ}
    (hp : p.lines = .cond t a :: (yes.lines ++ after)) (hd : Decides sem ⟨e.args, u⟩ a e.s t c s') (hc : c) :
    Leads sem files pl u p e yes after { e with s := s' } := by
  intro f fs rest hr hst hu hf
  obtain ⟨b, h1, h2⟩ := decides_holds sem hd
  obtain rfl : b = true := h2.mpr hc
  rw [hp] at hf
  subst hu
  have hf' : f.items = .cond t a :: (yes.lines ++ (after ++ rest)) := by simpa using hf
  exact steps_one (step_true hst hf' h1)

theorem cond_false {pl : Place} {u : Nat} {t : Test} {a : α} {p yes no : Prog α} {i : Item α} {d : Dir} {after : List (Item α)} {e : Env α σ} {c : Prop} {s' : σ}
    (hp : p.lines = .cond t a :: (yes.lines ++ i :: (no.lines ++ after))) (hi : i.dir sem = some d) (hd' : d = .else ∨ d = .endc)
    (hd : Decides sem ⟨e.args, u⟩ a e.s t c s') (hc : ¬ c) : Leads sem files pl u p e no after { e with s := s' } := by
  intro f fs rest hr hst hu hf
  obtain ⟨b, h1, h2⟩ := decides_holds sem hd
  obtain rfl : b = false := by cases b with | false => rfl | true => exact absurd (h2.mp rfl) hc
  rw [hp] at hf
  subst hu
  have hf' : f.items = .cond t a :: (yes.lines ++ i :: (no.lines ++ (after ++ rest))) := by simpa using hf
  refine steps_one (step_false hst hf' h1 ?_)
  exact skipItems_found sem (p := fun d => d = .else ∨ d = .endc) (by intro d; simp [isFalseBranch])
    (complete_lines sem yes stop_false) hi hd' rfl (by simp)

theorem complete_endc (k : Prog α) : Complete (· = .endr) (dirs sem (.endc :: k.lines)) :=
  .plain rfl (by simp) (complete_lines sem k (stop_ends .rept))

theorem complete_else (no k : Prog α) : Complete (· = .endr) (dirs sem (.else :: (no.lines ++ .endc :: k.lines))) := by
  refine .plain rfl (by simp) ?_
  show Complete _ (dirs sem (no.lines ++ .endc :: k.lines))
  rw [dirs, List.filterMap_append]
  exact Complete.append (complete_lines sem no (stop_ends .rept)) (complete_endc k)

/-- The assembler does what the structure of the program says. -/
theorem runs_does {j : Job α} {e : Env α σ} {x : Exit} {e' : Env α σ} (h : Runs sem files j e x e') : Does sem files j e x e' := by
  induction h with
  | nil => intro f fs rest hr hst hu hf; cases f; cases hf; exact .refl _
  | blank _ ih => exact does_step (fun f fs rest _ _ _ hf => steps_one (step_blank hf)) ih
  | exec hx _ ih => exact does_step (fun f fs rest _ hst hu hf => steps_one (step_exec hst hf (by rw [hu]; exact hx))) ih
  | thenYes hd hc _ _ ihy ih =>
    exact does_step ((cond_true rfl hd hc).trans ihy (fun f fs rest _ _ _ hf => endc_steps f fs rest hf)) ih
  | thenExit hd hc hx _ ih => exact does_inner (cond_true rfl hd hc) (complete_endc _) hx ih
  | @thenNo pl u t a yes k e e' c s' x hd hc _ ih =>
    exact does_step (cond_false (i := .endc) (yes := yes) (no := k) (after := []) (by rw [Prog.lines, List.append_nil]) rfl (.inr rfl) hd hc) ih
  | elseYes hd hc _ _ ihy ih =>
    exact does_step ((cond_true rfl hd hc).trans ihy (fun f fs rest _ _ _ hf => else_steps f fs rest hf)) ih
  | elseYesExit hd hc hx _ ih => exact does_inner (cond_true rfl hd hc) (complete_else _ _) hx ih
  | elseNo hd hc _ _ ihn ih =>
    exact does_step ((cond_false (i := .else) rfl rfl (.inl rfl) hd hc).trans ihn (fun f fs rest _ _ _ hf => endc_steps f fs rest hf)) ih
  | elseNoExit hd hc hx _ ih => exact does_inner (cond_false (i := .else) rfl rfl (.inl rfl) hd hc) (complete_endc _) hx ih
  | @rept pl u a body k e e1 e' n s' x hx hn _ _ ihl ih =>
    refine does_step ?_ ih
    intro f fs rest hr hst hu hf
    subst hu
    have hf' : f.items = .rept a :: (body.lines ++ .endr :: (k.lines ++ rest)) := by simpa [Prog.lines] using hf
    cases n with
    | zero =>
      obtain rfl : e1 = _ := ihl
      refine steps_one (step_rept_zero hst hf' hx ?_)
      exact skipItems_found sem (p := (· = .endr)) (by intro d; simp) (complete_lines sem body (stop_ends .rept)) rfl rfl rfl (by simp)
    | succ n =>
      refine Steps.head (step_rept hst hf' hx) ?_
      exact ihl pl { f with items := body.lines ++ .endr :: (k.lines ++ rest) } fs [] (k.lines ++ rest) hst.with_items rfl rfl (by simp [hr])
  | loopEnd => rfl
  | @loopNext m body n e e1 e' _ _ ihb ih =>
    intro pl g gs args rest' hst hm hg hr
    subst hm
    have h1 := ihb ⟨.rept n, g.items, args, e.next⟩ (g :: gs) (.endr :: rest') (by simp) (.rept rfl hst) rfl hg
    refine Steps.trans h1 ?_
    cases n with
    | zero =>
      obtain rfl : e' = e1 := ih
      exact steps_one (step_endr_last rfl rfl)
    | succ n =>
      refine Steps.head (step_endr_again rfl rfl) ?_
      exact ih pl g gs args rest' hst rfl hg hr
  | @loopExit m body n e e' _ ih =>
    intro pl g gs args rest' hst hm hg hr
    subst hm
    have h1 := ih ⟨.rept n, g.items, args, e.next⟩ (g :: gs) (.endr :: rest') (by simp) (.rept rfl hst) rfl hg
    exact (h1 g gs [] rest' rfl rfl (.nil _) hr).2
  | @rexit m u k e =>
    intro f fs rest hr hst hu hf
    intro g gs q rest' hfs hrest hq hr'
    subst hfs hrest
    cases hst with
    | rept hk hst' =>
      refine ⟨⟨_, hk⟩, steps_one (step_rexit hk hf ?_ hr')⟩
      show skipItems sem _ _ (k.lines ++ (q ++ Item.endr :: rest')) = _
      rw [show k.lines ++ (q ++ Item.endr :: rest') = (k.lines ++ q) ++ Item.endr :: rest' by simp]
      refine skipItems_found sem (p := (· = .endr)) (by intro d; simp) ?_ rfl rfl rfl (by simp)
      rw [dirs, List.filterMap_append]
      exact Complete.append (complete_lines sem k (stop_ends .rept)) hq
  | rexitOutside hp _ ih => exact does_step (fun f fs rest _ hst _ hf => steps_one (step_rexit_outside hst hp hf)) ih
  | @define pl u name body k e e' x hm _ ih =>
    refine does_step (fun f fs rest _ _ _ hf => steps_one (step_define ?_ hm)) ih
    simpa [Prog.lines] using hf
  | @mexit u k e =>
    intro f fs rest hr hst hu hf
    intro hfs
    cases hst with
    | «macro» hk => exact ⟨rfl, steps_one (step_mexit hk hf hfs)⟩
  | @call pl u name a body k e e1 e' args s' x y hm ha hy _ _ ihb ih =>
    refine does_step ?_ ih
    intro f fs rest hr hst hu hf
    subst hu
    refine Steps.head (step_call hst hf hm ha) ?_
    have h1 := ihb ⟨.macro, body.lines ++ [.endm], args, e.next⟩ (setOwner e.args ({ f with items := k.lines ++ rest } :: fs)) [.endm]
      (by simp) (.macro rfl) rfl rfl
    have hne : setOwner e.args ({ f with items := k.lines ++ rest } :: fs) ≠ [] := by rw [setOwner_cons]; simp
    rcases hy with rfl | rfl
    · refine Steps.trans h1 (steps_one ?_)
      exact step_endm rfl rfl hne
    · exact (h1 hne).2
  | @shift pl u a k e e' n s' x hx hp _ ih =>
    exact does_step (fun f fs rest _ hst hu hf => steps_one (step_shift hst hp hf (by rw [hu]; exact hx))) ih
  | @incl pl u name p k e e1 e' x hm _ _ ihb ih =>
    refine does_step ?_ ih
    intro f fs rest hr hst hu hf
    refine Steps.head (step_incl hf hm) ?_
    have h1 := ihb ⟨.file, p.lines ++ [.blank], [], e.next⟩ (setOwner e.args ({ f with items := k.lines ++ rest } :: fs)) [.blank]
      (by simp) (.file rfl) rfl rfl
    have hne : setOwner e.args ({ f with items := k.lines ++ rest } :: fs) ≠ [] := by rw [setOwner_cons]; simp
    refine Steps.trans h1 (.head (step_blank rfl) (steps_one ?_))
    exact step_end rfl rfl hne

/-- The state at the beginning of a file. -/
def start (p : Prog α) (u : Nat) (e : Env α σ) : State α σ := ⟨[⟨.file, p.lines ++ [.blank], e.args, u⟩], bodies e.macros, e.next, e.s⟩

/-- The assembler at the end of a file. -/
def finish (u : Nat) (e : Env α σ) : State α σ := ⟨[⟨.file, [], e.args, u⟩], bodies e.macros, e.next, e.s⟩

theorem run_mono {fl : List Char → Option (List (Item α))} {n : Nat} : ∀ {st st' : State α σ}, run sem fl n st = .ok (true, st') →
    ∀ m, run sem fl (n + m) st = .ok (true, st') := by
  induction n with
  | zero => intro st st' h; cases h
  | succ n ih =>
    intro st st' h m
    rw [show n + 1 + m = (n + m) + 1 by omega, run]
    rw [run] at h
    cases hs : step sem fl st with
    | ok b =>
      rw [hs, ok_bind] at h
      rw [ok_bind]
      cases b with
      | more st1 => exact ih h m
      | done st1 => exact h
    | fail => rw [hs] at h; cases h
    | ub => rw [hs] at h; cases h

/-- A structured program in a file that ends with a line break is assembled to its end, with the effects its structure
says. -/
theorem C49_partial {p : Prog α} {u : Nat} {e e' : Env α σ} (h : Runs sem files (.prog .file u p) e .normal e') :
    ∃ n, run sem (texts files) n (start p u e) = .ok (true, finish u e') := by
  have h1 := runs_does h ⟨.file, p.lines ++ [.blank], e.args, u⟩ [] [.blank] (by simp) (.file rfl) rfl rfl
  have h2 : Steps sem files (start p u e) (finish u e') := h1.trans (steps_one (step_blank rfl))
  obtain ⟨n, hn⟩ := h2.run
  exact ⟨n + 1, by rw [hn]; rfl⟩

/-- There is no other end. -/
theorem C49_unique {p : Prog α} {u : Nat} {e e' : Env α σ} (h : Runs sem files (.prog .file u p) e .normal e') {n : Nat} {st : State α σ}
    (hr : run sem (texts files) n (start p u e) = .ok (true, st)) : st = finish u e' := by
  obtain ⟨m, hm⟩ := C49_partial h
  have h1 := run_mono hr m
  have h2 := run_mono hm n
  rw [Nat.add_comm, h2] at h1
  cases h1
  rfl

end Verif.Flow
