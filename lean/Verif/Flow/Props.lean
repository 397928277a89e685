import Verif.Flow.Spec
import Verif.Lexer.SkipProps
/-!
# C49: structured programs mean what their structure says
-/
namespace Verif.Flow

open Verif.Lexer (Dir Complete Follows skipTo skipTo_found isFalseBranch begins ends events)

variable {α σ : Type} (sem : Sem α σ)

/-- The directives of a text. -/
abbrev dirs (items : List (Item α)) : List Dir := items.filterMap (Item.dir sem)

/-! ### Skipping -/

theorem firstDirective_some {items : List (Item α)} {d : Dir} {r : List (Item α)} {evs : List (Dir × List (Item α))}
    (h : events (Item.dir sem) items = (d, r) :: evs) : firstDirective sem items = some (d, r) := by
  induction items with
  | nil => cases h
  | cons i is ih =>
    rw [events] at h
    rw [firstDirective]
    cases hd : i.dir sem with
    | some d' => rw [hd] at h; injection h with h1 h2; exact congrArg some h1
    | none => rw [hd] at h; exact ih h

theorem firstDirective_none {items : List (Item α)} (h : events (Item.dir sem) items = []) : firstDirective sem items = none := by
  induction items with
  | nil => rfl
  | cons i is ih =>
    rw [events] at h
    rw [firstDirective]
    cases hd : i.dir sem with
    | some d' => rw [hd] at h; cases h
    | none => rw [hd] at h; exact ih h

theorem follows : Follows Prod.fst (nextItem sem) (Item.dir sem) (fun s items => s.2 = items) where
  some := by
    rintro ⟨id, is⟩ as d r evs rfl h
    exact ⟨(d, r), by rw [nextItem, firstDirective_some sem h], rfl, rfl⟩
  none := by
    rintro ⟨id, is⟩ as rfl h
    exact ⟨(id, []), by rw [nextItem, firstDirective_none sem h], rfl⟩

/-- Text is skipped up to the first directive that is looked for, outside of the blocks in the text. -/
theorem skipItems_found {p : Dir → Prop} {stop : Dir → Bool} (hstop : ∀ d, stop d = true ↔ p d) {pre post : List (Item α)} {i : Item α}
    {t : Dir} (hc : Complete p (dirs sem pre)) (ha : i.dir sem = some t) (ht : p t) {id : Dir} (hb : begins id = none) (hs : ¬ p id) :
    skipItems sem stop id (pre ++ i :: post) = .ok (true, post) := by
  obtain ⟨s', h1, _, h3⟩ := skipTo_found (follows sem) hstop hc ha ht (s := (id, pre ++ i :: post)) rfl hb hs
    (fuel := (pre ++ i :: post).length + 2) (by simp only [List.length_append, List.length_cons]; omega)
  rw [skipItems, h1]
  obtain ⟨_, r⟩ := s'
  cases h3
  rfl

theorem Complete.append {p : Dir → Prop} {as bs : List Dir} (ha : Complete p as) (hb : Complete p bs) : Complete p (as ++ bs) := by
  induction ha with
  | nil _ => exact hb
  | plain h1 h2 _ ih => exact .plain h1 h2 (ih hb)
  | block h1 h2 h3 _ _ ih =>
    have := Complete.block h1 h2 h3 (ih hb)
    simpa using this

/-- What is looked for is neither a plain statement nor the beginning of a block. -/
def StopOk (p : Dir → Prop) : Prop := (∀ n, ¬ p (.other n)) ∧ ∀ d, begins d ≠ none → ¬ p d

theorem stop_ends (k : Verif.Lexer.Kind) : StopOk (· = ends k) := by
  constructor
  · intro n h; cases k <;> cases h
  · rintro d hd rfl; cases k <;> exact hd rfl

theorem stop_false : StopOk (fun d => d = .else ∨ d = .endc) := by
  constructor
  · rintro n (h | h) <;> cases h
  · rintro d hd (rfl | rfl) <;> exact hd rfl

theorem begins_test (t : Test) : begins t.dir = some .cond := by cases t <;> rfl

/-- A program consists of complete blocks. -/
theorem complete_lines (p : Prog α) : ∀ {stop : Dir → Prop}, StopOk stop → Complete stop (dirs sem p.lines) := by
  induction p with
  | nil => intro stop _; exact .nil _
  | blank k ih => intro stop h; exact ih h
  | exec a k ih =>
    intro stop h
    cases hr : sem.reserved a with
    | true =>
      have : dirs sem (Prog.exec a k).lines = .other 1 :: dirs sem k.lines := by simp [dirs, Prog.lines, Item.dir, hr]
      rw [this]; exact .plain rfl (h.1 _) (ih h)
    | false =>
      have : dirs sem (Prog.exec a k).lines = dirs sem k.lines := by simp [dirs, Prog.lines, Item.dir, hr]
      rw [this]; exact ih h
  | ifThen t a yes k ihy ih =>
    intro stop h
    have : dirs sem (Prog.ifThen t a yes k).lines = t.dir :: (dirs sem yes.lines ++ ends .cond :: dirs sem k.lines) := by
      simp [dirs, Prog.lines, Item.dir, ends]
    rw [this]
    exact .block (begins_test t) (h.2 _ (by rw [begins_test]; simp)) (ihy (stop_ends .cond)) (ih h)
  | ifElse t a yes no k ihy ihn ih =>
    intro stop h
    have : dirs sem (Prog.ifElse t a yes no k).lines =
        t.dir :: ((dirs sem yes.lines ++ .else :: dirs sem no.lines) ++ ends .cond :: dirs sem k.lines) := by
      simp [dirs, Prog.lines, Item.dir, ends]
    rw [this]
    refine .block (begins_test t) (h.2 _ (by rw [begins_test]; simp)) ?_ (ih h)
    exact Complete.append (ihy (stop_ends .cond)) (.plain rfl (by simp [ends]) (ihn (stop_ends .cond)))
  | rept a body k ihb ih =>
    intro stop h
    have : dirs sem (Prog.rept a body k).lines = .rept :: (dirs sem body.lines ++ ends .rept :: dirs sem k.lines) := by
      simp [dirs, Prog.lines, Item.dir, ends]
    rw [this]
    exact .block rfl (h.2 _ (by simp [begins])) (ihb (stop_ends .rept)) (ih h)
  | rexit k ih => intro stop h; exact .plain rfl (h.1 _) (ih h)
  | define name body k ihb ih =>
    intro stop h
    have : dirs sem (Prog.define name body k).lines = .macro :: (dirs sem body.lines ++ ends .macro :: dirs sem k.lines) := by
      simp [dirs, Prog.lines, Item.dir, ends]
    rw [this]
    exact .block rfl (h.2 _ (by simp [begins])) (ihb (stop_ends .macro)) (ih h)
  | mexit k ih => intro stop h; exact .plain rfl (h.1 _) (ih h)
  | call name a k ih => intro stop h; exact ih h
  | shift a k ih => intro stop h; exact .plain rfl (h.1 _) (ih h)
  | incl name k ih => intro stop h; exact .plain rfl (h.1 _) (ih h)

/-! ### Conditions -/

theorem decides_holds {v : View} {a : α} {s s' : σ} {t : Test} {c : Prop} (h : Decides sem v a s t c s') :
    ∃ b, holds sem t v a s = .ok (b, s') ∧ (b = true ↔ c) := by
  cases h with
  | number ht hv => cases t <;> cases ht <;> rw [holds, hv] <;> exact ⟨_, rfl, by simp⟩
  | same hv => rw [holds, hv]; exact ⟨_, rfl, by simp⟩
  | different hv => rw [holds, hv]; exact ⟨_, rfl, by simp⟩
  | defined hv => rw [holds, hv]; exact ⟨_, rfl, by simp⟩
  | undefined hv => rw [holds, hv]; exact ⟨_, rfl, by simp⟩

/-! ### Arguments -/

theorem shiftArgs_eq (n : Nat) (args : Args) : shiftArgs n args = args.take 1 ++ args.drop (1 + n) := by
  induction n generalizing args with
  | zero => cases args <;> simp [shiftArgs]
  | succ n ih =>
    match args with
    | [] => simp [shiftArgs]
    | [a] => simp [shiftArgs, Nat.add_comm 1]
    | a :: b :: rest =>
      rw [shiftArgs, ih]
      simp [Nat.add_comm 1]

/-- A frame with other arguments; a repetition has none of its own. -/
def owned (args : Args) (f : Frame α) : Frame α := match f.kind with
  | .rept _ => f
  | _ => { f with args := args }

/-- Replaces the arguments of the innermost context that has arguments. -/
def setOwner (args : Args) : List (Frame α) → List (Frame α)
  | [] => []
  | f :: fs => match f.kind with
    | .rept _ => f :: setOwner args fs
    | _ => { f with args := args } :: fs

/-- What is below the innermost context. -/
def belowOwner (args : Args) (f : Frame α) (fs : List (Frame α)) : List (Frame α) := match f.kind with
  | .rept _ => setOwner args fs
  | _ => fs

theorem setOwner_cons (args : Args) (f : Frame α) (fs : List (Frame α)) :
    setOwner args (f :: fs) = owned args f :: belowOwner args f fs := by
  rw [setOwner, owned, belowOwner]; cases f.kind <;> rfl

@[simp] theorem owned_items (args : Args) (f : Frame α) : (owned args f).items = f.items := by
  rw [owned]; cases f.kind <;> rfl

@[simp] theorem owned_kind (args : Args) (f : Frame α) : (owned args f).kind = f.kind := by
  rw [owned]; cases h : f.kind <;> simp [h]

@[simp] theorem owned_unique (args : Args) (f : Frame α) : (owned args f).unique = f.unique := by
  rw [owned]; cases f.kind <;> rfl

theorem owned_with (args : Args) (f : Frame α) (items : List (Item α)) :
    owned args { f with items := items } = { owned args f with items := items } := by
  cases f with | mk k i a u => cases k <;> rfl

theorem belowOwner_with (args : Args) (f : Frame α) (items : List (Item α)) (fs : List (Frame α)) :
    belowOwner args { f with items := items } fs = belowOwner args f fs := by
  cases f with | mk k i a u => cases k <;> rfl

/-- The stack of contexts at a place. -/
inductive Stack : Place → List (Frame α) → Prop
  | file {f : Frame α} {fs : List (Frame α)} : f.kind = .file → Stack .file (f :: fs)
  | «macro» {f : Frame α} {fs : List (Frame α)} : f.kind = .macro → Stack .macro (f :: fs)
  | rept {f : Frame α} {fs : List (Frame α)} {n : Nat} {pl : Place} : f.kind = .rept n → Stack pl fs → Stack (.rept pl.inMacro) (f :: fs)

theorem Stack.with_items {pl : Place} {f : Frame α} {fs : List (Frame α)} {items : List (Item α)} (h : Stack pl (f :: fs)) :
    Stack pl ({ f with items := items } :: fs) := by
  cases h with
  | file h => exact .file h
  | «macro» h => exact .macro h
  | rept h h' => exact .rept h h'

theorem ownerArgs_setOwner {pl : Place} {fs : List (Frame α)} (h : Stack pl fs) (args : Args) : ownerArgs (setOwner args fs) = args := by
  induction h with
  | file h => simp [setOwner, h, ownerArgs]
  | «macro» h => simp [setOwner, h, ownerArgs]
  | rept h _ ih => simp [setOwner, h, ownerArgs, ih]

theorem shiftFrames_setOwner {pl : Place} {fs : List (Frame α)} (h : Stack pl fs) (hm : pl.inMacro = true) (args : Args) (n : Int) :
    shiftFrames n (setOwner args fs) = setOwner (shifted n args) fs := by
  induction h with
  | file h => cases hm
  | «macro» h => simp [setOwner, h, shiftFrames, shifted, shiftArgs_eq]
  | rept h _ ih => simp [setOwner, h, shiftFrames, ih hm]

/-! ### Steps -/

variable (files : List Char → Option (Prog α))

/-- The text of a file that can be included: it ends with a line break. -/
def texts : List Char → Option (List (Item α)) := fun name => (files name).map fun p => p.lines ++ [.blank]

/-- Some steps. -/
inductive Steps : State α σ → State α σ → Prop
  | refl (st : State α σ) : Steps st st
  | head {st st' st'' : State α σ} : step sem (texts files) st = .ok (.more st') → Steps st' st'' → Steps st st''

variable {sem files}

theorem Steps.trans {a b c : State α σ} (h : Steps sem files a b) (h' : Steps sem files b c) : Steps sem files a c := by
  induction h with
  | refl _ => exact h'
  | head hs _ ih => exact .head hs (ih h')

theorem Steps.run {a b : State α σ} (h : Steps sem files a b) : ∃ n, ∀ m, run sem (texts files) (n + m) a = run sem (texts files) m b := by
  induction h with
  | refl st => exact ⟨0, fun m => by rw [Nat.zero_add]⟩
  | @head st st' st'' hs _ ih =>
    obtain ⟨n, hn⟩ := ih
    refine ⟨n + 1, fun m => ?_⟩
    rw [show n + 1 + m = (n + m) + 1 by omega, Verif.Flow.run, hs]
    exact hn m

/-- The macros as the assembler stores them. -/
def bodies (macros : List Char → Option (Prog α)) : List Char → Option (List (Item α)) :=
  fun name => (macros name).map fun p => p.lines ++ [.endm]

/-- The state of the assembler. -/
def State.of (fs : List (Frame α)) (e : Env α σ) : State α σ := ⟨setOwner e.args fs, bodies e.macros, e.next, e.s⟩

end Verif.Flow
