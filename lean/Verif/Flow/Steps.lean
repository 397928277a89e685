import Verif.Flow.Props
/-!
# C49: what each statement does
-/
namespace Verif.Flow

open Verif.Lexer (Dir Complete isFalseBranch begins ends)

variable {α σ : Type} {sem : Sem α σ} {files : List Char → Option (Prog α)} {pl : Place} {f g : Frame α} {fs : List (Frame α)}
  {e : Env α σ} {r : List (Item α)}

theorem ok_bind {β γ : Type} (b : β) (k : β → Outcome γ) : (Outcome.ok b).bind k = k b := rfl

theorem state_with (e : Env α σ) (f : Frame α) (fs : List (Frame α)) (r : List (Item α)) :
    (⟨{ owned e.args f with items := r } :: belowOwner e.args f fs, bodies e.macros, e.next, e.s⟩ : State α σ) =
      State.of ({ f with items := r } :: fs) e := by
  rw [State.of, setOwner_cons, owned_with e.args f r, belowOwner_with e.args f r]

theorem view_eq (h : Stack pl (f :: fs)) : ownerArgs (owned e.args f :: belowOwner e.args f fs) = e.args := by
  rw [← setOwner_cons]; exact ownerArgs_setOwner h _

/-- The view of the innermost context. -/
theorem step_eq {i : Item α} {fl : List Char → Option (List (Item α))} (hf : f.items = i :: r) :
    step sem fl (State.of (f :: fs) e) = step sem fl ⟨{ owned e.args f with items := i :: r } :: belowOwner e.args f fs,
      bodies e.macros, e.next, e.s⟩ := by
  rw [State.of, setOwner_cons, ← hf, ← owned_items e.args f]

theorem step_blank (hf : f.items = .blank :: r) :
    step sem (texts files) (State.of (f :: fs) e) = .ok (.more (State.of ({ f with items := r } :: fs) e)) := by
  rw [step_eq hf, ← state_with]; rfl

theorem owner_with (h : Stack pl (f :: fs)) (items : List (Item α)) :
    ownerArgs ({ owned e.args f with items := items } :: belowOwner e.args f fs) = e.args := by
  rw [← owned_with, ← belowOwner_with e.args f items fs]; exact view_eq h.with_items

theorem step_exec {a : α} {s' : σ} (h : Stack pl (f :: fs)) (hf : f.items = .exec a :: r) (hx : sem.exec ⟨e.args, f.unique⟩ a e.s = .ok s') :
    step sem (texts files) (State.of (f :: fs) e) = .ok (.more (State.of ({ f with items := r } :: fs) { e with s := s' })) := by
  rw [step_eq hf, ← state_with]
  show (sem.exec ⟨ownerArgs _, _⟩ a e.s).bind _ = _
  rw [owner_with h]
  simp only [owned_unique]
  rw [hx]; rfl

theorem step_true {t : Test} {a : α} {s' : σ} (h : Stack pl (f :: fs)) (hf : f.items = .cond t a :: r)
    (hx : holds sem t ⟨e.args, f.unique⟩ a e.s = .ok (true, s')) :
    step sem (texts files) (State.of (f :: fs) e) = .ok (.more (State.of ({ f with items := r } :: fs) { e with s := s' })) := by
  rw [step_eq hf, ← state_with]
  show (holds sem t ⟨ownerArgs _, _⟩ a e.s).bind _ = _
  rw [owner_with h]
  simp only [owned_unique]
  rw [hx]; rfl

theorem step_false {t : Test} {a : α} {s' : σ} {r' : List (Item α)} (h : Stack pl (f :: fs)) (hf : f.items = .cond t a :: r)
    (hx : holds sem t ⟨e.args, f.unique⟩ a e.s = .ok (false, s')) (hs : skipItems sem isFalseBranch .newline r = .ok (true, r')) :
    step sem (texts files) (State.of (f :: fs) e) = .ok (.more (State.of ({ f with items := r' } :: fs) { e with s := s' })) := by
  rw [step_eq hf, ← state_with]
  show (holds sem t ⟨ownerArgs _, _⟩ a e.s).bind _ = _
  rw [owner_with h]
  simp only [owned_unique]
  rw [hx, ok_bind]
  show (skipItems sem isFalseBranch .newline r).bind _ = _
  rw [hs]; rfl

theorem step_else {r' : List (Item α)} (hf : f.items = .else :: r) (hs : skipItems sem (· == .endc) .else r = .ok (true, r')) :
    step sem (texts files) (State.of (f :: fs) e) = .ok (.more (State.of ({ f with items := r' } :: fs) e)) := by
  rw [step_eq hf, ← state_with]
  show (skipItems sem (· == .endc) .else r).bind _ = _
  rw [hs]; rfl

theorem step_endc (hf : f.items = .endc :: r) :
    step sem (texts files) (State.of (f :: fs) e) = .ok (.more (State.of ({ f with items := r } :: fs) e)) := by
  rw [step_eq hf, ← state_with]; rfl

theorem step_rept {a : α} {n : Nat} {s' : σ} (h : Stack pl (f :: fs)) (hf : f.items = .rept a :: r)
    (hx : sem.value ⟨e.args, f.unique⟩ a e.s = .ok ((n + 1 : Nat), s')) :
    step sem (texts files) (State.of (f :: fs) e) =
      .ok (.more (State.of (⟨.rept n, r, [], e.next⟩ :: { f with items := r } :: fs) { e with next := (e.next + 1) % W32, s := s' })) := by
  rw [step_eq hf]
  show (sem.value ⟨ownerArgs _, _⟩ a e.s).bind _ = _
  rw [owner_with h]
  simp only [owned_unique]
  rw [hx, ok_bind]
  show (if ((n + 1 : Nat) : Int) > 0 then _ else _) = _
  rw [if_pos (by omega)]
  rw [State.of, setOwner]
  simp only []
  rw [setOwner_cons, owned_with e.args f r, belowOwner_with e.args f r]
  simp only [owned_unique]
  rfl

theorem step_rept_zero {a : α} {s' : σ} {r' : List (Item α)} (h : Stack pl (f :: fs)) (hf : f.items = .rept a :: r)
    (hx : sem.value ⟨e.args, f.unique⟩ a e.s = .ok (0, s')) (hs : skipItems sem (· == .endr) .newline r = .ok (true, r')) :
    step sem (texts files) (State.of (f :: fs) e) = .ok (.more (State.of ({ f with items := r' } :: fs) { e with s := s' })) := by
  rw [step_eq hf, ← state_with]
  show (sem.value ⟨ownerArgs _, _⟩ a e.s).bind _ = _
  rw [owner_with h]
  simp only [owned_unique]
  rw [hx, ok_bind]
  show (if (0 : Int) > 0 then _ else if (0 : Int) < 0 then _ else _) = _
  rw [if_neg (by decide), if_neg (by decide)]
  show (skipItems sem (· == .endr) .newline r).bind _ = _
  rw [hs]; rfl

theorem step_endr_again {n : Nat} (hk : f.kind = .rept (n + 1)) (hf : f.items = .endr :: r) :
    step sem (texts files) (State.of (f :: g :: fs) e) =
      .ok (.more (State.of ({ f with kind := .rept n, items := g.items, unique := e.next } :: g :: fs) { e with next := (e.next + 1) % W32 })) := by
  rw [State.of, setOwner, hk]
  simp only []
  rw [setOwner_cons, step]
  simp only [hf, hk, owned_items]
  rw [State.of, setOwner]
  simp only []
  rw [setOwner_cons]

theorem step_endr_last (hk : f.kind = .rept 0) (hf : f.items = .endr :: r) :
    step sem (texts files) (State.of (f :: g :: fs) e) = .ok (.more (State.of ({ g with items := r } :: fs) e)) := by
  rw [State.of, setOwner, hk]
  simp only []
  rw [setOwner_cons, step]
  simp only [hf, hk]
  rw [← state_with]

theorem step_rexit {n : Nat} {r' : List (Item α)} (hk : f.kind = .rept n) (hf : f.items = .rexit :: r)
    (hs : skipItems sem (· == .endr) (.other 2) r = .ok (true, r')) (hr : r' ≠ []) :
    step sem (texts files) (State.of (f :: g :: fs) e) = .ok (.more (State.of ({ g with items := r' } :: fs) e)) := by
  rw [State.of, setOwner, hk]
  simp only []
  rw [setOwner_cons, step]
  simp only [hf, hk]
  rw [hs, ok_bind]
  show (if (true && r'.isEmpty) = true then _ else _) = _
  rw [if_neg (by cases r' with | nil => exact absurd rfl hr | cons _ _ => simp)]
  rw [← state_with]

theorem step_rexit_outside (h : Stack pl (f :: fs)) (hp : ∀ m, pl ≠ .rept m) (hf : f.items = .rexit :: r) :
    step sem (texts files) (State.of (f :: fs) e) = .ok (.more (State.of ({ f with items := r } :: fs) e)) := by
  have hk : ∀ n, f.kind ≠ .rept n := by
    cases h with
    | file h => intro n; rw [h]; simp
    | «macro» h => intro n; rw [h]; simp
    | rept h h' => exact absurd rfl (hp _)
  rw [step_eq hf, ← state_with, step]
  cases hk' : f.kind with
  | file => simp only [owned_kind, hk']
  | «macro» => simp only [owned_kind, hk']
  | rept n => exact absurd hk' (hk n)

theorem step_define {name : List Char} {p : Prog α} {post : List (Item α)} (hf : f.items = .define name :: (p.lines ++ .endm :: post))
    (hm : e.macros name = none) :
    step sem (texts files) (State.of (f :: fs) e) = .ok (.more (State.of ({ f with items := post } :: fs)
      { e with macros := fun n => if n = name then some p else e.macros n })) := by
  have hs : skipItems sem (· == .endm) (.other 0) (p.lines ++ .endm :: post) = .ok (true, post) :=
    skipItems_found sem (p := (· = .endm)) (by intro d; simp) (complete_lines sem p (stop_ends .macro)) rfl rfl rfl (by simp)
  have hc : copyBody sem (p.lines ++ .endm :: post) = .ok (p.lines ++ [.endm], post) := by
    rw [copyBody, hs, ok_bind]
    show (if true = true then Outcome.ok _ else _) = _
    rw [if_pos rfl]
    congr 2
    rw [show p.lines ++ Item.endm :: post = (p.lines ++ [.endm]) ++ post by simp, List.length_append,
      Nat.add_sub_cancel, List.take_left]
  rw [step_eq hf, ← state_with]
  show (copyBody sem (p.lines ++ .endm :: post)).bind _ = _
  rw [hc, ok_bind]
  simp only []
  congr 3
  funext n
  by_cases hn : n = name
  · subst hn; simp [bodies, hm]
  · simp [bodies, hn]

theorem step_endm (hk : f.kind = .macro) (hf : f.items = .endm :: r) (hfs : fs ≠ []) :
    step sem (texts files) (State.of (f :: fs) e) = .ok (.more ⟨fs, bodies e.macros, e.next, e.s⟩) := by
  rw [State.of, setOwner, hk]
  simp only []
  rw [step]
  simp only [hf, hk]
  rw [if_neg (by simpa using hfs)]

theorem step_mexit (hk : f.kind = .macro) (hf : f.items = .mexit :: r) (hfs : fs ≠ []) :
    step sem (texts files) (State.of (f :: fs) e) = .ok (.more ⟨fs, bodies e.macros, e.next, e.s⟩) := by
  rw [State.of, setOwner, hk]
  simp only []
  rw [step]
  simp only [hf, hk]
  rw [if_neg (by simpa using hfs)]

theorem step_call {name : List Char} {a : α} {p : Prog α} {args : Args} {s' : σ} (h : Stack pl (f :: fs)) (hf : f.items = .call name a :: r)
    (hm : e.macros name = some p) (hx : sem.args ⟨e.args, f.unique⟩ a e.s = .ok (args, s')) :
    step sem (texts files) (State.of (f :: fs) e) = .ok (.more ⟨⟨.macro, p.lines ++ [.endm], args, e.next⟩ ::
      setOwner e.args ({ f with items := r } :: fs), bodies e.macros, (e.next + 1) % W32, s'⟩) := by
  rw [step_eq hf]
  show (match bodies e.macros name with | none => _ | some body => (sem.args ⟨ownerArgs _, _⟩ a e.s).bind _) = _
  rw [show bodies e.macros name = some (p.lines ++ [.endm]) by simp [bodies, hm]]
  show (sem.args ⟨ownerArgs _, _⟩ a e.s).bind _ = _
  rw [owner_with h]
  simp only [owned_unique]
  rw [hx, ok_bind, setOwner_cons, owned_with e.args f r, belowOwner_with e.args f r]
  simp only [owned_unique]

theorem step_shift {a : α} {n : Int} {s' : σ} (h : Stack pl (f :: fs)) (hp : pl.inMacro = true) (hf : f.items = .shift a :: r)
    (hx : sem.value ⟨e.args, f.unique⟩ a e.s = .ok (n, s')) :
    step sem (texts files) (State.of (f :: fs) e) =
      .ok (.more (State.of ({ f with items := r } :: fs) { e with args := shifted n e.args, s := s' })) := by
  rw [step_eq hf]
  show (sem.value ⟨ownerArgs _, _⟩ a e.s).bind _ = _
  rw [owner_with h]
  simp only [owned_unique]
  rw [hx, ok_bind]
  show Outcome.ok (Next.more ⟨shiftFrames n ({ owned e.args f with items := r, unique := f.unique } :: belowOwner e.args f fs), _, _, _⟩) = _
  have : ({ owned e.args f with items := r, unique := f.unique } : Frame α) = owned e.args { f with items := r } := by
    rw [owned_with e.args f r]; simp only [owned_unique]
  rw [this, ← belowOwner_with e.args f r fs, ← setOwner_cons, shiftFrames_setOwner h.with_items hp]
  rfl

theorem step_incl {name : List Char} {p : Prog α} (hf : f.items = .incl name :: r) (hm : files name = some p) :
    step sem (texts files) (State.of (f :: fs) e) = .ok (.more ⟨⟨.file, p.lines ++ [.blank], [], e.next⟩ ::
      setOwner e.args ({ f with items := r } :: fs), bodies e.macros, (e.next + 1) % W32, e.s⟩) := by
  rw [step_eq hf]
  show (match texts files name with | none => _ | some items => _) = _
  rw [show texts files name = some (p.lines ++ [.blank]) by simp [texts, hm]]
  rw [setOwner_cons, owned_with e.args f r, belowOwner_with e.args f r]

/-- The end of an included file. -/
theorem step_end (hk : f.kind = .file) (hf : f.items = []) (hfs : fs ≠ []) :
    step sem (texts files) (State.of (f :: fs) e) = .ok (.more ⟨fs, bodies e.macros, e.next, e.s⟩) := by
  rw [State.of, setOwner, hk]
  simp only []
  rw [step]
  simp only [hf, hk]
  rw [if_neg (by simpa using hfs)]

end Verif.Flow
