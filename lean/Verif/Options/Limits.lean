import Verif.Options.Props
/-!
# C64: what single options do, and what is not restored
-/
namespace Verif.Options

open Verif.Cpu

variable {M E D : Type}

/-- A library for examples: decimal numbers of digits, and one number in hexadecimal. -/
def lib0 : Lib :=
  let dec := fun t : List Char => Int.ofNat (t.foldl (fun n c => 10 * n + (c.toNat - 48)) 0)
  ⟨fun t => if t ≠ [] ∧ t.all Char.isDigit then some (dec t) else none, fun t => if t = ['A', '0'] then some 0xA0 else none,
    fun t => dec t⟩

/-- The letters of the options. -/
inductive Letter where
  | align | digits | endian | debug | machine | disabled | fill
  deriving DecidableEq

def Letter.char : Letter → Char
  | .align => 'a' | .digits => 'b' | .endian => 'e' | .debug => 'g' | .machine => 'm' | .disabled => 'w' | .fill => 'z'

/-- Whether two sets of options agree in what a letter is for. -/
def Letter.Same : Letter → Opts M → Opts M → Prop
  | .align, o, o' => o.align = o'.align
  | .digits, o, o' => o.digits = o'.digits
  | .endian, o, o' => o.big = o'.big
  | .debug, o, o' => o.debug = o'.debug
  | .machine, o, o' => o.machine = o'.machine ∧ o.pixels = o'.pixels
  | .disabled, o, o' => o.disabled = o'.disabled
  | .fill, o, o' => o.fill = o'.fill

theorem same_refl (l : Letter) (o : Opts M) : l.Same o o := by cases l <;> first | rfl | exact ⟨rfl, rfl⟩

theorem apply_cases (r : Option (Opts M)) (s : State M E) : (apply r s).cur = s.cur ∨ r = some (apply r s).cur := by
  cases r with
  | none => exact .inl (warn_same _ s).1
  | some o => exact .inr rfl

/-- **C64.** An option changes nothing but what its letter is for. -/
theorem C64_own_letter (cfg : Cfg M E D) (lib : Lib) {t : List Char} {s s' : State M E} (h : parse cfg lib t s = .ok s') {l : Letter}
    (hl : t.head? ≠ some l.char) : l.Same s'.cur s.cur ∧ s'.saved = s.saved ∧ s'.env = s.env := by
  have rest : ∀ r : Option (Opts M), apply r s = s' → s'.saved = s.saved ∧ s'.env = s.env := by
    intro r e
    subst e
    cases r with
    | none => exact ⟨(warn_same _ s).2.1, (warn_same _ s).2.2.1⟩
    | some o => exact ⟨rfl, rfl⟩
  have key : ∀ r : Option (Opts M), apply r s = s' → (∀ o, r = some o → l.Same o s.cur) → l.Same s'.cur s.cur ∧ s'.saved = s.saved ∧ s'.env = s.env := by
    intro r e hr
    refine ⟨?_, rest r e⟩
    subst e
    rcases apply_cases r s with e | e
    · rw [e]; exact same_refl l _
    · exact hr _ e
  unfold parse at h
  split at h
  · refine key _ (Outcome.ok.inj h) fun o e => ?_
    obtain ⟨n, -, rfl⟩ := Option.map_eq_some_iff.1 e
    cases l <;> first | exact absurd rfl hl | rfl | exact ⟨rfl, rfl⟩
  · refine key _ (Outcome.ok.inj h) fun o e => ?_
    unfold binary at e
    split at e
    · cases e; cases l <;> first | exact absurd rfl hl | rfl | exact ⟨rfl, rfl⟩
    · cases e
  · refine key _ (Outcome.ok.inj h) fun o e => ?_
    unfold endianness at e
    split at e <;> cases e <;> (cases l <;> first | exact absurd rfl hl | rfl | exact ⟨rfl, rfl⟩)
  · cases h; refine ⟨?_, rfl, rfl⟩; cases l <;> first | exact absurd rfl hl | rfl | exact ⟨rfl, rfl⟩
  · unfold addPath at h
    split at h
    · cases h
    · cases h; exact ⟨same_refl l _, rfl, rfl⟩
  · cases h; refine ⟨?_, rfl, rfl⟩; cases l <;> first | exact absurd rfl hl | rfl
  · refine key _ (Outcome.ok.inj h) fun o e => ?_
    unfold disable at e
    split at e
    · obtain ⟨n, -, rfl⟩ := Option.map_eq_some_iff.1 e
      cases l <;> first | exact absurd rfl hl | rfl | exact ⟨rfl, rfl⟩
    · cases e
  · rename_i t
    generalize hf : fill lib t s.cur = r at h
    cases r with
    | ok o =>
      refine key o (Outcome.ok.inj h) fun o' e => ?_
      subst e
      unfold fill at hf
      split at hf
      · split at hf
        · cases hf; cases l <;> first | exact absurd rfl hl | rfl | exact ⟨rfl, rfl⟩
        · split at hf
          · cases hf; cases l <;> first | exact absurd rfl hl | rfl | exact ⟨rfl, rfl⟩
          · cases hf
      · cases hf
    | fail => cases h
    | ub => cases h
  · cases h
    obtain ⟨h1, h2, h3, -⟩ := warn_same warnOption s
    exact ⟨h1 ▸ same_refl l _, h2, h3⟩

/-- **C64.** What the options set: the byte order, the characters of binary numbers, the alignment, the byte for space that is not
initialized, and debug information. -/
theorem C64_values (cfg : Cfg M E D) (lib : Lib) (s : State M E) :
    (∀ t, parse cfg lib ('e' :: 'b' :: t) s = .ok {s with cur := {s.cur with big := true}}) ∧
    (∀ t, parse cfg lib ('e' :: 'l' :: t) s = .ok {s with cur := {s.cur with big := false}}) ∧
    (∀ x y, parse cfg lib ['b', x, y] s = .ok {s with cur := {s.cur with digits := [x, y]}}) ∧
    (∀ t n, lib.dec t = some n → parse cfg lib ('a' :: t) s = .ok {s with cur := {s.cur with align := n}}) ∧
    (∀ x y v, x ≠ '?' → lib.hex [x, y] = some v → parse cfg lib ['z', x, y] s = .ok {s with cur := {s.cur with fill := v % 256}}) ∧
    parse cfg lib ['z', '?'] s = .ok {s with cur := {s.cur with fill := 255}} ∧
    (∀ t, parse cfg lib ('g' :: t) s = .ok {s with cur := {s.cur with debug := true}}) := by
  refine ⟨fun _ => rfl, fun _ => rfl, fun _ _ => rfl, fun t n h => ?_, fun x y v hx h => ?_, rfl, fun _ => rfl⟩
  · show Outcome.ok (apply ((lib.dec t).map _) s) = _
    rw [h]; rfl
  · show (fill lib [x, y] s.cur).bind _ = _
    have hn : ([x, y].takeWhile fun c => c ≠ ' ' ∧ c ≠ '\t').length ≤ 2 := List.Sublist.length_le (List.takeWhile_sublist _)
    unfold fill
    rw [if_pos hn, if_neg (by intro e; cases e), h]
    rfl

/-- **C64.** Other texts are refused with a warning, unless it has been switched off, and change nothing. -/
theorem C64_refused (cfg : Cfg M E D) (lib : Lib) (s : State M E) {t : List Char}
    (h : t = [] ∨ (∃ c u, t = c :: u ∧ c ∉ "abegimwz".toList) ∨ (∃ u, t = 'e' :: u ∧ u.head? ≠ some 'b' ∧ u.head? ≠ some 'l') ∨
      (∃ u, t = 'b' :: u ∧ u.length ≠ 2) ∨ (∃ u, (t = 'a' :: u ∨ t = 'w' :: u) ∧ lib.dec u = none) ∨
      (∃ x y z u, t = 'z' :: x :: y :: z :: u ∧ ∀ c ∈ [x, y, z], c ≠ ' ' ∧ c ≠ '\t')) :
    parse cfg lib t s = .ok (if 1 ∈ s.cur.disabled then s else {s with messages := 1 :: s.messages}) := by
  rcases h with rfl | ⟨c, u, rfl, hc⟩ | ⟨u, rfl, h1, h2⟩ | ⟨u, rfl, hu⟩ | ⟨u, rfl | rfl, hu⟩ | ⟨x, y, z, u, rfl, hx⟩
  · rfl
  · unfold parse
    split <;> rename_i e <;> first | (cases e; exact absurd (by decide) hc) | rfl
  · have : endianness u s.cur = none := by
      unfold endianness
      split
      · exact absurd rfl h1
      · exact absurd rfl h2
      · rfl
    show Outcome.ok (apply (endianness u s.cur) s) = _
    rw [this]; rfl
  · show Outcome.ok (apply (binary u s.cur) s) = _
    unfold binary
    rw [if_neg hu]; rfl
  · show Outcome.ok (apply ((lib.dec u).map _) s) = _
    rw [hu]; rfl
  · show Outcome.ok (apply (disable lib u s.cur) s) = _
    unfold disable
    rw [hu]
    split <;> rfl
  · show (fill lib _ s.cur).bind _ = _
    have hl : ¬ ((x :: y :: z :: u).takeWhile fun c => c ≠ ' ' ∧ c ≠ '\t').length ≤ 2 := by
      have a := hx x (by simp)
      have b := hx y (by simp)
      have c := hx z (by simp)
      rw [List.takeWhile_cons_of_pos (by simpa using a), List.takeWhile_cons_of_pos (by simpa using b),
        List.takeWhile_cons_of_pos (by simpa using c)]
      simp only [List.length_cons]
      omega
    unfold fill
    rw [if_neg hl]
    rfl

example (cfg : Cfg M E D) (s : State M E) (h : s.cur.disabled = []) :
    parse cfg lib0 "ex".toList s = .ok {s with messages := 1 :: s.messages} :=
  (C64_refused cfg lib0 s (.inr (.inr (.inl ⟨['x'], rfl, by decide, by decide⟩)))).trans (by rw [h]; rfl)

/-- **C64.** A warning that has been switched off is not given, and no other warning is affected. -/
theorem C64_warning (cfg : Cfg M E D) (lib : Lib) {t : List Char} {s : State M E} {n : Nat} (hn : lib.dec t = some n) (h16 : n < 65536)
    (hc : s.cur.disabled.length < 32) : ∃ s', parse cfg lib ('w' :: t) s = .ok s' ∧ s'.messages = s.messages ∧
      ∀ k, (warn k s').messages = if k = n then s.messages else (warn k s).messages := by
  have e : parse cfg lib ('w' :: t) s = .ok {s with cur := {s.cur with disabled := s.cur.disabled ++ [n]}} := by
    show Outcome.ok (apply (disable lib t s.cur) s) = _
    unfold disable
    rw [if_pos hc, hn]
    show Outcome.ok {s with cur := {s.cur with disabled := s.cur.disabled ++ [((n : Int) % 65536).toNat]}} = _
    rw [show ((n : Int) % 65536).toNat = n by omega]
  refine ⟨_, e, rfl, fun k => ?_⟩
  unfold warn
  by_cases hk : k = n
  · subst hk
    rw [if_pos rfl, if_pos (List.mem_append_right _ List.mem_cons_self)]
  · rw [if_neg hk]
    by_cases hm : k ∈ s.cur.disabled
    · rw [if_pos hm, if_pos (List.mem_append_left _ hm)]
    · rw [if_neg hm, if_neg]
      intro h
      rcases List.mem_append.1 h with h | h
      · exact hm h
      · exact hk (List.mem_singleton.1 h)

/-! ### What is not so -/

/-- The documentation says that the options of the command line can be set, saved and restored (doc/Assembler.md 32-34). The path for
included files is one of them (xasm/motor/xasm.c 205-214), but it is not restored. -/
theorem C64_path_stays : ∃ s', run x65 lib0 [.push, .opt ["ilib".toList], .pop] (start []) = .ok s' ∧
    s'.paths = ["lib/".toList] ∧ (start []).paths = [] := ⟨_, rfl, rfl, rfl⟩

/-- Numbers of warnings are cut to 16 bits: 65538 switches off warning 2. -/
theorem C64_warning_cut : ∃ s', run x65 lib0 [.opt ["w65538".toList], .pop] (start []) = .ok s' ∧ s'.messages = [] := ⟨_, rfl, rfl⟩

/-- Only 32 warnings can be switched off, even if it is the same one; the next is not. -/
theorem C64_warning_full (cfg : Cfg M E D) (lib : Lib) (t : List Char) {s : State M E} (h : 32 ≤ s.cur.disabled.length) :
    parse cfg lib ('w' :: t) s = .ok (warn 1 s) := by
  show Outcome.ok (apply (disable lib t s.cur) s) = _
  unfold disable
  rw [if_neg (by omega)]
  rfl

/-- After an option for undocumented instructions has been refused, it is set nevertheless. -/
theorem C64_refused_but_set : ∃ s', run x65 lib0 [.opt ["mc1".toList, "mu2".toList]] (start []) = .ok s' ∧
    s'.messages = [1000] ∧ s'.cur.machine.undocumented = 2 := ⟨_, rfl, rfl, rfl⟩

/-- The groups of a platform stay when its option is no longer set. -/
theorem C64_groups_stay : ∃ s', run m68k lib0 [.push, .opt ["mga".toList], .pop] m68kStart = .ok s' ∧ s'.cur.machine.platform = 0 ∧
    s'.env.names = ["CODE", "DATA", "BSS", "CODE_C", "DATA_C", "BSS_C"] := ⟨_, rfl, rfl, rfl⟩

/-- Whether a coprocessor fits the processor is not tested by directives but by `POPO`: it gives an error although nothing has been set
since `PUSHO`. -/
theorem C64_error_of_POPO : ∃ s s', run m68k lib0 [.machine (.fpu 1)] m68kStart = .ok s ∧ s.env.errors = 0 ∧
    run m68k lib0 [.push, .pop] s = .ok s' ∧ s'.env.errors = 1 := ⟨_, _, rfl, rfl, rfl, rfl⟩

/-! ### Examples -/

example {ds : List (Dir M68kDir)} (h : Balanced ds) {s s' : State M68k Groups} (he : run m68k lib0 (.push :: ds ++ [.pop]) s = .ok s') :
    s'.cur = s.cur := (C64_others (fun _ _ => ⟨_, rfl⟩) lib0 h he).1


/-- The directives of the example in the documentation (doc/Assembler.md 36-43), and options of the processor. -/
def example0 : List (Dir X65Dir) :=
  [.opt ["w1".toList, "eb".toList, "zA0".toList, "mc4".toList], .machine (.setBp 256), .push, .opt ["mc0".toList, "mu1".toList], .pop,
   .opt ["x".toList]]

example : Balanced example0 :=
  .sets (by intro h; cases h) (by intro h; cases h) (.sets (by intro h; cases h) (by intro h; cases h)
    (.nest (a := [.opt ["mc0".toList, "mu1".toList]]) (b := [.opt ["x".toList]])
      (.sets (by intro h; cases h) (by intro h; cases h) .nil) (.sets (by intro h; cases h) (by intro h; cases h) .nil)))

example : ∃ s s', run x65 lib0 example0 (start []) = .ok s ∧ s.cur.big = true ∧ s.cur.fill = 0xA0 ∧ s.cur.machine.bp = 256 ∧
    s.env.list.length = 55 ∧ run x65 lib0 (.push :: example0 ++ [.pop]) (start []) = .ok s' ∧ s'.cur.big = false ∧
    s'.cur.machine.bp = 0 ∧ s'.env.list = [] := ⟨_, _, rfl, rfl, rfl, rfl, rfl, rfl, rfl, rfl, rfl⟩

end Verif.Options
