import Verif.Resolve.Lemmas
/-!
# C11: imported symbols get the exporter's value
-/
namespace Verif.Resolve
open Verif.Smart (SymType)

/-! A program for the examples: `main` in file 0 at $1000 imports `f`, which file 1 exports at $2000 + 4, and refers to
`loop` in another section of its own file. File 1 has a `loop` too. Last comes the section of layout symbols. -/
def nF : Bytes := [102]
def nLoop : Bytes := [108]
def nEnd : Bytes := [101]
def prog : List Sect :=
  [⟨0, false, true, 0x1000, -1, [⟨nF, .imported, 0⟩, ⟨nLoop, .localImport, 0⟩, ⟨nEnd, .imported, 0⟩]⟩,
   ⟨1, false, true, 0x2000, -1, [⟨nLoop, .localExport, 0⟩, ⟨nF, .exported, 4⟩]⟩,
   ⟨0, false, true, 0x3000, -1, [⟨nLoop, .localExport, 8⟩]⟩,
   ⟨0, true, true, 0, 0, [⟨nEnd, .linker, 0⟩]⟩]
def progLnk : Slot → Outcome Res := fun _ => .ok ⟨0x4000, some 3⟩

/-- The values some symbols have after a sequence of requests. -/
def valuesOf (xs : List Slot) : Outcome State → Option (List (Option Res))
  | .ok st => some (xs.map st)
  | _ => none

/-- Whatever symbols are asked for, and in whatever order: every resolved symbol has the value it stands for. An
imported symbol has the final value of a symbol of that name that a kept section exports. -/
theorem C11_resolved_values (secs : List Sect) (lnk : Slot → Outcome Res) (xs : List (Slot × Bool)) (st : State)
    (h : touchAll secs lnk xs start = .ok st) (x : Slot) (r : Res) (hr : st x = some r) : Means secs lnk x r :=
  touchAll_sound (by intro z q hq; cases hq) h x r hr

example : valuesOf [(0, 0), (0, 1)] (touchAll prog progLnk [((0, 0), false), ((0, 1), false)] start)
    = some [some ⟨0x2004, some 1⟩, some ⟨0x3008, some 2⟩] := by decide +kernel

/-- A resolved local import has the value of a symbol in a kept section with the same file number, under its own name.
If that symbol is not one of the memory layout, it is one that this file exports. -/
theorem C11_local_import_same_file_partial (secs : List Sect) (lnk : Slot → Outcome Res) (xs : List (Slot × Bool))
    (st : State) (h : touchAll secs lnk xs start = .ok st) (x : Slot) (s : Sect) (y : Sym) (ha : At secs x s y)
    (ht : y.type = .localImport) (r : Res) (hr : st x = some r) :
    ∃ z t w, At secs z t w ∧ t.used = true ∧ t.fileId = s.fileId ∧ w.name = y.name ∧ r.sect = some z.1 ∧
      (w.type ≠ .linker → (w.type = .localExport ∨ w.type = .exported) ∧ r.value = w.value + t.base) := by
  cases C11_resolved_values secs lnk xs st h x r hr with
  | own h' ho => obtain ⟨-, rfl⟩ := at_inj ha h'; rcases ho with ho | ho | ho <;> simp [ht] at ho
  | imported h' ht' => obtain ⟨-, rfl⟩ := at_inj ha h'; simp [ht] at ht'
  | linker h' ht' => obtain ⟨-, rfl⟩ := at_inj ha h'; simp [ht] at ht'
  | @localImport _ z s' t y' w q h' _ hz hg hq =>
    obtain ⟨rfl, rfl⟩ := at_inj ha h'
    obtain ⟨h1, h2, h3, h4⟩ := hg
    refine ⟨z, t, w, hz, h1, h2, h4, rfl, ?_⟩
    intro hl
    have hw : w.type = .localExport ∨ w.type = .exported := by
      rcases h3 with h3 | h3 | h3
      · exact .inl h3
      · exact .inr h3
      · exact absurd h3 hl
    refine ⟨hw, ?_⟩
    cases hq with
    | own hz' _ => obtain ⟨rfl, rfl⟩ := at_inj hz hz'; rfl
    | imported hz' ht' => obtain ⟨-, rfl⟩ := at_inj hz hz'; rcases hw with hw | hw <;> simp [hw] at ht'
    | localImport hz' ht' => obtain ⟨-, rfl⟩ := at_inj hz hz'; rcases hw with hw | hw <;> simp [hw] at ht'
    | linker hz' ht' => obtain ⟨-, rfl⟩ := at_inj hz hz'; exact absurd ht' hl

example : ∃ st, touchAll prog progLnk [((0, 1), false)] start = .ok st ∧ st (0, 1) = some ⟨0x3008, some 2⟩ ∧
    At prog (0, 1) prog[0] ⟨nLoop, .localImport, 0⟩ := ⟨_, rfl, by decide +kernel, rfl, rfl⟩

theorem copyFrom_ne_fail (st : State) (x : Slot) (f : Slot × Sect × Sym) : copyFrom st x f ≠ .fail := by
  have hd : ∀ z t w, define st z t w ≠ .fail := by
    intro z t w
    unfold define Expr.chk
    by_cases hi : Expr.I32 (current st z w + if t.loc ≠ -1 then t.loc else 0)
    · rw [if_pos hi]; simp
    · rw [if_neg hi]; simp
  unfold copyFrom
  cases he : ensure st f.1 f.2.1 f.2.2 with
  | ok st1 => simp; cases st1 f.1 <;> simp
  | ub => simp
  | fail =>
    unfold ensure at he
    cases hz : st f.1 with
    | some r => simp [hz] at he
    | none => simp only [hz] at he; exact absurd he (hd _ _ _)

/-- Once the symbols of all kept sections have been resolved (`sect_ResolveUnresolved`), using an import is reported
as an error exactly if nobody provides a symbol of that name. -/
theorem C11_reported_iff_missing (secs : List Sect) (lnk : Slot → Outcome Res) (st : State)
    (hl : ∀ z t w, At secs z t w → w.type = .linker → t.used = true) (h : resolveUnresolved secs lnk start = .ok st)
    (x : Slot) (s : Sect) (y : Sym) (ha : At secs x s y) (ht : y.type = .imported) (hx : st x = none) :
    touch secs lnk false st x = .fail ↔ ¬ ∃ z t w, At secs z t w ∧ GivesGlobal y.name t w := by
  unfold touch
  rw [hx]
  simp only [resolve, getSym_some.2 ha, ht]
  cases hf : find secs y.name (fun t => t.used || t.equ) (isExport st) with
  | some z =>
    simp only [copyFrom_ne_fail, false_iff]
    refine fun hno => hno ?_
    obtain ⟨z, t, w⟩ := z
    obtain ⟨hz, hp, hq, hn⟩ := find_some hf
    refine ⟨z, t, w, hz, by simpa using hp, ?_, hn⟩
    rcases isExport_type hq with h1 | h1
    · exact .inl h1
    · exact .inr h1.1
  | none =>
    simp only [Bool.false_eq_true, if_false, true_iff]
    rintro ⟨z, t, w, hz, hu, hw, hn⟩
    refine find_none hf hz (by simpa using hu) ?_ hn
    rcases hw with hw | hw
    · simp [isExport, hw]
    · have hm : (z, true) ∈ ((slots secs).filter fun (_, s, _) => s.used).map fun (x, _, _) => (x, true) :=
        List.mem_map.2 ⟨(z, t, w), List.mem_filter.2 ⟨mem_slots.2 hz, hl z t w hz hw⟩, rfl⟩
      rcases touchAll_resolves h z true hm t w hz with h1 | h1
      · simp [isExport, hw, h1]
      · simp [hw] at h1

/-- All symbols of kept sections are resolved then, except for imports that no object file exports. -/
theorem C11_kept_sections_resolved (secs : List Sect) (lnk : Slot → Outcome Res) (st : State)
    (h : resolveUnresolved secs lnk start = .ok st) (x : Slot) (s : Sect) (y : Sym) (ha : At secs x s y)
    (hu : s.used = true) : (st x).isSome ∨ (y.type = .imported ∧
      ∀ z t w, At secs z t w → (t.used = true ∨ t.equ = true) → w.type = .exported → w.name ≠ y.name) := by
  have hm : (x, true) ∈ ((slots secs).filter fun (_, s, _) => s.used).map fun (x, _, _) => (x, true) :=
    List.mem_map.2 ⟨(x, s, y), List.mem_filter.2 ⟨mem_slots.2 ha, hu⟩, rfl⟩
  rcases touchAll_resolves h x true hm s y ha with h1 | h1
  · exact .inl h1
  · exact .inr h1.2

/-- `end`, a layout symbol, is not resolved in the first round, but can be used afterwards. -/
example : valuesOf [(0, 0), (0, 1), (0, 2), (3, 0)] (resolveUnresolved prog progLnk start)
    = some [some ⟨0x2004, some 1⟩, some ⟨0x3008, some 2⟩, none, some ⟨0x4000, some 3⟩] := by decide +kernel
example : valuesOf [(0, 2)] (resolveUnresolved prog progLnk start >>= fun st => touch prog progLnk false st (0, 2))
    = some [some ⟨0x4000, some 3⟩] := by decide +kernel

/-- An import that was asked for when imports are not allowed to stay open is resolved, or linking has failed. -/
theorem C11_used_import_resolved (secs : List Sect) (lnk : Slot → Outcome Res) (xs : List (Slot × Bool)) (st : State)
    (h : touchAll secs lnk xs start = .ok st) (x : Slot) (hx : (x, false) ∈ xs) (s : Sect) (y : Sym)
    (ha : At secs x s y) : ∃ r, st x = some r ∧ Means secs lnk x r := by
  rcases touchAll_resolves h x false hx s y ha with h1 | h1
  · obtain ⟨r, hr⟩ := Option.isSome_iff_exists.1 h1
    exact ⟨r, hr, C11_resolved_values secs lnk xs st h x r hr⟩
  · simp at h1

/-- Symbols of placed sections have addresses that fit. -/
def Fits (secs : List Sect) : Prop := ∀ x s y, At secs x s y → Own y.type → Expr.I32 (y.value + s.base)

/-- Nobody provides what the symbol `y` of section `s` imports, while imports may or may not stay open. -/
def Missing (secs : List Sect) (s : Sect) (y : Sym) (allow : Bool) : Prop :=
  (y.type = .imported ∧ allow = false ∧ ∀ z t w, At secs z t w → (t.used = true ∨ t.equ = true) →
    w.type = .exported → w.name ≠ y.name) ∨
  (y.type = .localImport ∧ ∀ z t w, At secs z t w → t.used = true → t.fileId = s.fileId →
    (w.type = .localExport ∨ w.type = .exported) → w.name ≠ y.name)

theorem define_total {secs : List Sect} (hf : Fits secs) {st : State} {x : Slot} {s : Sect} {y : Sym}
    (ha : At secs x s y) (ho : Own y.type) (hx : st x = none) : ∃ st', define st x s y = .ok st' := by
  have hc : current st x y = y.value := by simp [current, hx]
  have hb : (if s.loc ≠ -1 then s.loc else 0) = s.base := by
    unfold Sect.base
    by_cases hl : s.loc = -1 <;> simp [hl]
  unfold define Expr.chk
  rw [hc, hb, if_pos (hf x s y ha ho)]
  exact ⟨_, rfl⟩

theorem copyFrom_total {secs : List Sect} (hf : Fits secs) {st : State} {x z : Slot} {t : Sect} {w : Sym}
    (hz : At secs z t w) (hw : Own w.type ∨ (st z).isSome) : ∃ st', copyFrom st x (z, t, w) = .ok st' := by
  unfold copyFrom ensure
  cases hs : st z with
  | some r => simp [hs]
  | none =>
    have ho : Own w.type := by
      rcases hw with hw | hw
      · exact hw
      · simp [hs] at hw
    obtain ⟨st', h⟩ := define_total hf hz ho hs
    have h' := define_ok hs h
    simp [h, h']

theorem touch_total {secs : List Sect} (hf : Fits secs) {lnk : Slot → Outcome Res}
    (hl : ∀ x s y, At secs x s y → y.type = .linker → ∃ r, lnk x = .ok r) {allow : Bool} {st : State} {x : Slot}
    {s : Sect} {y : Sym} (ha : At secs x s y) :
    (∃ st', touch secs lnk allow st x = .ok st') ∨ (touch secs lnk allow st x = .fail ∧ Missing secs s y allow) := by
  unfold touch
  cases hx : st x with
  | some r => exact .inl ⟨st, rfl⟩
  | none =>
    simp only [resolve, getSym_some.2 ha]
    cases ht : y.type with
    | exported => exact .inl (define_total hf ha (by simp [Own, ht]) hx)
    | localExport => exact .inl (define_total hf ha (by simp [Own, ht]) hx)
    | «local» => exact .inl (define_total hf ha (by simp [Own, ht]) hx)
    | linker =>
      obtain ⟨r, hr⟩ := hl x s y ha ht
      exact .inl ⟨_, by simp [hr]; rfl⟩
    | imported =>
      cases hfd : find secs y.name (fun t => t.used || t.equ) (isExport st) with
      | some z =>
        obtain ⟨z, t, w⟩ := z
        obtain ⟨hz, -, hq, -⟩ := find_some hfd
        refine .inl (copyFrom_total hf hz ?_)
        rcases isExport_type hq with h1 | h1
        · exact .inl (.inl h1)
        · exact .inr h1.2
      | none =>
        cases allow with
        | true => exact .inl ⟨st, by simp⟩
        | false =>
          refine .inr ⟨by simp, .inl ⟨ht, rfl, ?_⟩⟩
          intro z t w hz hu hw
          exact find_none hfd hz (by simpa using hu) (by simp [isExport, hw])
    | localImport =>
      cases hfd : find secs y.name (fun t => t.used && t.fileId == s.fileId)
          (fun z w => w.type == .localExport || isExport st z w) with
      | some z =>
        obtain ⟨z, t, w⟩ := z
        obtain ⟨hz, -, hq, -⟩ := find_some hfd
        simp only [Bool.or_eq_true, beq_iff_eq] at hq
        refine .inl (copyFrom_total hf hz ?_)
        rcases hq with h1 | h1
        · exact .inl (.inr (.inl h1))
        · rcases isExport_type h1 with h1 | h1
          · exact .inl (.inl h1)
          · exact .inr h1.2
      | none =>
        refine .inr ⟨rfl, .inr ⟨ht, ?_⟩⟩
        intro z t w hz hu hi hw
        refine find_none hfd hz (by simp [hu, hi]) ?_
        rcases hw with hw | hw <;> simp [isExport, hw]

/-- Resolving always comes to an end without undefined behaviour, and it only fails if a symbol was asked for that
imports something no object file provides, and that was not allowed to stay open. -/
theorem C11_fails_only_when_missing (secs : List Sect) (hf : Fits secs) (lnk : Slot → Outcome Res)
    (hl : ∀ x s y, At secs x s y → y.type = .linker → ∃ r, lnk x = .ok r) (xs : List (Slot × Bool))
    (hx : ∀ x allow, (x, allow) ∈ xs → ∃ s y, At secs x s y) (st : State) :
    (∃ st', touchAll secs lnk xs st = .ok st') ∨ (touchAll secs lnk xs st = .fail ∧
      ∃ x allow s y, (x, allow) ∈ xs ∧ At secs x s y ∧ Missing secs s y allow) := by
  induction xs generalizing st with
  | nil => exact .inl ⟨st, rfl⟩
  | cons a xs ih =>
    obtain ⟨x, allow⟩ := a
    obtain ⟨s, y, ha⟩ := hx x allow (by simp)
    unfold touchAll
    rcases touch_total hf hl (st := st) (allow := allow) ha with ⟨st1, h1⟩ | ⟨h1, h2⟩
    · simp only [h1, Outcome.ok_bind]
      rcases ih (fun x a h => hx x a (by simp [h])) st1 with h | ⟨h, x', a', s', y', hm, h'⟩
      · exact .inl h
      · exact .inr ⟨h, x', a', s', y', by simp [hm], h'⟩
    · exact .inr ⟨by simp [h1], x, allow, s, y, by simp, ha, h2⟩

example : Fits prog := by
  intro x s y ha
  have h : ∀ a ∈ slots prog, (a.2.2.type = .exported ∨ a.2.2.type = .localExport ∨ a.2.2.type = .local) →
      Expr.I32 (a.2.2.value + a.2.1.base) := by decide +kernel
  exact h (x, s, y) (mem_slots.2 ha)

/-- The order of requests does not change values, if names of the memory layout are not used for other symbols. -/
theorem C11_order_irrelevant (secs : List Sect) (hc : NoClash secs) (lnk : Slot → Outcome Res)
    (xs xs' : List (Slot × Bool)) (st st' : State) (h : touchAll secs lnk xs start = .ok st)
    (h' : touchAll secs lnk xs' start = .ok st') (x : Slot) (r r' : Res) (hr : st x = some r) (hr' : st' x = some r') :
    r = r' := by
  have h1 := touchAll_final hc (by intro z q hq; cases hq) h x r hr
  have h2 := touchAll_final hc (by intro z q hq; cases hq) h' x r' hr'
  rw [h1] at h2
  exact Option.some.inj h2

theorem noClash_of_slots {secs : List Sect} (h : ∀ a ∈ slots secs, ∀ b ∈ slots secs, a.2.2.type = .linker →
    (b.2.2.type = .exported ∨ b.2.2.type = .localExport ∨ b.2.2.type = .linker) → a.2.2.name = b.2.2.name →
    a.1 = b.1) : NoClash secs :=
  fun x s y z t w ha hz => h (x, s, y) (mem_slots.2 ha) (z, t, w) (mem_slots.2 hz)

example : NoClash prog := noClash_of_slots (by decide +kernel)

/-! ### Where the code does not do what is expected -/

/-- The section of layout symbols is filled with zeros (xlink/section.c 252), so that it has the file number of the
first object file (xlink/object.c 109). A local import in this file can get the value of a layout symbol of the same
name, although the file itself defines the symbol. -/
theorem C11_layout_symbol_taken_for_local :
    ∃ (secs : List Sect) (lnk : Slot → Outcome Res) (st : State) (x z : Slot),
      resolveUnresolved secs lnk start = .ok st ∧
      (∃ s t, At secs x s ⟨nLoop, .localImport, 0⟩ ∧ At secs z t ⟨nLoop, .localExport, 8⟩ ∧
        GivesLocal s.fileId nLoop t ⟨nLoop, .localExport, 8⟩) ∧
      st x = some ⟨0x4000, some 0⟩ ∧ st z = some ⟨0x3008, some 2⟩ :=
  ⟨[⟨0, true, true, 0, 0, [⟨nLoop, .linker, 0⟩]⟩, ⟨0, false, true, 0x1000, 0, [⟨nLoop, .localImport, 0⟩]⟩,
    ⟨0, false, true, 0x3000, 0, [⟨nLoop, .localExport, 8⟩]⟩], fun _ => .ok ⟨0x4000, some 0⟩, _, (1, 0), (2, 0), rfl,
    ⟨_, _, ⟨rfl, rfl⟩, ⟨rfl, rfl⟩, by simp [GivesLocal]⟩, by decide +kernel, by decide +kernel⟩

/-- Without `sect_ResolveUnresolved`, as for relocatable output (xlink/main.c 607-614), an import of a layout symbol is refused if it is used
before the layout symbol has been resolved. -/
theorem C11_layout_symbol_refused_early :
    (∃ t w, At prog (3, 0) t w ∧ GivesGlobal nEnd t w) ∧ touch prog progLnk false start (0, 2) = .fail :=
  ⟨⟨_, _, ⟨rfl, rfl⟩, by simp [GivesGlobal]⟩, rfl⟩

end Verif.Resolve
