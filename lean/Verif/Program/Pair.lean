import Verif.Program.Whole
import Verif.Expr.LinkProps
/-!
# C62: an example

```
        SECTION "Main",CODE                     SECTION "Lib",CODE
        EXTERN  put,VAL                 put::   ret
main:   call    put                     VAL     EQU     7
        ld      a,VAL                           EXPORT  VAL
        dw      tab
        SECTION "Tab",CODE
tab:    db      1
```
-/
namespace Verif.Program.Pair
open Verif.Section (Env Sect)
open Verif.Section.Spec (Area)
open Verif.Expr (fm0 AExpr ASym Den I32)
open Verif.Resolve (Slot Res)
open Spec (World Value Consistent Contents)

def P0 : Params := ⟨⟨1, true⟩, fm0, fun _ => false⟩
def e0 : Env := ⟨false, 0, ⟨0, 0⟩⟩

def main : List (Env × Stmt) := [
  (e0, .directive (.section "Main" ⟨0, false⟩ none)),
  (e0, .external 0),
  (e0, .external 1),
  (e0, .label 2),
  (e0, .code [.const 1 0xCD, .expr 2 (.sym 0)]),
  (e0, .code [.const 1 0x3E, .expr 1 (.sym 1)]),
  (e0, .code [.expr 2 (.sym 3)]),
  (e0, .directive (.section "Tab" ⟨0, false⟩ none)),
  (e0, .label 3),
  (e0, .code [.const 1 1])]

def lib : List (Env × Stmt) := [
  (e0, .directive (.section "Lib" ⟨0, false⟩ none)),
  (e0, .label 0),
  (e0, .code [.const 1 0xC9]),
  (e0, .equ 1 (.num 7))]

def prog : Nat → List (Env × Stmt)
  | 0 => main
  | _ => lib

def base : Nat → Nat → Int
  | 0, 0 => 0x100
  | 0, _ => 0x200
  | _, _ => 0x300

def ρ : Nat → Den
  | 0 => ⟨fun | 0 => some 0x300 | 1 => some 7 | 2 => some 0x100 | 3 => some 0x200 | _ => none,
      fun | 0 => some 0 | 2 => some 0 | 3 => some 0 | _ => none, fun _ _ => none, 0⟩
  | _ => ⟨fun | 0 => some 0x300 | 1 => some 7 | _ => none, fun | 0 => some 0 | _ => none, fun _ _ => none, 0⟩

def σ (i : Nat) : Prog := match run P0 (prog i) {} with
  | .ok σ => σ
  | _ => {}

def W (i : Nat) : World := match Spec.run P0.cfg P0.fm (ρ i) (prog i) {} with
  | .good W => W
  | _ => {}

theorem run_ok {i : Nat} (h : (match run P0 (prog i) {} with | .ok _ => true | _ => false) = true) : run P0 (prog i) {} = .ok (σ i) := by
  unfold σ
  cases hr : run P0 (prog i) {} with
  | ok σ => rfl
  | fail => rw [hr] at h; cases h
  | ub => rw [hr] at h; cases h

theorem spec_ok {i : Nat} (h : (match Spec.run P0.cfg P0.fm (ρ i) (prog i) {} with | .good _ => true | _ => false) = true) :
    Spec.run P0.cfg P0.fm (ρ i) (prog i) {} = .good (W i) := by
  unfold W
  cases hr : Spec.run P0.cfg P0.fm (ρ i) (prog i) {} with
  | good σ => rfl
  | bad => rw [hr] at h; cases h
  | outside => rw [hr] at h; cases h

def str (s : String) : Bytes := s.toUTF8.toList

def M0 : Module where
  fm := fm0
  prog := σ 0
  table := [3, 2, 1, 0]
  name := fun | 0 => str "put" | 1 => str "VAL" | 2 => str "main" | _ => str "tab"
  exported := fun _ => false
  debug := false
  info := fun _ => (none, 0)

def M1 : Module where
  fm := fm0
  prog := σ 1
  table := [1, 0]
  name := fun | 0 => str "put" | _ => str "VAL"
  exported := fun s => s == 0 || s == 1
  debug := false
  info := fun _ => (none, 0)

def mods : List Module := [M0, M1]

def read (l : List (Nat × Object.Symbol)) : List Resolve.Sym := l.filterMap fun x => readSymbol x.2

def secs : List Resolve.Sect := [
  ⟨0, true, true, -1, -1, read M0.constants⟩,
  ⟨0, false, true, 0x100, 0, read (M0.symbols 0)⟩,
  ⟨1, false, true, 0x300, 0, read (M1.symbols 0)⟩,
  ⟨0, false, true, 0x200, 0, read (M0.symbols 1)⟩,
  ⟨1, true, true, -1, -1, read M1.constants⟩]

def origin : Nat → Nat × Option Nat
  | 0 => (0, none)
  | 1 => (0, some 0)
  | 2 => (1, some 0)
  | 3 => (0, some 1)
  | _ => (1, none)

theorem a0 : (σ 0).syms 0 = ⟨.imported, none, 0⟩ := by decide +kernel
theorem a1 : (σ 0).syms 1 = ⟨.imported, none, 0⟩ := by decide +kernel
theorem a2 : (σ 0).syms 2 = ⟨.label, some 0, 0⟩ := by decide +kernel
theorem a3 : (σ 0).syms 3 = ⟨.label, some 1, 0⟩ := by decide +kernel
theorem b0 : (σ 1).syms 0 = ⟨.label, some 0, 0⟩ := by decide +kernel
theorem b1 : (σ 1).syms 1 = ⟨.equ, none, 7⟩ := by decide +kernel

theorem A0 : (W 0).syms 0 = ⟨.imported, none, 0⟩ := by decide +kernel
theorem A1 : (W 0).syms 1 = ⟨.imported, none, 0⟩ := by decide +kernel
theorem A2 : (W 0).syms 2 = ⟨.label, some 0, 0⟩ := by decide +kernel
theorem A3 : (W 0).syms 3 = ⟨.label, some 1, 0⟩ := by decide +kernel
theorem A4 (n : Nat) : (W 0).syms (n + 4) = ⟨.undefined, none, 0⟩ := (rfl)
theorem B0 : (W 1).syms 0 = ⟨.label, some 0, 0⟩ := by decide +kernel
theorem B1 : (W 1).syms 1 = ⟨.equ, none, 7⟩ := by decide +kernel
theorem B2 (n : Nat) : (W 1).syms (n + 2) = ⟨.undefined, none, 0⟩ := (rfl)

theorem areasA : (W 0).areas.areas.map (fun y => (y.cells.length, y.attributes.address, y.attributes.bank)) = [(7, none, none), (1, none, none)] := by
  decide +kernel
theorem areasB : (W 1).areas.areas.map (fun y => (y.cells.length, y.attributes.address, y.attributes.bank)) = [(1, none, none)] := by
  decide +kernel

theorem areaA {k : Nat} {y : Area Value} (h : (W 0).areas.areas[k]? = some y) :
    k < 2 ∧ y.cells.length ≤ 7 ∧ y.attributes.address = none ∧ y.attributes.bank = none := by
  have h1 := congrArg (·[k]?) areasA
  simp only [List.getElem?_map, h, Option.map_some] at h1
  match k, h1 with
  | 0, h1 => simp at h1; exact ⟨by omega, by omega, h1.2⟩
  | 1, h1 => simp at h1; exact ⟨by omega, by omega, h1.2⟩
  | k + 2, h1 => simp at h1

theorem areaB {k : Nat} {y : Area Value} (h : (W 1).areas.areas[k]? = some y) :
    y.cells.length ≤ 7 ∧ y.attributes.address = none ∧ y.attributes.bank = none := by
  have h1 := congrArg (·[k]?) areasB
  simp only [List.getElem?_map, h, Option.map_some] at h1
  match k, h1 with
  | 0, h1 => simp at h1; exact ⟨by omega, h1.2⟩
  | k + 1, h1 => simp at h1

attribute [local irreducible] σ W

theorem consistentA : Consistent (base 0) (W 0) (ρ 0) where
  label := by
    intro s k n h
    match s with
    | 0 => rw [A0] at h; cases h
    | 1 => rw [A1] at h; cases h
    | 2 =>
      rw [A2] at h
      obtain ⟨rfl, hn⟩ : 0 = k ∧ (0 : Int) = n := by simpa using h
      rw [← hn]; rfl
    | 3 =>
      rw [A3] at h
      obtain ⟨rfl, hn⟩ : 1 = k ∧ (0 : Int) = n := by simpa using h
      rw [← hn]; rfl
    | s + 4 => rw [A4] at h; cases h
  constant := by
    intro s h
    match s with
    | 0 => rw [A0] at h; cases h
    | 1 => rw [A1] at h; cases h
    | 2 => rw [A2] at h; cases h
    | 3 => rw [A3] at h; cases h
    | s + 4 => rw [A4] at h; cases h
  fits := by
    intro k y h
    obtain ⟨h0, h1, -⟩ := areaA h
    have : base 0 k = 0x100 ∨ base 0 k = 0x200 := by
      match k with
      | 0 => exact .inl rfl
      | k + 1 => exact .inr rfl
    omega
  fixed := by
    intro k y a h ha
    rw [(areaA h).2.2.1] at ha; cases ha
  bank := by
    intro s k n y b _ h hb
    rw [(areaA h).2.2.2] at hb; cases hb

theorem consistentB : Consistent (base 1) (W 1) (ρ 1) where
  label := by
    intro s k n h
    match s with
    | 0 =>
      rw [B0] at h
      obtain ⟨rfl, hn⟩ : 0 = k ∧ (0 : Int) = n := by simpa using h
      rw [← hn]; rfl
    | 1 => rw [B1] at h; cases h
    | s + 2 => rw [B2] at h; cases h
  constant := by
    intro s h
    match s with
    | 0 => rw [B0] at h; cases h
    | 1 => rw [B1]; rfl
    | s + 2 => rw [B2] at h; cases h
  fits := by
    intro k y h
    obtain ⟨h1, -⟩ := areaB h
    have : base 1 k = 0x300 := rfl
    omega
  fixed := by
    intro k y a h ha
    rw [(areaB h).2.1] at ha; cases ha
  bank := by
    intro s k n y b _ h hb
    rw [(areaB h).2.2] at hb; cases hb

theorem okA : ∀ x ∈ prog 0, x.2.Ok := by
  intro x hx
  simp only [prog, main, List.mem_cons, List.not_mem_nil, or_false] at hx
  rcases hx with rfl | rfl | rfl | rfl | rfl | rfl | rfl | rfl | rfl | rfl <;>
    simp [Stmt.Ok, Expr.Src.Ok, Expr.Src.PcOk]

theorem okB : ∀ x ∈ prog 1, x.2.Ok := by
  intro x hx
  simp only [prog, lib, List.mem_cons, List.not_mem_nil, or_false] at hx
  rcases hx with rfl | rfl | rfl | rfl <;>
    simp [Stmt.Ok, Expr.Src.Ok, I32]

theorem runA : run P0 (prog 0) {} = .ok (σ 0) := run_ok (by decide +kernel)
theorem runB : run P0 (prog 1) {} = .ok (σ 1) := run_ok (by decide +kernel)
theorem specA : Spec.run P0.cfg P0.fm (ρ 0) (prog 0) {} = .good (W 0) := spec_ok (by decide +kernel)
theorem specB : Spec.run P0.cfg P0.fm (ρ 1) (prog 1) {} = .good (W 1) := spec_ok (by decide +kernel)

theorem a4 (n : Nat) : (σ 0).syms (n + 4) = ⟨.undefined, none, 0⟩ := by
  rcases C61_symbols P0 rfl (base 0) (ρ 0) (prog 0) okA (W 0) specA consistentA (σ 0) runA (n + 4) with h | ⟨k, m, h, -⟩
  · rw [h, A4]
  · rw [A4] at h; cases h

theorem b2 (n : Nat) : (σ 1).syms (n + 2) = ⟨.undefined, none, 0⟩ := by
  rcases C61_symbols P0 rfl (base 1) (ρ 1) (prog 1) okB (W 1) specB consistentB (σ 1) runB (n + 2) with h | ⟨k, m, h, -⟩
  · rw [h, B2]
  · rw [B2] at h; cases h

theorem assembled : ∀ (i : Nat) (M : Module), mods[i]? = some M → Assembled P0 (prog i) (base i) (ρ i) (W i) M := by
  intro i M h
  match i with
  | 0 => cases h; exact ⟨rfl, okA, specA, consistentA, runA, rfl⟩
  | 1 => cases h; exact ⟨rfl, okB, specB, consistentB, runB, rfl⟩
  | i + 2 => simp [mods] at h

theorem linking : Linking mods base secs origin where
  source := by
    intro j S h
    match j with
    | 0 => cases h; exact ⟨M0, rfl, rfl⟩
    | 1 => cases h; exact ⟨M0, rfl, rfl⟩
    | 2 => cases h; exact ⟨M1, rfl, rfl⟩
    | 3 => cases h; exact ⟨M0, rfl, rfl⟩
    | 4 => cases h; exact ⟨M1, rfl, rfl⟩
    | j + 5 => simp [secs] at h
  placed := by
    intro j S M k h hM hk
    match j with
    | 0 => cases hk
    | 1 => cases h; cases hM; cases hk; decide +kernel
    | 2 => cases h; cases hM; cases hk; decide +kernel
    | 3 => cases h; cases hM; cases hk; decide +kernel
    | 4 => cases hk
    | j + 5 => simp [secs] at h
  constants := by
    intro j S M h hM hk
    match j with
    | 0 => cases h; cases hM; decide +kernel
    | 1 => cases hk
    | 2 => cases hk
    | 3 => cases hk
    | 4 => cases h; cases hM; decide +kernel
    | j + 5 => simp [secs] at h
  banks := by
    intro j S h
    match j with
    | 0 | 1 | 2 | 3 | 4 => cases h; show I32 _; simp only; decide
    | j + 5 => simp [secs] at h

theorem below4 (s : Nat) : s = 0 ∨ s = 1 ∨ s = 2 ∨ s = 3 ∨ ∃ n, s = n + 4 := by
  rcases Nat.lt_or_ge s 4 with h | h
  · omega
  · exact .inr (.inr (.inr (.inr ⟨s - 4, by omega⟩)))

theorem below2 (s : Nat) : s = 0 ∨ s = 1 ∨ ∃ n, s = n + 2 := by
  rcases Nat.lt_or_ge s 2 with h | h
  · omega
  · exact .inr (.inr ⟨s - 2, by omega⟩)

theorem importA {s : Nat} (h : ((σ 0).syms s).type = .imported ∨ ((σ 0).syms s).type = .global) : s = 0 ∨ s = 1 := by
  rcases below4 s with rfl | rfl | rfl | rfl | ⟨n, rfl⟩
  · exact .inl rfl
  · exact .inr rfl
  · rw [a2] at h; simp at h
  · rw [a3] at h; simp at h
  · rw [a4] at h; simp at h

theorem importB {s : Nat} (h : ((σ 1).syms s).type = .imported ∨ ((σ 1).syms s).type = .global) : False := by
  rcases below2 s with rfl | rfl | ⟨n, rfl⟩
  · rw [b0] at h; simp at h
  · rw [b1] at h; simp at h
  · rw [b2] at h; simp at h

theorem labelA {t k : Nat} (h : ((σ 0).syms t).sect = some k) : t = 2 ∨ t = 3 := by
  rcases below4 t with rfl | rfl | rfl | rfl | ⟨n, rfl⟩
  · rw [a0] at h; cases h
  · rw [a1] at h; cases h
  · exact .inl rfl
  · exact .inr rfl
  · rw [a4] at h; cases h

theorem labelB {t k : Nat} (h : ((σ 1).syms t).sect = some k) : t = 0 := by
  rcases below2 t with rfl | rfl | ⟨n, rfl⟩
  · rfl
  · rw [b1] at h; cases h
  · rw [b2] at h; cases h

theorem constantA {t : Nat} (h : ((σ 0).syms t).type = .equ ∨ ((σ 0).syms t).type = .set) : False := by
  rcases below4 t with rfl | rfl | rfl | rfl | ⟨n, rfl⟩
  · rw [a0] at h; simp at h
  · rw [a1] at h; simp at h
  · rw [a2] at h; simp at h
  · rw [a3] at h; simp at h
  · rw [a4] at h; simp at h

theorem agree : Agree mods secs origin ρ where
  imports := by
    intro i j M N s t hM hN hs ht _ hn
    match i with
    | 0 =>
      cases hM
      match j with
      | 0 => cases hN; cases ht
      | 1 =>
        cases hN
        have : t = 0 ∨ t = 1 := by simpa [M1] using ht
        rcases importA hs with rfl | rfl <;> rcases this with rfl | rfl
        · exact ⟨rfl, rfl⟩
        · exact absurd hn (by decide +kernel)
        · exact absurd hn (by decide +kernel)
        · exact ⟨rfl, rfl⟩
      | j + 2 => simp [mods] at hN
    | 1 => cases hM; exact (importB hs).elim
    | i + 2 => simp [mods] at hM
  banks := by
    intro j S M k t h hM hk ht hb
    match j with
    | 0 => cases hk
    | 1 =>
      cases h; cases hM
      rcases labelA ht with rfl | rfl <;> rfl
    | 2 =>
      cases h; cases hM
      rw [labelB ht]; rfl
    | 3 =>
      cases h; cases hM
      rcases labelA ht with rfl | rfl <;> rfl
    | 4 => cases hk
    | j + 5 => simp [secs] at h

/-- No two symbols have the same name. -/
theorem distinct : ∀ (i : Nat) (M : Module), mods[i]? = some M → M.Distinct := by
  intro i M h k s t hs hk hi ht hn
  match i with
  | 0 =>
    cases h
    have h2 : t = 2 ∨ t = 3 := by
      rcases ht with ⟨-, k, ht⟩ | ⟨-, ht⟩
      · exact labelA ht
      · exact (constantA ht).elim
    have h3 : s ∈ (List.range 2).flatMap fun k => (M0.expressions k).flatMap AExpr.names := by
      obtain ⟨e, he, hse⟩ := hs
      refine List.mem_flatMap.2 ⟨k, ?_, List.mem_flatMap.2 ⟨e, he, hse⟩⟩
      rw [List.mem_range]
      apply Classical.byContradiction
      intro hk2
      have hl : M0.prog.sects.sections.length = 2 := by decide +kernel
      unfold Module.expressions at he
      rw [List.getElem?_eq_none (by omega)] at he
      cases he
    have h4 : ((List.range 2).flatMap fun k => (M0.expressions k).flatMap AExpr.names) = [0, 3, 1] := by decide +kernel
    rw [h4] at h3
    simp only [List.mem_cons, List.not_mem_nil, or_false] at h3
    rcases h3 with rfl | rfl | rfl
    · exact absurd (.inl (by show ((σ 0).syms 0).type = _; rw [a0])) hi
    · rcases h2 with rfl | rfl
      · exact absurd hn (by decide +kernel)
      · rfl
    · exact absurd (.inl (by show ((σ 0).syms 1).type = _; rw [a1])) hi
  | 1 =>
    cases h
    obtain ⟨e, he, -⟩ := hs
    have h1 : M1.prog.sects.sections.map (fun x => x.patches.length) = [0] := by decide +kernel
    unfold Module.expressions at he
    cases hx : M1.prog.sects.sections[k]? with
    | none => rw [hx] at he; cases he
    | some x =>
      rw [hx] at he
      have h2 : x.patches.length ∈ M1.prog.sects.sections.map (fun x => x.patches.length) :=
        List.mem_map.2 ⟨x, List.mem_of_getElem? hx, rfl⟩
      rw [h1] at h2
      have : x.patches = [] := List.eq_nil_of_length_eq_zero (by simpa using h2)
      simp [this] at he
  | i + 2 => simp [mods] at h

/-- The symbols when the linker has resolved them. -/
def st : Resolve.State := match Resolve.resolveUnresolved secs (fun _ => .fail) Resolve.start with
  | .ok st => st
  | _ => Resolve.start

theorem resolved : Resolve.resolveUnresolved secs (fun _ => .fail) Resolve.start = .ok st := by
  have h : (match Resolve.resolveUnresolved secs (fun _ => .fail) Resolve.start with | .ok _ => true | _ => false) = true := by decide +kernel
  unfold st
  cases hr : Resolve.resolveUnresolved secs (fun _ => .fail) Resolve.start with
  | ok σ => rfl
  | fail => rw [hr] at h; cases h
  | ub => rw [hr] at h; cases h

/-- The bytes of the section `Main`. -/
theorem image_main : (M0.prog.sects.sections[0]?.map fun x =>
      match image M0.fm M0.prog.asm (M0.ids 0) false (linkEnv secs (fun _ => .fail) st 1 0x100 fun _ _ => .fail) 0 x with
      | .ok (ps, bs) => some (ps.map (fun q : Patch.SPatch => q.type), bs)
      | _ => none) = some (some ([5, 5, 5], [0xCD, 0x00, 0x03, 0x3E, 0x07, 0x00, 0x02])) := by
  decide +kernel

/-- They are what the statements stand for. -/
example : ∃ Y, (W 0).areas.areas[0]? = some Y ∧ Contents M0.fm (ρ 0) 0x100 Y [0xCD, 0x00, 0x03, 0x3E, 0x07, 0x00, 0x02] := by
  have hi := image_main
  cases hx : M0.prog.sects.sections[0]? with
  | none => rw [hx] at hi; cases hi
  | some x =>
    have hsm : (M0.symbols 0).length = 3 := by decide +kernel
    obtain ⟨Y, hY, h1⟩ := C62_program mods (fun _ => P0) prog W base ρ assembled secs origin linking agree distinct (fun _ => .fail) _ st
      resolved (fun _ _ => .fail) (fun _ _ _ h => by cases h) 1 0 0 _ M0 x rfl rfl rfl hx (by omega)
    have hb : (W 0).areas.areas.map (·.group.bss) = [false, false] := by decide +kernel
    have hb := congrArg (·[0]?) hb
    simp only [List.getElem?_map, hY] at hb
    refine ⟨Y, hY, ?_⟩
    rw [hx] at hi
    cases hm : image M0.fm M0.prog.asm (M0.ids 0) false (linkEnv secs (fun _ => .fail) st 1 0x100 fun _ _ => .fail) 0 x with
    | ok r =>
      obtain ⟨ps, bs⟩ := r
      simp only [Option.map_some, hm] at hi
      obtain ⟨hps, rfl⟩ : ps.map (fun q : Patch.SPatch => q.type) = [5, 5, 5] ∧ bs = [0xCD, 0x00, 0x03, 0x3E, 0x07, 0x00, 0x02] := by
        simpa using hi
      refine h1 (by simpa using hb) false ps _ hm ?_
      intro q hq
      have : q.type ∈ ps.map (fun q : Patch.SPatch => q.type) := List.mem_map.2 ⟨q, hq, rfl⟩
      rw [hps] at this
      simpa using this
    | fail => simp [hm] at hi
    | ub => simp [hm] at hi

end Verif.Program.Pair
