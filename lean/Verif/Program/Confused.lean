import Verif.Program.Whole
import Verif.Expr.LinkProps
/-!
# C62: local labels of the same name

```
        SECTION "A",CODE
one:
.l:     nop
        SECTION "B",CODE
        dw      .l              ; one's
        SECTION "A",CODE
two:
.l:     nop
        SECTION "B",CODE
        dw      .l              ; two's
```

Both labels are used by another section and are written to the object file, under the same name. The linker finds labels by
their names.
-/
namespace Verif.Program.Confused
open Verif.Section (Env Sect)
open Verif.Section.Spec (Area digits)
open Verif.Expr (fm0 AExpr ASym Den I32)
open Verif.Resolve (Slot Res)
open Spec (World Value Consistent Contents)

def P0 : Params := ⟨⟨1, true⟩, fm0, fun _ => false⟩
def e0 : Env := ⟨false, 0, ⟨0, 0⟩⟩

/-- The labels are 0 (`one`), 1 (its `.l`), 2 (`two`) and 3 (its `.l`). -/
def prog : List (Env × Stmt) := [
  (e0, .directive (.section "A" ⟨0, false⟩ none)),
  (e0, .label 0),
  (e0, .label 1),
  (e0, .code [.const 1 0x00]),
  (e0, .directive (.section "B" ⟨0, false⟩ none)),
  (e0, .code [.expr 2 (.sym 1)]),
  (e0, .directive (.section "A" ⟨0, false⟩ none)),
  (e0, .label 2),
  (e0, .label 3),
  (e0, .code [.const 1 0x00]),
  (e0, .directive (.section "B" ⟨0, false⟩ none)),
  (e0, .code [.expr 2 (.sym 3)])]

def base : Nat → Int
  | 0 => 0x100
  | _ => 0x200

def ρ : Den := ⟨fun | 0 => some 0x100 | 1 => some 0x100 | 2 => some 0x101 | 3 => some 0x101 | _ => none,
  fun | 0 => some 0 | 1 => some 0 | 2 => some 0 | 3 => some 0 | _ => none, fun _ _ => none, 0⟩

def σ : Prog := match run P0 prog {} with
  | .ok σ => σ
  | _ => {}

def W : World := match Spec.run P0.cfg P0.fm ρ prog {} with
  | .good W => W
  | _ => {}

theorem run_ok : run P0 prog {} = .ok σ := by
  have h : (match run P0 prog {} with | .ok _ => true | _ => false) = true := by decide +kernel
  unfold σ
  cases hr : run P0 prog {} with
  | ok σ => rfl
  | fail => rw [hr] at h; cases h
  | ub => rw [hr] at h; cases h

theorem spec_ok : Spec.run P0.cfg P0.fm ρ prog {} = .good W := by
  have h : (match Spec.run P0.cfg P0.fm ρ prog {} with | .good _ => true | _ => false) = true := by decide +kernel
  unfold W
  cases hr : Spec.run P0.cfg P0.fm ρ prog {} with
  | good σ => rfl
  | bad => rw [hr] at h; cases h
  | outside => rw [hr] at h; cases h

def str (s : String) : Bytes := s.toUTF8.toList

/-- The order of symbols in the table is not known; `newest` is the one of `list_Insert` at the front. -/
def M (newest : Bool) : Module where
  fm := fm0
  prog := σ
  table := if newest then [3, 2, 1, 0] else [0, 1, 2, 3]
  name := fun | 0 => str "one" | 2 => str "two" | _ => str ".l"
  exported := fun _ => false
  debug := false
  info := fun _ => (none, 0)

def read (l : List (Nat × Object.Symbol)) : List Resolve.Sym := l.filterMap fun x => readSymbol x.2

def secs (newest : Bool) : List Resolve.Sect := [
  ⟨0, true, true, -1, -1, read (M newest).constants⟩,
  ⟨0, false, true, 0x100, 0, read ((M newest).symbols 0)⟩,
  ⟨0, false, true, 0x200, 0, read ((M newest).symbols 1)⟩]

def origin : Nat → Nat × Option Nat
  | 0 => (0, none)
  | 1 => (0, some 0)
  | _ => (0, some 1)

theorem a0 : σ.syms 0 = ⟨.label, some 0, 0⟩ := by decide +kernel
theorem a1 : σ.syms 1 = ⟨.label, some 0, 0⟩ := by decide +kernel
theorem a2 : σ.syms 2 = ⟨.label, some 0, 1⟩ := by decide +kernel
theorem a3 : σ.syms 3 = ⟨.label, some 0, 1⟩ := by decide +kernel

theorem A0 : W.syms 0 = ⟨.label, some 0, 0⟩ := by decide +kernel
theorem A1 : W.syms 1 = ⟨.label, some 0, 0⟩ := by decide +kernel
theorem A2 : W.syms 2 = ⟨.label, some 0, 1⟩ := by decide +kernel
theorem A3 : W.syms 3 = ⟨.label, some 0, 1⟩ := by decide +kernel
theorem A4 (n : Nat) : W.syms (n + 4) = ⟨.undefined, none, 0⟩ := (rfl)

theorem areas : W.areas.areas.map (fun y => (y.cells.length, y.attributes.address, y.attributes.bank)) = [(2, none, none), (4, none, none)] := by
  decide +kernel

theorem area {k : Nat} {y : Area Value} (h : W.areas.areas[k]? = some y) :
    y.cells.length ≤ 4 ∧ y.attributes.address = none ∧ y.attributes.bank = none := by
  have h1 := congrArg (·[k]?) areas
  simp only [List.getElem?_map, h, Option.map_some] at h1
  match k, h1 with
  | 0, h1 => simp at h1; exact ⟨by omega, h1.2⟩
  | 1, h1 => simp at h1; exact ⟨by omega, h1.2⟩
  | k + 2, h1 => simp at h1

attribute [local irreducible] σ W

theorem consistent : Consistent base W ρ where
  label := by
    intro s k n h
    match s with
    | 0 => rw [A0] at h; obtain ⟨rfl, hn⟩ : 0 = k ∧ (0 : Int) = n := by simpa using h
           rw [← hn]; rfl
    | 1 => rw [A1] at h; obtain ⟨rfl, hn⟩ : 0 = k ∧ (0 : Int) = n := by simpa using h
           rw [← hn]; rfl
    | 2 => rw [A2] at h; obtain ⟨rfl, hn⟩ : 0 = k ∧ (1 : Int) = n := by simpa using h
           rw [← hn]; rfl
    | 3 => rw [A3] at h; obtain ⟨rfl, hn⟩ : 0 = k ∧ (1 : Int) = n := by simpa using h
           rw [← hn]; rfl
    | s + 4 => rw [A4] at h; cases h
  constant := by
    intro s h
    match s with
    | 0 => rw [A0] at h; cases h
    | 1 => rw [A1] at h; cases h
    | 2 => rw [A2] at h; cases h
    | 3 => rw [A3] at h; cases h
    | s + 4 => rw [A4] at h; cases h
  fits := by
    intro k y h
    obtain ⟨h1, -⟩ := area h
    have : base k = 0x100 ∨ base k = 0x200 := by
      match k with
      | 0 => exact .inl rfl
      | k + 1 => exact .inr rfl
    omega
  fixed := by
    intro k y a h ha
    rw [(area h).2.1] at ha; cases ha
  bank := by
    intro s k n y b _ h hb
    rw [(area h).2.2] at hb; cases hb

theorem ok : ∀ x ∈ prog, x.2.Ok := by
  intro x hx
  simp only [prog, List.mem_cons, List.not_mem_nil, or_false] at hx
  rcases hx with rfl | rfl | rfl | rfl | rfl | rfl | rfl | rfl | rfl | rfl | rfl | rfl <;>
    simp [Stmt.Ok, Expr.Src.Ok, Expr.Src.PcOk]

theorem a4 (n : Nat) : σ.syms (n + 4) = ⟨.undefined, none, 0⟩ := by
  rcases C61_symbols P0 rfl base ρ prog ok W spec_ok consistent σ run_ok (n + 4) with h | ⟨k, m, h, -⟩
  · rw [h, A4]
  · rw [A4] at h; cases h

theorem assembled (b : Bool) : Assembled P0 prog base ρ W (M b) := ⟨rfl, ok, spec_ok, consistent, run_ok, rfl⟩

theorem linking (b : Bool) : Linking [M b] (fun _ => base) (secs b) origin where
  source := by
    intro j S h
    match j with
    | 0 | 1 | 2 => cases h; exact ⟨M b, rfl, rfl⟩
    | j + 3 => simp [secs] at h
  placed := by
    intro j S N k h hM hk
    match j with
    | 0 => cases hk
    | 1 => cases h; cases hM; cases hk; cases b <;> decide +kernel
    | 2 => cases h; cases hM; cases hk; cases b <;> decide +kernel
    | j + 3 => simp [secs] at h
  constants := by
    intro j S N h hM hk
    match j with
    | 0 => cases h; cases hM; cases b <;> decide +kernel
    | 1 => cases hk
    | 2 => cases hk
    | j + 3 => simp [secs] at h
  banks := by
    intro j S h
    match j with
    | 0 | 1 | 2 => cases h; show I32 _; simp only; decide
    | j + 3 => simp [secs] at h

theorem below4 (s : Nat) : s = 0 ∨ s = 1 ∨ s = 2 ∨ s = 3 ∨ ∃ n, s = n + 4 := by
  rcases Nat.lt_or_ge s 4 with h | h
  · omega
  · exact .inr (.inr (.inr (.inr ⟨s - 4, by omega⟩)))

theorem no_import {s : Nat} (h : (σ.syms s).type = .imported ∨ (σ.syms s).type = .global) : False := by
  rcases below4 s with rfl | rfl | rfl | rfl | ⟨n, rfl⟩
  · rw [a0] at h; simp at h
  · rw [a1] at h; simp at h
  · rw [a2] at h; simp at h
  · rw [a3] at h; simp at h
  · rw [a4] at h; simp at h

theorem in_bank {t k : Nat} (h : (σ.syms t).sect = some k) : ρ.bank t = some 0 := by
  rcases below4 t with rfl | rfl | rfl | rfl | ⟨n, rfl⟩
  · rfl
  · rfl
  · rfl
  · rfl
  · rw [a4] at h; cases h

theorem agree (b : Bool) : Agree [M b] (secs b) origin (fun _ => ρ) where
  imports := by
    intro i j N N' s t hM hN hs ht _ hn
    match i with
    | 0 => cases hM; exact (no_import hs).elim
    | i + 1 => simp at hM
  banks := by
    intro j S N k t h hM hk ht hb
    match j with
    | 0 => cases hk
    | 1 => cases h; cases hM; exact in_bank ht
    | 2 => cases h; cases hM; exact in_bank ht
    | j + 3 => simp [secs] at h

/-- The symbols when the linker has resolved them. -/
def st (b : Bool) : Resolve.State := match Resolve.resolveUnresolved (secs b) (fun _ => .fail) Resolve.start with
  | .ok st => st
  | _ => Resolve.start

theorem resolved (b : Bool) : Resolve.resolveUnresolved (secs b) (fun _ => .fail) Resolve.start = .ok (st b) := by
  have h : (match Resolve.resolveUnresolved (secs b) (fun _ => .fail) Resolve.start with | .ok _ => true | _ => false) = true := by
    cases b <;> decide +kernel
  unfold st
  cases hr : Resolve.resolveUnresolved (secs b) (fun _ => .fail) Resolve.start with
  | ok σ => rfl
  | fail => rw [hr] at h; cases h
  | ub => rw [hr] at h; cases h

/-- The bytes of the section `B`: the same label twice. -/
theorem image_B (b : Bool) : (σ.sects.sections[1]?.map fun x =>
      match image fm0 σ.asm ((M b).ids 1) false (linkEnv (secs b) (fun _ => .fail) (st b) 2 0x200 fun _ _ => .fail) 1 x with
      | .ok (ps, bs) => some (ps.map (fun q : Patch.SPatch => q.type), bs)
      | _ => none) = some (some ([5, 5], if b then [0x01, 0x01, 0x01, 0x01] else [0x00, 0x01, 0x00, 0x01])) := by
  cases b <;> decide +kernel

/-- The section `B` should contain two addresses, `$0100` and `$0101`. -/
theorem holes_B : (W.areas.areas[1]?.map fun y => y.holes.map fun h => (h.offset, h.size.bytes, h.big, h.expr.at fm0 ρ (0x200 + h.offset))) =
    some [(0, 2, false, some 0x100), (2, 2, false, some 0x101)] := by
  decide +kernel

/-- C62, not true for local labels of different scopes that have the same name: everything that `C62_program` asks for is true,
except that names are unique, all addresses are known to the linker, and one of them is wrong, whatever the order of the
table of symbols. -/
theorem C62_local_labels_confused (newest : Bool) :
    Assembled P0 prog base ρ W (M newest) ∧ Linking [M newest] (fun _ => base) (secs newest) origin ∧ Agree [M newest] (secs newest) origin (fun _ => ρ) ∧
    Resolve.resolveUnresolved (secs newest) (fun _ => .fail) Resolve.start = .ok (st newest) ∧
    ∃ x Y ps bs, (M newest).prog.sects.sections[1]? = some x ∧ W.areas.areas[1]? = some Y ∧
      image (M newest).fm (M newest).prog.asm ((M newest).ids 1) false
        (linkEnv (secs newest) (fun _ => .fail) (st newest) 2 0x200 fun _ _ => .fail) 1 x = .ok (ps, bs) ∧
      (∀ q ∈ ps, q.type = 5) ∧ ¬ Contents (M newest).fm ρ 0x200 Y bs := by
  refine ⟨assembled newest, linking newest, agree newest, resolved newest, ?_⟩
  have hi := image_B newest
  have hh := holes_B
  cases hx : σ.sects.sections[1]? with
  | none => rw [hx] at hi; cases hi
  | some x =>
    cases hY : W.areas.areas[1]? with
    | none => rw [hY] at hh; cases hh
    | some Y =>
      rw [hx] at hi
      rw [hY] at hh
      cases hm : image fm0 σ.asm ((M newest).ids 1) false (linkEnv (secs newest) (fun _ => .fail) (st newest) 2 0x200 fun _ _ => .fail) 1 x with
      | ok r =>
        obtain ⟨ps, bs⟩ := r
        simp only [Option.map_some, hm] at hi hh
        obtain ⟨hps, hbs⟩ : ps.map (fun q : Patch.SPatch => q.type) = [5, 5] ∧
            bs = (if newest then [0x01, 0x01, 0x01, 0x01] else [0x00, 0x01, 0x00, 0x01]) := by
          simpa using hi
        refine ⟨x, Y, ps, bs, hx, rfl, hm, ?_, ?_⟩
        · intro q hq
          have : q.type ∈ ps.map (fun q : Patch.SPatch => q.type) := List.mem_map.2 ⟨q, hq, rfl⟩
          rw [hps] at this
          simpa using this
        · intro hc
          have hh := Option.some.inj hh
          have key : ∀ (i o n : Nat) (v : Int), ([(0, 2, false, some 0x100), (2, 2, false, some 0x101)] :
              List (Nat × Nat × Bool × Option Int))[i]? = some (o, n, false, some v) → (bs.drop o).take n = digits false n (Expr.u32 v) := by
            intro i o n v h0
            rw [← hh, List.getElem?_map] at h0
            obtain ⟨h, h1, h2⟩ := Option.map_eq_some_iff.1 h0
            obtain ⟨v', e1, e2⟩ := hc.values h (List.mem_of_getElem? h1)
            have e1 : h.expr.at fm0 ρ (0x200 + h.offset) = some v' := e1
            simp only [Prod.mk.injEq] at h2
            obtain ⟨rfl, rfl, h3, h4⟩ := h2
            rw [e1] at h4
            cases h4
            rw [e2, h3]
          have k0 := key 0 0 2 0x100 rfl
          have k1 := key 1 2 2 0x101 rfl
          rw [hbs] at k0 k1
          cases newest
          · exact absurd k1 (by decide +kernel)
          · exact absurd k0 (by decide +kernel)
      | fail => simp [hm] at hi
      | ub => simp [hm] at hi

end Verif.Program.Confused
