import Verif.Program.Code
import Verif.Expr.LinkProps
/-!
# C61: an example

```
        SECTION "Code",CODE
start:  jp      end
N       EQU     5
        ld      a,N+1
N2      SET     1
end:    jr      start
        SECTION "Vectors",CODE[$10]
v:      dw      end,v
```
-/
namespace Verif.Program
open Verif.Section (Env Sect Pos)
open Verif.Section.Spec (Area Cell)
open Verif.Expr (Src Den fm0 AExpr I32)
open Spec (World Value Consistent Contents)

def P0 : Params := ⟨⟨1, true⟩, fm0, fun _ => false⟩
def e0 : Env := ⟨false, 0, ⟨0, 0⟩⟩

def prog0 : List (Env × Stmt) := [
  (e0, .directive (.section "Code" ⟨0, false⟩ none)),
  (e0, .label 0),
  (e0, .code [.const 1 0xC3, .expr 2 (.sym 1)]),
  (e0, .equ 2 (.num 5)),
  (e0, .code [.const 1 0x3E, .expr 1 (.bin .add (.sym 2) (.num 1))]),
  (e0, .set 3 (.num 1)),
  (e0, .label 1),
  (e0, .code [.const 1 0x18, .expr 1 (.pcRel (-1) (.sym 0))]),
  (e0, .directive (.section "Vectors" ⟨0, false⟩ (some ⟨{ loadFixed := true }, 0x10, 0, 0, 0⟩))),
  (e0, .label 4),
  (e0, .code [.expr 2 (.sym 1), .expr 2 (.sym 4)])]

/-- The first section is put at $8000. -/
def base0 : Nat → Int := fun k => if k = 0 then 0x8000 else 0x10

def ρ0 : Den where
  sym s := match s with
    | 0 => some 0x8000
    | 1 => some 0x8005
    | 2 => some 5
    | 3 => some 1
    | 4 => some 0x10
    | _ => none
  bank _ := none
  group _ _ := none
  pc := 0


/-- The number of a symbol in the object file is that of the symbol. -/
def env0 (k : Nat) : Expr.Env where
  symbol s := match ρ0.sym s with
    | some v => .ok ⟨none, v⟩
    | none => .fail
  bank _ := .fail
  groupProperty _ _ := .fail
  cpuLocation := base0 k
  offset := 0

def σ0 : Prog := match run P0 prog0 {} with
  | .ok σ => σ
  | _ => {}

def W0 : World := match Spec.run P0.cfg P0.fm ρ0 prog0 {} with
  | .good W => W
  | _ => {}

theorem run0 : run P0 prog0 {} = .ok σ0 := by
  have h : (match run P0 prog0 {} with | .ok _ => true | _ => false) = true := by decide +kernel
  unfold σ0
  cases hr : run P0 prog0 {} with
  | ok σ => rfl
  | fail => rw [hr] at h; cases h
  | ub => rw [hr] at h; cases h

theorem spec0 : Spec.run P0.cfg P0.fm ρ0 prog0 {} = .good W0 := by
  have h : (match Spec.run P0.cfg P0.fm ρ0 prog0 {} with | .good _ => true | _ => false) = true := by decide +kernel
  unfold W0
  cases hr : Spec.run P0.cfg P0.fm ρ0 prog0 {} with
  | good σ => rfl
  | bad => rw [hr] at h; cases h
  | outside => rw [hr] at h; cases h

theorem sym0 : W0.syms 0 = ⟨.label, some 0, 0⟩ := by decide +kernel
theorem sym1 : W0.syms 1 = ⟨.label, some 0, 5⟩ := by decide +kernel
theorem sym2 : W0.syms 2 = ⟨.equ, none, 5⟩ := by decide +kernel
theorem sym3 : W0.syms 3 = ⟨.set, none, 1⟩ := by decide +kernel
theorem sym4 : W0.syms 4 = ⟨.label, some 1, 0⟩ := by decide +kernel
theorem sym5 (n : Nat) : W0.syms (n + 5) = ⟨.undefined, none, 0⟩ := rfl

theorem areas0 : W0.areas.areas.map (fun y => (y.cells.length, y.attributes.address, y.attributes.bank)) = [(7, none, none), (4, some 0x10, none)] := by
  decide +kernel

theorem area0 {k : Nat} {y : Area Value} (h : W0.areas.areas[k]? = some y) :
    (k = 0 ∧ y.cells.length = 7 ∧ y.attributes.address = none ∧ y.attributes.bank = none) ∨
    (k = 1 ∧ y.cells.length = 4 ∧ y.attributes.address = some 0x10 ∧ y.attributes.bank = none) := by
  have h1 := congrArg (·[k]?) areas0
  simp only [List.getElem?_map, h, Option.map_some] at h1
  match k, h1 with
  | 0, h1 => simp at h1; exact Or.inl ⟨rfl, h1⟩
  | 1, h1 => simp at h1; exact Or.inr ⟨rfl, h1⟩
  | k + 2, h1 => simp at h1

theorem consistent0 : Consistent base0 W0 ρ0 where
  label := by
    intro s k n h
    match s with
    | 0 => rw [sym0] at h; cases h; rfl
    | 1 =>
      rw [sym1] at h
      obtain ⟨rfl, hn⟩ : 0 = k ∧ (5 : Int) = n := by simpa using h
      rw [← hn]; rfl
    | 2 => rw [sym2] at h; cases h
    | 3 => rw [sym3] at h; cases h
    | 4 =>
      rw [sym4] at h
      obtain ⟨rfl, hn⟩ : 1 = k ∧ (0 : Int) = n := by simpa using h
      rw [← hn]; rfl
    | s + 5 => rw [sym5] at h; cases h
  constant := by
    intro s h
    match s with
    | 0 => rw [sym0] at h; cases h
    | 1 => rw [sym1] at h; cases h
    | 2 => rw [sym2]; rfl
    | 3 => rw [sym3]; rfl
    | 4 => rw [sym4] at h; cases h
    | s + 5 => rw [sym5] at h; cases h
  fits := by
    intro k y h
    rcases area0 h with ⟨rfl, h1, -⟩ | ⟨rfl, h1, -⟩ <;> rw [h1] <;> decide
  fixed := by
    intro k y a h ha
    rcases area0 h with ⟨rfl, -, h1, -⟩ | ⟨rfl, -, h1, -⟩
    · rw [h1] at ha; cases ha
    · rw [h1] at ha; cases ha; rfl
  bank := by
    intro s k n y b _ h hb
    rcases area0 h with ⟨rfl, -, -, h1⟩ | ⟨rfl, -, -, h1⟩ <;> rw [h1] at hb <;> cases hb

theorem sym_range {s : Nat} {v : Int} (h : ρ0.sym s = some v) : I32 v := by
  unfold ρ0 at h
  match s with
  | 0 | 1 | 2 | 3 | 4 => cases h; decide
  | s + 5 => cases h

theorem linked0 (used : Nat → Prop) (k : Nat) : Linked used (fun s => min s 5) (env0 k) (base0 k) ρ0 where
  small := by intro s _; show min s 5 < _; omega
  env := by
    refine ⟨ρ0, ?_, fun _ _ _ h => h, ?_⟩
    · intro s _ v hv
      rw [← hv]
      symm
      match s with
      | 0 | 1 | 2 | 3 | 4 => rfl
      | s + 5 =>
        show ρ0.sym (min (s + 5) 5) = _
        rw [Nat.min_eq_right (by omega)]
        rfl
    · intro o
      refine ⟨?_, ?_, ?_, ?_, rfl, fun _ _ h => sym_range h, fun _ _ h => (by cases h), fun _ _ _ h => (by cases h)⟩
      · intro id v
        show (match ρ0.sym id with | some v => Outcome.ok (⟨none, v⟩ : Expr.Entry) | none => .fail) = _ ↔ _
        cases ρ0.sym id <;> simp
      · intro id e h
        have h : (match ρ0.sym id with | some v => Outcome.ok (⟨none, v⟩ : Expr.Entry) | none => .fail) = _ := h
        cases hs : ρ0.sym id with
        | none => rw [hs] at h; cases h
        | some v => rw [hs] at h; cases h; rfl
      · intro id v
        exact ⟨fun h => (by cases h), fun h => (by cases h)⟩
      · intro a b v
        exact ⟨fun h => (by cases h), fun h => (by cases h)⟩

/-- The two sections, put behind each other by the linker, have the bytes of the program. -/
theorem image0 : (σ0.sects.sections.mapIdx fun k x =>
      match image P0.fm σ0.asm (fun s => min s 5) true (env0 k) k x with
      | .ok (ps, bs) => some (ps.map (fun q : Patch.SPatch => q.type), bs)
      | _ => none) =
    [some ([5], [0xC3, 0x05, 0x80, 0x3E, 0x06, 0x18, 0xF9]), some ([5], [0x05, 0x80, 0x10, 0x00])] := by
  decide +kernel

theorem ok0 : ∀ x ∈ prog0, x.2.Ok := by
  intro x hx
  simp only [prog0, List.mem_cons, List.not_mem_nil, or_false] at hx
  rcases hx with rfl | rfl | rfl | rfl | rfl | rfl | rfl | rfl | rfl | rfl | rfl <;>
    simp [Stmt.Ok, Src.Ok, Src.PcOk, I32, Src.bare, Src.isNum]

/-- What is written for the first section is what its statements stand for. -/
example : ∃ Y, W0.areas.areas[0]? = some Y ∧ Contents P0.fm ρ0 0x8000 Y [0xC3, 0x05, 0x80, 0x3E, 0x06, 0x18, 0xF9] := by
  have h := C61_contents P0 rfl base0 ρ0 prog0 ok0 W0 spec0 consistent0 σ0 run0
  have hi := congrArg (·[0]?) image0
  simp only [List.getElem?_mapIdx] at hi
  cases hx : σ0.sects.sections[0]? with
  | none => rw [hx] at hi; cases hi
  | some x =>
    obtain ⟨Y, hY, -, hg, -, -, -, -, -, h1⟩ := h.2 0 x hx
    rw [hx] at hi
    have hb : (σ0.sects.sections.map (·.group.bss))[0]? = some false := by decide +kernel
    rw [List.getElem?_map, hx] at hb
    refine ⟨Y, hY, ?_⟩
    cases hm : image P0.fm σ0.asm (fun s => min s 5) true (env0 0) 0 x with
    | ok r =>
      obtain ⟨ps, bs⟩ := r
      simp only [Option.map_some, hm] at hi
      obtain ⟨hps, rfl⟩ : ps.map (fun q : Patch.SPatch => q.type) = [5] ∧ bs = [0xC3, 0x05, 0x80, 0x3E, 0x06, 0x18, 0xF9] := by
        simpa using hi
      refine h1 (by rw [← hg]; simpa using hb) _ _ _ _ _ (linked0 _ 0) hm ?_
      intro q hq
      have : q.type ∈ ps.map (fun q : Patch.SPatch => q.type) := List.mem_map.2 ⟨q, hq, rfl⟩
      rw [hps] at this
      simpa using this
    | fail => simp [hm] at hi
    | ub => simp [hm] at hi

end Verif.Program
