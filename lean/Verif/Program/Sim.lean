import Verif.Program.Spec
/-!
# The sections of the assembler and the sections of the specification

The assembler stores the numbers that it knows at once, and leaves holes for the others; in the specification every
expression is a hole.
-/
namespace Verif.Program
open Verif.Section (Config Env Op Operand Size Group Kind Patch Holes HolesAll area_current area_mem)
open Verif.Section.Spec (Area Cell Result digits)
open Verif.Expr (Src ASym AExpr FMath Here Asm Den I32 u32 toI32 build Evolves wrap)
open Spec (Value Outside)

/-- The bytes `xs` are at offset `o`. -/
def At (bs : Bytes) (o : Nat) (xs : Bytes) : Prop := ∀ j, j < xs.length → bs[o + j]? = xs[j]?

theorem At.append {bs xs : Bytes} {o : Nat} (h : At bs o xs) (cs : Bytes) : At (bs ++ cs) o xs := by
  intro j hj
  have h1 := h j hj
  rw [List.getElem?_eq_getElem hj] at h1 ⊢
  have h2 := (List.getElem?_eq_some_iff.1 h1).1
  rw [List.getElem?_append_left h2, h1]

theorem at_end (bs cs : Bytes) : At (bs ++ cs) bs.length cs := by
  intro j hj
  rw [List.getElem?_append_right (by omega)]
  congr 1; omega

theorem At.window {bs xs : Bytes} {o : Nat} (h : At bs o xs) : (bs.drop o).take xs.length = xs := by
  apply List.ext_getElem?
  intro j
  by_cases hj : j < xs.length
  · rw [List.getElem?_take_of_lt hj, List.getElem?_drop, h j hj]
  · rw [List.getElem?_eq_none (by simp; omega), List.getElem?_eq_none (by omega)]

section
variable (P : Params) (m : Nat → ASym) (base : Nat → Int) (ρ : Den)

/-- The tree of the assembler for an expression whose number is not known at once. `m` are the symbols now. -/
def Right (k : Nat) (H : Patch Value) (e : AExpr) : Prop :=
  ∃ now here, build P.fm now P.junk here H.expr.src = .ok e ∧ e.cached = none ∧
    Evolves now m ∧ here.Matches { ρ with pc := base k + H.offset } ∧ H.expr.src.Ok ∧ H.expr.src.PcOk ∧
    H.expr.src.value P.fm wrap now { ρ with pc := base k + H.offset } = H.expr.at P.fm ρ (base k + H.offset)

/-- A number that the assembler has stored. -/
def Stored (k : Nat) (H : Patch Value) (bs : Bytes) : Prop :=
  ∃ v, H.expr.at P.fm ρ (base k + H.offset) = some v ∧ At bs H.offset (digits H.big H.size.bytes (u32 v))

structure SimA (k : Nat) (y : Area AExpr) (Y : Area Value) : Prop where
  name : y.name = Y.name
  group : y.group = Y.group
  attributes : y.attributes = Y.attributes
  org : y.org = none ∧ Y.org = none
  length : y.cells.length = Y.cells.length
  plain : ∀ i, (∀ H ∈ Y.holes, Outside H i) → (y.cells[i]?).map Cell.value = (Y.cells[i]?).map Cell.value
  hole : ∀ H ∈ Y.holes,
    (Stored P base ρ k H (y.cells.map Cell.value) ∧
      ∀ h ∈ y.holes, h.offset + h.size.bytes ≤ H.offset ∨ H.offset + H.size.bytes ≤ h.offset) ∨
    ∃ e, ⟨H.offset, H.size, H.big, e⟩ ∈ y.holes ∧ Right P m base ρ k H e
  back : ∀ h ∈ y.holes, ∃ H ∈ Y.holes, H.offset = h.offset ∧ H.size = h.size

structure SimW (w : Section.Spec.World AExpr) (W : Section.Spec.World Value) : Prop where
  current : w.current = W.current
  stack : w.stack = W.stack
  scope : w.scope = W.scope
  areas : ∀ k, (w.areas[k]? = none ∧ W.areas[k]? = none) ∨
    ∃ y Y, w.areas[k]? = some y ∧ W.areas[k]? = some Y ∧ SimA P m base ρ k y Y
end

section
variable {P : Params} {m : Nat → ASym} {base : Nat → Int} {ρ : Den}

/-- The sections grow by the same number of bytes. -/
theorem SimA.append {k : Nat} {y : Area AExpr} {Y : Area Value} (h : SimA P m base ρ k y Y) (hy : Holes y) (hY : Holes Y)
    {cs CS : List Cell} {hs : List (Patch AExpr)} {HS : List (Patch Value)} (hl : cs.length = CS.length)
    (hp : ∀ i, (∀ H ∈ HS, Outside H (Y.cells.length + i)) → (cs[i]?).map Cell.value = (CS[i]?).map Cell.value)
    (hH : ∀ H ∈ HS, Y.cells.length ≤ H.offset ∧
      ((Stored P base ρ k H (y.cells.map Cell.value ++ cs.map Cell.value) ∧ hs = []) ∨
        ∃ e, ⟨H.offset, H.size, H.big, e⟩ ∈ hs ∧ Right P m base ρ k H e))
    (hb : ∀ h ∈ hs, Y.cells.length ≤ h.offset ∧ ∃ H ∈ HS, H.offset = h.offset ∧ H.size = h.size) :
    SimA P m base ρ k { y with cells := y.cells ++ cs, holes := y.holes ++ hs }
      { Y with cells := Y.cells ++ CS, holes := Y.holes ++ HS } where
  name := h.name
  group := h.group
  attributes := h.attributes
  org := h.org
  length := by simp [h.length, hl]
  plain := by
    intro i hi
    simp only [List.mem_append] at hi
    rw [List.getElem?_append, List.getElem?_append, h.length]
    by_cases hlt : i < Y.cells.length
    · rw [if_pos hlt, if_pos hlt]
      exact h.plain i fun H hH => hi H (Or.inl hH)
    · rw [if_neg hlt, if_neg hlt]
      apply hp
      intro H hH
      rw [show Y.cells.length + (i - Y.cells.length) = i by omega]
      exact hi H (Or.inr hH)
  hole := by
    intro H hm
    simp only [List.mem_append] at hm
    simp only [List.map_append, List.mem_append]
    rcases hm with hm | hm
    · rcases h.hole H hm with ⟨⟨v, h1, h2⟩, h3⟩ | ⟨e, h1, h2⟩
      · refine Or.inl ⟨⟨v, h1, h2.append _⟩, ?_⟩
        rintro p (hp | hp)
        · exact h3 p hp
        · have := hY.inside H hm
          have := (hb p hp).1
          omega
      · exact Or.inr ⟨e, Or.inl h1, h2⟩
    · obtain ⟨h1, ⟨h2, h3⟩ | ⟨e, h2, h3⟩⟩ := hH H hm
      · refine Or.inl ⟨h2, ?_⟩
        subst h3
        rintro p (hp | hp)
        · have := hy.inside p hp
          rw [h.length] at this
          omega
        · cases hp
      · exact Or.inr ⟨e, Or.inr h2, h3⟩
  back := by
    intro p hm
    simp only [List.mem_append] at hm ⊢
    rcases hm with hm | hm
    · obtain ⟨H, a, b⟩ := h.back p hm
      exact ⟨H, Or.inl a, b⟩
    · obtain ⟨H, a, b⟩ := (hb p hm).2
      exact ⟨H, Or.inr a, b⟩

theorem SimW.area {w : Section.Spec.World AExpr} {W : Section.Spec.World Value} (h : SimW P m base ρ w W) {Y : Area Value}
    (hY : W.area = some Y) : ∃ k y, W.current = some k ∧ w.area = some y ∧ w.areas[k]? = some y ∧ W.areas[k]? = some Y ∧
      SimA P m base ρ k y Y := by
  obtain ⟨k, hc, hk, hYk⟩ := area_current hY
  rcases h.areas k with ⟨-, h2⟩ | ⟨y, Y', h1, h2, h3⟩
  · rw [h2] at hYk; cases hYk
  · rw [h2] at hYk; cases hYk
    refine ⟨k, y, hc, ?_, h1, h2, h3⟩
    unfold Section.Spec.World.area
    rw [h.current, hc]; exact h1

theorem SimW.put {w : Section.Spec.World AExpr} {W : Section.Spec.World Value} (h : SimW P m base ρ w W) {k : Nat}
    (hc : W.current = some k) {y : Area AExpr} {Y : Area Value} (hs : SimA P m base ρ k y Y) :
    SimW P m base ρ (w.put y) (W.put Y) := by
  unfold Section.Spec.World.put
  rw [h.current, hc]
  refine ⟨rfl, h.stack, h.scope, ?_⟩
  intro j
  simp only [List.getElem?_set]
  by_cases hj : k = j
  · subst hj
    rcases h.areas k with ⟨h1, h2⟩ | ⟨y', Y', h1, h2, h3⟩
    · have e1 := List.getElem?_eq_none_iff.1 h1
      have e2 := List.getElem?_eq_none_iff.1 h2
      left
      simp only [if_true]
      exact ⟨if_neg (by omega), if_neg (by omega)⟩
    · have e1 := (List.getElem?_eq_some_iff.1 h1).1
      have e2 := (List.getElem?_eq_some_iff.1 h2).1
      right
      simp only [if_true]
      exact ⟨y, Y, if_pos e1, if_pos e2, hs⟩
  · simp only [if_neg hj]
    exact h.areas j

/-- Both sections get bytes and holes. -/
theorem sim_emit {w : Section.Spec.World AExpr} {W W' : Section.Spec.World Value} (h : SimW P m base ρ w W)
    (hw : HolesAll w) (hW : HolesAll W) {pos : Section.Pos} {bs BS : Bytes} {hs : List (Patch AExpr)} {HS : List (Patch Value)}
    (hl : bs.length = BS.length)
    (hc : ∀ k y Y, W.current = some k → W.areas[k]? = some Y → W.area = some Y → w.area = some y → SimA P m base ρ k y Y →
      (∀ i, (∀ H ∈ HS, Outside H (Y.cells.length + i)) → bs[i]? = BS[i]?) ∧
      (∀ H ∈ HS, Y.cells.length ≤ H.offset ∧
        ((Stored P base ρ k H (y.cells.map Cell.value ++ bs) ∧ hs = []) ∨
          ∃ e, ⟨H.offset, H.size, H.big, e⟩ ∈ hs ∧ Right P m base ρ k H e)) ∧
      (∀ h ∈ hs, Y.cells.length ≤ h.offset ∧ ∃ H ∈ HS, H.offset = h.offset ∧ H.size = h.size))
    (he : Section.Spec.emit pos BS HS W = .good W') :
    ∃ w', Section.Spec.emit pos bs hs w = .good w' ∧ SimW P m base ρ w' W' := by
  unfold Section.Spec.emit at he ⊢
  cases hY : W.area with
  | none => rw [hY] at he; cases he
  | some Y =>
    rw [hY] at he
    obtain ⟨k, y, h1, h2, h3, h4, h5⟩ := h.area hY
    obtain ⟨c1, c2, c3⟩ := hc k y Y h1 h4 hY h2 h5
    rw [h2]
    simp only at he ⊢
    by_cases hb : Y.group.bss = true
    · rw [if_pos hb] at he; cases he
    · rw [if_neg hb] at he
      rw [if_neg (by rw [h5.group]; exact hb)]
      rw [h5.length, hl]
      by_cases hlim : Y.cells.length + BS.length ≤ Section.Spec.limit false
      · rw [if_pos hlim] at he ⊢
        cases he
        refine ⟨_, rfl, h.put h1 ?_⟩
        have hmap : ∀ (l : Bytes) (i : Nat), ((l.map fun b => (⟨b, pos⟩ : Cell))[i]?).map Cell.value = l[i]? := by
          intro l i
          rw [List.getElem?_map, Option.map_map]
          cases l[i]? <;> rfl
        have hmm : ∀ (l : Bytes), ((l.map fun b => (⟨b, pos⟩ : Cell))).map Cell.value = l := by
          intro l
          rw [List.map_map]
          exact List.map_id' l
        refine h5.append (hw y (area_mem h2)) (hW Y (area_mem hY)) (cs := bs.map fun b => ⟨b, pos⟩)
          (CS := BS.map fun b => ⟨b, pos⟩) (by rw [List.length_map, List.length_map, hl]) ?_ ?_ c3
        · intro i hi
          rw [hmap, hmap]
          exact c1 i hi
        · intro H hH
          rw [hmm]
          exact c2 H hH
      · rw [if_neg hlim] at he; cases he

theorem sim_space {w : Section.Spec.World AExpr} {W W' : Section.Spec.World Value} (h : SimW P m base ρ w W)
    (hw : HolesAll w) (hW : HolesAll W) {env : Env} {n : Nat} (he : Section.Spec.space env n W = .good W') :
    ∃ w', Section.Spec.space env n w = .good w' ∧ SimW P m base ρ w' W' := by
  unfold Section.Spec.space at he ⊢
  by_cases hn : n = 0
  · rw [if_pos hn] at he ⊢; cases he; exact ⟨w, rfl, h⟩
  · rw [if_neg hn] at he ⊢
    cases hY : W.area with
    | none => rw [hY] at he; cases he
    | some Y =>
      rw [hY] at he
      obtain ⟨k, y, h1, h2, h3, h4, h5⟩ := h.area hY
      rw [h2]
      simp only at he ⊢
      rw [h5.group, h5.length]
      by_cases hlim : Y.cells.length + n ≤ Section.Spec.limit Y.group.bss
      · rw [if_pos hlim] at he ⊢
        cases he
        refine ⟨_, rfl, h.put h1 ?_⟩
        have := h5.append (hw y (area_mem h2)) (hW Y (area_mem hY)) (hs := []) (HS := [])
          (cs := List.replicate n ⟨if Y.group.bss = true then 0 else env.fill, env.pos⟩)
          (CS := List.replicate n ⟨if Y.group.bss = true then 0 else env.fill, env.pos⟩) rfl (fun _ _ => rfl)
          (by intro H hH; cases hH) (by intro H hH; cases hH)
        rw [List.append_nil, List.append_nil, h5.group] at this
        exact this
      · rw [if_neg hlim] at he; cases he

theorem Evolves.later {now m m' : Nat → ASym} (h : Evolves now m) (hm : ∀ s, (m s).type = .label → m' s = m s) : Evolves now m' where
  label := by
    intro s hs
    have h1 := h.label s hs
    rw [← h1]
    exact hm s (by rw [h1]; exact hs)
  inSection := h.inSection
  range := h.range

/-- Other symbols are defined. -/
theorem SimW.later {m' : Nat → ASym} {w : Section.Spec.World AExpr} {W : Section.Spec.World Value} (h : SimW P m base ρ w W)
    (hm : ∀ s, (m s).type = .label → m' s = m s) : SimW P m' base ρ w W := by
  refine ⟨h.current, h.stack, h.scope, ?_⟩
  intro k
  rcases h.areas k with h1 | ⟨y, Y, h1, h2, h3⟩
  · exact Or.inl h1
  · refine Or.inr ⟨y, Y, h1, h2, h3.name, h3.group, h3.attributes, h3.org, h3.length, h3.plain, ?_, h3.back⟩
    intro H hH
    rcases h3.hole H hH with h4 | ⟨e, h4, now, here, a1, a2, a3, a4⟩
    · exact Or.inl h4
    · exact Or.inr ⟨e, h4, now, here, a1, a2, Evolves.later a3 hm, a4⟩

theorem SimW.names {w : Section.Spec.World AExpr} {W : Section.Spec.World Value} (h : SimW P m base ρ w W) (name : String) :
    (w.areas.findIdx? fun y => y.name == name) = W.areas.findIdx? fun y => y.name == name := by
  have e : w.areas.map (·.name) = W.areas.map (·.name) := by
    apply List.ext_getElem?
    intro k
    rw [List.getElem?_map, List.getElem?_map]
    rcases h.areas k with ⟨h1, h2⟩ | ⟨y, Y, h1, h2, h3⟩
    · rw [h1, h2]; rfl
    · rw [h1, h2]; simp [h3.name]
  have := congrArg (List.findIdx? (· == name)) e
  rw [List.findIdx?_map, List.findIdx?_map] at this
  exact this

theorem SimW.length {w : Section.Spec.World AExpr} {W : Section.Spec.World Value} (h : SimW P m base ρ w W) :
    w.areas.length = W.areas.length := by
  apply Nat.le_antisymm
  · apply Nat.le_of_not_lt
    intro hlt
    rcases h.areas W.areas.length with ⟨h1, -⟩ | ⟨y, Y, -, h2, -⟩
    · have := List.getElem?_eq_none_iff.1 h1; omega
    · have := (List.getElem?_eq_some_iff.1 h2).1; omega
  · apply Nat.le_of_not_lt
    intro hlt
    rcases h.areas w.areas.length with ⟨-, h1⟩ | ⟨y, Y, h2, -, -⟩
    · have := List.getElem?_eq_none_iff.1 h1; omega
    · have := (List.getElem?_eq_some_iff.1 h2).1; omega

theorem sim_select {w : Section.Spec.World AExpr} {W W' : Section.Spec.World Value} (h : SimW P m base ρ w W)
    {name : String} {g : Group} {kd : Option Kind} (he : Section.Spec.select name g kd W = .good W') :
    ∃ w', Section.Spec.select name g kd w = .good w' ∧ SimW P m base ρ w' W' := by
  unfold Section.Spec.select at he ⊢
  rw [h.names]
  cases hi : W.areas.findIdx? fun y => y.name == name with
  | none =>
    rw [hi] at he
    cases he
    refine ⟨_, rfl, by simp [h.length], h.stack, h.scope, ?_⟩
    intro k
    simp only [List.getElem?_append, h.length]
    by_cases hk : k < W.areas.length
    · simp only [if_pos hk]; exact h.areas k
    · simp only [if_neg hk]
      cases hj : k - W.areas.length with
      | zero =>
        refine Or.inr ⟨_, _, rfl, rfl, rfl, rfl, rfl, ⟨rfl, rfl⟩, rfl, fun _ _ => rfl, ?_, ?_⟩
        · intro H hH; cases hH
        · intro H hH; cases hH
      | succ j => exact Or.inl ⟨rfl, rfl⟩
  | some i =>
    rw [hi] at he
    simp only at he ⊢
    rcases h.areas i with ⟨h1, h2⟩ | ⟨y, Y, h1, h2, h3⟩
    · rw [h2] at he; cases he
    · rw [h2] at he
      rw [h1]
      simp only at he ⊢
      rw [h3.group, h3.attributes]
      by_cases hg : Y.group.id ≠ g.id
      · rw [if_pos hg] at he; cases he
      · rw [if_neg hg] at he ⊢
        cases kd with
        | none => cases he; exact ⟨_, rfl, rfl, h.stack, h.scope, h.areas⟩
        | some kd =>
          simp only at he ⊢
          split at he
          · rename_i ha
            cases he
            rw [if_pos ⟨ha.1, h3.org.1⟩]
            exact ⟨_, rfl, rfl, h.stack, h.scope, h.areas⟩
          · cases he

/-- Directives do the same in both. -/
theorem sim_directive {cfg : Config} {env : Env} {w : Section.Spec.World AExpr} {W W' : Section.Spec.World Value}
    (h : SimW P m base ρ w W) (hw : HolesAll w) (hW : HolesAll W) (d : Directive)
    (he : Section.Spec.step cfg env d.op W = .good W') :
    ∃ w', Section.Spec.step cfg env d.op w = .good w' ∧ SimW P m base ρ w' W' := by
  cases d with
  | skip n =>
    simp only [Directive.op, Section.Spec.step] at he ⊢
    split at he
    · rename_i hc; rw [if_pos hc]; exact sim_space h hw hW he
    · cases he
  | align n =>
    simp only [Directive.op, Section.Spec.step] at he ⊢
    cases hY : W.area with
    | none => rw [hY] at he; cases he
    | some Y =>
      rw [hY] at he
      obtain ⟨k, y, h1, h2, h3, h4, h5⟩ := h.area hY
      rw [h2]
      simp only at he ⊢
      rw [h5.length]
      split at he
      · rename_i hc; rw [if_pos hc]; exact sim_space h hw hW he
      · cases he
  | binary bs =>
    simp only [Directive.op, Section.Spec.step] at he ⊢
    split at he
    · rename_i hc; rw [if_pos hc]
      exact sim_emit h hw hW (hs := []) (HS := []) rfl (fun k y Y _ _ _ _ _ => ⟨fun _ _ => rfl, (by intro H hH; cases hH), (by intro H hH; cases hH)⟩) he
    · cases he
  | «section» name g kd =>
    cases kd with
    | none => simp only [Directive.op, Section.Spec.step] at he ⊢; exact sim_select h he
    | some kd =>
      simp only [Directive.op, Section.Spec.step] at he ⊢
      split at he
      · cases he
      · rename_i h1
        rw [if_neg h1]
        split at he
        · cases he
        · rename_i h2
          rw [if_neg h2]
          exact sim_select h he
  | named name =>
    simp only [Directive.op, Section.Spec.step] at he ⊢
    rw [h.names]
    split at he
    · rename_i i hi
      cases he
      exact ⟨_, rfl, rfl, h.stack, h.scope, h.areas⟩
    · cases he
  | push =>
    cases he
    refine ⟨_, rfl, h.current, ?_, h.scope, h.areas⟩
    simp only [h.current, h.stack, h.scope]
  | pop =>
    simp only [Directive.op, Section.Spec.step] at he ⊢
    rw [h.stack]
    split at he
    · rename_i c sc st hst
      cases he
      exact ⟨_, rfl, rfl, rfl, rfl, h.areas⟩
    · cases he

theorem sim_const {cfg : Config} {env : Env} {w : Section.Spec.World AExpr} {W W' : Section.Spec.World Value}
    (h : SimW P m base ρ w W) (hw : HolesAll w) (hW : HolesAll W) {z : Size} {v : Nat}
    (he : Section.Spec.step cfg env (.const z v) W = .good W') :
    ∃ w', Section.Spec.step cfg env (.const z v) w = .good w' ∧ SimW P m base ρ w' W' := by
  simp only [Section.Spec.step] at he ⊢
  split at he
  · rename_i hc; rw [if_pos hc]
    exact sim_emit h hw hW (hs := []) (HS := []) rfl (fun k y Y _ _ _ _ _ => ⟨fun _ _ => rfl, (by intro H hH; cases hH), (by intro H hH; cases hH)⟩) he
  · cases he

theorem digits_length (big : Bool) (n v : Nat) : (digits big n v).length = n := by
  unfold digits; cases big <;> simp

/-- An expression: its number is stored or it becomes a hole. -/
theorem sim_expr {cfg : Config} {env : Env} {w : Section.Spec.World AExpr} {W W' : Section.Spec.World Value}
    (h : SimW P m base ρ w W) (hw : HolesAll w) (hW : HolesAll W) {z : Size} {x : Value} {e : AExpr}
    (hr : ∀ k Y, W.current = some k → W.areas[k]? = some Y →
      match e.cached with
      | some v => x.at P.fm ρ (base k + Y.cells.length) = some v
      | none => ∀ big, Right P m base ρ k ⟨Y.cells.length, z, big, x⟩ e)
    (he : Section.Spec.step cfg env (.expr z (.later x)) W = .good W') :
    ∃ w', Section.Spec.step cfg env (.expr z (operand e)) w = .good w' ∧ SimW P m base ρ w' W' := by
  simp only [Section.Spec.step] at he ⊢
  split at he
  · rename_i hc
    rw [if_pos hc]
    unfold operand
    cases hca : e.cached with
    | some v =>
      simp only [hca] at hr ⊢
      refine sim_emit h hw hW (by rw [digits_length, List.length_replicate]) ?_ he
      intro k y Y hk hYk hY hy hs
      rw [hY]
      simp only [List.mem_singleton, forall_eq]
      refine ⟨?_, ⟨Nat.le_refl _, Or.inl ⟨⟨v, hr k Y hk hYk, ?_⟩, trivial⟩⟩, by intro H hH; cases hH⟩
      · intro i hi
        have : z.bytes ≤ i := by
          unfold Outside at hi
          simp only at hi
          omega
        rw [List.getElem?_eq_none (by rw [digits_length]; exact this), List.getElem?_eq_none (by simpa using this)]
      · simp only
        have e1 : ∀ b, digits (b && z != .one) z.bytes (u32 v) = digits b z.bytes (v % 2 ^ 32).toNat := by
          intro b
          cases z
          · cases b <;> rfl
          · cases b <;> rfl
          · cases b <;> rfl
        rw [e1]
        have := at_end (y.cells.map Cell.value) (digits env.big z.bytes (v % 2 ^ 32).toNat)
        rw [List.length_map, hs.length] at this
        exact this
    | none =>
      simp only [hca] at hr ⊢
      refine sim_emit h hw hW rfl ?_ he
      intro k y Y hk hYk hY hy hs
      rw [hY, hy]
      simp only [List.mem_singleton, forall_eq]
      have hl : (some Y).elim 0 (fun y => y.cells.length) = Y.cells.length := rfl
      have hr' := hr k Y hk hYk
      simp [hs.length, hr']
  · cases he
end

end Verif.Program
