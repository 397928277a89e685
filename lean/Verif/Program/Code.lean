import Verif.Program.Props
import Verif.Cpu.X65.Spec
import Verif.Cpu.M6809.Spec
/-!
# C61: instructions in their section
-/
namespace Verif.Program
open Verif.Section (Config Env Op Operand Size Patch Holes HolesAll Extends Continues spec_step_extends holes_step area_current size_pos)
open Verif.Section.Spec (Area Cell Result digits)
open Verif.Expr (Src ASym FMath Den u32 wrap)
open Verif.Cpu (Item)
open Spec (Value Outside World Consistent Contents)

/-- The digits of a number in the section. -/
def spell (big : Bool) (n v : Nat) : List Nat := (digits big n v).map UInt8.toNat

/-- The bytes of the items of an instruction, each behind the ones before it. -/
def codeAt (fm : FMath) (big : Bool) (now : Nat → ASym) (ρ : Den) : List Item → Option (List Nat)
  | [] => some []
  | i :: is => (i.code fm wrap now ρ).bind fun c =>
    (codeAt fm big now { ρ with pc := ρ.pc + i.size } is).map fun bs => spell big i.size c ++ bs

def sizes : List Item → Nat
  | [] => 0
  | i :: is => i.size + sizes is

theorem range_le (n v : Nat) : ((List.range n).map fun i => UInt8.ofNat (v / 256 ^ i % 256)).map UInt8.toNat = Cpu.X65.le n v := by
  induction n generalizing v with
  | zero => rfl
  | succ n ih =>
    rw [List.range_succ_eq_map]
    simp only [List.map_cons, List.map_map, Cpu.X65.le]
    rw [← ih (v / 256)]
    simp only [List.map_map, Nat.pow_zero, Nat.div_one]
    congr 1
    · simp
    · apply List.map_congr_left
      intro i _
      simp only [Function.comp_apply]
      rw [Nat.succ_eq_add_one, Nat.pow_succ, Nat.mul_comm, ← Nat.div_div_eq_div_mul]

theorem spell_le (n v : Nat) : spell false n v = Cpu.X65.le n v := by
  unfold spell digits
  exact range_le n v

theorem le_be (n v : Nat) : (Cpu.X65.le n v).reverse = Cpu.M6809.be n v := by
  induction n generalizing v with
  | zero => rfl
  | succ n ih => simp only [Cpu.X65.le, Cpu.M6809.be, List.reverse_cons, ih]

theorem spell_be (n v : Nat) : spell true n v = Cpu.M6809.be n v := by
  unfold spell digits
  simp only [if_true, List.map_reverse]
  rw [range_le, le_be]

theorem codeAt_le (fm : FMath) (now : Nat → ASym) (is : List Item) (ρ : Den) :
    codeAt fm false now ρ is = Cpu.X65.bytesAt fm wrap now ρ is := by
  induction is generalizing ρ with
  | nil => rfl
  | cons i is ih => simp only [codeAt, Cpu.X65.bytesAt, spell_le, ih]

theorem codeAt_be (fm : FMath) (now : Nat → ASym) (is : List Item) (ρ : Den) :
    codeAt fm true now ρ is = Cpu.M6809.bytesAt fm now ρ is := by
  induction is generalizing ρ with
  | nil => rfl
  | cons i is ih => simp only [codeAt, Cpu.M6809.bytesAt, spell_be, ih]

/-- The lower digits. -/
theorem digits_mod (big : Bool) (n v : Nat) : digits big n (v % 256 ^ n) = digits big n v := by
  have : ((List.range n).map fun i => UInt8.ofNat (v % 256 ^ n / 256 ^ i % 256)) = (List.range n).map fun i => UInt8.ofNat (v / 256 ^ i % 256) := by
    apply List.map_congr_left
    intro i hi
    have hi := List.mem_range.1 hi
    congr 1
    have e : (256 : Nat) ^ n = 256 ^ i * 256 * 256 ^ (n - i - 1) := by
      rw [Nat.mul_assoc, ← Nat.pow_succ', ← Nat.pow_add]
      congr 1; omega
    rw [e, Nat.mul_assoc, Nat.mod_mul_right_div_self, Nat.mod_mul_right_mod]
  unfold digits
  simp only [this]

theorem digits_one (big : Bool) (z : Size) (v : Nat) : digits (big && z != .one) z.bytes v = digits big z.bytes v := by
  cases z <;> cases big <;> rfl

theorem size_of {n : Nat} {z : Size} (h : size? n = some z) : z.bytes = n := by
  unfold size? at h
  split at h <;> cases h <;> rfl

section
variable {cfg : Config} {fm : FMath} {ρ : Den}

theorem put_current {w : Section.Spec.World Value} {k : Nat} {y : Area Value} (hk : w.current = some k) (hlt : k < w.areas.length) :
    (w.put y).areas[k]? = some y ∧ (w.put y).current = some k := by
  unfold Section.Spec.World.put
  rw [hk]
  simp [hlt, hk]

/-- One item in its section. -/
theorem item_area {env : Env} {i : Item} {W W' : World} (h : Spec.item cfg env i W = .good W') {k : Nat} {Y : Area Value}
    (hk : W.areas.current = some k) (hY : W.areas.areas[k]? = some Y) :
    ∃ Y' cs, W'.areas.areas[k]? = some Y' ∧ W'.areas.current = some k ∧ W'.syms = W.syms ∧ Y'.cells = Y.cells ++ cs ∧ cs.length = i.size ∧
      match i with
      | .const n v => cs.map Cell.value = digits env.big n v ∧ Y'.holes = Y.holes
      | .expr n s => ∃ z : Size, z.bytes = n ∧ Y'.holes = Y.holes ++ [⟨Y.cells.length, z, env.big && z != .one, ⟨s, W.syms⟩⟩] := by
  have hlt := (List.getElem?_eq_some_iff.1 hY).1
  have harea : W.areas.area = some Y := by
    unfold Section.Spec.World.area
    rw [hk]; exact hY
  unfold Spec.item at h
  split at h
  · cases h
  · rename_i z hz
    have hz' := size_of hz
    cases i with
    | const n v =>
      simp only [Spec.operate, Section.Spec.step] at h
      split at h
      · rename_i a ha
        cases h
        split at ha
        · unfold Section.Spec.emit at ha
          rw [harea] at ha
          simp only at ha
          split at ha
          · cases ha
          · split at ha
            · cases ha
              have := put_current (y := { Y with cells := Y.cells ++ (digits env.big z.bytes v).map fun b => ⟨b, env.pos⟩, holes := Y.holes ++ [] })
                hk hlt
              refine ⟨_, _, this.1, this.2, rfl, rfl, by rw [List.length_map, digits_length, hz'], ?_, by simp⟩
              rw [List.map_map, ← show z.bytes = n from hz']
              exact List.map_id' _
            · cases ha
        · cases ha
      · cases h
      · cases h
    | expr n s =>
      simp only [Spec.operate, Section.Spec.step] at h
      split at h
      · rename_i a ha
        cases h
        split at ha
        · unfold Section.Spec.emit at ha
          rw [harea] at ha
          simp only at ha
          split at ha
          · cases ha
          · split at ha
            · cases ha
              have := put_current (y := { Y with
                cells := Y.cells ++ (List.replicate z.bytes 0).map fun b => ⟨b, env.pos⟩,
                holes := Y.holes ++ [⟨Y.cells.length, z, env.big && z != .one, ⟨s, W.syms⟩⟩] }) hk hlt
              exact ⟨_, _, this.1, this.2, rfl, rfl, by rw [List.length_map, List.length_replicate, hz'], z, hz', rfl⟩
            · cases ha
        · cases ha
      · cases h
      · cases h

/-- The bytes of the items in the contents of the section. -/
theorem items_code {env : Env} : ∀ (is : List Item) {W W' : World} {k : Nat} {Y Yf : Area Value} {address : Int} {bs : Bytes},
    Spec.items cfg env is W = .good W' → W.areas.current = some k → W.areas.areas[k]? = some Y → Holes Y →
    (∃ Y', W'.areas.areas[k]? = some Y' ∧ Continues Y' Yf) → Contents fm ρ address Yf bs →
    codeAt fm env.big W.syms { ρ with pc := address + Y.cells.length } is =
      some (((bs.drop Y.cells.length).take (sizes is)).map UInt8.toNat) ∧ Y.cells.length + sizes is ≤ bs.length := by
  intro is
  induction is with
  | nil =>
    intro W W' k Y Yf address bs h hk hY hh ⟨Y', hY', hcont⟩ hc
    cases h
    rw [hY] at hY'
    cases hY'
    refine ⟨by simp [codeAt, sizes], ?_⟩
    rw [hc.length]
    exact hcont.cells.length_le
  | cons i is ih =>
    intro W W' k Y Yf address bs h hk hY hh ⟨Y', hY', hcont⟩ hc
    unfold Spec.items at h
    split at h
    · rename_i W1 h1
      obtain ⟨Y1, cs, a1, a2, a3, a4, a5, a6⟩ := item_area h1 hk hY
      have hlen : Y1.cells.length = Y.cells.length + i.size := by rw [a4, List.length_append, a5]
      have hh1 : Holes Y1 := by
        cases i with
        | const n v => exact ⟨by rw [a6.2]; intro p hp; have := hh.inside p hp; omega, by rw [a6.2]; exact hh.apart⟩
        | expr n s =>
          obtain ⟨z, hz, a6⟩ := a6
          refine ⟨?_, ?_⟩
          · rw [a6]
            intro p hp
            rcases List.mem_append.1 hp with hp | hp
            · have := hh.inside p hp; omega
            · rw [List.mem_singleton.1 hp, hlen]
              simp only [Item.size, hz]
              exact Nat.le_refl _
          · rw [a6]
            refine List.pairwise_append.2 ⟨hh.apart, List.pairwise_singleton _ _, ?_⟩
            intro p hp q hq
            rw [List.mem_singleton.1 hq]
            exact hh.inside p hp
      obtain ⟨b1, b2⟩ := ih h a2 a1 hh1 ⟨Y', hY', hcont⟩ hc
      -- the section in the end
      have hext := (items_later h).areas k Y1 a1
      obtain ⟨Y'', e1, hcont1⟩ := hext
      rw [hY'] at e1
      cases e1
      have hcont1 := hcont1.trans hcont
      have hsz : sizes (i :: is) = i.size + sizes is := rfl
      refine ⟨?_, by rw [hsz]; omega⟩
      have htake : (bs.drop Y.cells.length).take (sizes (i :: is)) =
          (bs.drop Y.cells.length).take i.size ++ (bs.drop Y1.cells.length).take (sizes is) := by
        rw [hsz, List.take_add, List.drop_drop, hlen]
      have hcode : ∃ c, i.code fm wrap W.syms { ρ with pc := address + Y.cells.length } = some c ∧
          ((bs.drop Y.cells.length).take i.size) = digits env.big i.size c := by
        cases i with
        | const n v =>
          refine ⟨v % 256 ^ n, rfl, ?_⟩
          simp only [Item.size] at hlen a5 ⊢
          rw [digits_mod]
          rw [← a6.1]
          apply List.ext_getElem?
          intro j
          by_cases hj : j < n
          · rw [List.getElem?_take_of_lt hj, List.getElem?_drop, hc.plain]
            · have hpre := List.prefix_iff_getElem?.1 hcont1.cells (Y.cells.length + j) (by omega)
              rw [hpre, List.getElem?_map]
              simp only [a4]
              rw [List.getElem?_eq_getElem (by omega), List.getElem_append_right (by omega)]
              simp
            · intro H hH ho
              rcases hcont1.behind H hH with hb | hb
              · rw [a6.2] at hb
                have := hh.inside H hb
                omega
              · omega
          · rw [List.getElem?_eq_none (by simp; omega), List.getElem?_eq_none (by simp; omega)]
        | expr n s =>
          obtain ⟨z, hz, a6⟩ := a6
          have hmem : ⟨Y.cells.length, z, env.big && z != .one, ⟨s, W.syms⟩⟩ ∈ Yf.holes :=
            hcont1.holes.subset (by rw [a6]; simp)
          obtain ⟨v, v1, v2⟩ := hc.values _ hmem
          refine ⟨u32 v % 256 ^ n, ?_, ?_⟩
          · show (s.value fm wrap W.syms _).map _ = _
            have v1 : s.value fm wrap W.syms { ρ with pc := address + Y.cells.length } = some v := v1
            rw [v1]; rfl
          · simp only at v2
            simp only [Item.size]
            rw [digits_mod]
            rw [← hz, v2, digits_one]
      obtain ⟨c, c1, c2⟩ := hcode
      unfold codeAt
      rw [c1, htake, c2]
      simp only [Option.bind_some, List.map_append]
      have hpc : ({ ρ with pc := address + Y.cells.length + i.size } : Den) = { ρ with pc := address + Y1.cells.length } := by
        rw [hlen]
        congr 1
        omega
      rw [hpc, ← a3, b1]
      rfl
    · cases h
    · cases h


theorem spec_run_append {xs ys : List (Env × Stmt)} : ∀ {W W' : World}, Spec.run cfg fm ρ (xs ++ ys) W = .good W' →
    ∃ W1, Spec.run cfg fm ρ xs W = .good W1 ∧ Spec.run cfg fm ρ ys W1 = .good W' := by
  induction xs with
  | nil => intro W W' h; exact ⟨W, rfl, h⟩
  | cons x xs ih =>
    intro W W' h
    obtain ⟨env, x⟩ := x
    rw [List.cons_append, Spec.run] at h
    split at h
    · rename_i W1 h1
      obtain ⟨W2, h2, h3⟩ := ih h
      refine ⟨W2, ?_, h3⟩
      rw [Spec.run, h1]
      exact h2
    · cases h
    · cases h

theorem spec_holes_items {env : Env} (is : List Item) : ∀ {W W' : World}, HolesAll W.areas → Spec.items cfg env is W = .good W' →
    HolesAll W'.areas := by
  induction is with
  | nil => intro W W' hw h; cases h; exact hw
  | cons i is ih =>
    intro W W' hw h
    unfold Spec.items at h
    split at h
    · rename_i W1 h1
      refine ih ?_ h
      unfold Spec.item at h1
      split at h1
      · cases h1
      · cases i <;>
        · simp only [Spec.operate] at h1
          split at h1
          · rename_i a ha
            cases h1
            exact holes_step hw ha
          · cases h1
          · cases h1
    · cases h
    · cases h

theorem spec_holes_step {env : Env} {x : Stmt} {W W' : World} (hw : HolesAll W.areas) (h : Spec.step cfg fm ρ env x W = .good W') :
    HolesAll W'.areas := by
  cases x with
  | label s =>
    simp only [Spec.step] at h
    split at h
    · split at h
      · cases h; exact hw
      · cases h
    · cases h
  | equ s e =>
    simp only [Spec.step] at h
    split at h
    · split at h
      · cases h; exact hw
      · cases h
    · cases h
  | set s e =>
    simp only [Spec.step] at h
    split at h
    · split at h
      · cases h; exact hw
      · cases h
    · cases h
  | external s =>
    simp only [Spec.step] at h
    split at h
    · cases h; exact hw
    · cases h
  | global s =>
    simp only [Spec.step] at h
    split at h
    · cases h; exact hw
    · split at h
      · cases h; exact hw
      · cases h
  | code is => exact spec_holes_items is hw h
  | directive d =>
    simp only [Spec.step, Spec.operate] at h
    split at h
    · rename_i a ha
      cases h
      exact holes_step hw ha
    · cases h
    · cases h

theorem spec_holes_run {xs : List (Env × Stmt)} : ∀ {W W' : World}, HolesAll W.areas → Spec.run cfg fm ρ xs W = .good W' → HolesAll W'.areas := by
  induction xs with
  | nil => intro W W' hw h; cases h; exact hw
  | cons x xs ih =>
    intro W W' hw h
    obtain ⟨env, x⟩ := x
    unfold Spec.run at h
    split at h
    · rename_i W1 h1
      exact ih (spec_holes_step hw h1) h
    · cases h
    · cases h

/-- C61, specification only: the bytes of an instruction are in its section, at the place where it was written, and nothing
that follows changes them. -/
theorem C61_instruction {pre post : List (Env × Stmt)} {env : Env} {is : List Item} {W1 W : World} {k : Nat} {Y1 Y : Area Value}
    (h1 : Spec.run cfg fm ρ pre {} = .good W1) (hW : Spec.run cfg fm ρ (pre ++ (env, .code is) :: post) {} = .good W)
    (hk : W1.areas.current = some k) (hY1 : W1.areas.areas[k]? = some Y1) (hY : W.areas.areas[k]? = some Y)
    {address : Int} {bs : Bytes} (hc : Contents fm ρ address Y bs) :
    codeAt fm env.big W1.syms { ρ with pc := address + Y1.cells.length } is =
      some (((bs.drop Y1.cells.length).take (sizes is)).map UInt8.toNat) ∧ Y1.cells.length + sizes is ≤ bs.length := by
  obtain ⟨W1', h2, h3⟩ := spec_run_append hW
  rw [h1] at h2
  cases h2
  unfold Spec.run at h3
  split at h3
  · rename_i W2 h4
    have hl := run_later h3
    have h4 : Spec.items cfg env is W1 = .good W2 := h4
    obtain ⟨Y2, e1, e2⟩ := (items_later h4).areas k Y1 hY1
    obtain ⟨Y3, e3, e4⟩ := hl.areas k Y2 e1
    rw [hY] at e3
    cases e3
    have hh := spec_holes_run (W := {}) (by intro y hy; cases hy) h1 Y1 (List.mem_of_getElem? hY1)
    exact items_code is h4 hk hY1 hh ⟨Y2, e1, e4⟩ hc
  · cases h3
  · cases h3

end

/-- C61: the bytes of an instruction, in the section that the assembler and the linker have made of the program. -/
theorem C61_code (P : Params) (hv : P.cfg.wordSize = 1) (base : Nat → Int) (ρ : Den) (pre post : List (Env × Stmt)) (env : Env) (is : List Item)
    (hok : ∀ x ∈ pre ++ (env, .code is) :: post, x.2.Ok) (W1 W : World) (h1 : Spec.run P.cfg P.fm ρ pre {} = .good W1)
    (hW : Spec.run P.cfg P.fm ρ (pre ++ (env, .code is) :: post) {} = .good W) (hc : Consistent base W ρ) (σ : Prog)
    (hσ : run P (pre ++ (env, .code is) :: post) {} = .ok σ) (k : Nat) (Y1 : Area Value) (hk : W1.areas.current = some k)
    (hY1 : W1.areas.areas[k]? = some Y1) (hb : Y1.group.bss = false) (x : Section.Sect Expr.AExpr) (hx : σ.sects.sections[k]? = some x)
    (ids : Nat → Nat) (lenv : Expr.Env) (osr : Bool) (ps : List Patch.SPatch) (bs : Bytes) (hl : Linked (· ∈ names P.fm σ.asm k x) ids lenv (base k) ρ)
    (hi : image P.fm σ.asm ids osr lenv k x = .ok (ps, bs)) (hps : ∀ q ∈ ps, q.type = 5) :
    codeAt P.fm env.big W1.syms { ρ with pc := base k + Y1.cells.length } is =
      some (((bs.drop Y1.cells.length).take (sizes is)).map UInt8.toNat) := by
  obtain ⟨-, h⟩ := C61_contents P hv base ρ _ hok W hW hc σ hσ
  obtain ⟨Y, hY, -, -, -, -, -, -, -, hcon⟩ := h k x hx
  obtain ⟨W1', g1, g2⟩ := spec_run_append hW
  rw [h1] at g1
  cases g1
  obtain ⟨Y', g3, g4⟩ := (run_later g2).areas k Y1 hY1
  rw [hY] at g3
  cases g3
  exact (C61_instruction h1 hW hk hY1 hY (hcon (by rw [g4.group]; exact hb) ids lenv osr ps bs hl hi hps)).1

end Verif.Program
