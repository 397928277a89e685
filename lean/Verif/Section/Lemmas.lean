import Verif.Section.Spec
/-!
# One section and the cells it stands for
-/
namespace Verif.Section
open Spec (Cell Area World limit)

variable {α : Type}

/-- The flags that belong to the attributes. -/
def flagsOf (a : Spec.Attributes) (org : Bool) : Flags where
  loadFixed := a.address.isSome
  bankFixed := a.bank.isSome
  orgFixed := org
  aligned := a.align.isSome
  root := a.root
  paged := a.page.isSome

/-- The table of line mappings of a section: in order, none behind the end, and every cell is found. -/
structure Lines (ws : Nat) (lines : List LineEntry) (cells : List Cell) : Prop where
  sorted : lines.Pairwise fun a b => a.offset ≤ b.offset
  bound : ∀ e ∈ lines, e.offset ≤ cells.length / ws
  found : ∀ (i : Nat) (c : Cell), cells[i]? = some c → Spec.lineOf lines (i / ws) = some c.pos
  differ : ∀ (i : Nat) (a b : LineEntry), lines[i]? = some a → lines[i + 1]? = some b → a.pos ≠ b.pos

/-- A section of the program stands for an area. -/
structure Rel (ws : Nat) (x : Sect α) (y : Area α) : Prop where
  name : x.name = y.name
  group : x.group = y.group
  flags : x.flags = flagsOf y.attributes y.org.isSome
  origin : x.origin = y.attributes.address.getD 0
  bank : x.bank = y.attributes.bank.getD 0
  align : x.align = y.attributes.align.getD 0
  page : x.page = y.attributes.page.getD 0
  image : x.imagePosition = x.origin * ws % W32
  used : x.used = y.cells.length
  size : y.cells.length ≤ limit y.group.bss
  whole : ws ∣ y.cells.length
  pc : x.pc = y.cells.length / ws
  alloc : x.alloc = x.data.length
  inside : y.group.bss = false → x.used ≤ x.data.length
  data : y.group.bss = false → x.data.take x.used = y.cells.map Cell.value
  patches : x.patches.Perm y.holes
  unmoved : y.org = none → x.adjust = 0
  adjust : ∀ v n, y.org = some (v, n) → n ≤ y.cells.length ∧ ws ∣ n ∧ (x.adjust + n / ws + x.origin) % W32 = v % W32
  lines : Lines ws x.lines y.cells

theorem limit_lt (b : Bool) : limit b < W32 := by cases b <;> decide

/-! ## Line mappings -/

theorem lineOf_last {lines : List LineEntry} {n : Nat} (h : ∀ e ∈ lines, e.offset ≤ n) :
    Spec.lineOf lines n = lines.getLast?.map LineEntry.pos := by
  unfold Spec.lineOf
  rw [List.filter_eq_self.2]
  intro e he
  simpa using h e he

theorem lineOf_append_far {lines : List LineEntry} {e : LineEntry} {n : Nat} (h : n < e.offset) :
    Spec.lineOf (lines ++ [e]) n = Spec.lineOf lines n := by
  unfold Spec.lineOf
  rw [List.filter_append]
  have : ¬ e.offset ≤ n := by omega
  simp [this]

/-- What `addLine` does to the table. -/
def addEntry (pos : Pos) (pc : Nat) (lines : List LineEntry) : List LineEntry :=
  if lines.getLast?.map LineEntry.pos = some pos then lines else lines ++ [⟨pos, pc⟩]

theorem addLine_eq (pos : Pos) (x : Sect α) : addLine pos x = { x with lines := addEntry pos x.pc x.lines } := by
  unfold addLine addEntry
  cases h : x.lines.getLast? with
  | none => simp
  | some e =>
    simp only [Option.map_some, Option.some.injEq]
    split <;> rfl

theorem addEntry_last (pos : Pos) (pc : Nat) (lines : List LineEntry) :
    (addEntry pos pc lines).getLast?.map LineEntry.pos = some pos := by
  unfold addEntry
  split
  · assumption
  · simp

theorem lines_addEntry {ws : Nat} {lines : List LineEntry} {cells : List Cell} (hws : 0 < ws) (hw : ws ∣ cells.length)
    (h : Lines ws lines cells) (pos : Pos) : Lines ws (addEntry pos (cells.length / ws) lines) cells := by
  unfold addEntry
  split
  · exact h
  · rename_i hne
    refine ⟨?_, ?_, ?_, ?_⟩
    · rw [List.pairwise_append]
      refine ⟨h.sorted, by simp, ?_⟩
      intro a ha b hb
      simp only [List.mem_singleton] at hb
      subst hb
      exact h.bound a ha
    · intro e he
      rcases List.mem_append.1 he with he | he
      · exact h.bound e he
      · simp only [List.mem_singleton] at he
        subst he
        exact Nat.le_refl _
    · intro i c hc
      rw [lineOf_append_far, h.found i c hc]
      have hi : i < cells.length := by
        rw [List.getElem?_eq_some_iff] at hc
        exact hc.1
      show i / ws < cells.length / ws
      obtain ⟨k, hk⟩ := hw
      rw [hk, Nat.mul_div_cancel_left _ hws]
      rw [Nat.div_lt_iff_lt_mul hws, Nat.mul_comm]
      omega
    · intro i a b ha hb
      by_cases hi : i + 1 < lines.length
      · rw [List.getElem?_append_left (by omega)] at ha
        rw [List.getElem?_append_left hi] at hb
        exact h.differ i a b ha hb
      · have hlt : i + 1 < (lines ++ [(⟨pos, cells.length / ws⟩ : LineEntry)]).length := by
          rw [List.getElem?_eq_some_iff] at hb
          exact hb.1
        simp only [List.length_append, List.length_singleton] at hlt
        have hl : i + 1 = lines.length := by omega
        rw [List.getElem?_append_right (by omega), hl, Nat.sub_self] at hb
        simp only [List.getElem?_cons_zero, Option.some.injEq] at hb
        rw [List.getElem?_append_left (by omega)] at ha
        intro hab
        apply hne
        rw [List.getLast?_eq_getElem?, ← hl, Nat.add_sub_cancel, ha, Option.map_some, hab, ← hb]

/-- New cells from the line that the last entry names. -/
theorem lines_extend {ws : Nat} {lines : List LineEntry} {cells : List Cell}
    (h : Lines ws lines cells) {pos : Pos} (hp : lines.getLast?.map LineEntry.pos = some pos) {new : List Cell}
    (hn : ∀ c ∈ new, c.pos = pos) : Lines ws lines (cells ++ new) := by
  have mono : cells.length / ws ≤ (cells ++ new).length / ws := by
    apply Nat.div_le_div_right
    simp
  refine ⟨h.sorted, fun e he => Nat.le_trans (h.bound e he) mono, ?_, h.differ⟩
  intro i c hc
  by_cases hi : i < cells.length
  · rw [List.getElem?_append_left hi] at hc
    exact h.found i c hc
  · rw [List.getElem?_append_right (by omega)] at hc
    have hm : c ∈ new := List.mem_of_getElem? hc
    rw [lineOf_last, hp, hn c hm]
    intro e he
    refine Nat.le_trans (h.bound e he) (Nat.div_le_div_right ?_)
    omega

theorem rel_addLine {ws : Nat} {x : Sect α} {y : Area α} (hws : 0 < ws) (h : Rel ws x y) (pos : Pos) :
    Rel ws (addLine pos x) y := by
  rw [addLine_eq]
  have hl := lines_addEntry hws h.whole h.lines pos
  rw [← h.pc] at hl
  exact ⟨h.name, h.group, h.flags, h.origin, h.bank, h.align, h.page, h.image, h.used, h.size, h.whole, h.pc, h.alloc,
    h.inside, h.data, h.patches, h.unmoved, h.adjust, hl⟩

/-! ## Memory -/

theorem alignToNext_ok {v a : Nat} (ha : 0 < a) (h : v + a ≤ W32) :
    ∃ t, alignToNext v a = .ok t ∧ v ≤ t ∧ t = v + Spec.gap v a := by
  unfold alignToNext
  rw [if_neg (by omega)]
  have e1 : (v + a + W32 - 1) % W32 = v + a - 1 := by omega
  simp only [e1]
  refine ⟨_, rfl, ?_⟩
  have hr := Nat.mod_lt (v + a - 1) ha
  unfold Spec.gap
  have hm := Nat.mod_lt v ha
  -- v = q a + r
  have hv := Nat.div_add_mod v a
  by_cases h0 : v % a = 0
  · have hg : (a - v % a) % a = 0 := by rw [h0, Nat.sub_zero, Nat.mod_self]
    have : (v + a - 1) % a = a - 1 := by
      have : v + a - 1 = (a - 1) + a * (v / a) := by omega
      rw [this, Nat.add_mul_mod_self_left, Nat.mod_eq_of_lt (by omega)]
    rw [this, hg]
    omega
  · have hg : (a - v % a) % a = a - v % a := Nat.mod_eq_of_lt (by omega)
    have : (v + a - 1) % a = v % a - 1 := by
      have e : v + a - 1 = (v % a - 1) + a * (v / a + 1) := by
        rw [Nat.mul_add]
        omega
      rw [e, Nat.add_mul_mod_self_left, Nat.mod_eq_of_lt (by omega)]
    rw [this, hg]
    omega

/-- Growing keeps the contents and makes room. -/
theorem grow_ok {cfg : Config} {n : Nat} {x : Sect α} (hn : cfg.wordSize ≤ n) (ha : x.alloc = x.data.length)
    (hl : x.used + n ≤ limit false) :
    ∃ d, grow cfg n x = .ok { x with data := d, alloc := d.length } ∧ x.data <+: d ∧ x.used + n ≤ d.length := by
  have hlim : limit false = 4294950912 := by decide
  unfold grow
  rw [if_pos hn]
  have e : (n + x.used) % W32 = n + x.used := by omega
  simp only [e]
  split
  · rename_i hgt
    obtain ⟨t, ht, hle, -⟩ := alignToNext_ok (v := n + x.used) (a := 0x4000) (by decide) (by omega)
    rw [ht]
    simp only [Outcome.bind]
    unfold realloc
    rw [if_neg (by omega)]
    have hd : x.data.take t = x.data := List.take_of_length_le (by omega)
    refine ⟨x.data ++ List.replicate (t - x.data.length) 0, ?_, List.prefix_append _ _, ?_⟩
    · simp only [hd]
      congr 2
      simp
      omega
    · simp
      omega
  · refine ⟨x.data, ?_, List.prefix_rfl, by omega⟩
    rw [← ha]

theorem storeAll_ok : ∀ (bs : Bytes) (x : Sect α), x.used + bs.length ≤ x.data.length → x.used + bs.length < W32 →
    storeAll bs x = .ok { x with
      data := x.data.take x.used ++ bs ++ x.data.drop (x.used + bs.length), used := x.used + bs.length }
  | [], x, h, _ => by simp [storeAll]
  | b :: bs, x, h, hw => by
    simp only [List.length_cons] at h hw
    have hlt : x.used < x.data.length := by omega
    rw [storeAll, store, if_pos hlt]
    simp only [Outcome.bind]
    have e : (x.used + 1) % W32 = x.used + 1 := by omega
    rw [e, storeAll_ok bs _ (by simp; omega) (by simp; omega)]
    congr 1
    simp only [Sect.mk.injEq, true_and, List.length_cons]
    refine ⟨by omega, ?_⟩
    rw [List.set_eq_take_append_cons_drop, if_pos hlt]
    have l : (x.data.take x.used).length = x.used := by simp; omega
    rw [List.take_append, List.drop_append, l]
    have e2 : x.used + 1 - x.used = 1 := by omega
    have e3 : x.used + 1 + bs.length - x.used = bs.length + 1 := by omega
    rw [e2, e3, List.take_of_length_le (by omega), List.drop_of_length_le (by omega : (x.data.take x.used).length ≤ _)]
    simp only [List.take_succ_cons, List.take_zero, List.drop_succ_cons, List.nil_append, List.drop_drop,
      List.append_assoc, List.cons_append]
    congr 4
    omega

end Verif.Section
