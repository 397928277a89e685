import Verif.BinObj.Props
import Verif.Expr.AsmReduce
/-!
# C30: what the image contains
-/
namespace Verif.BinObj
open Verif.Section Verif.Expr

/-! ### Expressions only depend on their symbols -/

theorem sectionOffset_congr (f g : Nat → ASym) (k : Nat) (sec : ASect) (e : AExpr) (h : ∀ s ∈ e.syms, f s = g s) :
    sectionOffset f k sec e = sectionOffset g k sec e := by
  induction e with
  | const v => rfl
  | sym s => simp only [sectionOffset, h s (by simp [AExpr.syms])]
  | bank s => rfl
  | pcRel l r ihl ihr => rfl
  | parens c e ih => simp only [sectionOffset]; exact ih fun s hs => h s (by simpa [AExpr.syms] using hs)
  | bin c op l r ihl ihr =>
    have hl := ihl fun s hs => h s (by simp [AExpr.syms, hs])
    have hr := ihr fun s hs => h s (by simp [AExpr.syms, hs])
    cases op <;> simp only [sectionOffset, hl, hr]
  | un c op e ih => rfl
  | bit c e ih => rfl

theorem findSection_congr (f g : Nat → ASym) (e : AExpr) (h : ∀ s ∈ e.syms, f s = g s) (l : List ASect) :
    ∀ k, findSection f e k l = findSection g e k l := by
  induction l with
  | nil => intro k; rfl
  | cons a l ih => intro k; simp only [findSection, sectionOffset_congr f g k a e h, ih]

theorem reduce_congr (fm : FMath) (A B : Asm) (p : Site) (hsec : A.sects = B.sects) (hb : ∀ s, (A.syms s).sect = (B.syms s).sect)
    (e : AExpr) (h : ∀ s ∈ e.syms, A.syms s = B.syms s) : reduce fm A p e = reduce fm B p e := by
  induction e with
  | const v => rfl
  | sym s => simp only [reduce, h s (by simp [AExpr.syms])]
  | bank s => simp only [reduce, symBank, hb, hsec]
  | pcRel l r ihl ihr =>
    have hl := ihl fun s hs => h s (by simp [AExpr.syms, hs])
    have hr : ∀ sec, sectionOffset A.syms p.sect sec r = sectionOffset B.syms p.sect sec r := fun sec =>
      sectionOffset_congr _ _ _ _ _ fun s hs => h s (by simp [AExpr.syms, hs])
    simp only [reduce, hl, hsec, hr]
  | parens c e ih =>
    have := ih fun s hs => h s (by simpa [AExpr.syms] using hs)
    cases c <;> simp only [reduce, this]
  | bin c op l r ihl ihr =>
    have hl' : ∀ s ∈ l.syms, A.syms s = B.syms s := fun s hs => h s (by simp [AExpr.syms, hs])
    have hr' : ∀ s ∈ r.syms, A.syms s = B.syms s := fun s hs => h s (by simp [AExpr.syms, hs])
    have hd : sameSectionDiff A l r = sameSectionDiff B l r := by
      simp only [sameSectionDiff, sectionAndOffset, hsec, findSection_congr _ _ l hl', findSection_congr _ _ r hr']
    cases c <;> simp only [reduce, ihl hl', ihr hr', hd]
  | un c op e ih =>
    have := ih fun s hs => h s (by simpa [AExpr.syms] using hs)
    cases c <;> simp only [reduce, this]
  | bit c e ih =>
    have := ih fun s hs => h s (by simpa [AExpr.syms] using hs)
    cases c <;> simp only [reduce, this]

/-! ### Symbols -/

/-- The address of a symbol in a section. -/
def addressOf {α : Type} (ss : List (Sect α)) (y : Sym) : Int :=
  toI32 (y.value + match y.sect.bind fun i => ss[i]? with | some s => s.origin | none => 0)

theorem relocate_ok {α : Type} (ss : List (Sect α)) (y y' : Sym) (hy : y.relocated = false) (h : relocate ss y = .ok y') :
    y'.sect = y.sect ∧ (y.used = true → y.type ≠ .imported ∧ y.type ≠ .global ∧
      y'.view = if y.type.reloc then ⟨.set, y.sect, addressOf ss y⟩ else ⟨y.type, y.sect, y.value⟩) := by
  unfold relocate at h
  cases hu : y.used with
  | false =>
    rw [hu] at h
    simp only [Bool.false_eq_true, if_false] at h
    injection h with h
    subst h
    exact ⟨rfl, fun hn => by cases hn⟩
  | true =>
    rw [hu] at h
    simp only [if_true] at h
    by_cases hi : y.type = .imported ∨ y.type = .global
    · rw [if_pos hi] at h; cases h
    · rw [if_neg hi] at h
      have hi' := not_or.mp hi
      by_cases hr : y.type.reloc = true
      · rw [if_pos ⟨hr, by simp [hy]⟩] at h
        cases hs : y.sect.bind fun i => ss[i]? with
        | none => rw [hs] at h; cases h
        | some s =>
          rw [hs] at h
          injection h with h
          subst h
          refine ⟨rfl, fun _ => ⟨hi'.1, hi'.2, ?_⟩⟩
          rw [if_pos hr]
          unfold Sym.view addressOf
          rw [hs]
          rfl
      · rw [if_neg (fun hx => hr hx.1)] at h
        injection h with h
        subst h
        refine ⟨rfl, fun _ => ⟨hi'.1, hi'.2, ?_⟩⟩
        rw [if_neg hr]
        unfold Sym.view
        rw [hy]
        rfl

theorem relocateAll_get {α : Type} (ss : List (Sect α)) (ys : List Sym) : ∀ ys', relocateAll ss ys = .ok ys' →
    ys'.length = ys.length ∧ ∀ (i : Nat) (y : Sym), ys[i]? = some y → ∃ y', ys'[i]? = some y' ∧ relocate ss y = .ok y' := by
  induction ys with
  | nil => intro ys' h; unfold relocateAll at h; injection h with h; subst h; exact ⟨rfl, fun i y h => by simp at h⟩
  | cons y ys ih =>
    intro ys' h
    unfold relocateAll at h
    cases h1 : relocate ss y with
    | ok y' =>
      rw [h1, ok_bind] at h
      cases h2 : relocateAll ss ys with
      | ok zs =>
        rw [h2, ok_bind] at h
        injection h with h
        subst h
        obtain ⟨hl, hg⟩ := ih zs h2
        refine ⟨by simp [hl], fun i x hx => ?_⟩
        cases i with
        | zero => simp at hx; subst hx; exact ⟨y', rfl, h1⟩
        | succ i => simp at hx ⊢; exact hg i x hx
      | fail => rw [h2] at h; cases h
      | ub => rw [h2] at h; cases h
    | fail => rw [h1] at h; cases h
    | ub => rw [h1] at h; cases h

/-- What symbols stand for in an image: a label is an address, and so is the place of a patch. -/
def denOf {α : Type} (ss : List (Sect α)) (ys : List Sym) (i offset : Nat) : Den where
  sym s := ys[s]?.bind fun y => if y.type.reloc then some (addressOf ss y) else if y.type.constant then some y.value else none
  bank s := ys[s]?.bind fun y => (y.sect.bind fun k => ss[k]?).map fun t => toI32 t.bank
  group _ _ := none
  pc := (match ss[i]? with | some s => (s.origin : Int) | none => 0) + offset

/-- The symbols as if all of them were used. -/
def full {α : Type} (ss : List (Sect α)) (ys : List Sym) : Asm where
  syms i := match ys[i]? with
    | some y => if y.type.reloc then ⟨.set, y.sect, addressOf ss y⟩ else ⟨y.type, y.sect, y.value⟩
    | none => ⟨.undefined, none, 0⟩
  sects := ss.map view

theorem full_places {α : Type} (ss : List (Sect α)) (ys : List Sym) (i o : Nat) (hc : ∀ y ∈ ys, y.type.constant = true → I32 y.value) :
    (full ss ys).Places (fun k => match ss[k]? with | some s => (s.origin : Int) | none => 0) (denOf ss ys i o) where
  constant s h := by
    simp only [full, denOf] at h ⊢
    cases hy : ys[s]? with
    | none => rw [hy] at h; cases h
    | some y =>
      rw [hy] at h
      simp only [Option.bind_some] at h ⊢
      by_cases hr : y.type.reloc = true
      · rw [if_pos hr, if_pos hr]
        exact ⟨rfl, toI32_range _⟩
      · rw [if_neg hr] at h ⊢
        rw [if_neg hr]
        simp only [] at h
        rw [if_pos h]
        exact ⟨rfl, hc y (List.mem_of_getElem? hy) h⟩
  placed s k h := by
    simp only [full] at h
    cases hy : ys[s]? with
    | none => rw [hy] at h; cases h
    | some y =>
      rw [hy] at h
      simp only [] at h
      by_cases hr : y.type.reloc = true
      · rw [if_pos hr] at h; cases h
      · rw [if_neg hr] at h; exact absurd h hr
  loaded k sec hk _ := by
    simp only [full, List.getElem?_map] at hk
    cases hs : ss[k]? with
    | none => rw [hs] at hk; cases hk
    | some s => rw [hs] at hk; cases hk; rfl
  bank s k sec h hk _ := by
    simp only [full, List.getElem?_map, denOf] at h hk ⊢
    cases hy : ys[s]? with
    | none => rw [hy] at h; cases h
    | some y =>
      rw [hy] at h
      have hsect : y.sect = some k := by
        simp only [] at h
        split at h <;> exact h
      cases hs : ss[k]? with
      | none => rw [hs] at hk; cases hk
      | some t =>
        rw [hs] at hk
        cases hk
        simp only [Option.bind_some, hsect, hs, Option.map_some]
        rfl

/-- The symbols of the expression are marked as used. -/
def Marked (ys : List Sym) (e : AExpr) : Prop := ∀ s ∈ e.syms, ∀ y, ys[s]? = some y → y.used = true

theorem world_full (fm : FMath) {α : Type} (ss : List (Sect α)) (ys ys' : List Sym) (hr : relocateAll ss ys = .ok ys')
    (hn : ∀ y ∈ ys, y.relocated = false) (p : Site) (e : AExpr) (hm : Marked ys e) :
    reduce fm (world ss ys') p e = reduce fm (full ss ys) p e := by
  obtain ⟨hl, hg⟩ := relocateAll_get ss ys ys' hr
  have hnone : ∀ s : Nat, ys[s]? = none → ys'[s]? = none := by
    intro s hs
    rw [List.getElem?_eq_none_iff] at hs ⊢
    omega
  apply reduce_congr
  · rfl
  · intro s
    simp only [world, full]
    cases hy : ys[s]? with
    | none => rw [hnone s hy]
    | some y =>
      obtain ⟨y', h1, h2⟩ := hg s y hy
      rw [h1]
      have := (relocate_ok ss y y' (hn y (List.mem_of_getElem? hy)) h2).1
      simp only [Sym.view, this]
      split <;> rfl
  · intro s hs
    simp only [world, full]
    cases hy : ys[s]? with
    | none => rw [hnone s hy]
    | some y =>
      obtain ⟨y', h1, h2⟩ := hg s y hy
      rw [h1]
      exact ((relocate_ok ss y y' (hn y (List.mem_of_getElem? hy)) h2).2 (hm s hs y hy)).2.2

/-- **C30.** The value of a patch is the value of its expression, in which labels stand for their offset plus the address of
their section in the image. -/
theorem C30_value (fm : FMath) {α : Type} (ss : List (Sect α)) (ys ys' : List Sym) (hr : relocateAll ss ys = .ok ys')
    (hn : ∀ y ∈ ys, y.relocated = false) (hc : ∀ y ∈ ys, y.type.constant = true → I32 y.value) (i : Nat) (p : Patch AExpr)
    (hm : Marked ys p.expr) (ho : p.expr.Ok) (hp : p.expr.Plain) (v : Int) (h : evaluate fm (world ss ys') i p = .ok (some v)) :
    p.expr.den fm wrap (denOf ss ys i p.offset) = some v := by
  unfold evaluate at h
  rw [world_full fm ss ys ys' hr hn _ _ hm] at h
  cases hx : reduce fm (full ss ys) ⟨i, p.offset⟩ p.expr with
  | ok x =>
    rw [hx, ok_bind] at h
    injection h with h
    exact (reduce_sound fm (full_places ss ys i p.offset hc) ⟨i, p.offset⟩ rfl p.expr ho hp hx).2 v h
  | fail => rw [hx] at h; cases h
  | ub => rw [hx] at h; cases h

/-- The expression uses neither distances nor banks. -/
def simple : AExpr → Bool
  | .const _ => true
  | .sym _ => true
  | .bank _ => false
  | .pcRel _ _ => false
  | .parens _ e => simple e
  | .bin _ _ l r => simple l && simple r
  | .un _ _ e => simple e
  | .bit _ e => simple e

theorem reduce_known (fm : FMath) (A : Asm) (p : Site) (e : AExpr) (hs : simple e = true)
    (hA : ∀ s ∈ e.syms, (A.syms s).type = .undefined ∨ (A.syms s).type.constant = true) :
    ∀ x, reduce fm A p e = .ok x → x.2.isSome = true := by
  induction e with
  | const v => intro x h; cases h; rfl
  | sym s =>
    intro x h
    simp only [reduce] at h
    rcases hA s (by simp [AExpr.syms]) with hu | hc
    · rw [hu] at h; simp [SymType.constant] at h
    · rw [if_pos hc] at h; cases h; rfl
  | bank s => cases hs
  | pcRel l r => cases hs
  | parens c e ih =>
    intro x h
    cases c with
    | some v => simp only [reduce] at h; cases h; rfl
    | none =>
      simp only [reduce] at h
      obtain ⟨y, hy, h⟩ := Outcome.bind_ok.1 h
      cases h
      exact ih hs (fun s hx => hA s (by simpa [AExpr.syms] using hx)) y hy
  | bin c op l r ihl ihr =>
    intro x h
    cases c with
    | some v => simp only [reduce] at h; cases h; rfl
    | none =>
      simp only [simple, Bool.and_eq_true] at hs
      have ihl := ihl hs.1 fun s hx => hA s (by simp [AExpr.syms, hx])
      have ihr := ihr hs.2 fun s hx => hA s (by simp [AExpr.syms, hx])
      simp only [reduce] at h
      split at h
      · cases h; rfl
      · split at h
        · obtain ⟨⟨r', b⟩, hr, h⟩ := Outcome.bind_ok.1 h
          have := ihr _ hr
          cases b with
          | none => cases this
          | some b =>
            obtain ⟨⟨l', a⟩, hl, h⟩ := Outcome.bind_ok.1 h
            have := ihl _ hl
            cases a with
            | none => cases this
            | some a => obtain ⟨v, _, h⟩ := Outcome.bind_ok.1 h; cases h; rfl
        · obtain ⟨⟨l', a⟩, hl, h⟩ := Outcome.bind_ok.1 h
          have := ihl _ hl
          cases a with
          | none => cases this
          | some a =>
            obtain ⟨⟨r', b⟩, hr, h⟩ := Outcome.bind_ok.1 h
            have := ihr _ hr
            cases b with
            | none => cases this
            | some b => obtain ⟨v, _, h⟩ := Outcome.bind_ok.1 h; cases h; rfl
  | un c op e ih =>
    intro x h
    cases c with
    | some v => simp only [reduce] at h; cases h; rfl
    | none =>
      simp only [reduce] at h
      obtain ⟨⟨e', a⟩, hy, h⟩ := Outcome.bind_ok.1 h
      have := ih hs (fun s hx => hA s (by simpa [AExpr.syms] using hx)) _ hy
      cases a with
      | none => cases this
      | some a => cases h; rfl
  | bit c e ih =>
    intro x h
    cases c with
    | some v => simp only [reduce] at h; cases h; rfl
    | none =>
      simp only [reduce] at h
      obtain ⟨⟨e', a⟩, hy, h⟩ := Outcome.bind_ok.1 h
      have := ih hs (fun s hx => hA s (by simpa [AExpr.syms] using hx)) _ hy
      cases a with
      | none => cases this
      | some a => obtain ⟨v, _, h⟩ := Outcome.bind_ok.1 h; cases h; rfl

/-- **C30.** Patches without distances and banks never stay: their value is known, if it is not an error. Symbols are labels in
sections, constants, or not defined. -/
theorem C30_value_known (fm : FMath) {α : Type} (ss : List (Sect α)) (ys ys' : List Sym) (hr : relocateAll ss ys = .ok ys')
    (hn : ∀ y ∈ ys, y.relocated = false) (i : Nat) (p : Patch AExpr) (hm : Marked ys p.expr) (hs : simple p.expr = true)
    (he : ∀ s ∈ p.expr.syms, ∀ y, ys[s]? = some y → y.type.expression = true) (v : Option Int)
    (h : evaluate fm (world ss ys') i p = .ok v) : v.isSome = true := by
  unfold evaluate at h
  rw [world_full fm ss ys ys' hr hn _ _ hm] at h
  cases hx : reduce fm (full ss ys) ⟨i, p.offset⟩ p.expr with
  | ok x =>
    rw [hx, ok_bind] at h
    injection h with h
    rw [← h]
    refine reduce_known fm _ _ _ hs ?_ x hx
    intro s hs'
    simp only [full]
    cases hy : ys[s]? with
    | none => exact Or.inl rfl
    | some y =>
      simp only []
      have := he s hs' y hy
      cases ht : y.type <;> rw [ht] at this <;> simp_all [SymType.reloc, SymType.constant, SymType.expression]
  | fail => rw [hx] at h; cases h
  | ub => rw [hx] at h; cases h

/-! ### The whole -/

theorem hexLine_eq : hexLine = line := by
  funext b
  have h : ∀ n : Fin 256, hexLine (UInt8.ofNat n.val) = line (UInt8.ofNat n.val) := by decide +kernel
  have := h ⟨b.toNat, b.toNat_lt⟩
  simpa using this

theorem markUsed_marked (ss : List (Sect AExpr)) (ys : List Sym) (s : Sect AExpr) (hs : s ∈ ss) (p : Patch AExpr) (hp : p ∈ s.patches) :
    Marked (markUsed ss ys) p.expr := by
  intro i hi y hy
  unfold markUsed at hy
  rw [List.getElem?_mapIdx] at hy
  cases hx : ys[i]? with
  | none => rw [hx] at hy; cases hy
  | some x =>
    rw [hx] at hy
    simp only [Option.map_some, Option.some.injEq] at hy
    subst hy
    simp only [Bool.or_eq_true, List.any_eq_true, List.contains_iff_mem]
    exact Or.inr ⟨s, hs, p, hp, hi⟩

theorem commonPatch_ok (c : Settings) (fm : FMath) (ss ts : List (Sect AExpr)) (ys ys' : List Sym) (n : Nat)
    (h : commonPatch c fm ss ys = .ok (ts, ys', n)) :
    ss ≠ [] ∧ ∃ ps, place c 0 ss = .ok ps ∧ relocateAll ps ys = .ok ys' ∧ backPatch (evaluate fm (world ps ys')) 0 ps = .ok (ts, n) := by
  unfold commonPatch at h
  split at h
  · cases h
  · rename_i first rest
    refine ⟨by simp, ?_⟩
    split at h
    · cases h
    · generalize first :: rest = l at *
      cases h1 : place c 0 l with
      | ok ps =>
        rw [h1, ok_bind] at h
        refine ⟨ps, rfl, ?_⟩
        cases h2 : relocateAll ps ys with
        | ok zs =>
          rw [h2, ok_bind] at h
          cases h3 : backPatch (evaluate fm (world ps zs)) 0 ps with
          | ok r =>
            rw [h3, ok_bind] at h
            cases h
            exact ⟨rfl, h3⟩
          | fail => rw [h3] at h; cases h
          | ub => rw [h3] at h; cases h
        | fail => rw [h2] at h; cases h
        | ub => rw [h2] at h; cases h
      | fail => rw [h1] at h; cases h
      | ub => rw [h1] at h; cases h

/-- Sections have room for their contents, once they have any. -/
def Whole (s : Sect AExpr) : Prop := s.alloc ≠ 0 → s.used ≤ s.data.length

theorem layout_inOrder (c : Settings) (ss : List (Sect AExpr)) : ∀ (pos e : Nat) (qs : List Nat) (k : Nat) (ts : List (Sect AExpr)),
    Layout pos (ss.map (wanted c)) qs e → e < 2 ^ 32 → (∀ s ∈ ss, Whole s) →
    Each (fun _ s t => SameShape s t) k (List.zipWith (placedAt c) ss qs) ts → InOrder pos ts := by
  induction ss with
  | nil => intro pos e qs k ts _ _ _ h; cases h; exact .nil _
  | cons s ss ih =>
    intro pos e qs k ts hl he hw h
    rw [List.map_cons] at hl
    cases hl with
    | @cons _ q _ _ _ qs hf hl =>
    rw [List.zipWith_cons_cons] at h
    cases h with
    | @cons _ _ t _ ts hst h =>
    obtain ⟨h1, _, h2, h3, h4⟩ := hst
    simp only [placedAt] at h1 h2 h3 h4
    have hle := hl.le
    have hsz : (wanted c s).size = s.used := rfl
    rw [hsz] at hle hl
    have hpos := hf.2.1
    refine .cons (by omega) (by omega) ?_ ?_
    · intro ha
      have := hw s (by simp) (by rw [← h3]; exact ha)
      omega
    · rw [h1, h2]
      exact ih _ _ _ _ _ hl he (fun x hx => hw x (by simp [hx])) h

/-- **C30.** The image: sections are where the layout has them, the file has the bytes of the sections at their positions
relative to the first one and zeros elsewhere, ends with the last section that has bytes, and the bytes of a section are its data,
with the values of the patches. -/
theorem C30_image_partial (c : Settings) (fm : FMath) (ss ts : List (Sect AExpr)) (ys ys' : List Sym) (n : Nat) (qs : List Nat) (e : Nat)
    (hl : Layout 0 (ss.map (wanted c)) qs e) (hg : ∀ s ∈ ss, Good (wanted c s)) (hs : Small e (ss.map (wanted c)))
    (hw : ∀ s ∈ ss, Whole s) (h : commonPatch c fm ss (markUsed ss ys) = .ok (ts, ys', n)) :
    (∃ F, binWrite c fm ss ys = .ok F ∧ verilogWrite c fm ss ys = .ok (F.flatMap line) ∧ ∃ q, qs[0]? = some q ∧ Shows q ts F) ∧
    ts.length = ss.length ∧
    ∀ (i : Nat) (s t : Sect AExpr) (q : Nat), ss[i]? = some s → ts[i]? = some t → qs[i]? = some q →
      SameShape (placedAt c s q) t ∧
      (∀ j, (∀ p ∈ s.patches, j < p.offset ∨ p.offset + p.size.bytes ≤ j) → t.data[j]? = s.data[j]?) ∧
      (n = 0 → s.patches.Pairwise Apart → ∀ p ∈ s.patches, ∀ v,
        evaluate fm (world (List.zipWith (placedAt c) ss qs) ys') i p = .ok (some v) → Spec.fits p.size v = true ∧
        (t.data.drop p.offset).take p.size.bytes = Spec.digits p.big p.size.bytes (v % 2 ^ 32).toNat) := by
  obtain ⟨hne, ps, h1, h2, h3⟩ := commonPatch_ok c fm ss ts _ ys' n h
  rw [C30_layout_partial c ss qs e hl hg hs] at h1
  injection h1 with h1
  subst h1
  have hE := backPatch_each _ _ _ _ _ h3
  have hshape := hE.mono (R' := fun _ s t => SameShape s t) (by
    rintro i s t ⟨m, _, hm⟩
    exact (patchSection_shape _ _ _ _ _ hm).1)
  have hord := layout_inOrder c ss 0 e qs 0 ts hl hs.1 hw hshape
  have hlen : qs.length = ss.length := by
    have : ∀ {pos e : Nat} {ws : List Wanted} {qs : List Nat}, Layout pos ws qs e → qs.length = ws.length := by
      intro pos e ws qs h
      induction h with
      | nil => rfl
      | cons _ _ ih => simp [ih]
    simpa using this hl
  have hlt : ts.length = ss.length := by
    have := hE.get.1
    simpa [hlen] using this
  refine ⟨?_, hlt, ?_⟩
  · cases hts : ts with
    | nil =>
      rw [hts] at hlt
      exact absurd (List.length_eq_zero_iff.mp hlt.symm) hne
    | cons t0 tr =>
      cases hqs : qs with
      | nil =>
        rw [hqs] at hlen
        exact absurd (List.length_eq_zero_iff.mp hlen.symm) hne
      | cons q0 qr =>
        have hq0 : t0.imagePosition = q0 := by
          cases ss with
          | nil => exact absurd rfl hne
          | cons s0 sr =>
            subst hts hqs
            rw [List.zipWith_cons_cons] at hshape
            cases hshape with
            | cons hst _ => exact hst.1
        have hin : InOrder q0 (t0 :: tr) := by
          rw [hts] at hord
          cases hord with
          | cons a b c d => exact .cons (by omega) b c d
        obtain ⟨F, hF, hS⟩ := writeLoop_shows _ _ hin
        have hb : binWrite c fm ss ys = .ok F := by
          unfold binWrite
          rw [h, ok_bind, hts]
          show writeLoop writeBinary t0.imagePosition _ = _
          rw [hq0, hF]
        have hv : verilogWrite c fm ss ys = .ok (F.flatMap line) := by
          rw [← hexLine_eq]
          unfold verilogWrite
          rw [h, ok_bind, hts]
          show writeLoop writeVerilog t0.imagePosition _ = _
          rw [hq0, writeLoop_verilog _ _ _ hF]
        exact ⟨F, hb, hv, q0, rfl, hS⟩
  · intro i s t q hsi hti hqi
    have hz : (List.zipWith (placedAt c) ss qs)[i]? = some (placedAt c s q) := by
      rw [List.getElem?_zipWith, hsi, hqi]
    obtain ⟨m, hm, hp⟩ := hE.get.2 i _ _ hz hti
    rw [Nat.zero_add] at hp
    obtain ⟨hsh, hout⟩ := patchSection_shape _ _ _ _ _ hp
    refine ⟨hsh, hout, ?_⟩
    intro hn hpw p hpp v hv
    have hm0 : m = 0 := by omega
    subst hm0
    exact patchSection_bytes _ _ _ _ hp hpw p hpp v hv

/-- **C30.** A symbol that is used and not defined in the source is reported. -/
theorem C30_imported {α : Type} (ss : List (Sect α)) (y : Sym) (hu : y.used = true) (hi : y.type = .imported ∨ y.type = .global) :
    ∀ pre post, (∀ x ∈ pre, ∃ x', relocate ss x = .ok x') → relocateAll ss (pre ++ y :: post) = .fail := by
  intro pre post
  induction pre with
  | nil =>
    intro _
    have : relocate ss y = .fail := by unfold relocate; rw [hu]; simp [hi]
    simp only [List.nil_append, relocateAll, this]
    rfl
  | cons x pre ih =>
    intro h
    obtain ⟨x', hx⟩ := h x (by simp)
    have := ih fun z hz => h z (by simp [hz])
    rw [List.cons_append, relocateAll, hx, ok_bind, this]
    rfl

/-- **C30.** An image with values to fill in is refused exactly if the first section has neither an address nor a bank.
Otherwise the sections are placed, the labels get their addresses and the values are filled in. -/
theorem C30_needs_org (c : Settings) (fm : FMath) (first : Sect AExpr) (rest : List (Sect AExpr)) (ys : List Sym) :
    ((∃ s ∈ first :: rest, s.patches ≠ []) → first.flags.loadFixed = false → first.flags.bankFixed = false →
      commonPatch c fm (first :: rest) ys = .fail) ∧
    ((∀ s ∈ first :: rest, s.patches = []) ∨ first.flags.loadFixed = true ∨ first.flags.bankFixed = true →
      ∀ ps ys' r, place c 0 (first :: rest) = .ok ps → relocateAll ps ys = .ok ys' →
        backPatch (evaluate fm (world ps ys')) 0 ps = .ok r → commonPatch c fm (first :: rest) ys = .ok (r.1, ys', r.2)) := by
  constructor
  · rintro ⟨s, hs, hp⟩ h1 h2
    have : (first :: rest).any (fun s => !s.patches.isEmpty) = true :=
      List.any_eq_true.mpr ⟨s, hs, by simpa using hp⟩
    unfold commonPatch
    simp only [this, h1, h2]
    rfl
  · intro h ps ys' r h1 h2 h3
    have : ((first :: rest).any (fun s => !s.patches.isEmpty) && !first.flags.loadFixed && !first.flags.bankFixed) = false := by
      rcases h with h | h | h
      · have : (first :: rest).any (fun s => !s.patches.isEmpty) = false := by
          rw [List.any_eq_false]
          intro s hs
          simp [h s hs]
        rw [this]; rfl
      · simp [h]
      · simp [h]
    unfold commonPatch
    simp only [this, Bool.false_eq_true, if_false]
    rw [h1, ok_bind, h2, ok_bind, h3]
    rfl

end Verif.BinObj
