import Verif.Program.Run
import Verif.BinObj.Props
/-!
# The patches of a section
-/
namespace Verif.Program
open Verif.Section (Size Sect Patch Holes encode_digits)
open Verif.Section.Spec (Area Cell digits)
open Verif.Expr (AExpr FMath Asm I32 u32 toI32 reduce optimize writeExpr)
open Verif.Patch (SPatch width Apart Untouched decode leNat bytesOf)
open Spec (Outside)

theorem at_of_window {bs xs : Bytes} {o : Nat} (h : (bs.drop o).take xs.length = xs) : At bs o xs := by
  intro j hj
  rw [← List.getElem?_drop, ← List.getElem?_take_of_lt hj, h]

theorem At.of_eq {bs bs' xs : Bytes} {o : Nat} (h : At bs o xs) (he : ∀ i, o ≤ i ∧ i < o + xs.length → bs'[i]? = bs[i]?) :
    At bs' o xs := by
  intro j hj
  rw [he _ ⟨by omega, by omega⟩]
  exact h j hj

/-- Two patches overwrite different bytes. -/
def Disjoint {α β : Type} (p : Patch α) (q : Patch β) : Prop :=
  p.offset + p.size.bytes ≤ q.offset ∨ q.offset + q.size.bytes ≤ p.offset

theorem width_patchType (z : Size) (big : Bool) : width (patchType z big) = z.bytes := by
  cases z <;> cases big <;> rfl

theorem patchType_lt (z : Size) (big : Bool) : patchType z big < 5 := by
  cases z <;> cases big <;> decide

theorem bytesOf_digits (z : Size) (big : Bool) (v : Nat) : bytesOf (patchType z big) v = digits big z.bytes v := by
  rw [← encode_digits]
  cases z <;> cases big <;> rfl

theorem leNat_inj : ∀ {a b : Bytes}, a.length = b.length → leNat a = leNat b → a = b := by
  intro a
  induction a with
  | nil => intro b hl _; cases b with | nil => rfl | cons => cases hl
  | cons x xs ih =>
    intro b hl h
    cases b with
    | nil => cases hl
    | cons y ys =>
      unfold leNat at h
      have h1 := x.toNat_lt
      have h2 := y.toNat_lt
      have e1 : x.toNat = y.toNat := by omega
      rw [UInt8.toNat_inj.1 e1, ih (by simpa using hl) (by omega)]

theorem decode_inj {type : Nat} {a b : Bytes} (hl : a.length = b.length) (h : decode type a = decode type b) : a = b := by
  unfold decode at h
  split at h
  · have := leNat_inj (by simpa using hl) h
    simpa using this
  · exact leNat_inj hl h

section
variable {fm : FMath} {A : Asm} {ids : Nat → Nat} {k : Nat}

/-- What becomes of the patches of a section. -/
theorem settleAll_ok {V : Patch AExpr → Int → Prop} {Wr : Patch AExpr → Bytes → Prop} :
    ∀ (patches : List (Patch AExpr)) {data d : Bytes} {ps : List SPatch},
    (∀ p ∈ patches, ∀ e v, reduce fm A ⟨k, p.offset⟩ (optimize A.syms p.expr) = .ok (e, some v) → V p v) →
    (∀ p ∈ patches, ∀ e bs, reduce fm A ⟨k, p.offset⟩ (optimize A.syms p.expr) = .ok (e, none) → writeExpr ids e = some bs → Wr p bs) →
    patches.Pairwise Disjoint → settleAll fm A ids k patches data = .ok (ps, d) →
    d.length = data.length ∧ (∀ i, (∀ p ∈ patches, Outside p i) → d[i]? = data[i]?) ∧
    (∀ p ∈ patches,
      (∃ v, V p v ∧ At d p.offset (digits p.big p.size.bytes (u32 v)) ∧
        ∀ q ∈ ps, p.offset + p.size.bytes ≤ q.offset ∨ q.offset + width q.type ≤ p.offset) ∨
      ∃ q ∈ ps, q.offset = p.offset ∧ q.type = patchType p.size p.big ∧ Wr p q.expression) ∧
    (∀ q ∈ ps, ∃ p ∈ patches, q.offset = p.offset ∧ q.type = patchType p.size p.big) ∧ ps.Pairwise Apart := by
  intro patches
  induction patches with
  | nil =>
    intro data d ps _ _ _ h
    cases h
    exact ⟨rfl, fun _ _ => rfl, (by intro p hp; cases hp), (by intro p hp; cases hp), .nil⟩
  | cons p patches ih =>
    intro data d ps hV hW hd h
    obtain ⟨⟨o, d1⟩, h1, h2⟩ := Outcome.bind_ok.1 h
    obtain ⟨⟨ps1, d2⟩, h3, h4⟩ := Outcome.bind_ok.1 h2
    cases h4
    have hd' := List.pairwise_cons.1 hd
    obtain ⟨i1, i2, i3, i4, i5⟩ := ih (fun q hq => hV q (List.mem_cons_of_mem _ hq)) (fun q hq => hW q (List.mem_cons_of_mem _ hq))
      hd'.2 h3
    have hfar : ∀ q ∈ ps1, p.offset + p.size.bytes ≤ q.offset ∨ q.offset + width q.type ≤ p.offset := by
      intro q hq
      obtain ⟨r, hr, e1, e2⟩ := i4 q hq
      rw [e2, width_patchType, e1]
      exact hd'.1 r hr
    unfold settle at h1
    obtain ⟨⟨e, y⟩, hr, h1⟩ := Outcome.bind_ok.1 h1
    cases y with
    | some v =>
      simp only at h1
      obtain ⟨⟨d0, n⟩, ha, h1⟩ := Outcome.bind_ok.1 h1
      simp only at h1
      split at h1
      · rename_i hn
        cases h1
        obtain ⟨a1, a2, a3, -⟩ := BinObj.applyPatch_ok data d1 p v n ha
        obtain ⟨-, a3⟩ := a3 hn
        refine ⟨by rw [i1, a1], ?_, ?_, ?_, by simpa using i5⟩
        · intro i hi
          rw [i2 i (fun q hq => hi q (List.mem_cons_of_mem _ hq))]
          have := hi p (List.mem_cons_self ..)
          unfold Outside at this
          exact a2 i (by omega)
        · intro q hq
          rcases List.mem_cons.1 hq with rfl | hq
          · refine Or.inl ⟨v, hV q (List.mem_cons_self ..) e v hr, ?_, by simpa using hfar⟩
            have hat : At d1 q.offset (digits q.big q.size.bytes (u32 v)) := at_of_window (by rw [digits_length]; exact a3)
            refine hat.of_eq ?_
            intro i hi
            rw [digits_length] at hi
            refine i2 i ?_
            intro r hr
            have := hd'.1 r hr
            unfold Disjoint at this
            unfold Outside
            omega
          · simpa using i3 q hq
        · intro q hq
          obtain ⟨r, hr, e1⟩ := i4 q (by simpa using hq)
          exact ⟨r, List.mem_cons_of_mem _ hr, e1⟩
      · cases h1
    | none =>
      simp only at h1
      split at h1
      · rename_i bs hbs
        cases h1
        refine ⟨i1, fun i hi => i2 i (fun q hq => hi q (List.mem_cons_of_mem _ hq)), ?_, ?_, ?_⟩
        · intro q hq
          simp only [Option.toList, List.singleton_append, List.mem_cons]
          rcases List.mem_cons.1 hq with rfl | hq
          · exact Or.inr ⟨_, Or.inl rfl, rfl, rfl, hW q (List.mem_cons_self ..) e bs hr hbs⟩
          · rcases i3 q hq with ⟨v, b1, b2, b3⟩ | ⟨r, b1, b2⟩
            · refine Or.inl ⟨v, b1, b2, ?_⟩
              rintro r (rfl | hr)
              · simp only [width_patchType]
                have := hd'.1 q hq
                unfold Disjoint at this
                omega
              · exact b3 r hr
            · exact Or.inr ⟨r, Or.inr b1, b2⟩
        · intro q hq
          simp only [Option.toList, List.singleton_append, List.mem_cons] at hq
          rcases hq with rfl | hq
          · exact ⟨p, List.mem_cons_self .., rfl, rfl⟩
          · obtain ⟨r, hr, e1⟩ := i4 q hq
            exact ⟨r, List.mem_cons_of_mem _ hr, e1⟩
        · simp only [Option.toList, List.singleton_append]
          refine List.pairwise_cons.2 ⟨?_, i5⟩
          intro q hq
          unfold Apart
          simp only [width_patchType]
          exact hfar q hq
      · cases h1
end

end Verif.Program
