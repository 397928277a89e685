import Verif.Cpu.Rc8.Codes
/-!
# Lists of registers of the RC8
-/
set_option linter.constructorNameAsVariable false

namespace Verif.Cpu.Rc8

open Verif.Parse (Tok Toks Tree)
open Verif.Expr (Src FMath ASym Den BinOp I32 toI32 wrap)

/-- The number of registers, each as often as it is written. -/
def cnt : List (R16 × Option R16) → Nat
  | [] => 0
  | (_, none) :: rs => 1 + cnt rs
  | (a, some b) :: rs => 1 + (b.ctorIdx - a.ctorIdx) + cnt rs

/-- Ranges are written with the lower register first. -/
def rising (rs : List (R16 × Option R16)) : Bool := rs.all fun (a, b) => match b with | none => true | some b => decide (a.ctorIdx < b.ctorIdx)

def bits4 (a b c d : Bool) : Nat := (if a then 1 else 0) ||| (if b then 2 else 0) ||| (if c then 4 else 0) ||| (if d then 8 else 0)

theorem mask_bits (p : R16 → Bool) : maskOf (r16s.filter p) = bits4 (p .ft) (p .bc) (p .de) (p .hl) := by
  unfold r16s
  cases h1 : p .ft <;> cases h2 : p .bc <;> cases h3 : p .de <;> cases h4 : p .hl <;>
    simp only [List.filter_cons, h1, h2, h3, h4, if_true, Bool.false_eq_true, if_false, List.filter_nil] <;> decide

theorem bits_or : ∀ a b c d e f g h : Bool, bits4 a b c d ||| bits4 e f g h = bits4 (a || e) (b || f) (c || g) (d || h) := by decide +kernel

theorem mask_cons (e : R16 × Option R16) (rs : List (R16 × Option R16)) :
    maskOf (r16s.filter (covers [e])) ||| maskOf (r16s.filter (covers rs)) = maskOf (r16s.filter (covers (e :: rs))) := by
  rw [mask_bits, mask_bits, mask_bits, bits_or]
  have h : ∀ r, covers (e :: rs) r = (covers [e] r || covers rs r) := by
    intro r
    simp only [covers, List.any_cons, List.any_nil, Bool.or_false]
  rw [h, h, h, h]

theorem mask_one (a : R16) : 1 <<< a.ctorIdx = maskOf (r16s.filter (covers [(a, none)])) := by cases a <;> decide

theorem mask_range (a b : R16) (h : a.ctorIdx < b.ctorIdx) :
    1 <<< a.ctorIdx ||| rangeMask (T.ft.num + a.ctorIdx) (T.ft.num + b.ctorIdx) = maskOf (r16s.filter (covers [(a, some b)])) := by
  cases a <;> cases b <;> first | decide | exact absurd h (by decide)

section
variable (f m k : Nat) (a b : R16)

theorem step_div (r : Toks) : maskLoop (f + 1) m k (a.tok :: .op .div :: r) = maskLoop f (m ||| 1 <<< a.ctorIdx) (k + 1) r := by
  cases a <;> rfl

theorem step_last {r : Toks} (he : Ends r) : maskLoop (f + 1) m k (a.tok :: r) = (m ||| 1 <<< a.ctorIdx, k + 1, r) := by
  cases r with
  | nil => cases a <;> rfl
  | cons x xs => rcases he x rfl with h | h | ⟨k, h⟩ <;> subst h <;> cases a <;> rfl

theorem step_range_div (h : a.ctorIdx < b.ctorIdx) (r : Toks) : maskLoop (f + 1) m k (a.tok :: .op .sub :: b.tok :: .op .div :: r) =
    maskLoop f (m ||| 1 <<< a.ctorIdx ||| rangeMask (T.ft.num + a.ctorIdx) (T.ft.num + b.ctorIdx)) (k + 1 + (b.ctorIdx - a.ctorIdx)) r := by
  cases a <;> cases b <;> first | rfl | exact absurd h (by decide)

theorem step_range_last (h : a.ctorIdx < b.ctorIdx) {r : Toks} (he : Ends r) : maskLoop (f + 1) m k (a.tok :: .op .sub :: b.tok :: r) =
    (m ||| 1 <<< a.ctorIdx ||| rangeMask (T.ft.num + a.ctorIdx) (T.ft.num + b.ctorIdx), k + 1 + (b.ctorIdx - a.ctorIdx), r) := by
  cases r with
  | nil => cases a <;> cases b <;> first | rfl | exact absurd h (by decide)
  | cons x xs =>
    rcases he x rfl with h' | h' | ⟨k, h'⟩ <;> subst h' <;> cases a <;> cases b <;> first | rfl | exact absurd h (by decide)

end

/-- A list of registers is read. -/
theorem mask_list {rest : Toks} (he : Ends rest) : ∀ (rs : List (R16 × Option R16)) (fuel m k : Nat), rs ≠ [] → rs.length ≤ fuel →
    rising rs = true → maskLoop fuel m k (regsToks rs ++ rest) = (m ||| maskOf (r16s.filter (covers rs)), k + cnt rs, rest) := by
  intro rs
  induction rs with
  | nil => intro _ _ _ h; exact absurd rfl h
  | cons e rs ih =>
    intro fuel m k _ hf hu
    cases fuel with
    | zero => simp at hf
    | succ f =>
      have hf' : rs.length ≤ f := by simpa using hf
      obtain ⟨a, b⟩ := e
      have hu2 : rising rs = true := by
        unfold rising at hu ⊢
        rw [List.all_cons, Bool.and_eq_true] at hu
        exact hu.2
      cases b with
      | none =>
        cases rs with
        | nil =>
          show maskLoop (f + 1) m k (a.tok :: rest) = _
          rw [step_last f m k a he, mask_one]
          rfl
        | cons e' rs =>
          show maskLoop (f + 1) m k (a.tok :: .op .div :: (regsToks (e' :: rs) ++ rest)) = _
          rw [step_div, ih f _ _ (by simp) hf' hu2, Nat.or_assoc, mask_one, mask_cons]
          show (_, k + 1 + cnt (e' :: rs), rest) = (_, k + (1 + cnt (e' :: rs)), rest)
          rw [Nat.add_assoc]
      | some b =>
        have hab : a.ctorIdx < b.ctorIdx := by
          unfold rising at hu
          rw [List.all_cons, Bool.and_eq_true] at hu
          exact of_decide_eq_true hu.1
        cases rs with
        | nil =>
          show maskLoop (f + 1) m k (a.tok :: .op .sub :: b.tok :: rest) = _
          rw [step_range_last f m k a b hab he, Nat.or_assoc, mask_range a b hab]
          show (_, k + 1 + (b.ctorIdx - a.ctorIdx), rest) = (_, k + (1 + (b.ctorIdx - a.ctorIdx) + 0), rest)
          congr 2
          omega
        | cons e' rs =>
          show maskLoop (f + 1) m k (a.tok :: .op .sub :: b.tok :: .op .div :: (regsToks (e' :: rs) ++ rest)) = _
          rw [step_range_div f m k a b hab, ih f _ _ (by simp) hf' hu2, Nat.or_assoc m, mask_range a b hab, Nat.or_assoc, mask_cons]
          show (_, k + 1 + (b.ctorIdx - a.ctorIdx) + cnt (e' :: rs), rest) =
            (_, k + (1 + (b.ctorIdx - a.ctorIdx) + cnt (e' :: rs)), rest)
          congr 2
          omega

theorem toks_length : ∀ rs : List (R16 × Option R16), rs.length ≤ (regsToks rs).length
  | [] => Nat.le_refl _
  | [(a, none)] => Nat.le_refl _
  | [(a, some b)] => by show 1 ≤ 3; decide
  | (a, none) :: e :: rs => by
    have := toks_length (e :: rs)
    show (e :: rs).length + 1 ≤ (regsToks (e :: rs)).length + 1 + 1
    omega
  | (a, some b) :: e :: rs => by
    have := toks_length (e :: rs)
    show (e :: rs).length + 1 ≤ (regsToks (e :: rs)).length + 1 + 1 + 1 + 1
    omega

theorem listed_some {rs : List (R16 × Option R16)} {l : List R16} (h : listed rs = some l) :
    rising rs = true ∧ l = r16s.filter (covers rs) ∧ 2 ≤ l.length := by
  unfold listed at h
  split at h
  · rename_i hc
    cases h
    exact ⟨hc.1, rfl, hc.2⟩
  · cases h

theorem cnt_pos (e : R16 × Option R16) (rs : List (R16 × Option R16)) : 1 ≤ cnt (e :: rs) := by
  obtain ⟨a, b⟩ := e
  cases b with
  | none => show 1 ≤ 1 + cnt rs; omega
  | some b => show 1 ≤ 1 + _ + cnt rs; omega

theorem cnt_two {rs : List (R16 × Option R16)} {l : List R16} (h : listed rs = some l) : 2 ≤ cnt rs ∧ rs ≠ [] := by
  obtain ⟨hu, hl, h2⟩ := listed_some h
  subst hl
  cases rs with
  | nil => exact absurd h2 (by decide)
  | cons e rs =>
    refine ⟨?_, by simp⟩
    obtain ⟨a, b⟩ := e
    cases b with
    | some b =>
      have hab : a.ctorIdx < b.ctorIdx := by
        unfold rising at hu
        rw [List.all_cons, Bool.and_eq_true] at hu
        exact of_decide_eq_true hu.1
      show 2 ≤ 1 + (b.ctorIdx - a.ctorIdx) + cnt rs
      omega
    | none =>
      cases rs with
      | nil => cases a <;> exact absurd h2 (by decide)
      | cons e' rs =>
        have := cnt_pos e' rs
        show 2 ≤ 1 + cnt (e' :: rs)
        omega

/-- A list of registers as an operand. -/
theorem addressing_list (C : Ctx) (A : Nat) (hA : has A mMask = true) {rs : List (R16 × Option R16)} {l : List R16} (h : listed rs = some l)
    {rest : Toks} (he : Ends rest) :
    addressing C A ((Opnd.regs rs).toks ++ rest) = .ok (some ((Opnd.regs rs).am C A, rest)) := by
  obtain ⟨hu, hl, _⟩ := listed_some h
  obtain ⟨h2, hn⟩ := cnt_two h
  have hm : maskLoop (regsToks rs ++ rest).length 0 0 (regsToks rs ++ rest) = _ := mask_list he rs _ 0 0 hn (by
    rw [List.length_append]
    exact Nat.le_trans (toks_length rs) (Nat.le_add_right _ _)) hu
  unfold addressing
  rw [if_pos hA]
  show (if 2 ≤ (maskLoop (regsToks rs ++ rest).length 0 0 (regsToks rs ++ rest)).2.1 then
    Outcome.ok (some ((⟨mMask, (maskLoop (regsToks rs ++ rest).length 0 0 (regsToks rs ++ rest)).1, none⟩ : Am),
      (maskLoop (regsToks rs ++ rest).length 0 0 (regsToks rs ++ rest)).2.2)) else _) = _
  rw [hm]
  rw [if_pos (show 2 ≤ 0 + cnt rs by omega), Nat.zero_or]
  rfl

theorem filter_subs (p : R16 → Bool) (h : 2 ≤ (r16s.filter p).length) :
    r16s.filter p ∈ subs ∧ ∀ (o : StackOp), stack o.base ⟨mMask, maskOf (r16s.filter p), none⟩ = .ok ((stackCode o (r16s.filter p)).map byte) := by
  revert h
  unfold r16s
  cases h1 : p .ft <;> cases h2 : p .bc <;> cases h3 : p .de <;> cases h4 : p .hl <;>
    simp only [List.filter_cons, h1, h2, h3, h4, if_true, Bool.false_eq_true, if_false, List.filter_nil] <;> intro h <;>
    first | exact absurd h (by decide) | exact ⟨by decide, fun o => by cases o <;> rfl⟩

end Verif.Cpu.Rc8
