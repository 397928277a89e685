import Verif.BinObj.Model
import Verif.BinObj.Spec
import Verif.Section.Step
/-!
# C30: images written by the assembler
-/
namespace Verif.BinObj
open Verif.Section Verif.Expr

variable {α : Type}

theorem ok_bind {α β : Type} (a : α) (f : α → Outcome β) : (Outcome.ok a).bind f = f a := rfl

/-- Bytes of the image between one bank and the next. -/
def bankSize : Backend → Nat
  | .plain => 0 | .z80 => 16384 | .m6809 => 256

/-- The section has a bank, and banks have a place in the image. -/
def inBank (c : Settings) (s : Sect α) : Bool := s.flags.bankFixed && c.backend != .plain

/-- What a section asks for: a section with a bank is fixed at its load address in the bank (0 if it has none), a section
with a load address there. -/
def wanted (c : Settings) (s : Sect α) : Wanted where
  fixed := if inBank c s then some (s.imagePosition + s.bank * bankSize c.backend)
    else if s.flags.loadFixed then some s.imagePosition else none
  align := if s.flags.aligned then s.align else c.alignment
  page := if s.flags.paged then some s.page else none
  size := s.used

/-- The address that labels are relative to: in words, or the load address, with the address of the bank. -/
def address (c : Settings) (s : Sect α) (q : Nat) : Nat :=
  if inBank c s then
    match c.backend with
    | .z80 => if s.bank = 0 then s.origin % 2 ^ 32 else (s.origin + 16384) % 2 ^ 32
    | _ => (s.origin + s.bank * 256) % 2 ^ 32
  else if s.flags.loadFixed then s.origin
  else q / c.wordSize

/-- The section at the position `q`. -/
def placedAt (c : Settings) (s : Sect α) (q : Nat) : Sect α :=
  { s with flags := { s.flags with loadFixed := true }, imagePosition := q, origin := address c s q }

/-- A section whose alignment is not 0 and divides its page. -/
def Good (w : Wanted) : Prop := w.fixed = none → 0 < w.align ∧ ∀ p, w.page = some p → 0 < p ∧ w.align ∣ p

/-! ### First positions -/

/-- The first multiple of `a` from `pos` on. -/
def roundUp (pos a : Nat) : Nat := pos + (a - 1) - (pos + (a - 1)) % a

theorem roundUp_dvd (pos a : Nat) : a ∣ roundUp pos a := Nat.dvd_sub_mod _

theorem roundUp_le (pos a : Nat) (h : 0 < a) : pos ≤ roundUp pos a := by
  unfold roundUp
  have := Nat.mod_lt (pos + (a - 1)) h
  omega

theorem roundUp_least (pos a q : Nat) (h : 0 < a) (hq : a ∣ q) (hle : pos ≤ q) : roundUp pos a ≤ q := by
  unfold roundUp
  obtain ⟨k, rfl⟩ := hq
  have hdiv : (pos + (a - 1)) / a ≤ k := by
    rw [Nat.div_le_iff_le_mul_add_pred h]; omega
  have := Nat.div_add_mod (pos + (a - 1)) a
  have := Nat.mul_le_mul_left a hdiv
  omega

/-- The position that the assembler chooses for a section without load address. -/
def choose (w : Wanted) (pos : Nat) : Nat :=
  let r := roundUp pos w.align
  match w.page with
  | none => r
  | some p => if p - r % p < w.size then r + (p - r % p) else r

theorem choose_first (w : Wanted) (pos : Nat) (hf : w.fixed = none) (hg : Good w) (hp : ∀ p, w.page = some p → w.size ≤ p) :
    First w pos (choose w pos) := by
  obtain ⟨ha, hpage⟩ := hg hf
  have h1 := roundUp_dvd pos w.align
  have h2 := roundUp_le pos w.align ha
  have h3 := fun q hq hle => roundUp_least pos w.align q ha hq hle
  unfold First Fits choose
  rw [hf]
  cases hw : w.page with
  | none =>
    simp only []
    exact ⟨⟨h1, by simp⟩, h2, fun q' hle hq => h3 q' hq.1 hle⟩
  | some p =>
    obtain ⟨hp0, hap⟩ := hpage p hw
    have hsz := hp p hw
    generalize roundUp pos w.align = r at *
    simp only [Option.some.injEq]
    have hmod := Nat.mod_lt r hp0
    by_cases hc : p - r % p < w.size
    · rw [if_pos hc]
      have ht : r + (p - r % p) = p * (r / p + 1) := by
        have := Nat.div_add_mod r p
        rw [Nat.mul_add, Nat.mul_one]; omega
      refine ⟨⟨?_, ?_⟩, by omega, ?_⟩
      · rw [ht]; exact Nat.dvd_trans hap (Nat.dvd_mul_right _ _)
      · intro p' hp'; subst hp'; rw [ht, Nat.mul_mod_right]; omega
      · intro q' hle hq
        have hr := h3 q' hq.1 hle
        have hq2 := hq.2 p rfl
        apply Classical.byContradiction
        intro hlt
        have hdiv : q' / p = r / p := by
          apply Nat.le_antisymm
          · have : q' / p < r / p + 1 := by
              rw [Nat.div_lt_iff_lt_mul hp0, Nat.mul_comm, ← ht]; omega
            omega
          · exact Nat.div_le_div_right hr
        have e1 := Nat.div_add_mod q' p
        have e2 := Nat.div_add_mod r p
        rw [hdiv] at e1
        omega
    · rw [if_neg hc]
      refine ⟨⟨h1, ?_⟩, h2, fun q' hle hq => h3 q' hq.1 hle⟩
      intro p' hp'; subst hp'; omega

theorem First.unique {w : Wanted} {pos q q' : Nat} (h : First w pos q) (h' : First w pos q') : q = q' :=
  Nat.le_antisymm (h.2.2 _ h'.2.1 h'.1) (h'.2.2 _ h.2.1 h.1)

/-! ### One section -/

theorem assign_fixed (c : Settings) (s : Sect α) (a : Nat) (hf : (wanted c s).fixed = some a) (ha : a < W32) :
    assignSection c.backend s = placedAt c s a ∧ (assignSection c.backend s).flags.loadFixed = true := by
  unfold wanted inBank at hf
  unfold placedAt address assignSection inBank
  cases hb : c.backend <;> cases hk : s.flags.bankFixed <;> cases hl : s.flags.loadFixed <;>
    simp_all [bankSize]
  all_goals first
    | (subst hf
       obtain ⟨n, g, f, u, al, ip, o, pc, ad, bk, ag, pg, ln, pa, d⟩ := s
       obtain ⟨f1, f2, f3, f4, f5, f6⟩ := f
       simp_all
       done)
    | (by_cases hz : s.bank = 0 <;> simp [hz])

theorem assign_relative (c : Settings) (s : Sect α) (hf : (wanted c s).fixed = none) :
    assignSection c.backend s = s ∧ s.flags.loadFixed = false ∧ inBank c s = false := by
  unfold wanted inBank at hf
  unfold assignSection inBank
  cases hb : c.backend <;> cases hk : s.flags.bankFixed <;> cases hl : s.flags.loadFixed <;> simp_all

theorem placeOne_fixed (c : Settings) (pos : Nat) (s : Sect α) (a : Nat) (hf : (wanted c s).fixed = some a) (ha : a + s.used < W32) :
    placeOne c pos s = if a < pos then .fail else .ok (placedAt c s a, a + s.used) := by
  obtain ⟨h1, h2⟩ := assign_fixed c s a hf (by omega)
  unfold placeOne
  simp only [h2, if_true]
  rw [h1]
  show (if a < pos then Outcome.fail else .ok (placedAt c s a, (a + s.used) % W32)) = _
  rw [Nat.mod_eq_of_lt ha]

theorem placeOne_relative (c : Settings) (pos : Nat) (s : Sect α) (hf : (wanted c s).fixed = none) (hg : Good (wanted c s))
    (hroom : choose (wanted c s) pos + (wanted c s).align + s.used ≤ W32) :
    placeOne c pos s = if (wanted c s).page.any (· < s.used) then .fail
      else .ok (placedAt c s (choose (wanted c s) pos), choose (wanted c s) pos + s.used) := by
  obtain ⟨h1, h2, h3⟩ := assign_relative c s hf
  obtain ⟨ha, hpage⟩ := hg hf
  have hal : (if s.flags.aligned = true then s.align else c.alignment) = (wanted c s).align := rfl
  have hadr : ∀ q, address c s q = q / c.wordSize := by
    intro q; unfold address; rw [h3, h2]; simp
  have hle := roundUp_le pos (wanted c s).align ha
  have hrd : roundUp pos (wanted c s).align ≤ choose (wanted c s) pos := by
    unfold choose
    cases (wanted c s).page with
    | none => exact Nat.le_refl _
    | some p => simp only []; split <;> omega
  unfold placeOne
  rw [h1]
  simp only [h2, Bool.false_eq_true, if_false, hal]
  rw [if_neg (by omega), Nat.mod_eq_of_lt (show pos + ((wanted c s).align - 1) < W32 by omega)]
  show (if s.flags.paged = true then _ else _) = _
  have hr : pos + ((wanted c s).align - 1) - (pos + ((wanted c s).align - 1)) % (wanted c s).align = roundUp pos (wanted c s).align := rfl
  rw [hr]
  cases hp : s.flags.paged with
  | false =>
    have hw : (wanted c s).page = none := by simp [wanted, hp]
    have hch : choose (wanted c s) pos = roundUp pos (wanted c s).align := by unfold choose; rw [hw]
    rw [hch] at hroom ⊢
    simp only [Bool.false_eq_true, if_false, hw, Option.any_none]
    rw [Nat.mod_eq_of_lt (show roundUp pos (wanted c s).align + s.used < W32 by omega)]
    simp [placedAt, hadr, hp]
  | true =>
    have hw : (wanted c s).page = some s.page := by simp [wanted, hp]
    obtain ⟨hp0, _⟩ := hpage _ hw
    simp only [if_true, hw, Option.any_some, decide_eq_true_eq]
    by_cases hsz : s.page < s.used
    · rw [if_pos hsz, if_pos hsz]
    · rw [if_neg (show ¬ s.used > s.page from hsz), if_neg (by omega), if_neg hsz]
      have hch : choose (wanted c s) pos = if s.page - roundUp pos (wanted c s).align % s.page < s.used then
          roundUp pos (wanted c s).align + (s.page - roundUp pos (wanted c s).align % s.page) else roundUp pos (wanted c s).align := by
        unfold choose; rw [hw]; rfl
      by_cases hc : s.page - roundUp pos (wanted c s).align % s.page < s.used
      · rw [if_pos hc] at hch ⊢
        rw [hch] at hroom ⊢
        rw [Nat.mod_eq_of_lt (show roundUp pos (wanted c s).align + (s.page - roundUp pos (wanted c s).align % s.page) < W32 by omega),
          Nat.mod_eq_of_lt (show roundUp pos (wanted c s).align + (s.page - roundUp pos (wanted c s).align % s.page) + s.used < W32 by omega)]
        simp [placedAt, hadr, hp]
      · rw [if_neg hc] at hch ⊢
        rw [hch] at hroom ⊢
        rw [Nat.mod_eq_of_lt (show roundUp pos (wanted c s).align + s.used < W32 by omega)]
        simp [placedAt, hadr, hp]

/-! ### All sections -/

theorem Layout.le {pos e : Nat} {ws : List Wanted} {qs : List Nat} (h : Layout pos ws qs e) : pos ≤ e := by
  induction h with
  | nil => exact Nat.le_refl _
  | cons hf _ ih => have := hf.2.1; omega

theorem Layout.end_le {pos e : Nat} {ws : List Wanted} {qs : List Nat} (h : Layout pos ws qs e) :
    ∀ (i : Nat) (w : Wanted) (q : Nat), ws[i]? = some w → qs[i]? = some q → q + w.size ≤ e := by
  induction h with
  | nil => intro i w q h; simp at h
  | cons hf h ih =>
    intro i w q hw hq
    cases i with
    | zero => simp at hw hq; subst hw hq; exact h.le
    | succ i => simp at hw hq; exact ih i w q hw hq

/-- The sections `ss` end below 2^32, with room for their alignment. -/
def Small (e : Nat) (ws : List Wanted) : Prop := e < 2 ^ 32 ∧ ∀ w ∈ ws, w.fixed = none → e + w.align ≤ 2 ^ 32

theorem placeOne_first (c : Settings) (pos : Nat) (s : Sect α) (q : Nat) (hg : Good (wanted c s)) (hf : First (wanted c s) pos q)
    (h1 : q + s.used < W32) (h2 : (wanted c s).fixed = none → q + s.used + (wanted c s).align ≤ W32) :
    placeOne c pos s = .ok (placedAt c s q, q + s.used) := by
  cases hx : (wanted c s).fixed with
  | some a =>
    have hqa : q = a := by have := hf.1; unfold Fits at this; rw [hx] at this; exact this
    subst hqa
    rw [placeOne_fixed c pos s q hx h1, if_neg]
    have := hf.2.1; omega
  | none =>
    have hsz : ∀ p, (wanted c s).page = some p → (wanted c s).size ≤ p := by
      intro p hp
      have := hf.1; unfold Fits at this; rw [hx] at this
      have := this.2 p hp; omega
    have hq : choose (wanted c s) pos = q := (choose_first (wanted c s) pos hx hg hsz).unique hf
    rw [placeOne_relative c pos s hx hg (by rw [hq]; have := h2 hx; omega), hq, if_neg]
    cases hp : (wanted c s).page with
    | none => simp
    | some p => have := hsz p hp; simp; exact this

theorem place_layout (c : Settings) (ss : List (Sect α)) : ∀ (pos e : Nat) (qs : List Nat) (rest : List (Sect α)),
    Layout pos (ss.map (wanted c)) qs e → (∀ s ∈ ss, Good (wanted c s)) → Small e (ss.map (wanted c)) →
    place c pos (ss ++ rest) = (place c e rest).bind fun r => .ok (List.zipWith (placedAt c) ss qs ++ r) := by
  induction ss with
  | nil =>
    intro pos e qs rest h _ _
    cases h
    cases hp : place c pos rest <;> simp [Outcome.bind, hp]
  | cons s ss ih =>
    intro pos e qs rest h hg hs
    rw [List.map_cons] at h
    cases h with
    | @cons _ q _ _ _ qs hf hl =>
    have hle := hl.le
    have hsz : (wanted c s).size = s.used := rfl
    rw [hsz] at hle hl
    have h32 : (2 : Nat) ^ 32 = W32 := rfl
    have hs1 := hs.1
    rw [h32] at hs1
    have hone := placeOne_first c pos s q (hg s (by simp)) hf (by omega)
      (fun hn => by have := hs.2 (wanted c s) (by simp) hn; rw [h32] at this; omega)
    have := ih (q + s.used) e qs rest hl (fun t ht => hg t (by simp [ht]))
      ⟨hs.1, fun w hw => hs.2 w (by simp only [List.map_cons, List.mem_cons]; exact Or.inr hw)⟩
    have hstep : place c pos (s :: ss ++ rest) = (place c (q + s.used) (ss ++ rest)).bind fun ss => .ok (placedAt c s q :: ss) := by
      show place c pos (s :: (ss ++ rest)) = _
      rw [place, hone]
      rfl
    rw [hstep, this]
    cases place c e rest <;> rfl

/-- **C30.** If there is a layout, the sections in their order, each at the first position behind the one before it that
satisfies what is asked for, then the assembler uses it, and labels are relative to the addresses that belong to the positions.
Alignments must not be 0 and must divide the page of the section, and everything must lie below 2^32. -/
theorem C30_layout_partial (c : Settings) (ss : List (Sect α)) (qs : List Nat) (e : Nat) (h : Layout 0 (ss.map (wanted c)) qs e)
    (hg : ∀ s ∈ ss, Good (wanted c s)) (hs : Small e (ss.map (wanted c))) :
    place c 0 ss = .ok (List.zipWith (placedAt c) ss qs) := by
  have := place_layout c ss 0 e qs [] h hg hs
  simpa [place, Outcome.bind] using this

/-- A section that has no place behind `e`: it is fixed before `e`, or larger than its page. -/
def Stuck (w : Wanted) (e : Nat) : Prop :=
  (∃ a, w.fixed = some a ∧ a < e ∧ a + w.size < 2 ^ 32) ∨ (w.fixed = none ∧ ∃ p, w.page = some p ∧ p < w.size ∧ choose w e + w.align + w.size ≤ 2 ^ 32)

/-- **C30.** Overlapping fixed sections, and sections that are larger than their page, are reported. -/
theorem C30_refused (c : Settings) (pre post : List (Sect α)) (s : Sect α) (qs : List Nat) (e : Nat)
    (h : Layout 0 (pre.map (wanted c)) qs e) (hg : ∀ t ∈ pre, Good (wanted c t)) (hgs : Good (wanted c s)) (hs : Small e (pre.map (wanted c)))
    (hstuck : Stuck (wanted c s) e) : place c 0 (pre ++ s :: post) = .fail := by
  rw [place_layout c pre 0 e qs (s :: post) h hg hs]
  have : placeOne c e s = .fail := by
    rcases hstuck with ⟨a, ha, hlt, hw⟩ | ⟨hn, p, hp, hlt, hw⟩
    · rw [placeOne_fixed c e s a ha hw, if_pos hlt]
    · rw [placeOne_relative c e s hn hgs hw, if_pos]
      rw [hp]; exact decide_eq_true (p := p < s.used) hlt
  unfold place
  rw [this]
  rfl

/-- Either there is a layout, or some section has no place: a fixed one lies before the end of the others, or one is larger than
its page. -/
theorem C30_layout_or_stuck (ws : List Wanted) (hg : ∀ w ∈ ws, Good w) (pos : Nat) :
    (∃ qs e, Layout pos ws qs e) ∨
    ∃ pre w post qs e, ws = pre ++ w :: post ∧ Layout pos pre qs e ∧
      ((∃ a, w.fixed = some a ∧ a < e) ∨ (w.fixed = none ∧ ∃ p, w.page = some p ∧ p < w.size)) := by
  induction ws generalizing pos with
  | nil => exact Or.inl ⟨[], pos, .nil pos⟩
  | cons w ws ih =>
    have hstep : (∃ q, First w pos q) ∨ ((∃ a, w.fixed = some a ∧ a < pos) ∨ (w.fixed = none ∧ ∃ p, w.page = some p ∧ p < w.size)) := by
      cases hf : w.fixed with
      | some a =>
        by_cases ha : a < pos
        · exact Or.inr (Or.inl ⟨a, rfl, ha⟩)
        · refine Or.inl ⟨a, ?_, by omega, ?_⟩
          · unfold Fits; rw [hf]
          · intro q' _ hq; unfold Fits at hq; rw [hf] at hq; subst hq; exact Nat.le_refl _
      | none =>
        by_cases hp : ∃ p, w.page = some p ∧ p < w.size
        · exact Or.inr (Or.inr ⟨rfl, hp⟩)
        · refine Or.inl ⟨_, choose_first w pos hf (hg w (by simp)) ?_⟩
          intro p hp'
          apply Classical.byContradiction
          intro hlt
          exact hp ⟨p, hp', by omega⟩
    rcases hstep with ⟨q, hq⟩ | hs
    · rcases ih (fun t ht => hg t (by simp [ht])) (q + w.size) with ⟨qs, e, h⟩ | ⟨pre, x, post, qs, e, h1, h2, h3⟩
      · exact Or.inl ⟨q :: qs, e, .cons hq h⟩
      · exact Or.inr ⟨w :: pre, x, post, q :: qs, e, by rw [h1]; rfl, .cons hq h2, h3⟩
    · exact Or.inr ⟨[], w, ws, [], pos, rfl, .nil pos, hs⟩

/-- In a layout sections do not overlap: each ends before the next ones begin. -/
theorem C30_apart {pos e : Nat} {ws : List Wanted} {qs : List Nat} (h : Layout pos ws qs e) :
    ∀ (i j : Nat) (w : Wanted) (q q' : Nat), i < j → ws[i]? = some w → qs[i]? = some q → qs[j]? = some q' → q + w.size ≤ q' := by
  induction h with
  | nil => intro i j w q q' _ h; simp at h
  | @cons pos q0 e w0 ws qs hf h ih =>
    have hge : ∀ {pos e : Nat} {ws : List Wanted} {qs : List Nat}, Layout pos ws qs e → ∀ (j q' : Nat), qs[j]? = some q' → pos ≤ q' := by
      intro pos e ws qs h
      induction h with
      | nil => intro j q' h; simp at h
      | cons hf h ih =>
        intro j q' hq
        have := hf.2.1
        cases j with
        | zero => simp at hq; omega
        | succ j => simp at hq; have := ih j q' hq; omega
    intro i j w q q' hij hw hq hq'
    cases i with
    | zero =>
      simp at hw hq; subst hw hq
      cases j with
      | zero => omega
      | succ j => simp at hq'; exact hge h j q' hq'
    | succ i =>
      cases j with
      | zero => omega
      | succ j => simp at hw hq hq'; exact ih i j w q q' (by omega) hw hq hq'

/-! ### The file -/

/-- Every byte below the position of the next section with data is 0, and the data of the sections are where they belong. `f` is
the position of the first byte of the file. -/
structure Shows (f : Nat) (ss : List (Sect α)) (F : Bytes) : Prop where
  data : ∀ s ∈ ss, s.alloc ≠ 0 → f ≤ s.imagePosition ∧ (F.drop (s.imagePosition - f)).take s.used = s.data.take s.used ∧
    s.imagePosition - f + s.used ≤ F.length
  gaps : ∀ i b, F[i]? = some b → b = 0 ∨ ∃ s ∈ ss, s.alloc ≠ 0 ∧ s.imagePosition ≤ f + i ∧ f + i < s.imagePosition + s.used
  length : F = [] ∨ ∃ s ∈ ss, s.alloc ≠ 0 ∧ f + F.length = s.imagePosition + s.used

/-- Sections in the order of their positions, that do not overlap and end below 2^32; those with data have all of it. -/
inductive InOrder : Nat → List (Sect α) → Prop where
  | nil (pos : Nat) : InOrder pos []
  | cons {pos : Nat} {s : Sect α} {ss : List (Sect α)} : pos ≤ s.imagePosition → s.imagePosition + s.used < 2 ^ 32 →
      (s.alloc ≠ 0 → s.used ≤ s.data.length) → InOrder (s.imagePosition + s.used) ss → InOrder pos (s :: ss)

theorem InOrder.mono {pos pos' : Nat} {ss : List (Sect α)} (h : InOrder pos ss) (hle : pos' ≤ pos) : InOrder pos' ss := by
  cases h with
  | nil => exact .nil _
  | cons h1 h2 h3 h4 => exact .cons (by omega) h2 h3 h4

theorem writeLoop_shows (ss : List (Sect α)) : ∀ f, InOrder f ss → ∃ F, writeLoop writeBinary f ss = .ok F ∧ Shows f ss F := by
  induction ss with
  | nil => intro f _; exact ⟨[], rfl, by simp, by simp, Or.inl rfl⟩
  | cons s ss ih =>
    intro f h
    cases h with
    | cons h1 h2 h3 h4 =>
    unfold writeLoop
    by_cases ha : s.alloc = 0
    · rw [if_pos ha]
      obtain ⟨F, hF, hS⟩ := ih f (h4.mono (by omega))
      refine ⟨F, hF, ?_, ?_, ?_⟩
      · intro t ht hta
        rcases List.mem_cons.mp ht with rfl | ht
        · exact absurd ha hta
        · exact hS.data t ht hta
      · intro i b hb
        rcases hS.gaps i b hb with h0 | ⟨t, ht, hr⟩
        · exact Or.inl h0
        · exact Or.inr ⟨t, by simp [ht], hr⟩
      · rcases hS.length with h0 | ⟨t, ht, hr⟩
        · exact Or.inl h0
        · exact Or.inr ⟨t, by simp [ht], hr⟩
    · rw [if_neg ha]
      have hlen := h3 ha
      obtain ⟨F, hF, hS⟩ := ih (s.imagePosition + s.used) h4
      have hw : writeBinary f s = .ok (List.replicate (s.imagePosition - f) 0 ++ s.data.take s.used) := by
        unfold writeBinary; rw [if_pos hlen]
      have h32 : (2 : Nat) ^ 32 = W32 := rfl
      rw [h32] at h2
      rw [hw, ok_bind, Nat.mod_eq_of_lt h2, hF, ok_bind]
      refine ⟨_, rfl, ?_, ?_, ?_⟩
      · intro t ht hta
        rcases List.mem_cons.mp ht with rfl | ht
        · refine ⟨h1, ?_, ?_⟩
          · rw [List.append_assoc, List.drop_append_of_le_length (by simp)]
            simp [Nat.min_eq_left hlen]
          · simp; omega
        · obtain ⟨a, b, c⟩ := hS.data t ht hta
          refine ⟨by omega, ?_, ?_⟩
          · have he : t.imagePosition - f = (List.replicate (s.imagePosition - f) (0 : UInt8) ++ s.data.take s.used).length +
                (t.imagePosition - (s.imagePosition + s.used)) := by simp; omega
            rw [he, ← List.drop_drop, List.drop_left]
            exact b
          · simp; omega
      · intro i b hb
        by_cases hi1 : i < s.imagePosition - f
        · rw [List.append_assoc, List.getElem?_append_left (by simpa using hi1)] at hb
          rw [List.getElem?_replicate, if_pos hi1] at hb
          exact Or.inl (by simpa using hb.symm)
        · by_cases hi2 : f + i < s.imagePosition + s.used
          · exact Or.inr ⟨s, by simp, ha, by omega, hi2⟩
          · have hl : (List.replicate (s.imagePosition - f) (0 : UInt8) ++ s.data.take s.used).length = s.imagePosition - f + s.used := by
              simp; omega
            rw [List.getElem?_append_right (by omega), hl] at hb
            rcases hS.gaps _ b hb with h0 | ⟨t, ht, hta, hr1, hr2⟩
            · exact Or.inl h0
            · exact Or.inr ⟨t, by simp [ht], hta, by omega, by omega⟩
      · right
        have hl : (List.replicate (s.imagePosition - f) (0 : UInt8) ++ s.data.take s.used).length = s.imagePosition - f + s.used := by
          simp; omega
        rcases hS.length with h0 | ⟨t, ht, hta, hr⟩
        · exact ⟨s, by simp, ha, by rw [h0, List.append_nil, hl]; omega⟩
        · exact ⟨t, by simp [ht], hta, by rw [List.length_append, hl]; omega⟩

/-- The Verilog file has the bytes of the binary file, one on each line. -/
theorem writeLoop_verilog (ss : List (Sect α)) : ∀ f F, writeLoop writeBinary f ss = .ok F →
    writeLoop writeVerilog f ss = .ok (F.flatMap hexLine) := by
  induction ss with
  | nil => intro f F h; unfold writeLoop at h ⊢; injection h with h; subst h; rfl
  | cons s ss ih =>
    intro f F h
    unfold writeLoop at h ⊢
    by_cases ha : s.alloc = 0
    · rw [if_pos ha] at h ⊢; exact ih f F h
    · rw [if_neg ha] at h ⊢
      by_cases hl : s.used ≤ s.data.length
      · have h1 : writeBinary f s = .ok (List.replicate (s.imagePosition - f) 0 ++ s.data.take s.used) := if_pos hl
        have h2 : writeVerilog f s = .ok ((List.replicate (s.imagePosition - f) "00\n".toList).flatten ++
            (s.data.take s.used).flatMap hexLine) := if_pos hl
        rw [h1, ok_bind] at h
        rw [h2, ok_bind]
        cases hr : writeLoop writeBinary ((s.imagePosition + s.used) % W32) ss with
        | ok R =>
          rw [hr, ok_bind] at h
          injection h with h
          rw [ih _ _ hr, ok_bind, ← h]
          congr 1
          rw [List.flatMap_append, List.flatMap_append, List.flatMap_replicate]
          rfl
        | fail => rw [hr] at h; cases h
        | ub => rw [hr] at h; cases h
      · have h1 : writeBinary f s = .ub := if_neg hl
        rw [h1] at h; cases h

/-! ### Patches keep everything but the bytes -/

/-- Only bytes and patches differ. -/
def SameShape (s t : Sect α) : Prop :=
  t.imagePosition = s.imagePosition ∧ t.origin = s.origin ∧ t.used = s.used ∧ t.alloc = s.alloc ∧ t.data.length = s.data.length

theorem overwrite_ok (data : Bytes) (o : Nat) (bs out : Bytes) (h : overwrite data o bs = .ok out) :
    out.length = data.length ∧ (out.drop o).take bs.length = bs ∧ ∀ i, (i < o ∨ o + bs.length ≤ i) → out[i]? = data[i]? := by
  unfold overwrite at h
  by_cases hl : o + bs.length ≤ data.length
  · rw [if_pos hl] at h
    injection h with h
    subst h
    have hlo : (data.take o).length = o := by simp; omega
    refine ⟨by simp; omega, ?_, ?_⟩
    · rw [List.append_assoc, List.drop_append_of_le_length (by omega), List.drop_eq_nil_of_le (by omega), List.nil_append, List.take_left]
    · intro i hi
      rcases hi with hi | hi
      · rw [List.append_assoc, List.getElem?_append_left (by omega), List.getElem?_take, if_pos hi]
      · rw [List.getElem?_append_right (by rw [List.length_append]; omega), List.getElem?_drop, List.length_append, hlo]
        congr 1; omega
  · rw [if_neg hl] at h; cases h

theorem applyPatch_eq (data : Bytes) (p : Patch α) (v : Int) :
    applyPatch data p v = if Spec.fits p.size v then
      (overwrite data p.offset (Spec.digits p.big p.size.bytes (v % 2 ^ 32).toNat)).bind fun data => .ok (data, 0)
    else .ok (data, 1) := by
  rw [← encode_digits]
  have h32 : (v % 2 ^ 32).toNat = u32 v := rfl
  rw [h32]
  unfold applyPatch Spec.fits
  cases p.size with
  | one =>
    simp only []
    by_cases h : (decide (-128 ≤ v) && decide (v ≤ 255)) = true
    · rw [if_pos h, if_pos]
      simp only [Bool.and_eq_true, decide_eq_true_eq] at h ⊢; omega
    · rw [if_neg h, if_neg]
      simp only [Bool.and_eq_true, decide_eq_true_eq] at h ⊢; omega
  | two =>
    simp only []
    by_cases h : (decide (-32768 ≤ v) && decide (v ≤ 65535)) = true
    · rw [if_pos h, if_pos]
      simp only [Bool.and_eq_true, decide_eq_true_eq] at h ⊢; omega
    · rw [if_neg h, if_neg]
      simp only [Bool.and_eq_true, decide_eq_true_eq] at h ⊢; omega
  | four => rfl

theorem digits_length (big : Bool) (n v : Nat) : (Spec.digits big n v).length = n := by
  unfold Spec.digits
  cases big <;> simp

/-- The bytes of a patch are those of the value, the others stay; a value that does not fit is an error and changes nothing. -/
theorem applyPatch_ok (data out : Bytes) (p : Patch α) (v : Int) (e : Nat) (h : applyPatch data p v = .ok (out, e)) :
    out.length = data.length ∧ (∀ i, (i < p.offset ∨ p.offset + p.size.bytes ≤ i) → out[i]? = data[i]?) ∧
    (e = 0 → Spec.fits p.size v = true ∧ (out.drop p.offset).take p.size.bytes = Spec.digits p.big p.size.bytes (v % 2 ^ 32).toNat) ∧
    (e ≠ 0 → Spec.fits p.size v = false ∧ out = data) := by
  rw [applyPatch_eq] at h
  by_cases hf : Spec.fits p.size v = true
  · rw [if_pos hf] at h
    cases ho : overwrite data p.offset (Spec.digits p.big p.size.bytes (v % 2 ^ 32).toNat) with
    | ok d =>
      rw [ho, ok_bind] at h
      injection h with h
      injection h with h1 h2
      subst h1 h2
      have := overwrite_ok _ _ _ _ ho
      rw [digits_length] at this
      exact ⟨this.1, this.2.2, fun _ => ⟨hf, this.2.1⟩, fun hn => absurd rfl hn⟩
    | fail => rw [ho] at h; cases h
    | ub => rw [ho] at h; cases h
  · rw [if_neg hf] at h
    injection h with h
    injection h with h1 h2
    subst h1 h2
    exact ⟨rfl, fun _ _ => rfl, fun hn => absurd hn (by decide), fun _ => ⟨by simpa using hf, rfl⟩⟩

theorem patchSection_shape (eval : Patch α → Outcome (Option Int)) (ps : List (Patch α)) : ∀ (s t : Sect α) (n : Nat),
    patchSection eval ps s = .ok (t, n) →
    SameShape s t ∧ ∀ i, (∀ p ∈ ps, i < p.offset ∨ p.offset + p.size.bytes ≤ i) → t.data[i]? = s.data[i]? := by
  induction ps with
  | nil =>
    intro s t n h
    unfold patchSection at h
    injection h with h
    injection h with h1 h2
    subst h1
    exact ⟨⟨rfl, rfl, rfl, rfl, rfl⟩, fun _ _ => rfl⟩
  | cons p ps ih =>
    intro s t n h
    unfold patchSection at h
    cases hv : eval p with
    | ok v =>
      rw [hv, ok_bind] at h
      cases v with
      | none =>
        simp only [] at h
        cases hr : patchSection eval ps s with
        | ok r =>
          rw [hr, ok_bind] at h
          injection h with h
          injection h with h1 h2
          subst h1
          obtain ⟨⟨a, b, c, d, e⟩, hd⟩ := ih s r.1 r.2 hr
          exact ⟨⟨a, b, c, d, e⟩, fun i hi => hd i fun q hq => hi q (by simp [hq])⟩
        | fail => rw [hr] at h; cases h
        | ub => rw [hr] at h; cases h
      | some v =>
        simp only [] at h
        cases ha : applyPatch s.data p v with
        | ok r =>
          rw [ha, ok_bind] at h
          cases hr : patchSection eval ps { s with data := r.1 } with
          | ok r' =>
            rw [hr, ok_bind] at h
            injection h with h
            injection h with h1 h2
            subst h1
            obtain ⟨hl, hd', _⟩ := applyPatch_ok _ _ _ _ _ ha
            obtain ⟨⟨a, b, c, d, e⟩, hd⟩ := ih _ r'.1 r'.2 hr
            refine ⟨⟨a, b, c, d, ?_⟩, ?_⟩
            · rw [e]; exact hl
            · intro i hi
              rw [hd i fun q hq => hi q (by simp [hq])]
              exact hd' i (hi p (by simp))
          | fail => rw [hr] at h; cases h
          | ub => rw [hr] at h; cases h
        | fail => rw [ha] at h; cases h
        | ub => rw [ha] at h; cases h
    | fail => rw [hv] at h; cases h
    | ub => rw [hv] at h; cases h

/-- Sections before and after the patches, with their numbers. -/
inductive Each (R : Nat → Sect α → Sect α → Prop) : Nat → List (Sect α) → List (Sect α) → Prop where
  | nil (k : Nat) : Each R k [] []
  | cons {k : Nat} {s t : Sect α} {ss ts : List (Sect α)} : R k s t → Each R (k + 1) ss ts → Each R k (s :: ss) (t :: ts)

theorem Each.mono {R R' : Nat → Sect α → Sect α → Prop} (hR : ∀ i s t, R i s t → R' i s t) {k : Nat} {ss ts : List (Sect α)}
    (h : Each R k ss ts) : Each R' k ss ts := by
  induction h with
  | nil => exact .nil _
  | cons h1 _ ih => exact .cons (hR _ _ _ h1) ih

theorem Each.get {R : Nat → Sect α → Sect α → Prop} {k : Nat} {ss ts : List (Sect α)} (h : Each R k ss ts) :
    ts.length = ss.length ∧ ∀ (i : Nat) (s t : Sect α), ss[i]? = some s → ts[i]? = some t → R (k + i) s t := by
  induction h with
  | nil => exact ⟨rfl, fun i s t h => by simp at h⟩
  | cons h1 _ ih =>
    refine ⟨by simp [ih.1], fun i s t hs ht => ?_⟩
    cases i with
    | zero => simp at hs ht; subst hs ht; exact h1
    | succ i =>
      simp at hs ht
      have := ih.2 i s t hs ht
      rwa [Nat.add_assoc, Nat.add_comm 1 i] at this

theorem backPatch_each (eval : Nat → Patch α → Outcome (Option Int)) (ss : List (Sect α)) : ∀ (i n : Nat) (ts : List (Sect α)),
    backPatch eval i ss = .ok (ts, n) →
    Each (fun i s t => ∃ m, m ≤ n ∧ patchSection (eval i) s.patches { s with patches := [] } = .ok (t, m)) i ss ts := by
  induction ss with
  | nil => intro i n ts h; unfold backPatch at h; injection h with h; injection h with h1 h2; subst h1; exact .nil _
  | cons s ss ih =>
    intro i n ts h
    unfold backPatch at h
    cases hp : patchSection (eval i) s.patches { s with patches := [] } with
    | ok r =>
      rw [hp, ok_bind] at h
      simp only [] at h
      cases hb : backPatch eval (i + 1) ss with
      | ok r' =>
        rw [hb, ok_bind] at h
        injection h with h
        injection h with h1 h2
        subst h1
        refine .cons ⟨r.2, by omega, hp⟩ ((ih (i + 1) r'.2 r'.1 hb).mono ?_)
        rintro j a b ⟨m, hm, hr⟩
        exact ⟨m, by omega, hr⟩
      | fail => rw [hb] at h; cases h
      | ub => rw [hb] at h; cases h
    | fail => rw [hp] at h; cases h
    | ub => rw [hp] at h; cases h

/-- Two patches do not write the same byte. -/
def Apart (p q : Patch α) : Prop := p.offset + p.size.bytes ≤ q.offset ∨ q.offset + q.size.bytes ≤ p.offset

theorem window_eq (a b : Bytes) (o n : Nat) (h : ∀ i, o ≤ i → i < o + n → a[i]? = b[i]?) : (a.drop o).take n = (b.drop o).take n := by
  apply List.ext_getElem?
  intro i
  rw [List.getElem?_take, List.getElem?_take]
  by_cases hi : i < n
  · rw [if_pos hi, if_pos hi, List.getElem?_drop, List.getElem?_drop]
    exact h (o + i) (by omega) (by omega)
  · rw [if_neg hi, if_neg hi]

theorem patchSection_bytes (eval : Patch α → Outcome (Option Int)) (ps : List (Patch α)) : ∀ (s t : Sect α),
    patchSection eval ps s = .ok (t, 0) → ps.Pairwise Apart → ∀ p ∈ ps, ∀ v, eval p = .ok (some v) →
    Spec.fits p.size v = true ∧ (t.data.drop p.offset).take p.size.bytes = Spec.digits p.big p.size.bytes (v % 2 ^ 32).toNat := by
  induction ps with
  | nil => intro s t _ _ p hp; cases hp
  | cons p ps ih =>
    intro s t h hd q hq w hw
    have hd' := List.pairwise_cons.mp hd
    unfold patchSection at h
    cases hv : eval p with
    | ok v =>
      rw [hv, ok_bind] at h
      cases v with
      | none =>
        simp only [] at h
        cases hr : patchSection eval ps s with
        | ok r =>
          rw [hr, ok_bind] at h
          injection h with h
          injection h with h1 h2
          subst h1
          rcases List.mem_cons.mp hq with rfl | hq
          · rw [hv] at hw; cases hw
          · have hr' : patchSection eval ps s = .ok (r.1, 0) := by rw [hr, ← h2]
            exact ih s r.1 hr' hd'.2 q hq w hw
        | fail => rw [hr] at h; cases h
        | ub => rw [hr] at h; cases h
      | some v =>
        simp only [] at h
        cases ha : applyPatch s.data p v with
        | ok r =>
          rw [ha, ok_bind] at h
          cases hr : patchSection eval ps { s with data := r.1 } with
          | ok r' =>
            rw [hr, ok_bind] at h
            injection h with h
            injection h with h1 h2
            subst h1
            obtain ⟨hl, ho, h0, _⟩ := applyPatch_ok _ _ _ _ _ ha
            have hr0 : r'.2 = 0 := by omega
            have hr' : patchSection eval ps { s with data := r.1 } = .ok (r'.1, 0) := by rw [hr, ← hr0]
            rcases List.mem_cons.mp hq with rfl | hq
            · rw [hv] at hw
              cases hw
              obtain ⟨hf, hb⟩ := h0 (by omega)
              refine ⟨hf, ?_⟩
              rw [← hb]
              apply window_eq
              intro i hi1 hi2
              refine (patchSection_shape _ _ _ _ _ hr').2 i fun x hx => ?_
              have := hd'.1 x hx
              unfold Apart at this
              omega
            · exact ih _ r'.1 hr' hd'.2 q hq w hw
          | fail => rw [hr] at h; cases h
          | ub => rw [hr] at h; cases h
        | fail => rw [ha] at h; cases h
        | ub => rw [ha] at h; cases h
    | fail => rw [hv] at h; cases h
    | ub => rw [hv] at h; cases h

end Verif.BinObj
