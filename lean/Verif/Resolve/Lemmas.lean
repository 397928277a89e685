import Verif.Resolve.Spec
import Verif.Expr.LinkLemmas
/-!
# Lemmas about symbol resolution
-/
namespace Verif.Resolve
open Verif.Smart (SymType)
open Verif.Expr (chk)

theorem getSym_some {secs : List Sect} {x : Slot} {s : Sect} {y : Sym} :
    getSym secs x = some (s, y) ↔ At secs x s y := by
  unfold getSym At
  cases h : secs[x.1]? with
  | none => simp
  | some s' =>
    cases h2 : s'.symbols[x.2]? with
    | none => simp [h2]; rintro rfl; simp [h2]
    | some y' =>
      simp [h2]
      rintro rfl
      rw [h2]; simp

theorem mem_slotsFrom {l : List Sect} : ∀ {i : Nat} {x : Slot} {s : Sect} {y : Sym},
    (x, s, y) ∈ slotsFrom i l ↔ i ≤ x.1 ∧ l[x.1 - i]? = some s ∧ s.symbols[x.2]? = some y := by
  induction l with
  | nil => intro i x s y; simp [slotsFrom]
  | cons a l ih =>
    intro i x s y
    obtain ⟨j, k⟩ := x
    simp only [slotsFrom, List.mem_append, ih]
    constructor
    · rintro (h | ⟨h1, h2, h3⟩)
      · obtain ⟨⟨y', k'⟩, hm, he⟩ := List.mem_map.1 h
        simp only [Prod.mk.injEq] at he
        obtain ⟨⟨rfl, rfl⟩, rfl, rfl⟩ := he
        have := List.mem_zipIdx_iff_getElem?.1 hm
        simpa using this
      · refine ⟨by omega, ?_, h3⟩
        have : j - i = (j - (i + 1)) + 1 := by omega
        rw [this]; simpa using h2
    · rintro ⟨h1, h2, h3⟩
      by_cases hj : j = i
      · subst hj
        simp at h2; subst h2
        left
        exact List.mem_map.2 ⟨(y, k), List.mem_zipIdx_iff_getElem?.2 (by simpa using h3), rfl⟩
      · right
        refine ⟨by omega, ?_, h3⟩
        have : j - i = (j - (i + 1)) + 1 := by omega
        rw [this] at h2; simpa using h2

theorem mem_slots {secs : List Sect} {x : Slot} {s : Sect} {y : Sym} :
    (x, s, y) ∈ slots secs ↔ At secs x s y := by
  simp [slots, mem_slotsFrom, At]

theorem find_some {secs : List Sect} {name : Bytes} {p : Sect → Bool} {q : Slot → Sym → Bool} {z : Slot} {t : Sect}
    {w : Sym} (h : find secs name p q = some (z, t, w)) :
    At secs z t w ∧ p t = true ∧ q z w = true ∧ w.name = name := by
  have h1 := List.mem_of_find?_eq_some h
  have h2 := List.find?_some h
  simp at h2
  exact ⟨mem_slots.1 h1, h2.1.1, h2.1.2, h2.2⟩

theorem find_none {secs : List Sect} {name : Bytes} {p : Sect → Bool} {q : Slot → Sym → Bool} 
    (h : find secs name p q = none) {z : Slot} {t : Sect} {w : Sym} (hz : At secs z t w) (hp : p t = true)
    (hq : q z w = true) : w.name ≠ name := by
  have := List.find?_eq_none.1 h _ (mem_slots.2 hz)
  simp [hp, hq] at this
  exact this

theorem isExport_type {st : State} {x : Slot} {y : Sym} (h : isExport st x y = true) :
    y.type = .exported ∨ (y.type = .linker ∧ (st x).isSome) := by
  simpa [isExport] using h

/-- Every resolved symbol has its meaning. -/
def Sound (secs : List Sect) (lnk : Slot → Outcome Res) (st : State) : Prop :=
  ∀ x r, st x = some r → Means secs lnk x r

theorem Sound.set {secs : List Sect} {lnk : Slot → Outcome Res} {st : State} (h : Sound secs lnk st) {x : Slot}
    {r : Res} (hr : Means secs lnk x r) : Sound secs lnk (st.set x r) := by
  intro z q hq
  unfold State.set at hq
  by_cases hz : z = x
  · subst hz; simp at hq; subst hq; exact hr
  · simp [hz] at hq; exact h z q hq

@[simp] theorem set_same (st : State) (x : Slot) (r : Res) : st.set x r x = some r := by simp [State.set]

theorem set_other (st : State) {x z : Slot} (r : Res) (h : z ≠ x) : st.set x r z = st z := by simp [State.set, h]

theorem define_ok {st st' : State} {x : Slot} {s : Sect} {y : Sym} (hx : st x = none)
    (h : define st x s y = .ok st') : st' = st.set x ⟨y.value + s.base, some x.1⟩ := by
  have hc : current st x y = y.value := by simp [current, hx]
  have hb : (if s.loc ≠ -1 then s.loc else 0) = s.base := by
    unfold Sect.base
    by_cases hl : s.loc = -1 <;> simp [hl]
  unfold define at h
  rw [hc, hb] at h
  obtain ⟨v, hv, h⟩ := Outcome.bind_ok.1 h
  unfold chk at hv
  by_cases hi : Expr.I32 (y.value + s.base)
  · rw [if_pos hi] at hv; cases hv; cases h; rfl
  · rw [if_neg hi] at hv; cases hv

theorem copyFrom_ok {st st' : State} {x z : Slot} {t : Sect} {w : Sym} (h : copyFrom st x (z, t, w) = .ok st') :
    ∃ st1 r, (st1 = st ∨ (st z = none ∧ define st z t w = .ok st1)) ∧ st1 z = some r ∧
      st' = st1.set x ⟨r.value, some z.1⟩ := by
  unfold copyFrom at h
  obtain ⟨st1, h1, h⟩ := Outcome.bind_ok.1 h
  cases hz : st1 z with
  | none => simp [hz] at h
  | some r =>
    simp [hz] at h
    refine ⟨st1, r, ?_, hz, h.symm⟩
    unfold ensure at h1
    cases hs : st z with
    | some r => simp [hs] at h1; exact .inl h1.symm
    | none => simp [hs] at h1; exact .inr ⟨rfl, h1⟩

theorem copyFrom_means {secs : List Sect} {lnk : Slot → Outcome Res} {st st' : State} (hs : Sound secs lnk st)
    {x z : Slot} {t : Sect} {w : Sym} (hz : At secs z t w)
    (hq : Own w.type ∨ (st z).isSome)
    (hx : ∀ r, Means secs lnk z r → Means secs lnk x ⟨r.value, some z.1⟩)
    (h : copyFrom st x (z, t, w) = .ok st') : Sound secs lnk st' := by
  obtain ⟨st1, r, h1, hr, rfl⟩ := copyFrom_ok h
  have hs1 : Sound secs lnk st1 := by
    rcases h1 with rfl | ⟨hn, hd⟩
    · exact hs
    · rw [define_ok hn hd]
      refine hs.set (.own hz ?_)
      rcases hq with hq | hq
      · exact hq
      · simp [hn] at hq
  exact hs1.set (hx r (hs1 z r hr))

theorem resolve_sound {secs : List Sect} {lnk : Slot → Outcome Res} {allow : Bool} {st st' : State} {x : Slot}
    (hs : Sound secs lnk st) (hx : st x = none) (h : resolve secs lnk allow st x = .ok st') :
    Sound secs lnk st' := by
  unfold resolve at h
  cases hg : getSym secs x with
  | none => simp [hg] at h
  | some sy =>
    obtain ⟨s, y⟩ := sy
    have ha := getSym_some.1 hg
    simp only [hg] at h
    have own : Own y.type → define st x s y = .ok st' → Sound secs lnk st' := by
      intro ho hd
      rw [define_ok hx hd]
      exact hs.set (.own ha ho)
    cases ht : y.type with
    | exported => simp only [ht] at h; exact own (by simp [Own, ht]) h
    | localExport => simp only [ht] at h; exact own (by simp [Own, ht]) h
    | «local» => simp only [ht] at h; exact own (by simp [Own, ht]) h
    | imported =>
      simp only [ht] at h
      cases hf : find secs y.name (fun t => t.used || t.equ) (isExport st) with
      | none =>
        simp only [hf] at h
        cases allow <;> simp at h
        subst h; exact hs
      | some z =>
        obtain ⟨z, t, w⟩ := z
        simp only [hf] at h
        obtain ⟨hz, hp, hq, hn⟩ := find_some hf
        have hq := isExport_type hq
        refine copyFrom_means hs hz ?_ ?_ h
        · rcases hq with hq | hq
          · exact .inl (by simp [Own, hq])
          · exact .inr hq.2
        · intro r hr
          refine .imported ha ht hz ⟨by simpa using hp, ?_, hn⟩ hr
          rcases hq with hq | hq
          · exact .inl hq
          · exact .inr hq.1
    | localImport =>
      simp only [ht] at h
      cases hf : find secs y.name (fun t => t.used && t.fileId == s.fileId)
          (fun z w => w.type == .localExport || isExport st z w) with
      | none => simp only [hf] at h; cases h
      | some z =>
        obtain ⟨z, t, w⟩ := z
        simp only [hf] at h
        obtain ⟨hz, hp, hq, hn⟩ := find_some hf
        simp only [Bool.or_eq_true, beq_iff_eq] at hq
        simp only [Bool.and_eq_true, beq_iff_eq] at hp
        refine copyFrom_means hs hz ?_ ?_ h
        · rcases hq with hq | hq
          · exact .inl (by simp [Own, hq])
          · rcases isExport_type hq with hq | hq
            · exact .inl (by simp [Own, hq])
            · exact .inr hq.2
        · intro r hr
          refine .localImport ha ht hz ⟨hp.1, hp.2, ?_, hn⟩ hr
          rcases hq with hq | hq
          · exact .inl hq
          · rcases isExport_type hq with hq | hq
            · exact .inr (.inl hq)
            · exact .inr (.inr hq.1)
    | linker =>
      simp only [ht] at h
      obtain ⟨r, hr, h⟩ := Outcome.bind_ok.1 h
      cases h
      exact hs.set (.linker ha ht hr)

theorem touch_sound {secs : List Sect} {lnk : Slot → Outcome Res} {allow : Bool} {st st' : State} {x : Slot}
    (hs : Sound secs lnk st) (h : touch secs lnk allow st x = .ok st') : Sound secs lnk st' := by
  unfold touch at h
  cases hx : st x with
  | some r => simp [hx] at h; subst h; exact hs
  | none => simp only [hx] at h; exact resolve_sound hs hx h

theorem touchAll_sound {secs : List Sect} {lnk : Slot → Outcome Res} : ∀ {xs : List (Slot × Bool)} {st st' : State},
    Sound secs lnk st → touchAll secs lnk xs st = .ok st' → Sound secs lnk st'
  | [], st, st', hs, h => by cases h; exact hs
  | (x, allow) :: xs, st, st', hs, h => by
    unfold touchAll at h
    obtain ⟨st1, h1, h⟩ := Outcome.bind_ok.1 h
    exact touchAll_sound (touch_sound hs h1) h

/-! ### Resolved symbols stay as they are -/

def Le (st st' : State) : Prop := ∀ z r, st z = some r → st' z = some r

theorem Le.refl (st : State) : Le st st := fun _ _ h => h
theorem Le.trans {a b c : State} (h : Le a b) (h' : Le b c) : Le a c := fun z r hz => h' z r (h z r hz)

theorem Le.set {st : State} {x : Slot} (hx : st x = none) (r : Res) : Le st (st.set x r) := by
  intro z q hz
  rw [set_other]
  · exact hz
  · rintro rfl; rw [hx] at hz; cases hz

theorem define_le {st st' : State} {x : Slot} {s : Sect} {y : Sym} (hx : st x = none)
    (h : define st x s y = .ok st') : Le st st' := by
  rw [define_ok hx h]; exact .set hx _

theorem copyFrom_le {st st' : State} {x z : Slot} {t : Sect} {w : Sym} (hx : st x = none) (hne : x ≠ z)
    (h : copyFrom st x (z, t, w) = .ok st') : Le st st' ∧ (st' x).isSome := by
  obtain ⟨st1, r, h1, hr, rfl⟩ := copyFrom_ok h
  refine ⟨?_, by simp⟩
  rcases h1 with rfl | ⟨hn, hd⟩
  · exact .set hx _
  · refine (define_le hn hd).trans (.set ?_ _)
    rw [define_ok hn hd, set_other _ _ hne, hx]

theorem at_inj {secs : List Sect} {x : Slot} {s s' : Sect} {y y' : Sym} (h : At secs x s y) (h' : At secs x s' y') :
    s = s' ∧ y = y' := by
  have h1 := getSym_some.2 h
  have h2 := getSym_some.2 h'
  rw [h1] at h2
  simpa using h2

/-- What a request does: the symbol is resolved, or it is an import that nobody provides. -/
theorem resolve_effect {secs : List Sect} {lnk : Slot → Outcome Res} {allow : Bool} {st st' : State} {x : Slot}
    {s : Sect} {y : Sym} (ha : At secs x s y) (hx : st x = none) (h : resolve secs lnk allow st x = .ok st') :
    Le st st' ∧ ((st' x).isSome ∨ (st' = st ∧ allow = true ∧ y.type = .imported ∧
      find secs y.name (fun t => t.used || t.equ) (isExport st) = none)) := by
  unfold resolve at h
  simp only [getSym_some.2 ha] at h
  have own : define st x s y = .ok st' → Le st st' ∧ (st' x).isSome := by
    intro hd
    refine ⟨define_le hx hd, ?_⟩
    rw [define_ok hx hd]; simp
  cases ht : y.type with
  | exported => simp only [ht] at h; exact ⟨(own h).1, .inl (own h).2⟩
  | localExport => simp only [ht] at h; exact ⟨(own h).1, .inl (own h).2⟩
  | «local» => simp only [ht] at h; exact ⟨(own h).1, .inl (own h).2⟩
  | imported =>
    simp only [ht] at h
    cases hf : find secs y.name (fun t => t.used || t.equ) (isExport st) with
    | none =>
      simp only [hf] at h
      cases allow <;> simp at h
      subst h; exact ⟨.refl _, .inr ⟨rfl, rfl, rfl, rfl⟩⟩
    | some z =>
      obtain ⟨z, t, w⟩ := z
      simp only [hf] at h
      obtain ⟨hz, -, hq, -⟩ := find_some hf
      have hne : x ≠ z := by
        rintro rfl
        obtain ⟨-, rfl⟩ := at_inj ha hz
        rcases isExport_type hq with h | h <;> simp [ht] at h
      have := copyFrom_le hx hne h
      exact ⟨this.1, .inl this.2⟩
  | localImport =>
    simp only [ht] at h
    cases hf : find secs y.name (fun t => t.used && t.fileId == s.fileId)
        (fun z w => w.type == .localExport || isExport st z w) with
    | none => simp only [hf] at h; cases h
    | some z =>
      obtain ⟨z, t, w⟩ := z
      simp only [hf] at h
      obtain ⟨hz, -, hq, -⟩ := find_some hf
      have hne : x ≠ z := by
        rintro rfl
        obtain ⟨-, rfl⟩ := at_inj ha hz
        simp [isExport, ht] at hq
      have := copyFrom_le hx hne h
      exact ⟨this.1, .inl this.2⟩
  | linker =>
    simp only [ht] at h
    obtain ⟨r, hr, h⟩ := Outcome.bind_ok.1 h
    cases h
    exact ⟨.set hx _, .inl (by simp)⟩

theorem resolve_at {secs : List Sect} {lnk : Slot → Outcome Res} {allow : Bool} {st st' : State} {x : Slot}
    (h : resolve secs lnk allow st x = .ok st') : ∃ s y, At secs x s y := by
  unfold resolve at h
  cases hg : getSym secs x with
  | none => simp [hg] at h
  | some sy => exact ⟨sy.1, sy.2, getSym_some.1 hg⟩

theorem touch_le {secs : List Sect} {lnk : Slot → Outcome Res} {allow : Bool} {st st' : State} {x : Slot}
    (h : touch secs lnk allow st x = .ok st') : Le st st' := by
  unfold touch at h
  cases hx : st x with
  | some r => simp [hx] at h; subst h; exact .refl _
  | none =>
    simp only [hx] at h
    obtain ⟨s, y, ha⟩ := resolve_at h
    exact (resolve_effect ha hx h).1

theorem touchAll_le {secs : List Sect} {lnk : Slot → Outcome Res} : ∀ {xs : List (Slot × Bool)} {st st' : State},
    touchAll secs lnk xs st = .ok st' → Le st st'
  | [], _, _, h => by cases h; exact .refl _
  | (x, allow) :: xs, st, st', h => by
    unfold touchAll at h
    obtain ⟨st1, h1, h⟩ := Outcome.bind_ok.1 h
    exact (touch_le h1).trans (touchAll_le h)

theorem le_isSome {st st' : State} (h : Le st st') {z : Slot} (hz : (st z).isSome) : (st' z).isSome := by
  obtain ⟨r, hr⟩ := Option.isSome_iff_exists.1 hz
  rw [h z r hr]; rfl

/-- After a sequence of requests a requested symbol is resolved, or it is an import. -/
theorem touchAll_resolves {secs : List Sect} {lnk : Slot → Outcome Res} :
    ∀ {xs : List (Slot × Bool)} {st st' : State}, touchAll secs lnk xs st = .ok st' → ∀ x allow, (x, allow) ∈ xs →
    ∀ s y, At secs x s y → (st' x).isSome ∨ (allow = true ∧ y.type = .imported ∧
      ∀ z t w, At secs z t w → (t.used = true ∨ t.equ = true) → w.type = .exported → w.name ≠ y.name)
  | [], _, _, _, _, _, hm, _, _, _ => by simp at hm
  | (x0, a0) :: xs, st, st', h, x, allow, hm, s, y, ha => by
    unfold touchAll at h
    obtain ⟨st1, h1, h2⟩ := Outcome.bind_ok.1 h
    rcases List.mem_cons.1 hm with he | hm
    · obtain ⟨rfl, rfl⟩ := Prod.mk.inj he
      have hle := touchAll_le h2
      unfold touch at h1
      cases hx : st x with
      | some r =>
        simp [hx] at h1
        subst h1
        exact .inl (le_isSome hle (by simp [hx]))
      | none =>
        simp only [hx] at h1
        rcases (resolve_effect ha hx h1).2 with h6 | ⟨-, h3, h4, h5⟩
        · exact .inl (le_isSome hle h6)
        · refine .inr ⟨h3, h4, ?_⟩
          intro z t w hz hu hw
          exact find_none h5 hz (by simpa using hu) (by simp [isExport, hw])
    · exact touchAll_resolves h2 x allow hm s y ha

/-! ### The order of requests does not matter -/

theorem find?_weaken {α : Type} {p q : α → Bool} : ∀ {l : List α} {a : α}, l.find? p = some a →
    (∀ b ∈ l, p b = true → q b = true) → (∀ b ∈ l, q b = true → p b = true ∨ b = a) → l.find? q = some a
  | [], a, h, _, _ => by simp at h
  | b :: l, a, h, h1, h2 => by
    by_cases hp : p b = true
    · rw [List.find?_cons_of_pos hp] at h
      rw [List.find?_cons_of_pos (h1 b (by simp) hp)]
      exact h
    · rw [List.find?_cons_of_neg hp] at h
      have hq : ¬ q b = true := by
        intro hq
        rcases h2 b (by simp) hq with h3 | rfl
        · exact hp h3
        · exact hp (List.find?_some h)
      rw [List.find?_cons_of_neg hq]
      exact find?_weaken h (fun c hc => h1 c (by simp [hc])) (fun c hc => h2 c (by simp [hc]))

/-- The search once all linker symbols are resolved. -/
def findAll (secs : List Sect) (name : Bytes) (p : Sect → Bool) (loc : Bool) : Option (Slot × Sect × Sym) :=
  find secs name p (fun _ w => w.type == .exported || w.type == .linker || (loc && w.type == .localExport))

theorem find_findAll {secs : List Sect} (hc : NoClash secs) {st : State} {name : Bytes} {p : Sect → Bool} {loc : Bool}
    {z : Slot} {t : Sect} {w : Sym}
    (h : find secs name p (fun z w => (loc && w.type == .localExport) || isExport st z w) = some (z, t, w)) :
    findAll secs name p loc = some (z, t, w) := by
  obtain ⟨hz, hp, hq, hn⟩ := find_some h
  refine find?_weaken h ?_ ?_
  · rintro ⟨z', t', w'⟩ - hb
    simp only [Bool.and_eq_true, Bool.or_eq_true, beq_iff_eq] at hb ⊢
    refine ⟨⟨hb.1.1, ?_⟩, hb.2⟩
    rcases hb.1.2 with h3 | h3
    · exact .inr h3
    · rcases isExport_type h3 with h4 | h4
      · exact .inl (.inl h4)
      · exact .inl (.inr h4.1)
  · rintro ⟨z', t', w'⟩ hm hb
    have hz' := mem_slots.1 hm
    simp only [Bool.and_eq_true, Bool.or_eq_true, beq_iff_eq] at hb hq ⊢
    rcases hb.1.2 with (h3 | h3) | h3
    · exact .inl ⟨⟨hb.1.1, .inr (by simp [isExport, h3])⟩, hb.2⟩
    · right
      have hw : w.type = .exported ∨ w.type = .localExport ∨ w.type = .linker := by
        rcases hq with h4 | h4
        · exact .inr (.inl h4.2)
        · rcases isExport_type h4 with h5 | h5
          · exact .inl h5
          · exact .inr (.inr h5.1)
      have he := hc z' t' w' z t w hz' hz h3 hw (hb.2.trans hn.symm)
      subst he
      obtain ⟨rfl, rfl⟩ := at_inj hz hz'
      rfl
    · exact .inl ⟨⟨hb.1.1, .inl h3⟩, hb.2⟩

/-- The value of a symbol that is not an import. -/
def direct (lnk : Slot → Outcome Res) (x : Slot) (s : Sect) (y : Sym) : Option Res :=
  match y.type with
  | .exported | .localExport | .local => some ⟨y.value + s.base, some x.1⟩
  | .linker => match lnk x with | .ok r => some r | _ => none
  | _ => none

/-- The value of a symbol, whatever the order of requests. -/
def final (secs : List Sect) (lnk : Slot → Outcome Res) (x : Slot) : Option Res := do
  let (s, y) ← getSym secs x
  let via (f : Slot × Sect × Sym) : Option Res := (direct lnk f.1 f.2.1 f.2.2).map (fun r => ⟨r.value, some f.1.1⟩)
  match y.type with
  | .imported => (findAll secs y.name (fun t => t.used || t.equ) false).bind via
  | .localImport => (findAll secs y.name (fun t => t.used && t.fileId == s.fileId) true).bind via
  | _ => direct lnk x s y

def Final (secs : List Sect) (lnk : Slot → Outcome Res) (st : State) : Prop :=
  ∀ x r, st x = some r → final secs lnk x = some r

theorem Final.set {secs : List Sect} {lnk : Slot → Outcome Res} {st : State} (h : Final secs lnk st) {x : Slot}
    {r : Res} (hr : final secs lnk x = some r) : Final secs lnk (st.set x r) := by
  intro z q hq
  by_cases hz : z = x
  · subst hz; simp at hq; subst hq; exact hr
  · rw [set_other _ _ hz] at hq; exact h z q hq

theorem final_direct {secs : List Sect} {lnk : Slot → Outcome Res} {x : Slot} {s : Sect} {y : Sym}
    (ha : At secs x s y) (h1 : y.type ≠ .imported) (h2 : y.type ≠ .localImport) :
    final secs lnk x = direct lnk x s y := by
  unfold final
  rw [getSym_some.2 ha]
  cases ht : y.type <;> simp_all

theorem copyFrom_final {secs : List Sect} {lnk : Slot → Outcome Res} {st st' : State} (hs : Final secs lnk st)
    {x z : Slot} {t : Sect} {w : Sym} (hz : At secs z t w) (hw : Own w.type ∨ (w.type = .linker ∧ (st z).isSome))
    (hx : final secs lnk x = (direct lnk z t w).map (fun r => ⟨r.value, some z.1⟩))
    (h : copyFrom st x (z, t, w) = .ok st') : Final secs lnk st' := by
  obtain ⟨st1, r, h1, hr, rfl⟩ := copyFrom_ok h
  have hd : final secs lnk z = direct lnk z t w := by
    apply final_direct hz <;> rcases hw with (hw | hw | hw) | hw <;> simp [hw]
  have hs1 : Final secs lnk st1 := by
    rcases h1 with rfl | ⟨hn, hdef⟩
    · exact hs
    · rw [define_ok hn hdef]
      refine hs.set ?_
      rw [hd]
      rcases hw with (hw | hw | hw) | hw
      · simp [direct, hw]
      · simp [direct, hw]
      · simp [direct, hw]
      · simp [hn] at hw
  refine hs1.set ?_
  rw [hx, ← hd, hs1 z r hr]
  rfl

theorem resolve_final {secs : List Sect} (hc : NoClash secs) {lnk : Slot → Outcome Res} {allow : Bool}
    {st st' : State} {x : Slot} (hs : Final secs lnk st) (hx : st x = none)
    (h : resolve secs lnk allow st x = .ok st') : Final secs lnk st' := by
  obtain ⟨s, y, ha⟩ := resolve_at h
  unfold resolve at h
  simp only [getSym_some.2 ha] at h
  have own : Own y.type → define st x s y = .ok st' → Final secs lnk st' := by
    intro ho hd
    rw [define_ok hx hd]
    refine hs.set ?_
    rw [final_direct ha] <;> rcases ho with ho | ho | ho <;> simp [direct, ho]
  cases ht : y.type with
  | exported => simp only [ht] at h; exact own (by simp [Own, ht]) h
  | localExport => simp only [ht] at h; exact own (by simp [Own, ht]) h
  | «local» => simp only [ht] at h; exact own (by simp [Own, ht]) h
  | imported =>
    simp only [ht] at h
    cases hf : find secs y.name (fun t => t.used || t.equ) (isExport st) with
    | none => simp only [hf] at h; cases allow <;> simp at h; subst h; exact hs
    | some z =>
      obtain ⟨z, t, w⟩ := z
      simp only [hf] at h
      obtain ⟨hz, -, hq, -⟩ := find_some hf
      have hfa := find_findAll (loc := false) (st := st) hc (by simpa using hf)
      refine copyFrom_final hs hz ?_ ?_ h
      · rcases isExport_type hq with h1 | h1
        · exact .inl (.inl h1)
        · exact .inr h1
      · unfold final
        rw [getSym_some.2 ha]
        simp [ht, hfa]
  | localImport =>
    simp only [ht] at h
    cases hf : find secs y.name (fun t => t.used && t.fileId == s.fileId)
        (fun z w => w.type == .localExport || isExport st z w) with
    | none => simp only [hf] at h; cases h
    | some z =>
      obtain ⟨z, t, w⟩ := z
      simp only [hf] at h
      obtain ⟨hz, -, hq, -⟩ := find_some hf
      have hfa := find_findAll (loc := true) (st := st) hc (by simpa using hf)
      refine copyFrom_final hs hz ?_ ?_ h
      · simp only [Bool.or_eq_true, beq_iff_eq] at hq
        rcases hq with h1 | h1
        · exact .inl (.inr (.inl h1))
        · rcases isExport_type h1 with h1 | h1
          · exact .inl (.inl h1)
          · exact .inr h1
      · unfold final
        rw [getSym_some.2 ha]
        simp [ht, hfa]
  | linker =>
    simp only [ht] at h
    obtain ⟨r, hr, h⟩ := Outcome.bind_ok.1 h
    cases h
    refine hs.set ?_
    rw [final_direct ha] <;> simp [direct, ht, hr]

theorem touchAll_final {secs : List Sect} (hc : NoClash secs) {lnk : Slot → Outcome Res} :
    ∀ {xs : List (Slot × Bool)} {st st' : State}, Final secs lnk st → touchAll secs lnk xs st = .ok st' →
      Final secs lnk st'
  | [], st, st', hs, h => by cases h; exact hs
  | (x, allow) :: xs, st, st', hs, h => by
    unfold touchAll at h
    obtain ⟨st1, h1, h2⟩ := Outcome.bind_ok.1 h
    refine touchAll_final hc ?_ h2
    unfold touch at h1
    cases hx : st x with
    | some r => simp [hx] at h1; subst h1; exact hs
    | none => simp only [hx] at h1; exact resolve_final hc hs hx h1

end Verif.Resolve
