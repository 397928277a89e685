import Verif.Section.Lemmas
/-!
# Every directive does what it means
-/
namespace Verif.Section
open Spec (Cell Area World limit)

variable {α : Type}

/-- The state of the assembler stands for the areas. -/
structure Match (cfg : Config) (s : State α) (w : World α) : Prop where
  length : s.sections.length = w.areas.length
  rel : ∀ (i : Nat) (x : Sect α) (y : Area α), s.sections[i]? = some x → w.areas[i]? = some y → Rel cfg.wordSize x y
  current : s.current = w.current
  valid : ∀ i, w.current = some i → i < w.areas.length
  stack : s.stack = w.stack
  stackValid : ∀ p ∈ w.stack, ∀ i, p.1 = some i → i < w.areas.length
  scope : s.scope = w.scope

theorem Match.area {cfg : Config} {s : State α} {w : World α} (h : Match cfg s w) {y : Area α} (hy : w.area = some y) :
    ∃ x, s.sect = some x ∧ Rel cfg.wordSize x y := by
  unfold World.area at hy
  unfold State.sect
  rw [h.current]
  cases hc : w.current with
  | none => simp [hc] at hy
  | some i =>
    rw [hc] at hy
    simp only [Option.bind_some] at hy ⊢
    have hi : i < s.sections.length := by
      rw [h.length]
      exact h.valid i hc
    refine ⟨s.sections[i], by simp [hi], h.rel i _ y (by simp [hi]) hy⟩

theorem Match.noArea {cfg : Config} {s : State α} {w : World α} (h : Match cfg s w) (hy : w.area = none) :
    s.sect = none := by
  unfold World.area at hy
  unfold State.sect
  rw [h.current]
  cases hc : w.current with
  | none => rfl
  | some i =>
    rw [hc] at hy
    simp only [Option.bind_some] at hy
    have := h.valid i hc
    rw [List.getElem?_eq_none_iff] at hy
    omega

theorem area_current {w : World α} {y : Area α} (hy : w.area = some y) :
    ∃ i, w.current = some i ∧ i < w.areas.length ∧ w.areas[i]? = some y := by
  unfold World.area at hy
  cases hc : w.current with
  | none => simp [hc] at hy
  | some i =>
    rw [hc] at hy
    simp only [Option.bind_some] at hy
    exact ⟨i, rfl, by rw [List.getElem?_eq_some_iff] at hy; exact hy.1, hy⟩

theorem Match.put {cfg : Config} {s : State α} {w : World α} (h : Match cfg s w) {y0 y : Area α} (hy : w.area = some y0)
    {x : Sect α} (hr : Rel cfg.wordSize x y) : Match cfg (s.set x) (w.put y) := by
  obtain ⟨i, hc, hi, -⟩ := area_current hy
  have hs : s.current = some i := by rw [h.current, hc]
  unfold State.set World.put
  simp only [hc, hs]
  refine ⟨by simp [h.length], ?_, rfl, ?_, h.stack, ?_, h.scope⟩
  · intro j a b ha hb
    simp only [List.getElem?_set] at ha hb
    by_cases hij : i = j
    · subst hij
      rw [if_pos rfl, if_pos (by rw [h.length]; exact hi)] at ha
      rw [if_pos rfl, if_pos hi] at hb
      cases ha
      cases hb
      exact hr
    · rw [if_neg hij] at ha hb
      exact h.rel j a b ha hb
  · intro j hj
    simpa using h.valid j (hc.trans hj)
  · intro p hp j hj
    simpa using h.stackValid p hp j hj

theorem Match.error {cfg : Config} {s : State α} {w : World α} (h : Match cfg s w) : Match cfg s.error w :=
  ⟨h.length, h.rel, h.current, h.valid, h.stack, h.stackValid, h.scope⟩

theorem sect_set {s : State α} {x0 x : Sect α} (h : s.sect = some x0) : (s.set x).sect = some x := by
  unfold State.sect at h
  cases hc : s.current with
  | none => simp [hc] at h
  | some i =>
    rw [hc] at h
    simp only [Option.bind_some] at h
    rw [List.getElem?_eq_some_iff] at h
    unfold State.set State.sect
    simp [hc, h.1]

theorem set_set {s : State α} {x x' : Sect α} : (s.set x).set x' = s.set x' := by
  unfold State.set
  cases hc : s.current with
  | none => simp [hc]
  | some i => simp

@[simp] theorem errors_set {s : State α} {x : Sect α} : (s.set x).errors = s.errors := by
  unfold State.set
  cases s.current <;> rfl

theorem area_put {w : World α} {y0 y : Area α} (h : w.area = some y0) : (w.put y).area = some y := by
  obtain ⟨i, hc, hi, -⟩ := area_current h
  unfold World.put World.area
  simp [hc, hi]

theorem put_put {w : World α} {y y' : Area α} : (w.put y).put y' = w.put y' := by
  unfold World.put
  cases hc : w.current with
  | none => simp [hc]
  | some i => simp

theorem put_self {w : World α} {y : Area α} (h : w.area = some y) : w.put y = w := by
  obtain ⟨i, hc, hi, hy⟩ := area_current h
  unfold World.put
  rw [List.getElem?_eq_some_iff] at hy
  rw [hc]
  simp only
  have : w.areas.set i y = w.areas := by
    rw [← hy.2]
    simp
  rw [this, ← hc]

/-! ## Emitting bytes -/

theorem ok_bind {β γ : Type} (b : β) (f : β → Outcome γ) : (Outcome.ok b).bind f = f b := rfl

/-- Space for bytes of a section with contents. -/
theorem checkSpace_text {cfg : Config} {n : Nat} {s : State α} {x : Sect α} {y : Area α} (hs : s.sect = some x)
    (h : Rel cfg.wordSize x y) (hb : y.group.bss = false) (hn : 0 < n → cfg.wordSize ≤ n)
    (hl : y.cells.length + n ≤ limit false) :
    ∃ x', Rel cfg.wordSize x' y ∧ y.cells.length + n ≤ x'.data.length ∧
      checkSpace cfg n s = .ok (true, s.set x') := by
  unfold checkSpace
  by_cases h0 : n = 0
  · rw [if_pos h0]
    refine ⟨x, h, ?_, ?_⟩
    · have := h.inside hb
      rw [h.used] at this
      omega
    · congr 2
      unfold State.sect at hs
      unfold State.set
      cases hc : s.current with
      | none => rfl
      | some i =>
        rw [hc] at hs
        simp only [Option.bind_some] at hs
        rw [List.getElem?_eq_some_iff] at hs
        have : s.sections.set i x = s.sections := by
          rw [← hs.2]
          simp
        simp only [this]
        rw [← hc]
  · rw [if_neg h0, if_pos (hn (by omega)), hs]
    simp only
    rw [h.group, hb, if_neg (by decide)]
    obtain ⟨d, hd, hp, hsz⟩ := grow_ok (n := n) (hn (by omega)) h.alloc (by rw [h.used]; exact hl)
    rw [hd]
    refine ⟨{ x with data := d, alloc := d.length }, ?_, by rw [← h.used]; exact hsz, rfl⟩
    refine ⟨h.name, h.group, h.flags, h.origin, h.bank, h.align, h.page, h.image, h.used, h.size, h.whole, h.pc, rfl,
      fun _ => ?_, fun hb => ?_, h.patches, h.unmoved, h.adjust, h.lines⟩
    · show x.used ≤ d.length
      omega
    · show d.take x.used = _
      obtain ⟨t, rfl⟩ := hp
      rw [List.take_append_of_le_length (h.inside hb)]
      exact h.data hb

theorem div_add {ws a b : Nat} (hws : 0 < ws) (ha : ws ∣ a) : (a + b) / ws = a / ws + b / ws := by
  obtain ⟨k, rfl⟩ := ha
  rw [Nat.mul_add_div hws, Nat.mul_div_cancel_left _ hws]

/-- Bytes behind the end of a section. -/
theorem rel_append {ws : Nat} {x : Sect α} {y : Area α} (hws : 0 < ws) (h : Rel ws x y) (hb : y.group.bss = false)
    {bs : Bytes} (hd : ws ∣ bs.length) (hl : y.cells.length + bs.length ≤ limit false)
    (hroom : y.cells.length + bs.length ≤ x.data.length) (pos : Pos) {ps hs : List (Patch α)}
    (hp : ps.Perm (y.holes ++ hs)) :
    Rel ws { addLine pos x with
        data := x.data.take x.used ++ bs ++ x.data.drop (x.used + bs.length), used := x.used + bs.length,
        pc := (x.pc + bs.length / ws) % W32, patches := ps }
      { y with cells := y.cells ++ bs.map fun b => ⟨b, pos⟩, holes := y.holes ++ hs } := by
  have h1 := rel_addLine hws h pos
  rw [addLine_eq] at h1 ⊢
  have hlen : (x.data.take x.used).length = x.used := by
    have := h.inside hb
    simp
    omega
  have hu := h.used
  have hlim : limit false < W32 := limit_lt _
  refine ⟨h.name, h.group, h.flags, h.origin, h.bank, h.align, h.page, h.image, ?_, ?_, ?_, ?_, ?_, ?_, ?_, hp, h.unmoved, ?_, ?_⟩
  · simp [hu]
  · simp only [List.length_append, List.length_map]
    rw [hb]
    exact hl
  · simp only [List.length_append, List.length_map]
    exact Nat.dvd_add h.whole hd
  · simp only [List.length_append, List.length_map]
    rw [h.pc, div_add hws h.whole]
    have : y.cells.length / ws + bs.length / ws ≤ y.cells.length + bs.length :=
      Nat.add_le_add (Nat.div_le_self _ _) (Nat.div_le_self _ _)
    exact Nat.mod_eq_of_lt (by omega)
  · rw [h.alloc]
    simp only [List.length_append, List.length_drop, hlen]
    omega
  · intro _
    simp only [List.length_append, List.length_drop, hlen]
    omega
  · intro _
    show (_ ++ bs ++ _).take (x.used + bs.length) = _
    rw [List.take_append_of_le_length (by simp only [List.length_append, hlen]; omega),
      List.take_of_length_le (by simp only [List.length_append, hlen]; omega), h.data hb, List.map_append, List.map_map]
    congr 1
    exact (List.map_id' bs).symm
  · intro v n hv
    obtain ⟨a, b, c⟩ := h.adjust v n hv
    exact ⟨by simp only [List.length_append]; omega, b, c⟩
  · refine lines_extend (pos := pos) h1.lines ?_ ?_
    · exact addEntry_last _ _ _
    · intro c hc
      simp only [List.mem_map] at hc
      obtain ⟨b, -, rfl⟩ := hc
      rfl

/-- Sections without contents only count. -/
theorem rel_reserve {ws : Nat} {x : Sect α} {y : Area α} (hws : 0 < ws) (h : Rel ws x y) (hb : y.group.bss = true)
    {n : Nat} (hd : ws ∣ n) (hl : y.cells.length + n ≤ limit true) (pos : Pos) (v : UInt8) :
    Rel ws { addLine pos x with used := (x.used + n) % W32, pc := (x.pc + n / ws) % W32 }
      { y with cells := y.cells ++ List.replicate n ⟨v, pos⟩ } := by
  have h1 := rel_addLine hws h pos
  rw [addLine_eq] at h1 ⊢
  have hu := h.used
  have hlim : limit true < W32 := limit_lt _
  refine ⟨h.name, h.group, h.flags, h.origin, h.bank, h.align, h.page, h.image, ?_, ?_, ?_, ?_, h.alloc, ?_, ?_,
    h.patches, h.unmoved, ?_, ?_⟩
  · simp only [List.length_append, List.length_replicate]
    rw [hu]
    exact Nat.mod_eq_of_lt (by omega)
  · simp only [List.length_append, List.length_replicate]
    rw [hb]
    exact hl
  · simp only [List.length_append, List.length_replicate]
    exact Nat.dvd_add h.whole hd
  · simp only [List.length_append, List.length_replicate]
    rw [h.pc, div_add hws h.whole]
    have : y.cells.length / ws + n / ws ≤ y.cells.length + n :=
      Nat.add_le_add (Nat.div_le_self _ _) (Nat.div_le_self _ _)
    exact Nat.mod_eq_of_lt (by omega)
  · intro hb'
    rw [hb] at hb'
    cases hb'
  · intro hb'
    rw [hb] at hb'
    cases hb'
  · intro v n hv
    obtain ⟨a, b, c⟩ := h.adjust v n hv
    exact ⟨by simp only [List.length_append]; omega, b, c⟩
  · refine lines_extend (pos := pos) h1.lines ?_ ?_
    · exact addEntry_last _ _ _
    · intro c hc
      rw [List.mem_replicate] at hc
      rw [hc.2]

theorem encode_length (big : Bool) (size : Size) (v : Nat) : (encode big size v).length = size.bytes := by
  cases size <;> cases big <;> rfl

theorem ofNat_mod (v : Nat) : UInt8.ofNat (v % 256) = UInt8.ofNat v := by
  apply UInt8.toNat_inj.1
  simp

theorem encode_digits (big : Bool) (size : Size) (v : Nat) : encode big size v = Spec.digits big size.bytes v := by
  cases size <;> cases big <;> simp [encode, Spec.digits, Size.bytes, List.range, List.range.loop, byte, ofNat_mod]

theorem size_pos (size : Size) : 0 < size.bytes := by cases size <;> decide

theorem wordSize_le {ws : Nat} {n : Nat} (hd : ws ∣ n) (hn : 0 < n) : ws ≤ n := Nat.le_of_dvd hn hd

/-- `sect_OutputConst8` and so on in a section with contents. -/
theorem outputConst_ok {cfg : Config} {s : State α} {w : World α} (hws : 0 < cfg.wordSize) (h : Match cfg s w)
    {y : Area α} (hy : w.area = some y) (hb : y.group.bss = false) (env : Env) {size : Size} (v : Nat)
    (hd : cfg.wordSize ∣ size.bytes) (hl : y.cells.length + size.bytes ≤ limit false) :
    ∃ s', outputConst cfg env size v s = .ok s' ∧ s'.errors = s.errors ∧
      Match cfg s' (w.put { y with cells := y.cells ++ (Spec.digits env.big size.bytes v).map fun b => ⟨b, env.pos⟩ }) := by
  obtain ⟨x, hx, hr⟩ := h.area hy
  have hle := wordSize_le hd (size_pos size)
  obtain ⟨x', hr', hroom, hc⟩ := checkSpace_text (n := size.bytes) hx hr hb (fun _ => hle) hl
  unfold outputConst
  rw [if_pos hle, hc]
  simp only [ok_bind, if_true]
  rw [sect_set hx]
  simp only
  rw [hr'.group, hb, if_neg (by decide), addLine_eq]
  have hlen := encode_length env.big size v
  have hlim : limit false < W32 := limit_lt _
  rw [storeAll_ok _ _ (by simp only [hlen, hr'.used]; exact hroom) (by simp only [hlen, hr'.used]; omega)]
  refine ⟨_, rfl, by simp, ?_⟩
  rw [set_set]
  refine h.put hy ?_
  have ha := rel_append (bs := encode env.big size v) hws hr' hb (by rw [hlen]; exact hd) (by rw [hlen]; exact hl)
    (by rw [hlen]; exact hroom) env.pos (ps := x'.patches) (hs := []) (by rw [List.append_nil]; exact hr'.patches)
  rw [addLine_eq] at ha
  rw [← encode_digits]
  rw [hlen] at ha
  simpa [advance, hlen] using ha

/-- `sect_OutputReloc8` and so on in a section with contents. -/
theorem outputReloc_ok {cfg : Config} {s : State α} {w : World α} (hws : 0 < cfg.wordSize) (h : Match cfg s w)
    {y : Area α} (hy : w.area = some y) (hb : y.group.bss = false) (env : Env) {size : Size} (e : α)
    (hd : cfg.wordSize ∣ size.bytes) (hl : y.cells.length + size.bytes ≤ limit false) :
    ∃ s', outputReloc cfg env size e s = .ok s' ∧ s'.errors = s.errors ∧
      Match cfg s' (w.put { y with
        cells := y.cells ++ (List.replicate size.bytes 0).map fun b => ⟨b, env.pos⟩,
        holes := y.holes ++ [⟨y.cells.length, size, env.big && size != .one, e⟩] }) := by
  obtain ⟨x, hx, hr⟩ := h.area hy
  have hle := wordSize_le hd (size_pos size)
  obtain ⟨x', hr', hroom, hc⟩ := checkSpace_text (n := size.bytes) hx hr hb (fun _ => hle) hl
  unfold outputReloc
  rw [if_pos hle, hc]
  simp only [ok_bind, if_true]
  rw [sect_set hx]
  simp only
  rw [hr'.group, hb, if_neg (by decide), addLine_eq]
  have hlen : (List.replicate size.bytes (0 : UInt8)).length = size.bytes := List.length_replicate
  have hlim : limit false < W32 := limit_lt _
  rw [storeAll_ok _ _ (by simp only [hlen, hr'.used]; exact hroom) (by simp only [hlen, hr'.used]; omega)]
  refine ⟨_, rfl, by simp, ?_⟩
  rw [set_set]
  refine h.put hy ?_
  have hperm : (addPatch ⟨x'.used, size, env.big && size != .one, e⟩ x'.patches).Perm
      (y.holes ++ [⟨y.cells.length, size, env.big && size != .one, e⟩]) := by
    rw [hr'.used]
    refine List.Perm.trans ?_ (List.Perm.append_right _ hr'.patches)
    cases x'.patches with
    | nil => exact List.Perm.refl _
    | cons q qs =>
      simp only [addPatch, List.cons_append]
      refine List.Perm.cons _ ?_
      exact (List.perm_append_comm (l₁ := [_]) (l₂ := qs))
  have ha := rel_append (bs := List.replicate size.bytes (0 : UInt8)) hws hr' hb (by rw [hlen]; exact hd)
    (by rw [hlen]; exact hl) (by rw [hlen]; exact hroom) env.pos hperm
  rw [addLine_eq] at ha
  rw [hlen] at ha
  simpa [advance, hlen] using ha

/-- The loops of `sect_SkipBytes`. -/
theorem fill_ok {cfg : Config} (hws : cfg.wordSize = 1 ∨ cfg.wordSize = 2) (env : Env) : ∀ (n : Nat) (s : State α)
    (w : World α) (y : Area α), Match cfg s w → w.area = some y → y.group.bss = false → cfg.wordSize ∣ n →
    y.cells.length + n ≤ limit false →
    ∃ s', fill cfg env n s = .ok s' ∧ s'.errors = s.errors ∧
      Match cfg s' (w.put { y with cells := y.cells ++ List.replicate n ⟨env.fill, env.pos⟩ })
  | 0, s, w, y, h, hy, _, _, _ => by
    refine ⟨s, rfl, rfl, ?_⟩
    have : ({ y with cells := y.cells ++ List.replicate 0 ⟨env.fill, env.pos⟩ } : Area α) = y := by simp
    rw [this, put_self hy]
    exact h
  | 1, s, w, y, h, hy, hb, hd, hl => by
    have hw1 : cfg.wordSize = 1 := by
      rcases hws with h1 | h2
      · exact h1
      · rw [h2] at hd
        omega
    obtain ⟨s', h1, h2, h3⟩ := outputConst_ok (size := .one) (by omega) h hy hb env env.fill.toNat hd hl
    refine ⟨s', h1, h2, ?_⟩
    have : (Spec.digits env.big Size.one.bytes env.fill.toNat) = [env.fill] := by
      rw [← encode_digits]
      simp [encode, byte]
    rw [this] at h3
    exact h3
  | n + 2, s, w, y, h, hy, hb, hd, hl => by
    have hd2 : cfg.wordSize ∣ Size.two.bytes := by
      rcases hws with h1 | h2
      · rw [h1]; decide
      · rw [h2]; decide
    have hdn : cfg.wordSize ∣ n := by
      rcases hws with h1 | h2
      · rw [h1]
        exact Nat.one_dvd _
      · rw [h2] at hd ⊢
        omega
    obtain ⟨s1, h1, h2, h3⟩ := outputConst_ok (size := .two) (by omega) h hy hb env
      (env.fill.toNat * 256 + env.fill.toNat) hd2 (by simp only [Size.bytes]; omega)
    have hf : env.fill.toNat < 256 := env.fill.toNat_lt
    have hdig : Spec.digits env.big Size.two.bytes (env.fill.toNat * 256 + env.fill.toNat) = [env.fill, env.fill] := by
      rw [← encode_digits]
      have e1 : UInt8.ofNat (env.fill.toNat * 256 + env.fill.toNat) = env.fill := by
        rw [← ofNat_mod]
        have : (env.fill.toNat * 256 + env.fill.toNat) % 256 = env.fill.toNat := by omega
        rw [this]
        simp
      have e2 : UInt8.ofNat ((env.fill.toNat * 256 + env.fill.toNat) / 256) = env.fill := by
        have : (env.fill.toNat * 256 + env.fill.toNat) / 256 = env.fill.toNat := by omega
        rw [this]
        simp
      cases env.big <;> simp [encode, byte, e1, e2]
    rw [hdig] at h3
    obtain ⟨s2, k1, k2, k3⟩ := fill_ok hws env n s1 _ _ h3 (area_put hy) hb hdn (by simp; omega)
    refine ⟨s2, ?_, k2.trans h2, ?_⟩
    · rw [fill, h1]
      exact k1
    · rw [put_put] at k3
      have e : (y.cells ++ List.map (fun b => (⟨b, env.pos⟩ : Cell)) [env.fill, env.fill]) ++
          List.replicate n ⟨env.fill, env.pos⟩ = y.cells ++ List.replicate (n + 2) ⟨env.fill, env.pos⟩ := by
        simp [List.replicate_succ]
      rw [← e]
      exact k3

/-- `sect_SkipBytes`. -/
theorem skipBytes_ok {cfg : Config} (hws : cfg.wordSize = 1 ∨ cfg.wordSize = 2) (env : Env) {n : Nat} {s : State α}
    {w : World α} (h : Match cfg s w) (hd : cfg.wordSize ∣ n) {w' : World α} (hg : Spec.space env n w = .good w') :
    ∃ s', skipBytes cfg env n s = .ok s' ∧ s'.errors = s.errors ∧ Match cfg s' w' := by
  unfold Spec.space at hg
  unfold skipBytes
  by_cases h0 : n = 0
  · rw [if_pos h0] at hg ⊢
    cases hg
    exact ⟨s, rfl, rfl, h⟩
  · rw [if_neg h0] at hg ⊢
    have hle := wordSize_le hd (by omega)
    rw [if_pos hle]
    have hpos : 0 < cfg.wordSize := by omega
    cases hy : w.area with
    | none => simp [hy] at hg
    | some y =>
      rw [hy] at hg
      simp only at hg
      by_cases hsz : y.cells.length + n ≤ limit y.group.bss
      · rw [if_pos hsz] at hg
        cases hg
        obtain ⟨x, hx, hr⟩ := h.area hy
        cases hb : y.group.bss with
        | false =>
          rw [hb] at hsz
          obtain ⟨x', hr', hroom, hc⟩ := checkSpace_text (n := n) hx hr hb (fun _ => hle) hsz
          rw [hc]
          simp only [ok_bind, if_true]
          rw [sect_set hx]
          simp only
          rw [hr'.group, hb, if_neg (by decide), set_set]
          have hm : Match cfg (s.set (addLine env.pos x')) w := by
            have := h.put hy (rel_addLine hpos hr' env.pos)
            rw [put_self hy] at this
            exact this
          obtain ⟨s', a, b, c⟩ := fill_ok hws env n _ w y hm hy hb hd hsz
          exact ⟨s', a, by simpa using b, by simpa using c⟩
        | true =>
          rw [hb] at hsz
          have hc : checkSpace cfg n s = .ok (true, s) := by
            unfold checkSpace
            rw [if_neg h0, if_pos hle, hx]
            simp only
            rw [hr.group, hb, if_pos rfl]
          rw [hc]
          simp only [ok_bind, if_true]
          rw [hx]
          simp only
          rw [hr.group, hb, if_pos rfl, set_set]
          refine ⟨_, rfl, by simp, ?_⟩
          refine h.put hy ?_
          have := rel_reserve hpos hr hb hd hsz env.pos 0
          simpa [advance, addLine_eq] using this
      · rw [if_neg hsz] at hg
        cases hg

/-- `sect_OutputBinaryFile`. -/
theorem outputBinary_ok {cfg : Config} (hws : 0 < cfg.wordSize) (env : Env) {bs : Bytes} {s : State α} {w : World α}
    (h : Match cfg s w) (hd : cfg.wordSize ∣ bs.length) (hlt : bs.length < 2 ^ 32) {w' : World α}
    (hg : Spec.emit env.pos bs [] w = .good w') :
    ∃ s', outputBinary cfg env bs s = .ok s' ∧ s'.errors = s.errors ∧ Match cfg s' w' := by
  unfold Spec.emit at hg
  cases hy : w.area with
  | none => simp [hy] at hg
  | some y =>
    rw [hy] at hg
    simp only at hg
    cases hb : y.group.bss with
    | true => simp [hb] at hg
    | false =>
      rw [hb, if_neg (by decide)] at hg
      by_cases hsz : y.cells.length + bs.length ≤ limit false
      · rw [if_pos hsz] at hg
        cases hg
        obtain ⟨x, hx, hr⟩ := h.area hy
        obtain ⟨x', hr', hroom, hc⟩ := checkSpace_text (n := bs.length) hx hr hb (fun hp => wordSize_le hd hp) hsz
        unfold outputBinary
        have hm : bs.length % W32 = bs.length := Nat.mod_eq_of_lt hlt
        simp only [hm]
        rw [hc]
        simp only [ok_bind, if_true]
        rw [sect_set hx]
        simp only
        have hu := hr'.used
        have hlim : limit false < W32 := limit_lt _
        rw [hr'.group, hb, if_neg (by decide), addLine_eq, if_pos (by simp only [hu]; exact hroom)]
        refine ⟨_, rfl, by simp, ?_⟩
        rw [set_set]
        refine h.put hy ?_
        have ha := rel_append (bs := bs) hws hr' hb hd hsz hroom env.pos (ps := x'.patches) (hs := [])
          (by rw [List.append_nil]; exact hr'.patches)
        rw [addLine_eq] at ha
        have hum : (x'.used + bs.length) % W32 = x'.used + bs.length := Nat.mod_eq_of_lt (by omega)
        simpa [advance, hum] using ha
      · rw [if_neg hsz] at hg
        cases hg

end Verif.Section
