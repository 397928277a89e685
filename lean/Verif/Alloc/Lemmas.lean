import Verif.Alloc.Spec
/-! Helper lemmas for `Verif/Alloc/Props.lean`. -/
namespace Verif.Alloc

/-- All chunks lie between `lo` and `hi`. -/
def Inv (lo hi : Nat) (cs : List Chunk) : Prop := ∀ c ∈ cs, lo ≤ c.loc ∧ c.loc + c.size ≤ hi

/-- Chunks are in ascending order with a gap between any two. -/
def Sep (cs : List Chunk) : Prop := cs.Pairwise (fun c d => c.loc + c.size < d.loc)

theorem freeCover_cons (c : Chunk) (cs a) :
    freeCover (c :: cs) a = freeCover cs a + if c.range.Has a then 1 else 0 := by
  simp [freeCover, List.countP_cons]

theorem freeCover_nil (a) : freeCover [] a = 0 := rfl

theorem freeCover_append (cs ds : List Chunk) (a) :
    freeCover (cs ++ ds) a = freeCover cs a + freeCover ds a := by
  simp [freeCover, List.countP_append]

theorem cover_cons (c : Range) (cs a) :
    cover (c :: cs) a = cover cs a + if c.Has a then 1 else 0 := by
  simp [cover, List.countP_cons]

theorem freeCover_pos {cs : List Chunk} {a} : 0 < freeCover cs a ↔ Free cs a := by
  simp [freeCover, Free, List.countP_pos_iff]

/-- What every successful placement does to the free list. -/
structure Takes (lo hi : Nat) (cs cs' : List Chunk) (l size : Nat) : Prop where
  inv : Inv lo hi cs'
  within : Range.Within (l, size) lo hi
  cov : ∀ a, freeCover cs a = freeCover cs' a + if Range.Has (l, size) a then 1 else 0
  tot : totalFree cs = totalFree cs' + size
  sep : 0 < size → Sep cs → Sep cs'
  /-- every new chunk lies inside an old one -/
  sub : ∀ d ∈ cs', ∃ c ∈ cs, c.loc ≤ d.loc ∧ d.loc + d.size ≤ c.loc + c.size
  /-- the range lies inside a single chunk -/
  one : ∃ c ∈ cs, c.loc ≤ l ∧ l + size ≤ c.loc + c.size

theorem carve_eq {c : Chunk} {size l : Nat} (hc : c.loc + c.size < W32) (h1 : c.loc ≤ l)
    (h2 : l + size ≤ c.loc + c.size) :
    carve c size l = if l = c.loc then [⟨c.loc + size, c.size - size⟩]
      else [⟨c.loc, l - c.loc⟩, ⟨l + size, c.loc + c.size - (l + size)⟩] := by
  unfold carve
  split
  · rw [add32_eq (by omega), sub32_eq (by omega) (by omega)]
  · unfold Chunk.end32
    rw [add32_eq (a := c.loc) (by omega), add32_eq (by omega), sub32_eq (by omega) (by omega),
      sub32_eq (by omega) (by omega)]

theorem takes_carve {lo hi : Nat} {c : Chunk} {cs : List Chunk} {size l : Nat} (hhi : hi < W32)
    (hinv : Inv lo hi (c :: cs)) (h1 : c.loc ≤ l) (h2 : l + size ≤ c.loc + c.size) :
    Takes lo hi (c :: cs) (carve c size l ++ cs) l size := by
  have hc := hinv c (by simp)
  have htl : Inv lo hi cs := fun d hd => hinv d (by simp [hd])
  rw [carve_eq (by omega) h1 h2]
  refine ⟨?_, ⟨by omega, by show l + size ≤ hi; omega⟩, ?_, ?_, ?_, ?_, ⟨c, by simp, h1, h2⟩⟩
  · intro d hd
    split at hd <;> simp at hd
    · rcases hd with rfl | hd
      · simp; omega
      · exact htl d hd
    · rcases hd with rfl | rfl | hd
      · simp; omega
      · simp; omega
      · exact htl d hd
  · intro a
    rw [freeCover_cons, freeCover_append]
    by_cases hl : l = c.loc
    · rw [if_pos hl]
      simp only [freeCover_cons, freeCover_nil, Range.Has, Chunk.range]
      grind
    · rw [if_neg hl]
      simp only [freeCover_cons, freeCover_nil, Range.Has, Chunk.range]
      grind
  · split <;> simp [totalFree] <;> omega
  · intro hs hsep
    have hs' := List.pairwise_cons.1 hsep
    split
    · refine List.pairwise_cons.2 ⟨?_, hs'.2⟩
      intro d hd
      have := hs'.1 d hd
      simp; omega
    · refine List.pairwise_cons.2 ⟨?_, List.pairwise_cons.2 ⟨?_, hs'.2⟩⟩
      · intro d hd
        simp at hd
        rcases hd with rfl | hd
        · simp; omega
        · have := hs'.1 d hd
          simp; omega
      · intro d hd
        have := hs'.1 d hd
        simp; omega
  · intro d hd
    split at hd <;> simp at hd
    · rcases hd with rfl | hd
      · exact ⟨c, by simp, by simp, by simp; omega⟩
      · exact ⟨d, by simp [hd], Nat.le_refl _, Nat.le_refl _⟩
    · rcases hd with rfl | rfl | hd
      · exact ⟨c, by simp, by simp, by simp; omega⟩
      · exact ⟨c, by simp, by simp; omega, by simp; omega⟩
      · exact ⟨d, by simp [hd], Nat.le_refl _, Nat.le_refl _⟩

theorem Takes.cons {lo hi : Nat} {c : Chunk} {cs cs' : List Chunk} {l size : Nat}
    (hinv : Inv lo hi (c :: cs)) (h : Takes lo hi cs cs' l size) :
    Takes lo hi (c :: cs) (c :: cs') l size := by
  refine ⟨?_, h.within, ?_, ?_, ?_, ?_, ?_⟩
  · intro d hd
    simp at hd
    rcases hd with rfl | hd
    · exact hinv d (by simp)
    · exact h.inv d hd
  · intro a
    rw [freeCover_cons, freeCover_cons, h.cov a]; omega
  · have := h.tot
    simp [totalFree] at *; omega
  · intro hs hsep
    have hs' := List.pairwise_cons.1 hsep
    refine List.pairwise_cons.2 ⟨?_, h.sep hs hs'.2⟩
    intro d hd
    obtain ⟨e, he, h1, _⟩ := h.sub d hd
    have := hs'.1 e he
    omega
  · intro d hd
    simp at hd
    rcases hd with rfl | hd
    · exact ⟨d, by simp, Nat.le_refl _, Nat.le_refl _⟩
    · obtain ⟨e, he, h1⟩ := h.sub d hd
      exact ⟨e, by simp [he], h1⟩
  · obtain ⟨e, he, h1⟩ := h.one
    exact ⟨e, by simp [he], h1⟩

theorem end32_eq {lo hi : Nat} {c : Chunk} {cs} (hhi : hi < W32) (hinv : Inv lo hi (c :: cs)) :
    c.end32 = c.loc + c.size := add32_eq (by have := hinv c (by simp); omega)

theorem Inv.tail {lo hi : Nat} {c : Chunk} {cs} (hinv : Inv lo hi (c :: cs)) : Inv lo hi cs :=
  fun d hd => hinv d (by simp [hd])

theorem allocMemory_takes {lo hi size : Nat} (hhi : hi < W32) :
    ∀ {cs cs' l}, Inv lo hi cs → allocMemory size cs = .ok (l, cs') → Takes lo hi cs cs' l size := by
  intro cs
  induction cs with
  | nil => intro cs' l _ h; simp [allocMemory] at h
  | cons c cs ih =>
    intro cs' l hinv h
    unfold allocMemory at h
    split at h
    · next hsz =>
      injection h with h; injection h with h1 h2
      subst h1; subst h2
      have := takes_carve (size := size) hhi hinv (Nat.le_refl _) (by omega)
      simpa [carve] using this
    · split at h <;> try (cases h; done)
      next heq =>
        injection h with h; injection h with h1 h2
        subst h1; subst h2
        exact (ih hinv.tail heq).cons hinv

theorem allocMemory_fail {size : Nat} : ∀ {cs}, allocMemory size cs = .fail → ∀ c ∈ cs, c.size < size := by
  intro cs
  induction cs with
  | nil => simp
  | cons c cs ih =>
    intro h
    unfold allocMemory at h
    split at h
    · cases h
    · split at h <;> try (cases h; done)
      next h1 h2 =>
      intro d hd
      simp at hd
      rcases hd with rfl | hd
      · omega
      · exact ih h2 d hd

theorem allocAbsolute_takes {lo hi size l : Nat} (hhi : hi < W32) (hw : l + size < W32) :
    ∀ {cs cs'}, Inv lo hi cs → allocAbsolute size l cs = .ok cs' → Takes lo hi cs cs' l size := by
  intro cs
  induction cs with
  | nil => intro cs' _ h; simp [allocAbsolute] at h
  | cons c cs ih =>
    intro cs' hinv h
    unfold allocAbsolute at h
    rw [end32_eq hhi hinv, add32_eq hw] at h
    split at h
    · next hsz =>
      injection h with h
      subst h
      exact takes_carve hhi hinv hsz.1 hsz.2
    · split at h <;> try (cases h; done)
      next heq =>
        injection h with h
        subst h
        exact (ih hinv.tail heq).cons hinv

theorem allocAbsolute_fail {lo hi size l : Nat} (hhi : hi < W32) (hw : l + size < W32) :
    ∀ {cs}, Inv lo hi cs → allocAbsolute size l cs = .fail →
      ∀ c ∈ cs, ¬ (c.loc ≤ l ∧ l + size ≤ c.loc + c.size) := by
  intro cs
  induction cs with
  | nil => simp
  | cons c cs ih =>
    intro hinv h
    unfold allocAbsolute at h
    rw [end32_eq hhi hinv, add32_eq hw] at h
    split at h
    · cases h
    · split at h <;> try (cases h; done)
      next h1 _ h2 =>
      intro d hd
      simp at hd
      rcases hd with rfl | hd
      · exact h1
      · exact ih hinv.tail h2 d hd

theorem alignUp_eq {start a : Nat} (ha : 0 < a) (hw : start + a < W32) :
    alignUp start a = (start + a - 1) - (start + a - 1) % a := by
  unfold alignUp
  simp only
  rw [add32_eq hw, sub32_eq (by omega) (by omega)]

theorem alignUp_dvd (start a : Nat) : a ∣ alignUp start a := by
  unfold alignUp
  exact Nat.dvd_sub_mod _

theorem alignUp_le {start a : Nat} (ha : 0 < a) (hw : start + a < W32) : alignUp start a < start + a := by
  rw [alignUp_eq ha hw]; omega

theorem alignUp_ge {start a : Nat} (ha : 0 < a) (hw : start + a < W32) : start ≤ alignUp start a := by
  rw [alignUp_eq ha hw]
  have := Nat.mod_lt (start + a - 1) ha
  omega

/-- `alignUp` is the least multiple not below `start`. -/
theorem alignUp_least {start a l : Nat} (ha : 0 < a) (hw : start + a < W32) (hd : a ∣ l)
    (hl : start ≤ l) : alignUp start a ≤ l := by
  obtain ⟨k, hk⟩ := hd
  obtain ⟨m, hm⟩ := alignUp_dvd start a
  have h2 := alignUp_le ha hw
  rw [hm] at h2 ⊢
  subst hk
  apply Nat.mul_le_mul_left
  rcases Nat.lt_or_ge k m with h | h
  · exfalso
    have : a * (k + 1) ≤ a * m := Nat.mul_le_mul_left a h
    rw [Nat.mul_add] at this
    omega
  · exact h

theorem fits_iff {lo hi size l : Nat} {c : Chunk} {cs} (hhi : hi < W32) (hinv : Inv lo hi (c :: cs))
    (hw : l + size < W32) : fits c size l = true ↔ (c.loc ≤ l ∧ l + size ≤ c.loc + c.size) := by
  simp [fits, end32_eq hhi hinv, add32_eq hw]

theorem allocByteAligned_takes {lo hi size a : Nat} (hhi : hi < W32) (hw : hi + a + size ≤ W32) :
    ∀ {cs cs' l}, Inv lo hi cs → allocByteAligned size a cs = .ok (l, cs') →
      Takes lo hi cs cs' l size ∧ a ∣ l := by
  intro cs
  induction cs with
  | nil => intro cs' l _ h; simp [allocByteAligned] at h
  | cons c cs ih =>
    intro cs' l hinv h
    unfold allocByteAligned at h
    have hc := hinv c (by simp)
    split at h
    · cases h
    · next ha =>
      simp only at h
      by_cases hz : c.loc + a < W32
      · have hle := alignUp_le (start := c.loc) (a := a) (by omega) hz
        split at h
        · next hf =>
          injection h with h; injection h with h1 h2
          subst h1; subst h2
          rw [fits_iff hhi hinv (by omega)] at hf
          exact ⟨takes_carve hhi hinv hf.1 hf.2, alignUp_dvd _ _⟩
        · split at h <;> try (cases h; done)
          next heq =>
            injection h with h; injection h with h1 h2
            subst h1; subst h2
            exact ⟨(ih hinv.tail heq).1.cons hinv, (ih hinv.tail heq).2⟩
      · -- only possible for `size = 0`, `c.loc = hi`
        have h0 : c.loc + a = W32 := by omega
        have hsz : size = 0 := by omega
        have hl : alignUp c.loc a ≤ W32 - 1 := by
          unfold alignUp
          simp only
          have := sub32_lt (add32 c.loc a) 1
          omega
        split at h
        · next hf =>
          injection h with h; injection h with h1 h2
          subst h1; subst h2
          rw [fits_iff hhi hinv (by omega)] at hf
          exact ⟨takes_carve hhi hinv hf.1 hf.2, alignUp_dvd _ _⟩
        · split at h <;> try (cases h; done)
          next heq =>
            injection h with h; injection h with h1 h2
            subst h1; subst h2
            exact ⟨(ih hinv.tail heq).1.cons hinv, (ih hinv.tail heq).2⟩

theorem allocByteAligned_fail {lo hi size a : Nat} (hhi : hi < W32) (hs : 0 < size)
    (hw : hi + a + size ≤ W32) :
    ∀ {cs}, Inv lo hi cs → allocByteAligned size a cs = .fail →
      ∀ c ∈ cs, ∀ l, a ∣ l → ¬ (c.loc ≤ l ∧ l + size ≤ c.loc + c.size) := by
  intro cs
  induction cs with
  | nil => simp
  | cons c cs ih =>
    intro hinv h
    unfold allocByteAligned at h
    have hc := hinv c (by simp)
    split at h
    · cases h
    · next ha =>
      simp only at h
      have hle := alignUp_le (start := c.loc) (a := a) (by omega) (by omega)
      have hge := alignUp_ge (start := c.loc) (a := a) (by omega) (by omega)
      split at h
      · cases h
      · next hf =>
        rw [fits_iff hhi hinv (by omega)] at hf
        split at h <;> try (cases h; done)
        next heq =>
        intro d hd l hdvd
        simp at hd
        rcases hd with rfl | hd
        · intro hcon
          have := alignUp_least (a := a) (by omega) (by omega) hdvd hcon.1
          omega
        · exact ih hinv.tail heq d hd l hdvd

/-! ### Pages -/

theorem samePage_of {page size p : Nat} (hp : 0 < p) (h : size ≤ p - page % p) :
    SamePage page size p := by
  refine ⟨page / p, Nat.div_mul_le_self _ _, ?_⟩
  have h1 := Nat.div_add_mod page p
  have h2 := Nat.mod_lt page hp
  rw [Nat.add_mul, Nat.mul_comm (page / p)]
  omega

/-- The page loop, when it succeeds. -/
theorem pageLoop_ok {lo hi size p : Nat} {align : Option Nat} {c : Chunk} {cs} (hhi : hi < W32)
    (hp : p < W32) (hinv : Inv lo hi (c :: cs)) (hw : ∀ a, align = some a → hi + a + size ≤ W32)
    {l : Nat} : ∀ {fuel page}, c.loc ≤ page → pageLoop c size align p fuel page = .ok l →
      c.loc ≤ l ∧ l + size ≤ c.loc + c.size ∧ (∀ a, align = some a → a ∣ l) ∧
      (align = none → SamePage l size p) := by
  intro fuel
  induction fuel with
  | zero => intro page _ h; simp [pageLoop] at h
  | succ n ih =>
    intro page hpage h
    have hc := hinv c (by simp)
    unfold pageLoop at h
    rw [end32_eq hhi hinv] at h
    split at h <;> try (cases h; done)
    next hlt =>
    split at h <;> try (cases h; done)
    next hp0 =>
    simp only at h
    have hmod := Nat.mod_lt page (show 0 < p by omega)
    rw [sub32_eq (by omega) (by omega), sub32_eq (by omega) (by omega)] at h
    have hadd : add32 page (min (p - page % p) (c.loc + c.size - page))
        = page + min (p - page % p) (c.loc + c.size - page) := add32_eq (by omega)
    rw [hadd] at h
    split at h
    · next hsz =>
      split at h
      · next a =>
        split at h <;> try (cases h; done)
        next ha0 =>
        have hwa := hw a rfl
        have hle := alignUp_le (start := page) (a := a) (by omega) (by omega)
        split at h
        · next hf =>
          injection h with h
          subst h
          rw [fits_iff hhi hinv (by omega)] at hf
          refine ⟨hf.1, hf.2, ?_, by simp⟩
          intro b hb; cases hb; exact alignUp_dvd _ _
        · exact ih (by omega) h
      · injection h with h
        subst h
        refine ⟨hpage, by omega, by simp, fun _ => ?_⟩
        exact samePage_of (by omega) (by omega)
    · exact ih (by omega) h

/-- The page loop, when it fails: no admissible location at or after `page` in the chunk. -/
theorem pageLoop_fail {lo hi size p : Nat} {align : Option Nat} {c : Chunk} {cs} (hhi : hi < W32)
    (hs : 0 < size) (hp : p < W32) (hinv : Inv lo hi (c :: cs))
    (hw : ∀ a, align = some a → hi + a + size ≤ W32) :
    ∀ {fuel page}, c.loc ≤ page → c.loc + c.size ≤ page + fuel → 
      (page = c.loc ∨ p ∣ page ∨ c.loc + c.size ≤ page) →
      pageLoop c size align p fuel page = .fail →
      ∀ l, page ≤ l → l + size ≤ c.loc + c.size → (∀ a, align = some a → a ∣ l) →
        ¬ SamePage l size p := by
  intro fuel
  induction fuel with
  | zero => intro page _ hf _ _ l h1 h2 _; omega
  | succ n ih =>
    intro page hpage hfuel hstart h l hl1 hl2 hal ⟨k, hk1, hk2⟩
    have hc := hinv c (by simp)
    unfold pageLoop at h
    rw [end32_eq hhi hinv] at h
    split at h
    rotate_left
    · omega
    next hlt =>
    split at h <;> try (cases h; done)
    next hp0 =>
    simp only at h
    have hmod := Nat.mod_lt page (show 0 < p by omega)
    rw [sub32_eq (by omega) (by omega), sub32_eq (by omega) (by omega)] at h
    have hadd : add32 page (min (p - page % p) (c.loc + c.size - page))
        = page + min (p - page % p) (c.loc + c.size - page) := add32_eq (by omega)
    rw [hadd] at h
    -- where the next page starts
    have hnext : p ∣ page + (p - page % p) := by
      refine ⟨page / p + 1, ?_⟩
      have := Nat.div_add_mod page p
      rw [Nat.mul_add]
      omega
    have hrec : pageLoop c size align p n (page + min (p - page % p) (c.loc + c.size - page)) = .fail →
        page + min (p - page % p) (c.loc + c.size - page) ≤ l → False := by
      intro h' hle
      refine ih (by omega) (by omega) ?_ h' l hle hl2 hal ⟨k, hk1, hk2⟩
      by_cases hm : p - page % p ≤ c.loc + c.size - page
      · right; left; rw [Nat.min_eq_left hm]; exact hnext
      · right; right; omega
    -- l lies in the present page, or behind it
    by_cases hbeh : page + min (p - page % p) (c.loc + c.size - page) ≤ l
    · split at h
      · split at h
        · split at h <;> try (cases h; done)
          split at h <;> try (cases h; done)
          exact hrec h hbeh
        · cases h
      · exact hrec h hbeh
    · -- in the present page: it fits
      have hkp : (k + 1) * p ≤ page + (p - page % p) := by
        obtain ⟨m, hm⟩ := hnext
        rw [hm, Nat.mul_comm]
        apply Nat.mul_le_mul_left
        by_cases hkm : k + 1 ≤ m
        · exact hkm
        · exfalso
          have : p * m ≤ p * k := Nat.mul_le_mul_left p (by omega)
          rw [Nat.mul_comm p k] at this
          omega
      have hfit : l + size ≤ page + min (p - page % p) (c.loc + c.size - page) := by omega
      split at h
      · split at h
        · next a =>
          split at h <;> try (cases h; done)
          next ha0 =>
          have hwa := hw a rfl
          have hle := alignUp_le (start := page) (a := a) (by omega) (by omega)
          have hge := alignUp_ge (start := page) (a := a) (by omega) (by omega)
          have hleast := alignUp_least (a := a) (start := page) (by omega) (by omega) (hal a rfl) hl1
          split at h <;> try (cases h; done)
          next hf =>
          rw [fits_iff hhi hinv (by omega)] at hf
          omega
        · cases h
      · omega

/-! ### All requests -/

theorem place_takes {lo hi : Nat} {r : Req} {cs cs' : List Chunk} {l : Nat} (hhi : hi < W32)
    (hinv : Inv lo hi cs) (hw : r.NoWrap hi) (hp : r.PageOk) (h : place r cs = .ok (l, cs')) :
    Takes lo hi cs cs' l r.size := by
  unfold place at h
  split at h
  · next s loc =>
    split at h <;> try (cases h; done)
    next heq =>
    injection h with h; injection h with h1 h2
    subst h1; subst h2
    exact allocAbsolute_takes hhi hw hinv heq
  · next s al pg =>
    unfold allocAligned at h
    split at h
    · exact allocMemory_takes hhi hinv h
    · next p =>
      unfold allocPaged at h
      split at h <;> try (cases h; done)
      split at h <;> try (cases h; done)
      split at h <;> try (cases h; done)
      next hl =>
      injection h with h; injection h with h1 h2
      subst h1; subst h2
      obtain ⟨h1, h2, _⟩ := pageLoop_ok hhi (hp p rfl) hinv hw (Nat.le_refl _) hl
      exact takes_carve hhi hinv h1 h2
    · next a =>
      exact (allocByteAligned_takes hhi (hw a rfl) hinv h).1

theorem Free.range {cs : List Chunk} {l size : Nat} (hsep : Sep cs) (hs : 0 < size)
    (hf : AllFree cs l size) : ∃ c ∈ cs, c.loc ≤ l ∧ l + size ≤ c.loc + c.size := by
  obtain ⟨c, hc, hc1, hc2⟩ := hf l ⟨Nat.le_refl _, by show l < l + size; omega⟩
  simp only [Chunk.range] at hc1 hc2
  refine ⟨c, hc, hc1, ?_⟩
  rcases Nat.lt_or_ge (c.loc + c.size) (l + size) with hlt | hge
  rotate_left
  · exact hge
  exfalso
  obtain ⟨d, hd, hd1, hd2⟩ := hf (c.loc + c.size) ⟨by show l ≤ _; omega, hlt⟩
  simp only [Chunk.range] at hd1 hd2
  -- `c.loc + c.size` cannot be in any chunk
  have key : ∀ (cs : List Chunk), Sep cs → c ∈ cs → d ∈ cs → False := by
    intro cs
    induction cs with
    | nil => simp
    | cons e es ih =>
      intro hsep hc hd
      have hp := List.pairwise_cons.1 hsep
      simp at hc hd
      rcases hc with rfl | hc <;> rcases hd with rfl | hd
      · omega
      · have := hp.1 d hd; omega
      · have := hp.1 c hc; omega
      · exact ih hp.2 hc hd
  exact key cs hsep hc hd

theorem samePage_of_dvd {l size p : Nat} (h : p ∣ l) (hs : size ≤ p) : SamePage l size p := by
  obtain ⟨k, rfl⟩ := h
  refine ⟨k, by rw [Nat.mul_comm]; exact Nat.le_refl _, ?_⟩
  rw [Nat.add_mul, Nat.mul_comm p k]; omega

theorem alignUp_one {start : Nat} (h : start + 1 < W32) : alignUp start 1 = start := by
  rw [alignUp_eq (by omega) h]; omega

/-- Alignment holds for every placement, and the page constraint when the alignment cannot move the
section inside its page. -/
theorem place_wants {lo hi : Nat} {s : Nat} {al pg : Option Nat} {cs cs' : List Chunk} {l : Nat}
    (hhi : hi < W32) (hinv : Inv lo hi cs) (hok : (Req.floating s al pg).Ok hi)
    (h : place (.floating s al pg) cs = .ok (l, cs')) :
    (∀ a, al = some a → a ∣ l) ∧ (∀ p, pg = some p → al = none → SamePage l s p) ∧
    (∀ p, pg = some p → s ≤ p) := by
  obtain ⟨hw, hp⟩ := hok
  unfold place at h
  simp only at h
  unfold allocAligned at h
  split at h
  · simp
  · next p =>
    unfold allocPaged at h
    split at h <;> try (cases h; done)
    split at h <;> try (cases h; done)
    next hsz =>
    split at h <;> try (cases h; done)
    next hl =>
    injection h with h; injection h with h1 h2
    subst h1; subst h2
    obtain ⟨_, _, h3, h4⟩ := pageLoop_ok hhi (hp p rfl) hinv hw (Nat.le_refl _) hl
    refine ⟨h3, ?_, ?_⟩
    · intro q hq hn; cases hq; exact h4 hn
    · intro q hq; cases hq; omega
  · next a =>
    refine ⟨?_, by simp, by simp⟩
    intro b hb; cases hb
    exact (allocByteAligned_takes hhi (hw a rfl) hinv h).2

structure Hist (lo hi : Nat) (cs cs' : List Chunk) (gs : List (Req × Nat)) : Prop where
  inv : Inv lo hi cs'
  within : ∀ g ∈ gs, Range.Within (g.2, g.1.size) lo hi
  cov : ∀ a, freeCover cs a = freeCover cs' a + cover (ranges gs) a
  tot : totalFree cs = totalFree cs' + totalSize (ranges gs)

theorem history_hist {lo hi : Nat} (hhi : hi < W32) : ∀ {rs cs cs' gs}, Inv lo hi cs →
    (∀ r ∈ rs, r.Ok hi) → history rs cs = .ok (gs, cs') → Hist lo hi cs cs' gs := by
  intro rs
  induction rs with
  | nil =>
    intro cs cs' gs hinv _ h
    simp only [history] at h
    injection h with h; injection h with h1 h2
    subst h1; subst h2
    exact ⟨hinv, by simp, by simp [cover, ranges], by simp [totalSize, ranges]⟩
  | cons r rs ih =>
    intro cs cs' gs hinv hok h
    unfold history at h
    have hr := hok r (by simp)
    have hrs : ∀ r ∈ rs, r.Ok hi := fun q hq => hok q (by simp [hq])
    split at h <;> try (cases h; done)
    · next l cs1 heq =>
      have ht := place_takes hhi hinv hr.1 hr.2 heq
      split at h <;> try (cases h; done)
      next gs1 cs2 heq2 =>
      injection h with h; injection h with h1 h2
      subst h1; subst h2
      have hh := ih ht.inv hrs heq2
      refine ⟨hh.inv, ?_, ?_, ?_⟩
      · intro g hg
        simp at hg
        rcases hg with rfl | hg
        · exact ht.within
        · exact hh.within g hg
      · intro a
        have e1 := ht.cov a
        have e2 := hh.cov a
        show _ = _ + cover ((l, r.size) :: ranges gs1) a
        rw [cover_cons]
        omega
      · have e1 := ht.tot
        have e2 := hh.tot
        show _ = _ + totalSize ((l, r.size) :: ranges gs1)
        simp [totalSize] at *
        omega
    · exact ih hinv hrs h

theorem history_sep {lo hi : Nat} (hhi : hi < W32) : ∀ {rs cs cs' gs}, Inv lo hi cs →
    (∀ r ∈ rs, r.Ok hi) → (∀ r ∈ rs, 0 < r.size) → Sep cs → history rs cs = .ok (gs, cs') → Sep cs' := by
  intro rs
  induction rs with
  | nil =>
    intro cs cs' gs hinv _ _ hs h
    simp only [history] at h
    injection h with h; injection h with h1 h2
    subst h2; exact hs
  | cons r rs ih =>
    intro cs cs' gs hinv hok hpos hs h
    unfold history at h
    have hr := hok r (by simp)
    have hrs : ∀ r ∈ rs, r.Ok hi := fun q hq => hok q (by simp [hq])
    have hps : ∀ r ∈ rs, 0 < r.size := fun q hq => hpos q (by simp [hq])
    split at h <;> try (cases h; done)
    · next l cs1 heq =>
      have ht := place_takes hhi hinv hr.1 hr.2 heq
      split at h <;> try (cases h; done)
      next gs1 cs2 heq2 =>
      injection h with h; injection h with h1 h2
      subst h1; subst h2
      exact ih ht.inv hrs hps (ht.sep (hpos r (by simp)) hs) heq2
    · exact ih hinv hrs hps hs h

theorem history_mem {lo hi : Nat} (hhi : hi < W32) {P : Req → Nat → Prop} : ∀ {rs cs cs' gs}, Inv lo hi cs →
    (∀ r ∈ rs, r.Ok hi) → history rs cs = .ok (gs, cs') →
    (∀ r ∈ rs, ∀ cs l cs', Inv lo hi cs → place r cs = .ok (l, cs') → P r l) →
    ∀ g ∈ gs, g.1 ∈ rs ∧ P g.1 g.2 := by
  intro rs
  induction rs with
  | nil =>
    intro cs cs' gs hinv _ h _
    simp only [history] at h
    injection h with h; injection h with h1 h2
    subst h1; simp
  | cons r rs ih =>
    intro cs cs' gs hinv hok h hP
    unfold history at h
    have hr := hok r (by simp)
    have hrs : ∀ r ∈ rs, r.Ok hi := fun q hq => hok q (by simp [hq])
    have hP' := fun q (hq : q ∈ rs) => hP q (by simp [hq])
    split at h <;> try (cases h; done)
    · next l cs1 heq =>
      have ht := place_takes hhi hinv hr.1 hr.2 heq
      split at h <;> try (cases h; done)
      next gs1 cs2 heq2 =>
      injection h with h; injection h with h1 h2
      subst h1; subst h2
      intro g hg
      simp at hg
      rcases hg with rfl | hg
      · exact ⟨by simp, hP r (by simp) cs l cs1 hinv heq⟩
      · have := ih ht.inv hrs heq2 hP' g hg
        exact ⟨by simp [this.1], this.2⟩
    · intro g hg
      have := ih hinv hrs h hP' g hg
      exact ⟨by simp [this.1], this.2⟩

theorem cover_pos {rs : List Range} {a} : 0 < cover rs a ↔ ∃ r ∈ rs, r.Has a := by
  simp [cover, List.countP_pos_iff]

theorem pairwise_of_cover {rs : List Range} (h : ∀ a, cover rs a ≤ 1) : rs.Pairwise Range.Disjoint := by
  induction rs with
  | nil => exact List.Pairwise.nil
  | cons r rs ih =>
    refine List.pairwise_cons.2 ⟨?_, ih (fun a => ?_)⟩
    · intro s hs a ⟨h1, h2⟩
      have h3 := h a
      rw [cover_cons, if_pos h1] at h3
      have : 0 < cover rs a := cover_pos.2 ⟨s, hs, h2⟩
      omega
    · have := h a
      rw [cover_cons] at this
      omega

theorem init_inv (base size : Nat) : Inv base (base + size) (initChunks base size) := by
  intro c hc
  simp [initChunks] at hc
  subst hc
  simp

theorem init_sep (base size : Nat) : Sep (initChunks base size) := by simp [initChunks, Sep]

theorem init_cover (base size a : Nat) :
    freeCover (initChunks base size) a = if Range.Has (base, size) a then 1 else 0 := by
  rw [initChunks, freeCover_cons, freeCover_nil, Chunk.range, Nat.zero_add]

end Verif.Alloc
