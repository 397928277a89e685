import Verif.Image.ChecksumLemmas
/-!
# C21: Game Boy headers
-/
namespace Verif.Image

/-- The check made by the boot program: from 0, every byte of 0x134 to 0x14C is subtracted, and 1. -/
def bootCheck (f : Bytes) : Nat → UInt8
  | 0 => 0
  | n + 1 => bootCheck f n - UInt8.ofNat (val f (0x134 + n)) - 1

/-- Everything but the checksum itself. -/
def wGlobal (i : Nat) : Nat := if i = 0x14E ∨ i = 0x14F then 0 else 1

def wRest (i : Nat) : Nat := if i = 0x14D ∨ i = 0x14E ∨ i = 0x14F then 0 else 1

def wComp (i : Nat) : Nat := if 0x134 ≤ i ∧ i < 0x14D then 1 else 0

theorem toUInt16_toNat (b : UInt8) : b.toUInt16.toNat = b.toNat := by simp

theorem sums_eq (f : Bytes) : ∀ n,
    (sums f n).total.toNat = wsum wRest f n % 65536 ∧ (sums f n).calcComp.toNat = wsum wComp f n % 256 ∧
    (sums f n).cartComp.toNat = (if 0x14D < n then val f 0x14D else 0) ∧
    (sums f n).cart.toNat = (if 0x14E < n then 256 * val f 0x14E else 0) + (if 0x14F < n then val f 0x14F else 0) := by
  intro n
  induction n with
  | zero => simp [sums, wsum]
  | succ n ih =>
    obtain ⟨h1, h2, h3, h4⟩ := ih
    have hv := val_lt f n
    have hg := getOr0_toNat f n
    have e1 : ∀ a : UInt16, a.toNat = wsum wRest f n % 65536 → wRest n = 1 →
        (a + (getOr0 f n).toUInt16).toNat = wsum wRest f (n + 1) % 65536 := by
      intro a ha hw
      rw [UInt16.toNat_add, toUInt16_toNat, hg, ha, wsum, hw]; omega
    have e0 : wRest n = 0 → wsum wRest f (n + 1) = wsum wRest f n := by intro hw; rw [wsum, hw]; omega
    have c0 : wComp n = 0 → wsum wComp f (n + 1) = wsum wComp f n := by intro hw; rw [wsum, hw]; omega
    unfold sums sumStep
    by_cases a1 : n < 0x134
    · rw [if_pos a1]
      refine ⟨e1 _ h1 (by unfold wRest; rw [if_neg (by omega)]), ?_, ?_, ?_⟩
      · rw [c0 (by unfold wComp; rw [if_neg (by omega)])]; exact h2
      · rw [if_neg (by omega)] at h3 ⊢; exact h3
      · rw [if_neg (by omega), if_neg (by omega)] at h4 ⊢; exact h4
    rw [if_neg a1]
    by_cases a2 : n < 0x14D
    · rw [if_pos a2]
      refine ⟨e1 _ h1 (by unfold wRest; rw [if_neg (by omega)]), ?_, ?_, ?_⟩
      · show (_ + getOr0 f n).toNat = _
        rw [UInt8.toNat_add, h2, hg, wsum, show wComp n = 1 by unfold wComp; rw [if_pos (by omega)]]; omega
      · rw [if_neg (by omega)] at h3 ⊢; exact h3
      · rw [if_neg (by omega), if_neg (by omega)] at h4 ⊢; exact h4
    rw [if_neg a2]
    have c0' := c0 (by unfold wComp; rw [if_neg (by omega)])
    by_cases a3 : n = 0x14D
    · rw [if_pos a3]
      refine ⟨?_, ?_, ?_, ?_⟩
      · rw [e0 (by unfold wRest; rw [if_pos (by omega)])]; exact h1
      · rw [c0']; exact h2
      · rw [if_pos (by omega)]; rw [← a3]; exact hg
      · rw [if_neg (by omega), if_neg (by omega)] at h4 ⊢; exact h4
    rw [if_neg a3]
    by_cases a4 : n = 0x14E
    · rw [if_pos a4]
      refine ⟨?_, ?_, ?_, ?_⟩
      · rw [e0 (by unfold wRest; rw [if_pos (by omega)])]; exact h1
      · rw [c0']; exact h2
      · rw [if_pos (by omega)] at h3 ⊢; exact h3
      · rw [if_pos (by omega), if_neg (by omega), ← a4]
        show ((getOr0 f n).toUInt16 <<< 8).toNat = _
        rw [UInt16.toNat_shiftLeft, toUInt16_toNat, hg, Nat.shiftLeft_eq]
        simp; omega
    rw [if_neg a4]
    by_cases a5 : n = 0x14F
    · rw [if_pos a5]
      refine ⟨?_, ?_, ?_, ?_⟩
      · rw [e0 (by unfold wRest; rw [if_pos (by omega)])]; exact h1
      · rw [c0']; exact h2
      · rw [if_pos (by omega)] at h3 ⊢; exact h3
      · rw [if_pos (by omega), if_neg (by omega)] at h4
        rw [if_pos (by omega), if_pos (by omega), ← a5]
        show (_ ||| (getOr0 f n).toUInt16).toNat = _
        rw [UInt16.toNat_or, toUInt16_toNat, hg, h4]
        have : 256 * val f 0x14E + 0 = 2 ^ 8 * val f 0x14E := by omega
        rw [this, ← Nat.two_pow_add_eq_or_of_lt (by omega)]
    rw [if_neg a5]
    refine ⟨e1 _ h1 (by unfold wRest; rw [if_neg (by omega)]), ?_, ?_, ?_⟩
    · rw [c0']; exact h2
    · rw [if_pos (by omega)] at h3 ⊢; exact h3
    · rw [if_pos (by omega), if_pos (by omega)] at h4 ⊢; exact h4

/-- What `updateChecksum` leaves in the file. -/
theorem updateChecksum_val (f : Bytes) :
    val (updateChecksum f) 0x14D = (231 + 256 - wsum wComp f f.length % 256) % 256 ∧
    256 * val (updateChecksum f) 0x14E + val (updateChecksum f) 0x14F =
      (wsum wRest f f.length + val (updateChecksum f) 0x14D) % 65536 ∧
    (∀ i, i ≠ 0x14D → i ≠ 0x14E → i ≠ 0x14F → val (updateChecksum f) i = val f i) := by
  obtain ⟨h1, h2, h3, h4⟩ := sums_eq f f.length
  unfold updateChecksum
  simp only
  generalize hs : sums f f.length = s at h1 h2 h3 h4
  have hcomp : (0xE7 - s.calcComp).toNat = (231 + 256 - wsum wComp f f.length % 256) % 256 := by
    rw [UInt8.toNat_sub, h2]
    have : UInt8.toNat 0xE7 = 231 := rfl
    rw [this]; omega
  generalize 0xE7 - s.calcComp = comp at hcomp
  have htot : (s.total + comp.toUInt16).toNat = (wsum wRest f f.length + comp.toNat) % 65536 := by
    rw [UInt16.toNat_add, toUInt16_toNat, h1]; omega
  generalize s.total + comp.toUInt16 = total at htot
  have b1 : val [(total >>> 8).toUInt8, total.toUInt8] 0 = total.toNat / 256 := by
    have := total.toNat_lt
    simp [val, UInt16.toNat_shiftRight, Nat.shiftRight_eq_div_pow]; omega
  have b2 : val [(total >>> 8).toUInt8, total.toUInt8] 1 = total.toNat % 256 := by
    simp [val]
  have hv : ∀ g : Bytes, ∀ i, val (if s.cartComp ≠ comp then writeAt g 0x14D [comp] else g) i =
      if i = 0x14D ∧ s.cartComp ≠ comp then comp.toNat else val g i := by
    intro g i
    by_cases hc : s.cartComp ≠ comp
    · rw [if_pos hc, writeAt_val (by simp)]
      by_cases hi : i = 0x14D
      · subst hi; rw [if_pos (by simp), if_pos ⟨rfl, hc⟩]; rfl
      · rw [if_neg (by simp; omega), if_neg (by simp [hi])]
    · rw [if_neg hc, if_neg (by simp [hc])]
  have hw : ∀ i, val (if s.cart ≠ total then writeAt f 0x14E [(total >>> 8).toUInt8, total.toUInt8] else f) i =
      if i = 0x14E then total.toNat / 256 else if i = 0x14F then total.toNat % 256 else val f i := by
    intro i
    by_cases hc : s.cart ≠ total
    · rw [if_pos hc, writeAt_val (by simp)]
      by_cases hi : i = 0x14E
      · subst hi; rw [if_pos (by simp), if_pos rfl]; exact b1
      · by_cases hi2 : i = 0x14F
        · subst hi2; rw [if_pos (by simp), if_neg (by decide), if_pos rfl]; exact b2
        · rw [if_neg (by simp; omega), if_neg hi, if_neg hi2]
    · rw [if_neg hc]
      have hc : s.cart = total := Decidable.not_not.1 hc
      have hl : total.toNat = 256 * val f 0x14E + val f 0x14F := by
        rw [← hc, h4]
        have a : (if 0x14E < f.length then 256 * val f 0x14E else 0) = 256 * val f 0x14E := by
          by_cases h : 0x14E < f.length
          · rw [if_pos h]
          · rw [if_neg h, val_behind (by omega)]
        have b : (if 0x14F < f.length then val f 0x14F else 0) = val f 0x14F := by
          by_cases h : 0x14F < f.length
          · rw [if_pos h]
          · rw [if_neg h, val_behind (by omega)]
        rw [a, b]
      have := val_lt f 0x14F
      by_cases hi : i = 0x14E
      · subst hi; rw [if_pos rfl]; omega
      · by_cases hi2 : i = 0x14F
        · subst hi2; rw [if_neg (by decide), if_pos rfl]; omega
        · rw [if_neg hi, if_neg hi2]
  have hD : val (if s.cartComp ≠ comp then writeAt (if s.cart ≠ total then writeAt f 0x14E
      [(total >>> 8).toUInt8, total.toUInt8] else f) 0x14D [comp] else
      (if s.cart ≠ total then writeAt f 0x14E [(total >>> 8).toUInt8, total.toUInt8] else f)) 0x14D = comp.toNat := by
    rw [hv]
    by_cases hc : s.cartComp ≠ comp
    · rw [if_pos ⟨rfl, hc⟩]
    · rw [if_neg (by simp [hc]), hw, if_neg (by decide), if_neg (by decide)]
      have hc : s.cartComp = comp := Decidable.not_not.1 hc
      rw [← hc, h3]
      by_cases h : 0x14D < f.length
      · rw [if_pos h]
      · rw [if_neg h, val_behind (by omega)]
  refine ⟨by rw [hD]; exact hcomp, ?_, ?_⟩
  · have hE := hv (if s.cart ≠ total then writeAt f 0x14E [(total >>> 8).toUInt8, total.toUInt8] else f) 0x14E
    have hF := hv (if s.cart ≠ total then writeAt f 0x14E [(total >>> 8).toUInt8, total.toUInt8] else f) 0x14F
    rw [if_neg (c := (0x14E = 0x14D ∧ s.cartComp ≠ comp)) (by simp), hw 0x14E, if_pos (c := (0x14E = 0x14E)) rfl] at hE
    rw [if_neg (c := (0x14F = 0x14D ∧ s.cartComp ≠ comp)) (by simp), hw 0x14F, if_neg (c := (0x14F = 0x14E)) (by decide),
      if_pos (c := (0x14F = 0x14F)) rfl] at hF
    rw [hD, hE, hF, ← htot]
    omega
  · intro i i1 i2 i3
    rw [hv, if_neg (by simp [i1]), hw, if_neg i2, if_neg i3]

theorem bootCheck_eq (f : Bytes) : ∀ n, n ≤ 25 → (bootCheck f n).toNat =
    (6400 + 256 * wsum wComp f (0x134 + n) - wsum wComp f (0x134 + n) - n) % 256 := by
  intro n
  induction n with
  | zero =>
    intro _
    have : wsum wComp f (0x134 + 0) = 0 := by
      have h : ∀ n, n ≤ 0x134 → wsum wComp f n = 0 := by
        intro n
        induction n with
        | zero => intro _; rfl
        | succ n ih =>
          intro hn
          rw [wsum, ih (by omega), show wComp n = 0 by unfold wComp; rw [if_neg (by omega)]]; omega
      exact h _ (by omega)
    rw [this]; rfl
  | succ n ih =>
    intro hn
    have h := ih (by omega)
    have hv := val_lt f (0x134 + n)
    have hw : wsum wComp f (0x134 + (n + 1)) = wsum wComp f (0x134 + n) + val f (0x134 + n) := by
      show wsum wComp f (0x134 + n) + wComp (0x134 + n) * val f (0x134 + n) = _
      rw [show wComp (0x134 + n) = 1 by unfold wComp; rw [if_pos (by omega)]]; omega
    unfold bootCheck
    rw [UInt8.toNat_sub, UInt8.toNat_sub, h, hw, UInt8.toNat_ofNat']
    have : UInt8.toNat 1 = 1 := rfl
    rw [this]
    omega

/-- The boot program's check and the checksum of the whole image come out right, whatever the image is. -/
theorem C21_checksums_verify (f : Bytes) :
    (bootCheck (updateGameBoy f) 25).toNat = val (updateGameBoy f) 0x14D ∧
    256 * val (updateGameBoy f) 0x14E + val (updateGameBoy f) 0x14F =
      wsum wGlobal (updateGameBoy f) (updateGameBoy f).length % 65536 := by
  unfold updateGameBoy
  generalize updateCartridgeType (updateRomSize (updateLogo f)) = p
  obtain ⟨h1, h2, h3⟩ := updateChecksum_val p
  generalize hg : updateChecksum p = g at h1 h2 h3
  constructor
  · rw [bootCheck_eq g 25 (by omega), h1]
    have e : wsum wComp g (0x134 + 25) = wsum wComp p p.length := by
      have a : wsum wComp g (0x134 + 25) = wsum wComp p (0x134 + 25) := by
        apply wsum_congr
        intro i hi
        rw [h3 i (by omega) (by omega) (by omega)]
      rw [a]
      -- bytes from 0x14D on do not count
      have b : ∀ m, wsum wComp p (0x14D + m) = wsum wComp p 0x14D := by
        intro m
        induction m with
        | zero => rfl
        | succ m ih =>
          show wsum wComp p (0x14D + m) + wComp (0x14D + m) * val p (0x14D + m) = _
          rw [ih, show wComp (0x14D + m) = 0 by unfold wComp; rw [if_neg (by omega)]]; omega
      rw [show 0x134 + 25 = 0x14D from rfl, ← b p.length]
      exact wsum_ext (by omega) (by omega)
    rw [e]
    omega
  · rw [h2]
    generalize hN : 0x150 + p.length + g.length = N
    rw [wsum_ext (w := wGlobal) (f := g) (m := N) (by omega) (by omega),
      wsum_ext (w := wRest) (f := p) (m := N) (by omega) (by omega),
      wsum_single (w := wGlobal) (w' := wRest) (k := 0x14D) ?_ N, if_pos (by omega)]
    · congr 2
      apply wsum_congr
      intro i _
      by_cases hi : i = 0x14D ∨ i = 0x14E ∨ i = 0x14F
      · have : wRest i = 0 := by unfold wRest; rw [if_pos hi]
        rw [this]; omega
      · rw [h3 i (by omega) (by omega) (by omega)]
    · intro i
      unfold wGlobal wRest
      by_cases hi : i = 0x14D
      · subst hi; decide
      · by_cases hj : i = 0x14E ∨ i = 0x14F
        · rw [if_pos hj, if_pos (by omega), if_neg hi]
        · rw [if_neg hj, if_neg (by omega), if_neg hi]

/-! ## The rest of the header -/

theorem ite_writeAt_length {f b : Bytes} {off : Nat} {c : Prop} [Decidable c] (h : off + b.length ≤ f.length) :
    (if c then writeAt f off b else f).length = f.length := by
  by_cases hc : c
  · rw [if_pos hc]
    by_cases hb : b = []
    · subst hb; rfl
    · rw [writeAt_length hb]; omega
  · rw [if_neg hc]

theorem updateLogo_length {f : Bytes} (h : 0x150 ≤ f.length) : (updateLogo f).length = f.length := by
  unfold updateLogo; rw [writeAt_length (by decide)]; simp only [nintendoChar, List.length_cons, List.length_nil]; omega

theorem updateRomSize_length {f : Bytes} (h : 0x150 ≤ f.length) : (updateRomSize f).length = f.length :=
  ite_writeAt_length (by simp only [List.length_cons, List.length_nil]; omega)

theorem updateCartridgeType_length {f : Bytes} : (updateCartridgeType f).length = f.length := by
  unfold updateCartridgeType
  by_cases hc : f.length ≤ 0x8000 ∨ getOr0 f 0x147 ≠ 0
  · rw [if_pos hc]
  · rw [if_neg hc, writeAt_length (by simp)]; simp only [List.length_cons, List.length_nil]; omega

theorem updateChecksum_length {f : Bytes} (h : 0x150 ≤ f.length) : (updateChecksum f).length = f.length := by
  unfold updateChecksum
  have h1 : ∀ (c : Prop) [Decidable c] (a b : UInt8), (if c then writeAt f 0x14E [a, b] else f).length = f.length :=
    fun c _ a b => ite_writeAt_length (by simp only [List.length_cons, List.length_nil]; omega)
  simp only
  rw [ite_writeAt_length (by rw [h1]; simp only [List.length_cons, List.length_nil]; omega), h1]

/-- The image does not get longer. -/
theorem C21_size_kept (f : Bytes) (h : 0x150 ≤ f.length) : (updateGameBoy f).length = f.length := by
  unfold updateGameBoy
  have h1 := updateLogo_length h
  have h2 := updateRomSize_length (f := updateLogo f) (by omega)
  have h3 := updateCartridgeType_length (f := updateRomSize (updateLogo f))
  rw [updateChecksum_length (by omega)]; omega

theorem byte_val (n : Nat) : val [byte n] 0 = n % 256 := by simp [val, byte_toNat]

theorem updateRomSize_val (f : Bytes) (i : Nat) :
    val (updateRomSize f) i = if i = 0x148 then romCode f.length 48 0 % 256 else val f i := by
  unfold updateRomSize
  simp only
  by_cases hc : byte (romCode f.length 48 0) ≠ getOr0 f 0x148
  · rw [if_pos hc, writeAt_val (by simp)]
    by_cases hi : i = 0x148
    · subst hi; rw [if_pos (by simp), if_pos rfl]; exact byte_val _
    · rw [if_neg (by simp; omega), if_neg hi]
  · rw [if_neg hc]
    have hc : byte (romCode f.length 48 0) = getOr0 f 0x148 := Decidable.not_not.1 hc
    by_cases hi : i = 0x148
    · subst hi; rw [if_pos rfl, ← byte_toNat, hc, getOr0_toNat]
    · rw [if_neg hi]

theorem updateCartridgeType_val (f : Bytes) (i : Nat) :
    val (updateCartridgeType f) i = if i = 0x147 ∧ f.length > 0x8000 ∧ val f 0x147 = 0 then 1 else val f i := by
  unfold updateCartridgeType
  have hz : getOr0 f 0x147 ≠ 0 ↔ val f 0x147 ≠ 0 := by
    rw [← getOr0_toNat, ne_eq, ne_eq, ← UInt8.toNat_inj]; rfl
  by_cases hc : f.length ≤ 0x8000 ∨ getOr0 f 0x147 ≠ 0
  · rw [if_pos hc]
    rw [hz] at hc
    rw [if_neg (by omega)]
  · rw [if_neg hc, writeAt_val (by simp)]
    rw [hz] at hc
    by_cases hi : i = 0x147
    · subst hi; rw [if_pos (by simp), if_pos (by omega)]; rfl
    · rw [if_neg (by simp; omega), if_neg (by omega)]

theorem updateLogo_val (f : Bytes) (i : Nat) :
    val (updateLogo f) i = if 0x104 ≤ i ∧ i < 0x134 then val nintendoChar (i - 0x104) else val f i := by
  unfold updateLogo; rw [writeAt_val (by decide)]; rfl

/-- The bytes of the header before the checksums. -/
theorem updateGameBoy_val (f : Bytes) (h : 0x150 ≤ f.length) (i : Nat) (h1 : i ≠ 0x14D) (h2 : i ≠ 0x14E)
    (h3 : i ≠ 0x14F) : val (updateGameBoy f) i =
      if 0x104 ≤ i ∧ i < 0x134 then val nintendoChar (i - 0x104)
      else if i = 0x147 ∧ f.length > 0x8000 ∧ val f 0x147 = 0 then 1
      else if i = 0x148 then romCode f.length 48 0 % 256
      else val f i := by
  unfold updateGameBoy
  rw [(updateChecksum_val _).2.2 i h1 h2 h3, updateCartridgeType_val, updateRomSize_length (by
    rw [updateLogo_length h]; exact h), updateLogo_length h, updateRomSize_val, updateRomSize_val, updateLogo_length h,
    updateLogo_val, updateLogo_val]
  rw [if_neg (c := 0x147 = 0x148) (by decide), if_neg (c := 0x104 ≤ 0x147 ∧ 0x147 < 0x134) (by decide)]
  by_cases hl : 0x104 ≤ i ∧ i < 0x134
  · simp only [if_pos hl]; rw [if_neg (by omega), if_neg (by omega)]
  · simp only [if_neg hl]

theorem romCode_spec (size : Nat) : ∀ n code, size ≤ 0x8000 * 2 ^ (code + n) →
    size ≤ 0x8000 * 2 ^ romCode size n code ∧ code ≤ romCode size n code ∧ romCode size n code ≤ code + n ∧
      (∀ c, code ≤ c → size ≤ 0x8000 * 2 ^ c → romCode size n code ≤ c)
  | 0, code, h => ⟨h, Nat.le_refl _, Nat.le_refl _, fun _ h1 _ => h1⟩
  | n + 1, code, h => by
    unfold romCode
    by_cases hc : size > 0x8000 * 2 ^ code
    · rw [if_pos hc]
      obtain ⟨h1, h2, h3, h4⟩ := romCode_spec size n (code + 1) (by rw [show code + 1 + n = code + (n + 1) by omega]; exact h)
      refine ⟨h1, by omega, by omega, ?_⟩
      intro c hcc hs
      apply h4 c ?_ hs
      rcases Nat.lt_or_ge code c with hlt | hge
      · exact hlt
      · have : c = code := by omega
        subst this; omega
    · rw [if_neg hc]
      exact ⟨by omega, Nat.le_refl _, by omega, fun _ h1 _ => h1⟩

/-- The size code is the smallest whose size, 32 KiB times a power of two, holds the image. -/
theorem C21_rom_size (f : Bytes) (h : 0x150 ≤ f.length) (hl : f.length ≤ 2 ^ 63) :
    f.length ≤ 0x8000 * 2 ^ val (updateGameBoy f) 0x148 ∧
      ∀ c, f.length ≤ 0x8000 * 2 ^ c → val (updateGameBoy f) 0x148 ≤ c := by
  rw [updateGameBoy_val f h _ (by decide) (by decide) (by decide), if_neg (by decide), if_neg (by omega), if_pos rfl]
  obtain ⟨h1, -, h3, h4⟩ := romCode_spec f.length 48 0 (by omega)
  rw [Nat.mod_eq_of_lt (by omega)]
  exact ⟨h1, fun c hc => h4 c (by omega) hc⟩

/-- An image of more than 32 KiB does not claim to have no memory controller; a type that was given is kept. -/
theorem C21_cartridge_type (f : Bytes) (h : 0x150 ≤ f.length) :
    (f.length > 0x8000 → val (updateGameBoy f) 0x147 ≠ 0) ∧
    (f.length ≤ 0x8000 ∨ val f 0x147 ≠ 0 → val (updateGameBoy f) 0x147 = val f 0x147) := by
  rw [updateGameBoy_val f h _ (by decide) (by decide) (by decide), if_neg (by decide)]
  by_cases hc : 0x147 = 0x147 ∧ f.length > 0x8000 ∧ val f 0x147 = 0
  · rw [if_pos hc]; exact ⟨by omega, by omega⟩
  · rw [if_neg hc, if_neg (by decide)]; exact ⟨by omega, fun _ => rfl⟩

/-- `n` bytes of a file as one big endian number. -/
def bigEndian (f : Bytes) (start : Nat) : Nat → Nat
  | 0 => 0
  | n + 1 => 256 * bigEndian f start n + val f (start + n)

theorem bigEndian_congr {f g : Bytes} {a b : Nat} : ∀ n, (∀ i, i < n → val f (a + i) = val g (b + i)) →
    bigEndian f a n = bigEndian g b n
  | 0, _ => rfl
  | n + 1, h => by
    unfold bigEndian; rw [bigEndian_congr n fun i hi => h i (by omega), h n (by omega)]

/-- The boot program compares the 48 bytes of the logo to its own copy. -/
theorem C21_logo (f : Bytes) (h : 0x150 ≤ f.length) : bigEndian (updateGameBoy f) 0x104 48 =
    0xCEED6666CC0D000B03730083000C000D0008111F8889000EDCCC6EE6DDDDD999BBBB67636E0EECCCDDDC999FBBB9333E := by
  have : bigEndian (updateGameBoy f) 0x104 48 = bigEndian nintendoChar 0 48 := by
    apply bigEndian_congr
    intro i hi
    rw [updateGameBoy_val f h _ (by omega) (by omega) (by omega), if_pos (by omega), show 0x104 + i - 0x104 = i by omega,
      Nat.zero_add]
  rw [this]
  decide +kernel

theorem ite_writeAt_other {f b : Bytes} {off k : Nat} {c : Prop} [Decidable c] (hb : b ≠ []) (hk : k < f.length)
    (h : k < off ∨ off + b.length ≤ k) :
    k < (if c then writeAt f off b else f).length ∧ (if c then writeAt f off b else f)[k]? = f[k]? := by
  by_cases hc : c
  · rw [if_pos hc]; exact ⟨by rw [writeAt_length hb]; omega, writeAt_other hb hk h⟩
  · rw [if_neg hc]; exact ⟨hk, rfl⟩

theorem keeps_trans {f g h : Bytes} {k : Nat} (h1 : k < g.length ∧ g[k]? = f[k]?) (h2 : k < h.length ∧ h[k]? = g[k]?) :
    k < h.length ∧ h[k]? = f[k]? := ⟨h2.1, h2.2.trans h1.2⟩

/-- Outside the header nothing changes. -/
theorem C21_other_bytes (f : Bytes) (i : Nat) (h : i < f.length)
    (hi : i < 0x104 ∨ (0x134 ≤ i ∧ i < 0x147) ∨ (0x149 ≤ i ∧ i < 0x14D) ∨ 0x150 ≤ i) :
    (updateGameBoy f)[i]? = f[i]? := by
  have l1 : i < (updateLogo f).length ∧ (updateLogo f)[i]? = f[i]? := by
    have := ite_writeAt_other (f := f) (b := nintendoChar) (off := 0x104) (c := True) (by decide) h
      (by simp only [nintendoChar, List.length_cons, List.length_nil]; omega)
    rw [if_pos trivial] at this; exact this
  have l2 : ∀ g : Bytes, i < g.length → i < (updateRomSize g).length ∧ (updateRomSize g)[i]? = g[i]? := fun g hg =>
    ite_writeAt_other (by simp) hg (by simp only [List.length_cons, List.length_nil]; omega)
  have l3 : ∀ g : Bytes, i < g.length → i < (updateCartridgeType g).length ∧ (updateCartridgeType g)[i]? = g[i]? := by
    intro g hg
    unfold updateCartridgeType
    by_cases hc : g.length ≤ 0x8000 ∨ getOr0 g 0x147 ≠ 0
    · rw [if_pos hc]; exact ⟨hg, rfl⟩
    · rw [if_neg hc]
      exact ⟨by rw [writeAt_length (by simp)]; omega,
        writeAt_other (by simp) hg (by simp only [List.length_cons, List.length_nil]; omega)⟩
  have l4 : ∀ g : Bytes, i < g.length → i < (updateChecksum g).length ∧ (updateChecksum g)[i]? = g[i]? := by
    intro g hg
    unfold updateChecksum
    simp only
    refine keeps_trans (ite_writeAt_other (by simp) hg (by simp only [List.length_cons, List.length_nil]; omega))
      (ite_writeAt_other (by simp) ?_ (by simp only [List.length_cons, List.length_nil]; omega))
    exact (ite_writeAt_other (by simp) hg (by simp only [List.length_cons, List.length_nil]; omega)).1
  have m2 := keeps_trans l1 (l2 _ l1.1)
  have m3 := keeps_trans m2 (l3 _ m2.1)
  exact (keeps_trans m3 (l4 _ m3.1)).2

/-- In the cartridge image every section of the main file is at its offset, outside the header, and the checksums are
right. -/
theorem C21_cartridge (l : List Sect) (g : Bytes) (hf : Fits 0 l) (ha : Apart 0 l) (h : gameboyImage l = .ok g) :
    (bootCheck g 25).toNat = val g 0x14D ∧
    256 * val g 0x14E + val g 0x14F = wsum wGlobal g g.length % 65536 ∧
    ∀ s ∈ l, ∀ p, Placed 0 s none p → ∀ i, i < s.data.length → (p + i < 0x104 ∨ 0x150 ≤ p + i) →
      g[p + i]? = s.data[i]? := by
  unfold gameboyImage at h
  cases hb : writeBinary [] (some 0) l with
  | fail => rw [hb] at h; cases h
  | ub => rw [hb] at h; cases h
  | ok fs =>
    rw [hb] at h; cases h
    obtain ⟨h1, h2⟩ := C21_checksums_verify (fs none)
    refine ⟨h1, h2, ?_⟩
    intro s hs p hp i hi ho
    have hso := C20_section_at_offset [] (some 0) l fs hf ha hb s hs none p hp i hi
    have hsz : p + i < (fs none).length := by
      have h3 : s.data[i]? ≠ none := by rw [ne_eq, List.getElem?_eq_none_iff]; omega
      rw [← hso, ne_eq, List.getElem?_eq_none_iff] at h3
      omega
    rw [C21_other_bytes _ _ hsz (by omega)]
    exact hso

/-! An image of 340 bytes. -/
def smallImage : Bytes := List.replicate 0x134 0 ++ [0x41, 0x42, 0x43] ++ List.replicate 0x19 0 ++ [1, 2, 3, 4]

example : 0x150 ≤ smallImage.length := by decide +kernel

example : ((updateGameBoy smallImage).drop 0x14D).take 3 = [0x21, 0x16, 0x37] := by decide +kernel

/-! A cartridge of one section. -/
def cartSects : List Sect := [⟨false, true, true, false, some 0x150, none, [1, 2, 3]⟩]

example : Fits 0 cartSects ∧ Apart 0 cartSects := by
  refine ⟨⟨by decide, ?_⟩, by simp [Apart, cartSects]⟩
  intro s hs o p hp
  obtain ⟨rfl, loc, hw, rfl⟩ := placed_iff.1 hp
  simp only [cartSects, List.mem_cons, List.not_mem_nil, or_false] at hs
  subst hs
  simp [written] at hw
  subst hw
  decide

example : (match gameboyImage cartSects with | .ok g => (g.drop 0x14D).take 7 | _ => []) =
    [0xFF, 0xDD, 0x82, 1, 2, 3, 0xFF] := by decide +kernel

end Verif.Image
