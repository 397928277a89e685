import Verif.Image.GameBoyProps
/-!
# C22: Sega and HC800 checksums
-/
namespace Verif.Image

/-! ## Mega Drive -/

/-- Big endian words from 0x200 on. -/
def wMega (i : Nat) : Nat := if i < 0x200 then 0 else if i % 2 = 0 then 256 else 1

theorem wsum_zero {w : Nat → Nat} (f : Bytes) : ∀ n, (∀ i, i < n → w i = 0) → wsum w f n = 0
  | 0, _ => rfl
  | n + 1, h => by unfold wsum; rw [wsum_zero f n fun i hi => h i (by omega), h n (by omega)]; omega

theorem megaSum_eq (f : Bytes) : ∀ n, 0x200 + 2 * n ≤ f.length →
    ∃ r, megaSum f n = .ok r ∧ r.toNat = wsum wMega f (0x200 + 2 * n) % 65536
  | 0, _ => by
    rw [wsum_zero f _ fun i hi => by unfold wMega; rw [if_pos (by omega)]]; exact ⟨0, rfl, rfl⟩
  | n + 1, h => by
    obtain ⟨r, h1, h2⟩ := megaSum_eq f n (by omega)
    have k1 : 0x200 + 2 * n < f.length := by omega
    have k2 : 0x200 + 2 * n + 1 < f.length := by omega
    refine ⟨r + (f[0x200 + 2 * n].toUInt16 * 256 + f[0x200 + 2 * n + 1].toUInt16), ?_, ?_⟩
    · rw [megaSum, h1, List.getElem?_eq_getElem k1, List.getElem?_eq_getElem k2]
    have e : wsum wMega f (0x200 + 2 * (n + 1)) = wsum wMega f (0x200 + 2 * n) +
        wMega (0x200 + 2 * n) * val f (0x200 + 2 * n) + wMega (0x200 + 2 * n + 1) * val f (0x200 + 2 * n + 1) := rfl
    have w1 : wMega (0x200 + 2 * n) = 256 := by unfold wMega; rw [if_neg (by omega), if_pos (by omega)]
    have w2 : wMega (0x200 + 2 * n + 1) = 1 := by unfold wMega; rw [if_neg (by omega), if_neg (by omega)]
    have v1 := val_lt f (0x200 + 2 * n)
    have v2 := val_lt f (0x200 + 2 * n + 1)
    rw [e, w1, w2, UInt16.toNat_add, h2, UInt16.toNat_add, UInt16.toNat_mul, toUInt16_toNat, toUInt16_toNat,
      val_eq k1, val_eq k2]
    rw [val_eq k1] at v1
    rw [val_eq k2] at v2
    have : UInt16.toNat 256 = 256 := rfl
    rw [this]
    omega

theorem megaCount_eq {n : Nat} (h : 0x200 ≤ n) (h' : n < 2 ^ 63) : megaCount n = (n - 0x200) / 2 := by
  unfold megaCount; omega

/-- The checksum of a Mega Drive image is the sum of its words from 0x200 on, the end address is that of the last
byte, and everything else is as it was. -/
theorem C22_mega_drive (f : Bytes) (h : 0x200 ≤ f.length) (h' : f.length < 2 ^ 63) (he : f.length % 2 = 0) :
    ∃ g, updateMegaDrive f = .ok g ∧ g.length = f.length ∧
      256 * val g 0x18E + val g 0x18F = wsum wMega g g.length % 65536 ∧
      16777216 * val g 0x1A4 + 65536 * val g 0x1A5 + 256 * val g 0x1A6 + val g 0x1A7 = (f.length - 1) % 4294967296 ∧
      ∀ i, (i < 0x18E ∨ (0x190 ≤ i ∧ i < 0x1A4) ∨ 0x1A8 ≤ i) → g[i]? = f[i]? := by
  unfold updateMegaDrive
  have hc := megaCount_eq h h'
  simp only
  rw [if_neg (by omega)]
  have hm : (f.length + 2 ^ 64 - 1) % 2 ^ 64 = f.length - 1 := by omega
  rw [hm]
  generalize hb1 : put32be (f.length - 1) = b1
  have l1 : b1.length = 4 := by rw [← hb1]; rfl
  have n1 : b1 ≠ [] := by intro hx; rw [hx] at l1; cases l1
  generalize hf1 : writeAt f 0x1A4 b1 = f1
  have lf1 : f1.length = f.length := by rw [← hf1, writeAt_length n1]; omega
  obtain ⟨r, hr, hsum⟩ := megaSum_eq f1 (megaCount f.length) (by omega)
  have hlt := UInt16.toNat_lt r
  rw [hr]
  simp only
  generalize r.toNat = sum at hsum hlt
  generalize hb2 : put16be sum = b2
  have l2 : b2.length = 2 := by rw [← hb2]; rfl
  have n2 : b2 ≠ [] := by intro hx; rw [hx] at l2; cases l2
  have hv1 : ∀ i, val f1 i = if 0x1A4 ≤ i ∧ i < 0x1A4 + b1.length then val b1 (i - 0x1A4) else val f i :=
    fun i => by rw [← hf1]; exact writeAt_val n1 i
  have hv2 : ∀ i, val (writeAt f1 0x18E b2) i =
      if 0x18E ≤ i ∧ i < 0x18E + b2.length then val b2 (i - 0x18E) else val f1 i := fun i => writeAt_val n2 i
  have lg : (writeAt f1 0x18E b2).length = f.length := by rw [writeAt_length n2]; omega
  refine ⟨_, rfl, lg, ?_, ?_, ?_⟩
  · have s1 : 0x200 + 2 * megaCount f.length = f.length := by omega
    have hs : wsum wMega (writeAt f1 0x18E b2) f.length = wsum wMega f1 f.length := by
      apply wsum_congr
      intro i _
      by_cases hi : i < 0x200
      · have : wMega i = 0 := by unfold wMega; rw [if_pos hi]
        rw [this]; omega
      · rw [hv2, if_neg (by omega)]
    have hp := put16be_val (n := sum) (by omega)
    rw [hb2] at hp
    rw [lg, hs, ← s1, ← hsum, hv2 0x18E, hv2 0x18F, if_pos (by omega), if_pos (by omega)]
    exact hp
  · have hp := put32be_val (f.length - 1)
    rw [hb1] at hp
    rw [hv2, hv2, hv2, hv2, if_neg (by omega), if_neg (by omega), if_neg (by omega), if_neg (by omega),
      hv1 0x1A4, hv1 0x1A5, hv1 0x1A6, hv1 0x1A7, if_pos (by omega), if_pos (by omega), if_pos (by omega),
      if_pos (by omega)]
    exact hp
  · intro i hi
    by_cases hk : i < f.length
    · rw [writeAt_other n2 (by omega) (by omega), ← hf1, writeAt_other n1 hk (by omega)]
    · rw [List.getElem?_eq_none (by omega), List.getElem?_eq_none (by omega)]

/-- A shorter image is not written: the loop would run for about 2^63 rounds. -/
theorem C22_short_mega_drive_image (f : Bytes) (h : f.length < 0x200) :
    2 ^ 62 < megaCount f.length ∧ updateMegaDrive f = .fail := by
  have : 2 ^ 62 < megaCount f.length := by unfold megaCount; omega
  exact ⟨this, by unfold updateMegaDrive; simp only; rw [if_pos this]⟩

theorem megaDrive_length {f g : Bytes} (h : updateMegaDrive f = .ok g) : 0x200 ≤ f.length := by
  refine Nat.le_of_not_lt fun hc => ?_
  rw [(C22_short_mega_drive_image f hc).2] at h; cases h

/-- In the Mega Drive image every section of the main file is at its offset, outside the fields of the header. -/
theorem C22_mega_drive_image (l : List Sect) (g : Bytes) (hf : Fits 0 l) (ha : Apart 0 l)
    (h : megaDriveImage l = .ok g) :
    256 * val g 0x18E + val g 0x18F = wsum wMega g g.length % 65536 ∧
    ∀ s ∈ l, ∀ p, Placed 0 s none p → ∀ i, i < s.data.length →
      (p + i < 0x18E ∨ (0x190 ≤ p + i ∧ p + i < 0x1A4) ∨ 0x1A8 ≤ p + i) → g[p + i]? = s.data[i]? := by
  unfold megaDriveImage at h
  cases hb : writeBinary [] (some 0) l with
  | fail => rw [hb] at h; cases h
  | ub => rw [hb] at h; cases h
  | ok fs =>
    rw [hb] at h
    simp only at h
    obtain ⟨e, he⟩ := C20_power_of_two_size [] l fs hf ha hb
    have hlt := main_size_lt (header := []) hf ha none
    have hso := fun s hs p hp i hi => C20_section_at_offset [] (some 0) l fs hf ha hb s hs none p hp i hi
    have hok := megaDrive_length h
    have hle : (fs none).length < 2 ^ 63 := by
      obtain ⟨-, n, h1, h2⟩ := C20_padding_only_appends [] 0 l fs _ hlt hb rfl
      have h3 := congrArg List.length h1
      rw [List.length_append, List.length_replicate] at h3
      rw [if_pos rfl] at h2
      simp only [List.length_nil] at h2 h3 hlt
      omega
    have hev : (fs none).length % 2 = 0 := by
      cases e with
      | zero => rw [he] at hok; omega
      | succ e => rw [he, Nat.pow_succ]; omega
    obtain ⟨g', h1, -, h2, -, h3⟩ := C22_mega_drive (fs none) hok hle hev
    rw [h] at h1
    cases h1
    refine ⟨h2, ?_⟩
    intro s hs p hp i hi hr
    rw [h3 _ hr]
    exact hso s hs p hp i hi

/-! ## Master System -/

/-- Everything but the 16 bytes of the header. -/
def wOutside (header i : Nat) : Nat := if header ≤ i ∧ i < header + 16 then 0 else 1

theorem masterPart_eq {w : Nat → Nat} (f : Bytes) : ∀ n start sum, start + n ≤ f.length →
    (∀ i, start ≤ i → i < start + n → w i = 1) → sum.toNat = wsum w f start % 65536 →
    (masterPart f start n sum).toNat = wsum w f (start + n) % 65536
  | 0, _, _, _, _, hs => hs
  | n + 1, start, sum, hl, hw, hs => by
    unfold masterPart
    have e : start + (n + 1) = start + 1 + n := by omega
    rw [e]
    apply masterPart_eq f n (start + 1) _ (by omega) (fun i h1 h2 => hw i (by omega) (by omega))
    have hk : start < f.length := by omega
    rw [List.getElem?_eq_getElem hk]
    show (sum + f[start].toUInt16).toNat = (wsum w f start + w start * val f start) % 65536
    rw [UInt16.toNat_add, toUInt16_toNat, hs, hw start (by omega) (by omega), val_eq hk]
    omega

theorem wsum_skip {w : Nat → Nat} (f : Bytes) (n : Nat) : ∀ m, (∀ i, n ≤ i → i < n + m → w i = 0) →
    wsum w f (n + m) = wsum w f n
  | 0, _ => rfl
  | m + 1, h => by
    show wsum w f (n + m) + w (n + m) * val f (n + m) = _
    rw [h (n + m) (by omega) (by omega), wsum_skip f n m fun i h1 h2 => h i h1 (by omega)]; omega

theorem masterSum_eq (f : Bytes) (header : Nat) (h : header + 16 ≤ f.length) :
    (masterSum f header).toNat = wsum (wOutside header) f f.length % 65536 := by
  unfold masterSum
  have h1 := masterPart_eq (w := wOutside header) f header 0 0 (by omega)
    (fun i _ hi => by unfold wOutside; rw [if_neg (by omega)]) rfl
  rw [Nat.zero_add] at h1
  have h2 := wsum_skip (w := wOutside header) f header 16 (fun i a b => by unfold wOutside; rw [if_pos (by omega)])
  rw [← h2] at h1
  simp only
  by_cases hl : f.length > header + 16
  · rw [if_pos hl]
    have := masterPart_eq (w := wOutside header) f (f.length - (header + 16)) (header + 16) _ (by omega)
      (fun i a b => by unfold wOutside; rw [if_neg (by omega)]) h1
    rw [this]; congr 2; omega
  · rw [if_neg hl, h1]; congr 2; omega

/-- The code of each size the hardware knows. -/
def sizeTable : List (Nat × Nat) :=
  [(8, 0xA), (16, 0xB), (32, 0xC), (48, 0xD), (64, 0xE), (128, 0xF), (256, 0), (512, 1), (1024, 2)]

theorem sizeCode_table (code : UInt8) (k c : Nat) (h : (k, c) ∈ sizeTable) :
    (sizeCode code (1024 * k)).toNat = code.toNat / 16 * 16 + c := by
  have h1 : ∀ n ∈ List.range 256, ∀ c ∈ List.range 16,
      ((UInt8.ofNat n &&& 0xF0) ||| UInt8.ofNat c).toNat = n / 16 * 16 + c := by decide +kernel
  have h0 : ∀ x : UInt8, ∀ c ∈ List.range 16, ((x &&& 0xF0) ||| UInt8.ofNat c).toNat = x.toNat / 16 * 16 + c := by
    intro x c hc
    have := h1 x.toNat (List.mem_range.2 (UInt8.toNat_lt x)) c hc
    rwa [UInt8.ofNat_toNat] at this
  simp only [sizeTable, List.mem_cons, Prod.mk.injEq, List.not_mem_nil, or_false] at h
  rcases h with ⟨rfl, rfl⟩ | ⟨rfl, rfl⟩ | ⟨rfl, rfl⟩ | ⟨rfl, rfl⟩ | ⟨rfl, rfl⟩ | ⟨rfl, rfl⟩ | ⟨rfl, rfl⟩ | ⟨rfl, rfl⟩ |
    ⟨rfl, rfl⟩ <;> exact h0 code _ (by decide)

/-- The header of a Master System image: signature, sum of all bytes outside the header, size code with the region
kept; everything else is as it was. -/
theorem C22_master_system (f : Bytes) (header : Nat) (h : header + 16 ≤ f.length) :
    (updateMasterSystem f header).length = f.length ∧
    (∀ i, i < 10 → (updateMasterSystem f header)[header + i]? = ("TMR SEGA  ".toList.map fun c => byte c.toNat)[i]?) ∧
    val (updateMasterSystem f header) (header + 10) + 256 * val (updateMasterSystem f header) (header + 11) =
      wsum (wOutside header) (updateMasterSystem f header) (updateMasterSystem f header).length % 65536 ∧
    (∀ k c, (k, c) ∈ sizeTable → f.length = 1024 * k →
      val (updateMasterSystem f header) (header + 15) = val f (header + 15) / 16 * 16 + c) ∧
    (∀ i, i < header ∨ (header + 12 ≤ i ∧ i < header + 15) ∨ header + 16 ≤ i →
      (updateMasterSystem f header)[i]? = f[i]?) := by
  unfold updateMasterSystem
  simp only
  have hsum := masterSum_eq f header h
  have hlt := UInt16.toNat_lt (masterSum f header)
  generalize (masterSum f header).toNat = sum at hsum hlt
  have hp := put16le_val (n := sum) (by omega)
  have lt : tmrSega.length = 10 := rfl
  have lp : (put16le sum).length = 2 := rfl
  generalize put16le sum = b at hp lp
  have l1 : (tmrSega ++ b).length = 12 := by rw [List.length_append]; omega
  have n1 : tmrSega ++ b ≠ [] := by intro hx; rw [hx] at l1; cases l1
  generalize hf1 : writeAt f header (tmrSega ++ b) = f1
  have lf1 : f1.length = f.length := by rw [← hf1, writeAt_length n1]; omega
  have hcode : f1[header + 15]? = f[header + 15]? := by rw [← hf1]; exact writeAt_other n1 (by omega) (by omega)
  rw [hcode]
  have hk : header + 15 < f.length := by omega
  generalize hc : sizeCode ((f[header + 15]?).getD 255) f.length = code
  have lg : (writeAt f1 (header + 15) [code]).length = f.length := by
    rw [writeAt_length (by simp)]; simp only [List.length_cons, List.length_nil]; omega
  have ho : ∀ i, i < f.length → i ≠ header + 15 → (writeAt f1 (header + 15) [code])[i]? = f1[i]? := by
    intro i hi hne
    exact writeAt_other (by simp) (by omega) (by simp only [List.length_cons, List.length_nil]; omega)
  have hv : ∀ i, i ≠ header + 15 → val (writeAt f1 (header + 15) [code]) i = val f1 i := by
    intro i hne
    rw [writeAt_val (by simp), if_neg (by simp only [List.length_cons, List.length_nil]; omega)]
  have hv1 : ∀ i, val f1 i = if header ≤ i ∧ i < header + (tmrSega ++ b).length then val (tmrSega ++ b) (i - header)
      else val f i := fun i => by rw [← hf1]; exact writeAt_val n1 i
  have hb : ∀ i, val (tmrSega ++ b) (10 + i) = val b i := by
    intro i; unfold val; rw [List.getElem?_append_right (by omega), lt, show 10 + i - 10 = i by omega]
  refine ⟨lg, ?_, ?_, ?_, ?_⟩
  · intro i hi
    rw [ho _ (by omega) (by omega), ← hf1, writeAt_get' n1, if_pos (by omega), List.getElem?_append_left (by omega),
      show header + i - header = i by omega]
    rfl
  · rw [hv _ (by omega), hv _ (by omega), hv1, hv1, if_pos (by omega), if_pos (by omega),
      show header + 10 - header = 10 + 0 by omega, show header + 11 - header = 10 + 1 by omega, hb, hb, hp, hsum, lg]
    congr 1
    apply wsum_congr
    intro i _
    by_cases hi : header ≤ i ∧ i < header + 16
    · have : wOutside header i = 0 := by unfold wOutside; rw [if_pos hi]
      rw [this]; omega
    · rw [hv i (by omega), hv1, if_neg (by omega)]
  · intro k c hm hl
    rw [writeAt_val (by simp), if_pos (by simp), Nat.sub_self]
    show code.toNat = _
    rw [← hc, hl, sizeCode_table _ k c hm, List.getElem?_eq_getElem hk, val_eq hk]
    rfl
  · intro i hi
    by_cases hx : i < f.length
    · rw [ho i hx (by omega), ← hf1, writeAt_other n1 hx (by omega)]
    · rw [List.getElem?_eq_none (by omega), List.getElem?_eq_none (by omega)]

/-! ## HC800 -/

theorem kernalSum_eq (f : Bytes) : ∀ n, (kernalSum f n).toNat = wsum (fun _ => 1) f n % 256
  | 0 => rfl
  | n + 1 => by
    unfold kernalSum wsum
    rw [UInt8.toNat_add, kernalSum_eq f n, getOr0_toNat]; omega

/-- The bytes of a kernal image add up to 0xA5; only byte 7 changes. -/
theorem C22_kernal (f : Bytes) :
    wsum (fun _ => 1) (updateKernal f) (updateKernal f).length % 256 = 0xA5 ∧
    (∀ i, i < f.length → i ≠ 7 → (updateKernal f)[i]? = f[i]?) ∧
    (8 ≤ f.length → (updateKernal f).length = f.length) := by
  unfold updateKernal
  simp only
  generalize hf1 : writeAt f 7 [0] = f1
  have lf1 : f1.length = max f.length 8 := by rw [← hf1, writeAt_length (by simp)]; rfl
  have hs := kernalSum_eq f1 f1.length
  have hc : (0xA5 - kernalSum f1 f1.length).toNat = (165 + 256 - wsum (fun _ => 1) f1 f1.length % 256) % 256 := by
    rw [UInt8.toNat_sub, hs]
    have : UInt8.toNat 0xA5 = 165 := rfl
    rw [this]; omega
  generalize 0xA5 - kernalSum f1 f1.length = c at hc
  have lg : (writeAt f1 7 [c]).length = f1.length := by
    rw [writeAt_length (by simp)]; simp only [List.length_cons, List.length_nil]; omega
  have hv : ∀ i, val (writeAt f1 7 [c]) i = if i = 7 then c.toNat else val f1 i := by
    intro i
    rw [writeAt_val (by simp)]
    by_cases hi : i = 7
    · subst hi; rw [if_pos (by simp), if_pos rfl]; rfl
    · rw [if_neg (by simp only [List.length_cons, List.length_nil]; omega), if_neg hi]
  have hz : val f1 7 = 0 := by rw [← hf1, writeAt_val (by simp), if_pos (by simp)]; rfl
  refine ⟨?_, ?_, ?_⟩
  · have e : ∀ g : Bytes, ∀ n, wsum (fun _ => 1) g n = wsum (fun i => if i = 7 then 0 else 1) g n +
        if 7 < n then val g 7 else 0 := fun g n => wsum_single (fun i => by by_cases hi : i = 7 <;> simp [hi]) n
    have a := e (writeAt f1 7 [c]) f1.length
    have b := e f1 f1.length
    rw [if_pos (by omega), hv, if_pos rfl] at a
    rw [if_pos (by omega), hz] at b
    have d : wsum (fun i => if i = 7 then 0 else 1) (writeAt f1 7 [c]) f1.length =
        wsum (fun i => if i = 7 then 0 else 1) f1 f1.length := by
      apply wsum_congr
      intro i _
      by_cases hi : i = 7
      · simp [hi]
      · rw [hv]; simp [hi]
    rw [lg, a, d]
    omega
  · intro i hi h7
    rw [writeAt_other (by simp) (by omega) (by simp only [List.length_cons, List.length_nil]; omega), ← hf1,
      writeAt_other (by simp) hi (by simp only [List.length_cons, List.length_nil]; omega)]
  · intro h8; omega

/-- In the kernal image every section of the main file is at its offset, except for byte 7. -/
theorem C22_kernal_image (l : List Sect) (g : Bytes) (hf : Fits 0 l) (ha : Apart 0 l) (h : kernalImage l = .ok g) :
    wsum (fun _ => 1) g g.length % 256 = 0xA5 ∧
    ∀ s ∈ l, ∀ p, Placed 0 s none p → ∀ i, i < s.data.length → p + i ≠ 7 → g[p + i]? = s.data[i]? := by
  unfold kernalImage at h
  cases hb : writeBinary [] (some 0) l with
  | fail => rw [hb] at h; cases h
  | ub => rw [hb] at h; cases h
  | ok fs =>
    rw [hb] at h; cases h
    obtain ⟨h1, h2, -⟩ := C22_kernal (fs none)
    refine ⟨h1, ?_⟩
    intro s hs p hp i hi h7
    have hso := C20_section_at_offset [] (some 0) l fs hf ha hb s hs none p hp i hi
    have hsz : p + i < (fs none).length := by
      have h3 : s.data[i]? ≠ none := by rw [ne_eq, List.getElem?_eq_none_iff]; omega
      rw [← hso, ne_eq, List.getElem?_eq_none_iff] at h3
      omega
    rw [h2 _ hsz h7]
    exact hso

/-! ### Where the code does not do what is expected -/

/-- A Master System image is never written: the output file must exist, and if it does, the header is written to a
closed file. -/
theorem C22_master_system_image_never_written (old : Option Bytes) (g : Bytes) : masterSystemImage old ≠ .ok g := by
  cases old <;> simp [masterSystemImage]

/-- When the image ends before the header, bytes that are not there count as 65535: here the 4 bytes of the image add up
to 4, the checksum is 65536 - 12 + 4. -/
theorem C22_short_master_system_image : ∃ (f : Bytes) (header : Nat),
    (val (updateMasterSystem f header) (header + 10) + 256 * val (updateMasterSystem f header) (header + 11) = 65528) ∧
    wsum (wOutside header) (updateMasterSystem f header) (updateMasterSystem f header).length = 4 :=
  ⟨[1, 1, 1, 1], 16, by decide +kernel, by decide +kernel⟩

/-! Non-trivial cases. -/
def md : Bytes := List.replicate 0x200 0 ++ [1, 2, 0xFF, 4]

example : 0x200 ≤ md.length ∧ md.length < 2 ^ 63 ∧ md.length % 2 = 0 := by decide +kernel

example : (match updateMegaDrive md with | .ok g => (g.drop 0x18E).take 2 ++ (g.drop 0x1A4).take 4 | _ => [])
    = [0x00, 0x06, 0, 0, 2, 3] := by decide +kernel

example : (updateMasterSystem ((List.range 40).map UInt8.ofNat) 16).drop 16 =
    tmrSega ++ [0x94, 1, 28, 29, 30, 0x12, 32, 33, 34, 35, 36, 37, 38, 39] := by decide +kernel

example : updateKernal [1, 2, 3, 4, 5, 6, 7, 99, 9] = [1, 2, 3, 4, 5, 6, 7, 0x80, 9] := by decide +kernel

end Verif.Image
