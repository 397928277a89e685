import Verif.Alloc.Lemmas
/-!
# Properties of memory placement in one pool (C01, C02, C04, C05, C06, C07)

A *history* is any finite list of placement requests made to a pool that starts out completely
free. `Req.Ok` only says that the numbers in a request do not overflow 32 bits in that pool.
-/
namespace Verif.Alloc

/-- A mixed history used as a running example: a fixed section in the middle, a floating one, an
aligned one, a paged one and one that does not fit. -/
def exHistory : List Req :=
  [.absolute 0x10 0x140, .floating 0x20 none none, .floating 0x11 (some 0x40) none,
   .floating 0x30 none (some 0x100), .floating 0x1000 none none, .floating 0x40 (some 0x10) none]

theorem exHistory_result : history exHistory (initChunks 0x100 0x200) =
    .ok ([(.absolute 0x10 0x140, 0x140), (.floating 0x20 none none, 0x100),
      (.floating 0x11 (some 0x40) none, 0x180), (.floating 0x40 (some 0x10) none, 0x1A0)],
      [⟨0x120, 0x20⟩, ⟨0x150, 0x30⟩, ⟨0x191, 0xF⟩, ⟨0x1E0, 0x120⟩]) := by decide

/-- **C01** Whatever is placed in a pool, in whatever order, never overlaps. -/
theorem C01_placed_ranges_disjoint (base size : Nat) (hpool : base + size < W32) (rs : List Req)
    (hok : ∀ r ∈ rs, r.Ok (base + size)) (gs : List (Req × Nat)) (cs : List Chunk)
    (h : history rs (initChunks base size) = .ok (gs, cs)) :
    (ranges gs).Pairwise Range.Disjoint := by
  have hh := history_hist hpool (init_inv base size) hok h
  apply pairwise_of_cover
  intro a
  have := hh.cov a
  rw [init_cover] at this
  split at this <;> omega

example : ∃ gs cs, history exHistory (initChunks 0x100 0x200) = .ok (gs, cs) ∧
    (∀ r ∈ exHistory, r.Ok (0x100 + 0x200)) ∧ gs.length = 4 :=
  ⟨_, _, exHistory_result, by decide, by decide⟩

/-- **C02** (pool part) Everything placed in a pool lies inside the pool. -/
theorem C02_placed_ranges_within_pool (base size : Nat) (hpool : base + size < W32) (rs : List Req)
    (hok : ∀ r ∈ rs, r.Ok (base + size)) (gs : List (Req × Nat)) (cs : List Chunk)
    (h : history rs (initChunks base size) = .ok (gs, cs)) :
    ∀ g ∈ ranges gs, g.Within base (base + size) := by
  have hh := history_hist hpool (init_inv base size) hok h
  intro g hg
  simp only [ranges, List.mem_map] at hg
  obtain ⟨q, hq, rfl⟩ := hg
  exact hh.within q hq

example : Range.Within (0x180, 0x11) 0x100 (0x100 + 0x200) :=
  C02_placed_ranges_within_pool 0x100 0x200 (by decide) exHistory (by decide) _ _ exHistory_result
    (0x180, 0x11) (by decide)

/-- Without `Req.Ok` containment is false: a fixed section whose end wraps around `2^32` is accepted
far outside its pool, because `cpuByteLocation + size` is computed in `uint32_t`
(xlink/group.c 133). -/
theorem C02_wrapping_request_escapes_pool :
    ∃ (base size : Nat) (r : Req) (l : Nat) (cs : List Chunk),
      base + size < W32 ∧ place r (initChunks base size) = .ok (l, cs) ∧
      ¬ Range.Within (l, r.size) base (base + size) :=
  ⟨0x8000, 0x4000, .absolute 0x20 0xFFFFFFF0, _, _, by decide, rfl, by decide⟩

/-- **C04** Every aligned request that is granted starts at a multiple of its alignment, with or
without a page constraint, in every reachable state. -/
theorem C04_alignment_honoured (base size : Nat) (hpool : base + size < W32) (rs : List Req)
    (hok : ∀ r ∈ rs, r.Ok (base + size)) (gs : List (Req × Nat)) (cs : List Chunk)
    (h : history rs (initChunks base size) = .ok (gs, cs)) :
    ∀ s a page l, (Req.floating s (some a) page, l) ∈ gs → a ∣ l := by
  intro s a page l hg
  have := history_mem (P := fun r l => ∀ s a page, r = Req.floating s (some a) page → a ∣ l) hpool
    (init_inv base size) hok h ?_ _ hg
  · exact this.2 s a page rfl
  · intro r hr cs l cs' hinv hp s a page hreq
    subst hreq
    exact (place_wants hpool hinv (hok _ hr) hp).1 a rfl

example : 0x40 ∣ 0x180 :=
  C04_alignment_honoured 0x100 0x200 (by decide) exHistory (by decide) _ _ exHistory_result
    0x11 0x40 none 0x180 (by decide)

/-- Fixed requests are granted at the requested address or not at all (pool part of C03). -/
theorem C03_fixed_address_in_pool (base size : Nat) (hpool : base + size < W32) (rs : List Req)
    (hok : ∀ r ∈ rs, r.Ok (base + size)) (gs : List (Req × Nat)) (cs : List Chunk)
    (h : history rs (initChunks base size) = .ok (gs, cs)) :
    ∀ s loc l, (Req.absolute s loc, l) ∈ gs → l = loc := by
  intro s loc l hg
  have := history_mem (P := fun r l => ∀ s loc, r = Req.absolute s loc → l = loc) hpool
    (init_inv base size) hok h ?_ _ hg
  · exact this.2 s loc rfl
  · intro r hr cs l cs' hinv hp s loc hreq
    subst hreq
    unfold place at hp
    simp only at hp
    split at hp <;> try (cases hp; done)
    injection hp with hp; injection hp with h1 h2
    exact h1.symm

example : (0x140 : Nat) = 0x140 :=
  C03_fixed_address_in_pool 0x100 0x200 (by decide) exHistory (by decide) _ _ exHistory_result
    0x10 0x140 0x140 (by decide)

/-- **C05**, another part that holds: a paged section whose alignment is a multiple of the page size never
straddles a page. -/
theorem C05_page_aligned_not_crossed_partial (base size : Nat) (hpool : base + size < W32) (rs : List Req)
    (hok : ∀ r ∈ rs, r.Ok (base + size)) (gs : List (Req × Nat)) (cs : List Chunk)
    (h : history rs (initChunks base size) = .ok (gs, cs)) :
    ∀ s a p l, p ∣ a → (Req.floating s (some a) (some p), l) ∈ gs → SamePage l s p := by
  intro s a p l hdvd hg
  have := history_mem (P := fun r l => ∀ s a p, p ∣ a → r = Req.floating s (some a) (some p) → SamePage l s p) hpool
    (init_inv base size) hok h ?_ _ hg
  · exact this.2 s a p hdvd rfl
  · intro r hr cs l cs' hinv hp s a p hdvd hreq
    subst hreq
    have hw := place_wants hpool hinv (hok _ hr) hp
    exact samePage_of_dvd (Nat.dvd_trans hdvd (hw.1 a rfl)) (hw.2.2 p rfl)

example : SamePage 0x200 0x80 0x100 :=
  C05_page_aligned_not_crossed_partial 0x190 0x400 (by decide) [.floating 0x80 (some 0x200) (some 0x100)] (by decide)
    [(.floating 0x80 (some 0x200) (some 0x100), 0x200)] _ (by rfl) 0x80 0x200 0x100 0x200 (by decide) (by decide)

/-- **C05**, the part that holds: a paged section without alignment never straddles a page. Missing:
sections with both `PAGE` and an `ALIGN` that is not a multiple of the page, for which the property is false, see
`C05_aligned_paged_section_straddles_page`. -/
theorem C05_page_not_crossed_partial (base size : Nat) (hpool : base + size < W32) (rs : List Req)
    (hok : ∀ r ∈ rs, r.Ok (base + size)) (gs : List (Req × Nat)) (cs : List Chunk)
    (h : history rs (initChunks base size) = .ok (gs, cs)) :
    ∀ s p l, (Req.floating s none (some p), l) ∈ gs → SamePage l s p := by
  intro s p l hg
  have := history_mem (P := fun r l => ∀ s p, r = Req.floating s none (some p) → SamePage l s p) hpool
    (init_inv base size) hok h ?_ _ hg
  · exact this.2 s p rfl
  · intro r hr cs l cs' hinv hp s p hreq
    subst hreq
    exact (place_wants hpool hinv (hok _ hr) hp).2.1 p rfl rfl

example : SamePage 0x200 0x80 0x100 :=
  C05_page_not_crossed_partial 0x190 0x200 (by decide) [.floating 0x80 none (some 0x100)] (by decide)
    [(.floating 0x80 none (some 0x100), 0x200)] _ (by rfl) 0x80 0x100 0x200 (by decide)

/-- The code violates C05 for sections with both an alignment and a page: the aligned address is not
checked against the page again (xlink/group.c 166-177). Here a $90 byte section with `PAGE[$100]` and
`ALIGN[$80]` is placed at $80 and runs to $110. -/
theorem C05_aligned_paged_section_straddles_page :
    ∃ (base size s a p l : Nat) (cs : List Chunk), base + size < W32 ∧
      (Req.floating s (some a) (some p)).Ok (base + size) ∧
      place (.floating s (some a) (some p)) (initChunks base size) = .ok (l, cs) ∧
      ¬ SamePage l s p := by
  refine ⟨0x10, 0x200, 0x90, 0x80, 0x100, 0x80, _, by decide, by decide, by rfl, ?_⟩
  rintro ⟨k, h1, h2⟩
  omega

/-- The range `[l, l+size)` is inside the pool and overlaps nothing that was placed so far. -/
def Available (base size : Nat) (gs : List (Req × Nat)) (l n : Nat) : Prop :=
  Range.Within (l, n) base (base + size) ∧ ∀ g ∈ ranges gs, Range.Disjoint (l, n) g

/-- An available range consists of free addresses. -/
theorem available_allFree {base size : Nat} (hpool : base + size < W32) {rs : List Req}
    (hok : ∀ r ∈ rs, r.Ok (base + size)) {gs : List (Req × Nat)} {cs : List Chunk}
    (h : history rs (initChunks base size) = .ok (gs, cs)) {l n : Nat}
    (ha : Available base size gs l n) : AllFree cs l n := by
  have hh := history_hist hpool (init_inv base size) hok h
  intro a hra
  have hc := hh.cov a
  rw [init_cover, if_pos ⟨by have := ha.1.1; have := hra.1; simp at *; omega,
    by have := ha.1.2; have := hra.2; simp at *; omega⟩] at hc
  have h0 : ¬ 0 < cover (ranges gs) a := by
    intro hpos
    obtain ⟨g, hg, hga⟩ := cover_pos.1 hpos
    exact ha.2 g hg a ⟨hra, hga⟩
  exact freeCover_pos.1 (by omega)

/-- **C06**, the part that holds: if no section placed so far was empty, a non-empty request without page
constraint is refused only if there is no available location that satisfies it. Missing: paged
requests (see `C06_paged_request_refused_although_room` and `C06_paged_first_chunk_partial`) and histories
with empty sections (see `C06_empty_section_fragments_memory`). -/
theorem C06_refused_only_without_room_partial (base size : Nat) (hpool : base + size < W32)
    (rs : List Req) (hok : ∀ r ∈ rs, r.Ok (base + size)) (hpos : ∀ r ∈ rs, 0 < r.size)
    (gs : List (Req × Nat)) (cs : List Chunk)
    (h : history rs (initChunks base size) = .ok (gs, cs))
    (r : Req) (hr : r.Ok (base + size)) (hrs : 0 < r.size)
    (hunpaged : ∀ s a p, r ≠ .floating s a (some p))
    (hfail : place r cs = .fail) :
    ∀ l, r.Wants l → ¬ Available base size gs l r.size := by
  intro l hwant ha
  have hh := history_hist hpool (init_inv base size) hok h
  have hsep := history_sep hpool (init_inv base size) hok hpos (init_sep _ _) h
  obtain ⟨c, hc, h1, h2⟩ := Free.range hsep hrs (available_allFree hpool hok h ha)
  match r, hr, hrs, hunpaged, hfail, hwant, h2 with
  | .absolute s loc, hr, _, _, hfail, hwant, h2 =>
    simp only [Req.Wants] at hwant
    subst hwant
    have hf : allocAbsolute s l cs = .fail := by
      unfold place at hfail
      simp only at hfail
      split at hfail <;> first | assumption | (cases hfail; done)
    exact allocAbsolute_fail hpool hr.1 hh.inv hf c hc ⟨h1, h2⟩
  | .floating s none none, _, _, _, hfail, _, h2 =>
    have := allocMemory_fail (show allocMemory s cs = .fail from hfail) c hc
    simp only [Req.size] at h2
    omega
  | .floating s (some a) none, hr, hrs, _, hfail, hwant, h2 =>
    exact allocByteAligned_fail hpool hrs (hr.1 a rfl) hh.inv
      (show allocByteAligned s a cs = .fail from hfail) c hc l (hwant.1 a rfl) ⟨h1, h2⟩
  | .floating s a (some p), _, _, hun, _, _, _ => exact hun s a p rfl

/-- A non-trivial refusal: two $90 byte holes remain, $98 bytes are asked for. -/
example : (∀ l, ¬ Available 0x100 0x130
    [((.absolute 0x10 0x190 : Req), 0x190)] l 0x98) := fun l =>
  C06_refused_only_without_room_partial 0x100 0x130 (by decide) [.absolute 0x10 0x190] (by decide)
    (by decide) [(.absolute 0x10 0x190, 0x190)] _ (by rfl) (.floating 0x98 none none) (by decide) (by decide)
    (by simp) (by rfl) l (by simp [Req.Wants])

/-- Within the first free chunk, paged requests are refused only without room. -/
theorem C06_paged_first_chunk_partial (lo hi : Nat) (hhi : hi < W32) (c : Chunk) (cs : List Chunk)
    (hc : lo ≤ c.loc ∧ c.loc + c.size ≤ hi) (hcs : ∀ d ∈ cs, lo ≤ d.loc ∧ d.loc + d.size ≤ hi)
    (s : Nat) (hs : 0 < s) (a : Option Nat) (p : Nat) (hok : (Req.floating s a (some p)).Ok hi)
    (hfail : place (.floating s a (some p)) (c :: cs) = .fail) :
    ∀ l, (Req.floating s a (some p)).Wants l → ¬ Range.Within (l, s) c.loc (c.loc + c.size) := by
  intro l hw hin
  have hinv : Inv lo hi (c :: cs) := by
    intro d hd
    simp at hd
    rcases hd with rfl | hd
    · exact hc
    · exact hcs d hd
  simp only [place, allocAligned] at hfail
  have hfail' : allocPaged s a p (c :: cs) = .fail := by
    cases a <;> exact hfail
  simp only [allocPaged] at hfail'
  split at hfail'
  · obtain ⟨k, h1, h2⟩ := hw.2 p rfl
    rw [Nat.add_mul] at h2
    omega
  · split at hfail' <;> try (cases hfail'; done)
    next hl =>
    exact pageLoop_fail hhi hs (hok.2 p rfl) hinv hok.1 (Nat.le_refl _) (Nat.le_refl _) (Or.inl rfl) hl l
      hin.1 hin.2 hw.1 (hw.2 p rfl)

example : ∀ l, (Req.floating 0x80 none (some 0x100)).Wants l →
    ¬ Range.Within (l, 0x80) 0x190 (0x190 + 0xE0) :=
  C06_paged_first_chunk_partial 0x100 0x400 (by decide) ⟨0x190, 0xE0⟩ [⟨0x300, 0x100⟩] (by decide)
    (by decide) 0x80 (by decide) none 0x100 (by decide) (by rfl)

/-- The code violates C06 for paged requests: only the first free chunk is searched
(`return false` inside the chunk loop, xlink/group.c 188). After one fixed section, $1F0 completely free
bytes remain above it, and yet a $20 byte `PAGE[$100]` section is refused. -/
theorem C06_paged_request_refused_although_room :
    ∃ (base size : Nat) (rs : List Req) (gs : List (Req × Nat)) (cs : List Chunk) (r : Req) (l : Nat),
      base + size < W32 ∧ (∀ q ∈ r :: rs, q.Ok (base + size)) ∧
      (∀ q ∈ r :: rs, 0 < q.size) ∧
      history rs (initChunks base size) = .ok (gs, cs) ∧ place r cs = .fail ∧ r.Wants l ∧
      Available base size gs l r.size := by
  refine ⟨0, 0x200, [.absolute 8 8], [(.absolute 8 8, 8)], _, .floating 0x20 none (some 0x100), 0x100,
    by decide, by decide, by decide, by rfl, by rfl, ?_, ?_, ?_⟩
  · refine ⟨by simp, ?_⟩
    intro p hp; cases hp
    exact ⟨1, by decide, by decide⟩
  · decide
  · intro g hg a
    simp [ranges, Req.size] at hg
    subst hg
    simp [Range.Has, Req.size]
    omega

/-- The code violates C06 after a fixed section of size zero: it splits the free chunk in two, and the
halves are never joined again (xlink/group.c 117-127). Nothing at all has been placed, yet a section that
would exactly fill the pool is refused. -/
theorem C06_empty_section_fragments_memory :
    ∃ (base size : Nat) (rs : List Req) (gs : List (Req × Nat)) (cs : List Chunk) (r : Req) (l : Nat),
      base + size < W32 ∧ (∀ q ∈ r :: rs, q.Ok (base + size)) ∧
      history rs (initChunks base size) = .ok (gs, cs) ∧ place r cs = .fail ∧ r.Wants l ∧
      0 < r.size ∧ Available base size gs l r.size := by
  refine ⟨0, 0x20, [.absolute 0 0x10], [(.absolute 0 0x10, 0x10)], _, .floating 0x20 none none, 0,
    by decide, by decide, by rfl, by rfl, ⟨by simp, by simp⟩, by decide, ⟨by decide, ?_⟩⟩
  intro g hg a
  simp [ranges, Req.size] at hg
  subst hg
  simp [Range.Has, Req.size]

/-- **C07** After any history, every address of the pool is either free or in exactly one placed
range, nothing outside the pool is free, and the byte counts add up. -/
theorem C07_memory_conserved (base size : Nat) (hpool : base + size < W32) (rs : List Req)
    (hok : ∀ r ∈ rs, r.Ok (base + size)) (gs : List (Req × Nat)) (cs : List Chunk)
    (h : history rs (initChunks base size) = .ok (gs, cs)) :
    (∀ a, Range.Has (base, size) a ↔ (Free cs a ∨ ∃ g ∈ ranges gs, g.Has a)) ∧
    (∀ a, ¬ (Free cs a ∧ ∃ g ∈ ranges gs, g.Has a)) ∧
    (∀ a, freeCover cs a ≤ 1) ∧
    totalFree cs + totalSize (ranges gs) = size := by
  have hh := history_hist hpool (init_inv base size) hok h
  refine ⟨?_, ?_, ?_, ?_⟩
  · intro a
    have hc := hh.cov a
    rw [init_cover] at hc
    rw [← freeCover_pos, ← cover_pos]
    split at hc
    · next hin => simp only [hin, true_iff]; omega
    · next hin => simp only [hin, false_iff]; omega
  · intro a ⟨h1, h2⟩
    have hc := hh.cov a
    rw [init_cover] at hc
    have := freeCover_pos.2 h1
    have := cover_pos.2 h2
    split at hc <;> omega
  · intro a
    have hc := hh.cov a
    rw [init_cover] at hc
    split at hc <;> omega
  · have := hh.tot
    simp [totalFree, initChunks] at *
    omega

example : totalFree [⟨0x120, 0x20⟩, ⟨0x150, 0x30⟩, ⟨0x191, 0xF⟩, ⟨0x1E0, 0x120⟩] + totalSize
    (ranges [(.absolute 0x10 0x140, 0x140), (.floating 0x20 none none, 0x100),
      (.floating 0x11 (some 0x40) none, 0x180), (.floating 0x40 (some 0x10) none, 0x1A0)]) = 0x200 :=
  (C07_memory_conserved 0x100 0x200 (by decide) exHistory (by decide) _ _ exHistory_result).2.2.2

/-- Undefined behaviour (a division by zero) is only possible with alignment or page size zero. -/
theorem no_ub_without_zero (s : Nat) (a p : Option Nat) (ha : a ≠ some 0) (hp : p ≠ some 0)
    (cs : List Chunk) : place (.floating s a p) cs ≠ .ub := by
  simp only [place]
  have hmem : ∀ cs : List Chunk, allocMemory s cs ≠ .ub := by
    intro cs
    induction cs with
    | nil => simp [allocMemory]
    | cons c cs ih =>
      unfold allocMemory
      split
      · simp
      · split <;> first | contradiction | simp
  have hbyte : ∀ b, b ≠ 0 → ∀ cs : List Chunk, allocByteAligned s b cs ≠ .ub := by
    intro b hb cs
    induction cs with
    | nil => simp [allocByteAligned]
    | cons c cs ih =>
      unfold allocByteAligned
      rw [if_neg hb]
      simp only
      split
      · simp
      · split <;> first | contradiction | simp
  have hloop : ∀ q, q ≠ 0 → ∀ c fuel page, pageLoop c s a q fuel page ≠ .ub := by
    intro q hq c fuel
    induction fuel with
    | zero => simp [pageLoop]
    | succ n ih =>
      intro page
      unfold pageLoop
      rw [if_neg hq]
      split
      · simp only
        split
        · split
          · next b =>
            rw [if_neg (by intro h; exact ha (by rw [h]))]
            split
            · simp
            · exact ih _
          · simp
        · exact ih _
      · simp
  unfold allocAligned
  split
  · exact hmem cs
  · next q =>
    unfold allocPaged
    split
    · simp
    · split
      · simp
      · split <;> first | (simp; done) | (next hl => exact absurd hl (hloop q (by intro h; exact hp (by rw [h])) _ _ _))
  · next b => exact hbyte b (by intro h; exact ha (by rw [h])) cs

end Verif.Alloc
