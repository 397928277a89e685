import Verif.Assign.Props
import Verif.Alloc.Props
/-!
# C06 for the whole linker: placement fails only if there is no room
-/
namespace Verif.Assign
open Verif.Alloc

/-- A refused request without page constraint has no suitable free range. -/
theorem refused_not_free {lo hi : Nat} (hhi : hi < W32) {cs : List Chunk} (hinv : Inv lo hi cs) (hsep : Sep cs)
    {r : Req} (hr : r.Ok hi) (hrs : 0 < r.size) (hunpaged : ∀ s a p, r ≠ .floating s a (some p))
    (hfail : place r cs = .fail) {l : Nat} (hwant : r.Wants l) : ¬ AllFree cs l r.size := by
  intro hf
  obtain ⟨c, hc, h1, h2⟩ := Free.range hsep hrs hf
  match r, hr, hrs, hunpaged, hfail, hwant, h2 with
  | .absolute s loc, hr, _, _, hfail, hwant, h2 =>
    simp only [Req.Wants] at hwant
    subst hwant
    have hf : allocAbsolute s l cs = .fail := by
      unfold place at hfail
      simp only at hfail
      split at hfail <;> first | assumption | (cases hfail; done)
    exact allocAbsolute_fail hhi hr.1 hinv hf c hc ⟨h1, h2⟩
  | .floating s none none, _, _, _, hfail, _, h2 =>
    have := allocMemory_fail (show allocMemory s cs = .fail from hfail) c hc
    simp only [Req.size] at h2
    omega
  | .floating s (some a) none, hr, hrs, _, hfail, hwant, h2 =>
    exact allocByteAligned_fail hhi hrs (hr.1 a rfl) hinv
      (show allocByteAligned s a cs = .fail from hfail) c hc l (hwant.1 a rfl) ⟨h1, h2⟩
  | .floating s a (some p), _, _, hun, _, _, _ => exact hun s a p rfl

theorem allocFromPools_fail {r : Req} {bank : Int} {pools : List Pool} :
    ∀ {is}, allocFromPools r bank pools is = .fail →
      ∀ k ∈ is, ∀ p, pools[k]? = some p → (bank = -1 ∨ bank = p.bank) → place r p.free = .fail := by
  intro is
  induction is with
  | nil => intro _ k hk; simp at hk
  | cons i is ih =>
    intro h k hk p hp hb
    unfold allocFromPools at h
    split at h
    · cases h
    next pool hpool =>
    rcases List.mem_cons.1 hk with rfl | hk
    · rw [hp] at hpool
      obtain rfl := Option.some.inj hpool
      rw [if_pos hb] at h
      split at h
      · cases h
      · assumption
      · cases h
    · split at h
      · split at h
        · cases h
        · exact ih h k hk p hp hb
        · cases h
      · exact ih h k hk p hp hb

/-- The free lists of all pools are in order. -/
def PoolsSep (pools : List Pool) : Prop := ∀ p ∈ pools, Sep p.free

theorem allocFromPools_sep {r : Req} {bank : Int} {pools pools' : List Pool} {spot : Spot} {is : List Nat}
    (hok : PoolsOk pools) (hsep : PoolsSep pools) (hr : ∀ p ∈ pools, r.Ok (p.base + p.size)) (hs : 0 < r.size)
    (h : allocFromPools r bank pools is = .ok (spot, pools')) : PoolsSep pools' := by
  obtain ⟨_, pool, free', hp, _, hpl, rfl⟩ := allocFromPools_ok h
  have hm : pool ∈ pools := List.mem_of_getElem? hp
  intro q hq
  rcases List.mem_or_eq_of_mem_set hq with hq | rfl
  · exact hsep q hq
  · exact (place_takes (hok.lt pool hm) (hok.inv pool hm) (hr pool hm).1 (hr pool hm).2 hpl).sep hs (hsep pool hm)

theorem assignAbsolute_sep {gs : List MGroup} {pools pools' : List Pool} {s s' : Section} {g : SGroup} {l : Nat}
    (hok : PoolsOk pools) (hsep : PoolsSep pools) (hso : s.Ok pools) (hs : 0 < s.size) (hl : s.byteLoc = some l)
    (h : assignAbsolute gs pools s g l = .ok (pools', s')) : PoolsSep pools' := by
  unfold assignAbsolute at h
  split at h
  · cases h
  split at h
  · cases h
  · cases h
  next spot pools1 hal =>
  split at h
  · cases h
  injection h with h; injection h with h1 h2
  subst h1
  exact allocFromPools_sep hok hsep (r := .absolute s.size l) (fun p hp => ⟨(hso p hp).2 l hl, trivial⟩) hs hal

theorem assignFloating_sep {gs : List MGroup} {pools pools' : List Pool} {s s' : Section} {g : SGroup}
    (hok : PoolsOk pools) (hsep : PoolsSep pools) (hso : s.Ok pools) (hs : 0 < s.size)
    (h : assignFloating gs pools s g = .ok (pools', s')) : PoolsSep pools' := by
  unfold assignFloating at h
  split at h
  · cases h
  split at h
  · cases h
  · cases h
  next spot pools1 hal =>
  split at h
  · cases h
  split at h
  · cases h
  injection h with h; injection h with h1 h2
  subst h1
  exact allocFromPools_sep hok hsep (fun p hp => (hso p hp).1) hs hal

theorem core_sep {gs : List MGroup} {k : Option Kind} {pools pools' : List Pool} {s s' : Section} {b : Bool}
    (hok : PoolsOk pools) (hsep : PoolsSep pools) (hso : s.Ok pools) (hs : 0 < s.size)
    (h : (if b then assignSectionCore gs k pools s else .ok (pools, s)) = .ok (pools', s')) : PoolsSep pools' := by
  have hid : (Outcome.ok (pools, s) : Outcome (List Pool × Section)) = .ok (pools', s') → PoolsSep pools' := by
    intro h; injection h with h; injection h with h1 h2; subst h1; exact hsep
  split at h
  · unfold assignSectionCore at h
    split at h
    · split at h
      · cases h
      · exact assignFloating_sep hok hsep hso hs h
    · exact hid h
  · exact hid h

theorem run_sep {gs : List MGroup} {p : Pass} {pools pools' : List Pool} {s s' : Section}
    (hok : PoolsOk pools) (hsep : PoolsSep pools) (hso : s.Ok pools) (hs : 0 < s.size)
    (h : p.run gs pools s = .ok (pools', s')) : PoolsSep pools' := by
  have hid : (Outcome.ok (pools, s) : Outcome (List Pool × Section)) = .ok (pools', s') → PoolsSep pools' := by
    intro h; injection h with h; injection h with h1 h2; subst h1; exact hsep
  have hfix : ∀ b, assignFixedCore gs p.pred b pools s = .ok (pools', s') → PoolsSep pools' := by
    intro b h
    unfold assignFixedCore at h
    split at h
    · exact hid h
    next l hl =>
    split at h
    · split at h
      · cases h
      · exact assignAbsolute_sep hok hsep hso hs hl h
    · exact hid h
  obtain ⟨how, k⟩ := p
  cases how
  case orgBank => exact hfix _ h
  case org => exact hfix _ h
  case plain =>
    simp only [Pass.run, assignSection] at h
    split at h
    · exact hid h
    · split at h
      · injection h with h; injection h with h1 h2; subst h1; exact hsep
      · split at h
        · exact assignFloating_sep hok hsep hso hs h
        · exact hid h
  all_goals exact core_sep hok hsep hso hs h

theorem sweep_sep {gs : List MGroup} {p : Pass} (hwf : p.Wf) : ∀ {ss pools pools' ss'}, PoolsOk pools →
    PoolsSep pools → (∀ s ∈ ss, Fresh s ∧ OkIfFresh pools s ∧ (s.used = true → 0 < s.size)) →
    sweep gs p pools ss = .ok (pools', ss') → PoolsSep pools' := by
  intro ss
  induction ss with
  | nil =>
    intro pools pools' ss' _ hsep _ h
    simp only [sweep] at h
    injection h with h; injection h with h1 h2
    subst h1; exact hsep
  | cons s ss ih =>
    intro pools pools' ss' hok hsep hss h
    simp only [sweep] at h
    have hs0 := hss s (by simp)
    split at h
    · cases h
    · cases h
    next pools1 s' hrun =>
    split at h
    · cases h
    · cases h
    next pools2 ss2 hsw =>
    injection h with h; injection h with h1 h2
    subst h1
    obtain ⟨hst, _⟩ := after_one' hwf hok hs0.1 hs0.2.1 hrun
    have hsep1 : PoolsSep pools1 := by
      cases hu : s.used with
      | false =>
        rw [hu] at hrun
        injection hrun with h; injection h with h1 h2
        subst h1; exact hsep
      | true =>
        rw [hu] at hrun
        simp only [if_true] at hrun
        cases ha : s.assigned with
        | true =>
          rw [run_assigned hwf ha] at hrun
          injection hrun with h; injection h with h1 h2
          subst h1; exact hsep
        | false => exact run_sep hok hsep (hs0.2.1 ha) (hs0.2.2 hu) hrun
    refine ih hst.ok hsep1 (fun t ht => ?_) hsw
    have := hss t (by simp [ht])
    exact ⟨this.1, fun hf => Section.Ok.static hst.static (this.2.1 hf), this.2.2⟩

theorem After.same {gs : List MGroup} {pools : List Pool} {ps : List Pass} {s t : Section}
    (h : After gs pools ps s t) :
    t = s ∨ (s.assigned = false ∧ t.assigned = true ∧ (PlacedEqu s t ∨ ∃ k l, PlacedAt gs pools s t k l)) := by
  unfold After at h
  split at h
  · exact .inl h
  next hc =>
  have ha : s.assigned = false := by
    cases h' : s.assigned with
    | true => simp [h'] at hc
    | false => rfl
  split at h
  · exact .inl h
  next q hq =>
  have hq' := List.find?_some hq
  have hne : q.act s ≠ .nothing := by intro h; simp [h] at hq'
  have hta := h.assigned hne
  cases hact : q.act s with
  | nothing => exact absurd hact hne
  | equ => rw [hact] at h; exact .inr ⟨ha, hta, .inl h⟩
  | fixed => rw [hact] at h; obtain ⟨k, l, h, _⟩ := h; exact .inr ⟨ha, hta, .inr ⟨k, l, h⟩⟩
  | floating => rw [hact] at h; obtain ⟨k, l, h, _⟩ := h; exact .inr ⟨ha, hta, .inr ⟨k, l, h⟩⟩

theorem After.size {gs : List MGroup} {pools : List Pool} {ps : List Pass} {s t : Section}
    (h : After gs pools ps s t) : t.size = s.size ∧ t.used = s.used := by
  rcases h.same with rfl | ⟨_, _, h | ⟨k, l, h⟩⟩
  · exact ⟨rfl, rfl⟩
  · exact ⟨h.same.size, h.same.used⟩
  · exact ⟨h.same.size, h.same.used⟩

theorem runPasses_sep {gs : List MGroup} : ∀ {ps pools pools' ss ss'}, (∀ p ∈ ps, Pass.Wf p) → PoolsOk pools →
    PoolsSep pools → (∀ s ∈ ss, Fresh s ∧ OkIfFresh pools s ∧ (s.used = true → 0 < s.size)) →
    runPasses gs ps pools ss = .ok (pools', ss') → PoolsSep pools' := by
  intro ps
  induction ps with
  | nil =>
    intro pools pools' ss ss' _ _ hsep _ h
    simp only [runPasses] at h
    injection h with h; injection h with h1 h2
    subst h1; exact hsep
  | cons p ps ih =>
    intro pools pools' ss ss' hwf hok hsep hss h
    simp only [runPasses] at h
    split at h
    · cases h
    · cases h
    next pools1 ss1 hsw =>
    have h1 := sweep_ok' (hwf p (by simp)) hok (fun s hs => ⟨(hss s hs).1, (hss s hs).2.1⟩) hsw
    have h2 := sweep_sep (hwf p (by simp)) hok hsep hss hsw
    refine ih (fun q hq => hwf q (by simp [hq])) h1.ok h2 ?_ h
    refine All2.mem_right h1.secs ?_
    intro s t hs ht
    have h3 := hss s hs
    refine ⟨ht.fresh h3.1, ?_, ?_⟩
    · intro hf
      exact Section.Ok.static h1.static (ht.okIfFresh h3.2.1 hf)
    · rw [ht.size.1, ht.size.2]; exact h3.2.2

/-! ### Where a failure comes from -/

theorem sweep_fail {gs : List MGroup} {p : Pass} : ∀ {ss pools}, sweep gs p pools ss = .fail →
    ∃ pre s post pools1 pre', ss = pre ++ s :: post ∧ sweep gs p pools pre = .ok (pools1, pre') ∧
      s.used = true ∧ p.run gs pools1 s = .fail := by
  intro ss
  induction ss with
  | nil => intro pools h; simp [sweep] at h
  | cons s ss ih =>
    intro pools h
    simp only [sweep] at h
    split at h
    next hrun =>
      cases hu : s.used with
      | false => rw [hu] at hrun; cases hrun
      | true =>
        rw [hu] at hrun
        exact ⟨[], s, ss, pools, [], rfl, rfl, hu, hrun⟩
    · cases h
    next pools1 s' hrun =>
    split at h
    next hsw =>
      obtain ⟨pre, t, post, pools2, pre', rfl, h1, h2, h3⟩ := ih hsw
      refine ⟨s :: pre, t, post, pools2, s' :: pre', rfl, ?_, h2, h3⟩
      simp only [sweep, hrun, h1]
    · cases h
    · cases h

theorem runPasses_fail {gs : List MGroup} : ∀ {ps pools ss}, runPasses gs ps pools ss = .fail →
    ∃ ps1 p ps2 pools1 ss1, ps = ps1 ++ p :: ps2 ∧ runPasses gs ps1 pools ss = .ok (pools1, ss1) ∧
      sweep gs p pools1 ss1 = .fail := by
  intro ps
  induction ps with
  | nil => intro pools ss h; simp [runPasses] at h
  | cons p ps ih =>
    intro pools ss h
    simp only [runPasses] at h
    split at h
    next hsw => exact ⟨[], p, ps, pools, ss, rfl, rfl, hsw⟩
    · cases h
    next pools1 ss1 hsw =>
      obtain ⟨ps1, q, ps2, pools2, ss2, rfl, h1, h2⟩ := ih h
      refine ⟨p :: ps1, q, ps2, pools2, ss2, rfl, ?_, h2⟩
      simp only [runPasses, hsw, h1]

/-- A refused request of a section. -/
def Refused (gs : List MGroup) (pools : List Pool) (s : Section) (g : SGroup) (r : Req) : Prop :=
  findGroup gs g.name = none ∨
    ∃ mg, findGroup gs g.name = some mg ∧ allocFromPools r s.bank pools mg.pools = .fail

theorem assignAbsolute_fail {gs : List MGroup} {pools : List Pool} {s : Section} {g : SGroup} {l : Nat}
    (h : assignAbsolute gs pools s g l = .fail) : Refused gs pools s g (.absolute s.size l) := by
  unfold assignAbsolute at h
  split at h
  next hn => exact .inl hn
  next mg hmg =>
  split at h
  next hf => exact .inr ⟨mg, hmg, hf⟩
  · cases h
  · split at h <;> cases h

theorem assignFloating_fail {gs : List MGroup} {pools : List Pool} {s : Section} {g : SGroup}
    (h : assignFloating gs pools s g = .fail) : Refused gs pools s g (.floating s.size s.align s.page) := by
  unfold assignFloating at h
  split at h
  next hn => exact .inl hn
  next mg hmg =>
  split at h
  next hf => exact .inr ⟨mg, hmg, hf⟩
  · cases h
  · split at h
    · cases h
    · split at h <;> cases h

/-- The request that a section makes. -/
def requestOf (act : Act) (s : Section) (r : Req) : Prop :=
  match act with
  | .fixed => ∃ l, s.byteLoc = some l ∧ r = .absolute s.size l
  | .floating => r = .floating s.size s.align s.page
  | _ => False

theorem core_fail {gs : List MGroup} {k : Option Kind} {pools : List Pool} {s : Section} {b : Bool}
    (h : (if b then assignSectionCore gs k pools s else .ok (pools, s)) = .fail) :
    ∃ g r, s.group = some g ∧ requestOf (if b && predicate k s then .floating else .nothing) s r ∧
      Refused gs pools s g r := by
  cases b with
  | false => cases h
  | true =>
    simp only [if_true, assignSectionCore] at h
    cases hp : predicate k s with
    | false => rw [hp] at h; cases h
    | true =>
      rw [hp] at h
      simp only [if_true] at h
      split at h
      · cases h
      next g hg => exact ⟨g, _, hg, rfl, assignFloating_fail h⟩

theorem fixedCore_fail {gs : List MGroup} {k : Option Kind} {pools : List Pool} {s : Section} {b : Bool}
    (h : assignFixedCore gs k b pools s = .fail) :
    ∃ g r, s.group = some g ∧
      requestOf (if s.byteLoc.isSome && predicate k s && b then .fixed else .nothing) s r ∧
      Refused gs pools s g r := by
  unfold assignFixedCore at h
  split at h
  · cases h
  next l hl =>
  cases hp : (predicate k s && b) with
  | false => rw [hp] at h; cases h
  | true =>
    rw [hp] at h
    simp only [if_true] at h
    split at h
    · cases h
    next g hg =>
    simp only [Bool.and_eq_true] at hp
    have : (s.byteLoc.isSome && predicate k s && b) = true := by simp [hl, hp.1, hp.2]
    rw [this]
    exact ⟨g, _, hg, ⟨l, hl, rfl⟩, assignAbsolute_fail h⟩

theorem run_fail {gs : List MGroup} {p : Pass} {pools : List Pool} {s : Section}
    (h : p.run gs pools s = .fail) :
    ∃ g r, s.group = some g ∧ requestOf (p.act s) s r ∧ Refused gs pools s g r := by
  obtain ⟨how, k⟩ := p
  cases how
  case orgBank => exact fixedCore_fail h
  case org => exact fixedCore_fail h
  case plain =>
    simp only [Pass.run, assignSection] at h
    split at h
    · cases h
    · split at h
      · cases h
      next g hg =>
      cases hp : predicate k s with
      | false => rw [hp] at h; cases h
      | true =>
        rw [hp] at h
        refine ⟨g, .floating s.size s.align s.page, hg, ?_, assignFloating_fail h⟩
        simp [Pass.act, hg, hp, requestOf]
  all_goals exact core_fail h

/-- Address `l` would do for the section: the fixed address of an ordinary section that has one, otherwise any
multiple of its alignment. -/
def Suits (s : Section) (g : SGroup) (l : Nat) : Prop :=
  if Ordinary g ∧ s.byteLoc.isSome then s.byteLoc = some l else ∀ a, s.align = some a → a ∣ l

theorem find_append_none {α : Type} {q : α → Bool} {l1 : List α} {a : α} {l2 : List α} (h : l1.find? q = none)
    (ha : q a = true) : (l1 ++ a :: l2).find? q = some a := by
  rw [List.find?_append, h]
  simp [ha]

theorem initPools_sep (pools : List Pool) : PoolsSep (initPools pools) := by
  intro p hp
  simp only [initPools, List.mem_map] at hp
  obtain ⟨q, _, rfl⟩ := hp
  exact init_sep _ _

/-- How far placement had got when it failed: some sections have been placed, the others are unchanged. -/
def Midway (gs : List MGroup) (pools : List Pool) (ss mid : List Section) : Prop :=
  All2 (fun s t => t = s ∨ PlacedEqu s t ∨ ∃ k l, PlacedAt gs pools s t k l) ss mid

/-- **C06** for the whole linker, the part that holds: if placement fails, there is a section `s` that could not
be placed. Its group is not defined, or — unless it has a page constraint — in every pool of the group whose bank is
the one it wants, every address that would do either sticks out of the pool or overlaps a section placed before.
Missing: sections with a page constraint and empty sections, see `C06_paged_request_refused_although_room` and
`C06_empty_section_fragments_memory`. -/
theorem C06_link_fails_only_without_room_partial {gs : List MGroup} {pools : List Pool} {ss : List Section}
    (hin : Input pools ss) (hpos : ∀ s ∈ ss, s.used = true → 0 < s.size)
    (h : assignProcess gs pools ss = .fail) :
    ∃ (mid : List Section) (i : Nat) (s : Section) (g : SGroup), Midway gs pools ss mid ∧ ss[i]? = some s ∧ mid[i]? = some s ∧ s.used = true ∧
      s.group = some g ∧
      ((∀ mg ∈ gs, mg.name ≠ g.name) ∨
        ∃ mg ∈ gs, mg.name = g.name ∧ (s.page = none → ∀ k ∈ mg.pools, ∀ p, pools[k]? = some p →
          (s.bank = -1 ∨ s.bank = p.bank) → ∀ l, Suits s g l →
            Range.Within (l, s.size) p.base (p.base + p.size) →
            ∃ t ∈ mid, ∃ r ∈ occupies k t, ¬ Range.Disjoint (l, s.size) r)) := by
  unfold assignProcess at h
  obtain ⟨ps1, p, ps2, pools1, ss1, hps, hrun, hsw⟩ := runPasses_fail h
  have hwf : ∀ q ∈ ps1 ++ p :: ps2, Pass.Wf q := by rw [← hps]; exact allPasses_wf
  have hfresh : ∀ s ∈ ss, Fresh s ∧ OkIfFresh (initPools pools) s := fun s hs => ⟨fun _ => (hin.fresh s hs).2,
      fun _ => Section.Ok.static (initPools_static pools) (hin.ok s hs)⟩
  have hok0 := initPools_ok hin.pools32
  have h1 := runPasses_ok (fun q hq => hwf q (by simp [hq])) hok0 hfresh hrun
  have hsep1 := runPasses_sep (fun q hq => hwf q (by simp [hq])) hok0 (initPools_sep pools)
    (fun s hs => ⟨(hfresh s hs).1, (hfresh s hs).2, hpos s hs⟩) hrun
  obtain ⟨pre, s, post, pools2, pre', rfl, hpre, hu, hfail⟩ := sweep_fail hsw
  have hfresh1 : ∀ t ∈ pre ++ s :: post, Fresh t ∧ OkIfFresh pools1 t ∧ (t.used = true → 0 < t.size) := by
    refine All2.mem_right h1.secs ?_
    intro a t ha ht
    refine ⟨ht.fresh (hfresh a ha).1, fun hf => Section.Ok.static h1.static (ht.okIfFresh (hfresh a ha).2 hf), ?_⟩
    rw [ht.size.1, ht.size.2]; exact hpos a ha
  have h2 := sweep_ok' (hwf p (by simp)) h1.ok
    (fun t ht => ⟨(hfresh1 t (by simp [ht])).1, (hfresh1 t (by simp [ht])).2.1⟩) hpre
  have hsep2 := sweep_sep (hwf p (by simp)) h1.ok hsep1 (fun t ht => hfresh1 t (by simp [ht])) hpre
  have ha : s.assigned = false := by
    cases ha : s.assigned with
    | false => rfl
    | true => rw [run_assigned (hwf p (by simp)) ha] at hfail; cases hfail
  -- the section in the input
  have hidx : (pre ++ s :: post)[pre.length]? = some s := by simp
  obtain ⟨s0, hs0, haf⟩ := h1.secs.get_left hidx
  have hs0f := hin.fresh s0 (List.mem_of_getElem? hs0)
  have hnone : ps1.find? (fun q => q.act s0 != .nothing) = none := by
    unfold After at haf
    split at haf
    next hc =>
      subst haf
      simp [ha, hu] at hc
    · split at haf
      · assumption
      next q hq =>
        have hq' := List.find?_some hq
        have := haf.assigned (by intro h; simp [h] at hq')
        rw [ha] at this; cases this
  have hss0 : s = s0 := by
    rcases haf.same with h | ⟨_, hta, _⟩
    · exact h
    · rw [ha] at hta; cases hta
  subst hss0
  obtain ⟨g, r, hg, hreq, href⟩ := run_fail hfail
  have hact : p.act s ≠ .nothing := by
    intro hn; rw [hn] at hreq; exact hreq
  have hfind : allPasses.find? (fun q => q.act s != .nothing) = some p := by
    rw [hps]
    exact find_append_none hnone (by simpa using hact)
  have hstatic : pools2.map Pool.static = pools.map Pool.static := by
    rw [h2.static, h1.static, initPools_static]
  have hlen1 : (pre ++ s :: post).length = ss.length := h1.secs.length_eq.symm
  have hlen2 : pre.length = pre'.length := h2.secs.length_eq
  refine ⟨pre' ++ s :: post, pre.length, s, g, ?_, hs0, by rw [hlen2]; simp, hu, hg, ?_⟩
  · -- midway
    have key : ∀ (l0 l1 l2 : List Section), All2 (After gs (initPools pools) ps1) l0 l1 →
        All2 (fun a b => b = a ∨ After gs pools1 [p] a b) l1 l2 → Midway gs pools l0 l2 := by
      intro l0 l1 l2 e1 e2
      refine All2.comp ?_ e1 e2
      intro a b c hab hbc
      have hst1 : pools1.map Pool.static = pools.map Pool.static := by rw [h1.static, initPools_static]
      rcases (hab.static (initPools_static pools).symm.symm).same with rfl | ⟨h3, h4, h5⟩
      · rcases hbc with rfl | hbc
        · exact .inl rfl
        · rcases (hbc.static hst1).same with rfl | ⟨_, _, h5⟩
          · exact .inl rfl
          · exact .inr h5
      · rcases hbc with rfl | hbc
        · exact .inr h5
        · rcases hbc.same with rfl | ⟨h6, _, _⟩
          · exact .inr h5
          · rw [h4] at h6; cases h6
    refine key _ _ _ h1.secs ?_
    have e2 := h2.secs.imp (S := fun a b => b = a ∨ After gs pools1 [p] a b) (fun a b hab => .inr hab)
    have e3 : All2 (fun a b => b = a ∨ After gs pools1 [p] a b) (s :: post) (s :: post) :=
      All2.refl (fun a => .inl rfl) _
    have happ : ∀ {R : Section → Section → Prop} {a b c d}, All2 R a b → All2 R c d → All2 R (a ++ c) (b ++ d) := by
      intro R a b c d h1 h2
      induction h1 with
      | nil => exact h2
      | cons h _ ih => exact .cons h ih
    exact happ e2 e3
  · rcases href with hn | ⟨mg, hmg, hal⟩
    · left
      intro mg hmg he
      unfold findGroup at hn
      rw [List.find?_eq_none] at hn
      exact hn mg hmg (by simp [he])
    · right
      obtain ⟨hm1, hm2⟩ := findGroup_some hmg
      refine ⟨mg, hm1, hm2, ?_⟩
      intro hpage k hk q hq hbank l hsuit hwithin
      -- the pool in its present state
      have e := congrArg (fun x => x[k]?) hstatic
      simp only [List.getElem?_map, hq, Option.map_some] at e
      obtain ⟨q2, hq2, hst⟩ : ∃ q2, pools2[k]? = some q2 ∧ q2.static = q.static := by
        cases hq2 : pools2[k]? with
        | none => rw [hq2] at e; cases e
        | some q2 => rw [hq2] at e; exact ⟨q2, rfl, Option.some.inj e⟩
      simp only [Pool.static] at hst
      injection hst with i1 i2 i3 i4 i5
      have hplace := allocFromPools_fail hal k hk q2 hq2 (by rw [i4]; exact hbank)
      have hq2m : q2 ∈ pools2 := List.mem_of_getElem? hq2
      -- the request
      have hsok : s.Ok pools2 := Section.Ok.static hstatic (hin.ok s (List.mem_of_getElem? hs0))
      have hsz : 0 < s.size := hpos s (List.mem_of_getElem? hs0) hu
      have hr : r.Ok (q2.base + q2.size) ∧ r.size = s.size ∧ (∀ x a c, r ≠ .floating x a (some c)) ∧ r.Wants l := by
        cases hact' : p.act s with
        | nothing => exact absurd hact' hact
        | equ => rw [hact'] at hreq; exact hreq.elim
        | fixed =>
          rw [hact'] at hreq
          obtain ⟨o, ho, rfl⟩ := hreq
          refine ⟨⟨(hsok q2 hq2m).2 o ho, trivial⟩, rfl, (by intro x a c h; cases h), ?_⟩
          have hord : Ordinary g := by
            -- fixed passes only take sections of one of the six kinds
            obtain ⟨how, kd⟩ := p
            have hwfp := hwf ⟨how, kd⟩ (by simp)
            cases kd with
            | none =>
              have := hwfp rfl
              simp only at this
              subst this
              simp only [Pass.act, hg, Option.isNone_some] at hact'
              split at hact'
              · cases hact'
              · split at hact' <;> cases hact'
            | some kd =>
              have hpred : predicate (some kd) s = true := by
                cases hp : predicate (some kd) s with
                | true => rfl
                | false => cases how <;> simp [Pass.act, hp, hg] at hact'
              simp only [predicate, hg, Bool.and_eq_true] at hpred
              have := hpred.2
              unfold Ordinary
              cases kd <;> simp [Kind.test] at this <;> simp [this]
          unfold Suits at hsuit
          rw [if_pos ⟨hord, by simp [ho]⟩, ho] at hsuit
          exact (Option.some.inj hsuit).symm
        | floating =>
          rw [hact'] at hreq
          have hreq : r = .floating s.size s.align s.page := hreq
          subst hreq
          refine ⟨(hsok q2 hq2m).1, rfl, (by intro x a c h; rw [hpage] at h; cases h), ?_⟩
          have : ¬ (Ordinary g ∧ s.byteLoc.isSome) := by
            rintro ⟨ho, hb⟩
            obtain ⟨o, ho'⟩ := Option.isSome_iff_exists.1 hb
            obtain ⟨q', hq', hfx⟩ := find_fixed hg ho ha ho'
            rw [hfind] at hq'
            obtain rfl := Option.some.inj hq'
            rw [hfx] at hact'; cases hact'
          unfold Suits at hsuit
          rw [if_neg this] at hsuit
          exact ⟨hsuit, by intro c hc; rw [hpage] at hc; cases hc⟩
      obtain ⟨hr1, hr2, hr3, hr4⟩ := hr
      have hnf := refused_not_free (h2.ok.lt q2 hq2m) (h2.ok.inv q2 hq2m) (hsep2 q2 hq2m) hr1
        (by rw [hr2]; exact hsz) hr3 hplace hr4
      -- some address of the range is not free
      rw [hr2] at hnf
      have : ∃ a, Range.Has (l, s.size) a ∧ ¬ Free q2.free a := by
        refine Classical.byContradiction fun hc => hnf ?_
        intro a hra
        refine Classical.byContradiction fun hf => hc ⟨a, hra, hf⟩
      obtain ⟨a, hra, hnfree⟩ := this
      -- so it belongs to a placed section
      have c1 := h1.cons k a
      have c2 := h2.cons k a
      have hz : cover (ss.flatMap (occupies k)) a = 0 := by
        have : ss.flatMap (occupies k) = [] := by
          rw [List.flatMap_eq_nil_iff]
          intro t ht
          simp [occupies, (hin.fresh t ht).2]
        rw [this]; rfl
      have hinit : poolCover (initPools pools) k a = 1 := by
        unfold poolCover
        simp only [initPools, List.getElem?_map, hq, Option.map_some]
        rw [init_cover, if_pos]
        have := hra.1; have := hra.2
        have := hwithin.1; have := hwithin.2
        simp only [Range.Has] at *
        omega
      have hp2 : poolCover pools2 k a = 0 := by
        unfold poolCover
        rw [hq2]
        simp only
        refine Nat.eq_zero_of_not_pos fun hpos' => hnfree (freeCover_pos.1 hpos')
      simp only [List.flatMap_append, cover_append] at c1
      have hcov : 0 < cover ((pre' ++ s :: post).flatMap (occupies k)) a := by
        rw [List.flatMap_append, cover_append]
        omega
      obtain ⟨rg, hrg, hhas⟩ := cover_pos.1 hcov
      obtain ⟨t, ht, hrt⟩ := List.mem_flatMap.1 hrg
      exact ⟨t, ht, rg, hrt, fun hd => hd a ⟨hra, hhas⟩⟩

/-- Two sections of `$300` bytes do not fit into `$400` bytes, and the linker stops. -/
def tooMuch : List Section := [mk (some exData) 0x300 none (-1) none none, mk (some exData) 0x300 none (-1) none none]

example : assignProcess exGroups exPools tooMuch = .fail := by decide +kernel
example : Input exPools tooMuch ∧ ∀ s ∈ tooMuch, s.used = true → 0 < s.size := ⟨⟨by decide, by decide, by decide⟩, by decide⟩

end Verif.Assign
