import Verif.Assign.Spec
import Verif.Alloc.Lemmas
import Verif.Util
/-! Helper lemmas for `Verif/Assign/Props.lean`. -/
namespace Verif.Assign
open Verif.Alloc

/-- A pool without its free list. -/
def Pool.static (p : Pool) : Pool := { p with free := [] }

structure PoolsOk (pools : List Pool) : Prop where
  lt : ∀ p ∈ pools, p.base + p.size < W32
  inv : ∀ p ∈ pools, Inv p.base (p.base + p.size) p.free

/-- Number of free chunks of pool `k` that contain `a`. -/
def poolCover (pools : List Pool) (k a : Nat) : Nat :=
  match pools[k]? with
  | some p => freeCover p.free a
  | none => 0

theorem allocFromPools_ok {r : Req} {bank : Int} {pools pools' : List Pool} {spot : Spot} :
    ∀ {is}, allocFromPools r bank pools is = .ok (spot, pools') →
      spot.pool ∈ is ∧ ∃ pool free', pools[spot.pool]? = some pool ∧ (bank = -1 ∨ bank = pool.bank) ∧
        place r pool.free = .ok (spot.loc, free') ∧
        pools' = pools.set spot.pool { pool with free := free' } := by
  intro is
  induction is with
  | nil => intro h; simp [allocFromPools] at h
  | cons i is ih =>
    intro h
    unfold allocFromPools at h
    split at h <;> try (cases h; done)
    next pool hp =>
    split at h
    · next hb =>
      split at h <;> try (cases h; done)
      · next l free' hpl =>
        injection h with h; injection h with h1 h2
        subst h1; subst h2
        exact ⟨by simp, pool, free', hp, hb, hpl, rfl⟩
      · obtain ⟨h1, h2⟩ := ih h
        exact ⟨by simp [h1], h2⟩
    · obtain ⟨h1, h2⟩ := ih h
      exact ⟨by simp [h1], h2⟩

/-- What one step of placement does to pools and section. -/
structure Step (pools pools' : List Pool) (s s' : Section) : Prop where
  ok : PoolsOk pools'
  static : pools'.map Pool.static = pools.map Pool.static
  cons : ∀ k a, poolCover pools k a + cover (occupies k s) a =
    poolCover pools' k a + cover (occupies k s') a

theorem Step.refl {pools : List Pool} (h : PoolsOk pools) (s : Section) : Step pools pools s s :=
  ⟨h, rfl, fun _ _ => rfl⟩

/-- Placing in pool `i` keeps the books. -/
theorem step_place {r : Req} {pools : List Pool} {i l : Nat} {pool : Pool} {free' : List Chunk}
    {s s' : Section} (hok : PoolsOk pools) (hp : pools[i]? = some pool)
    (hr : r.Ok (pool.base + pool.size)) (hpl : place r pool.free = .ok (l, free'))
    (hs : s.home = none) (hs' : s'.home = some i) (hl : s'.byteLoc = some l) (hsz : s'.size = r.size) :
    Step pools (pools.set i { pool with free := free' }) s s' ∧
    Range.Within (l, r.size) pool.base (pool.base + pool.size) := by
  have hmem : pool ∈ pools := List.mem_of_getElem? hp
  have ht := place_takes (hok.lt pool hmem) (hok.inv pool hmem) hr.1 hr.2 hpl
  refine ⟨⟨⟨?_, ?_⟩, ?_, ?_⟩, ht.within⟩
  · intro q hq
    rcases List.mem_or_eq_of_mem_set hq with hq | hq
    · exact hok.lt q hq
    · subst hq; exact hok.lt pool hmem
  · intro q hq
    rcases List.mem_or_eq_of_mem_set hq with hq | hq
    · exact hok.inv q hq
    · subst hq; exact ht.inv
  · apply List.ext_getElem?
    intro j
    simp only [List.getElem?_map, List.getElem?_set]
    split
    · next h =>
      subst h
      split
      · rw [hp]; rfl
      · next hlt => 
        have := List.getElem?_eq_some_iff.1 hp
        obtain ⟨h1, _⟩ := this
        exact absurd h1 hlt
    · rfl
  · intro k a
    by_cases hk : i = k
    · subst hk
      have hlt : i < pools.length := (List.getElem?_eq_some_iff.1 hp).1
      have e1 : occupies i s = [] := by simp [occupies, hs]
      have e2 : occupies i s' = [(l, r.size)] := by simp [occupies, hs', hl, hsz]
      have e3 : poolCover (pools.set i { pool with free := free' }) i a = freeCover free' a := by
        simp [poolCover, hlt]
      have e4 : poolCover pools i a = freeCover pool.free a := by simp [poolCover, hp]
      rw [e1, e2, e3, e4, cover_cons]
      have := ht.cov a
      simp only [cover, List.countP_nil] at *
      omega
    · have e1 : occupies k s = [] := by simp [occupies, hs]
      have e2 : occupies k s' = [] := by
        have : ¬ some i = some k := by simpa using hk
        simp [occupies, hs', this]
      have e3 : poolCover (pools.set i { pool with free := free' }) k a = poolCover pools k a := by
        simp [poolCover, hk]
      rw [e1, e2, e3]

theorem findGroup_some {gs : List MGroup} {n : String} {mg : MGroup} (h : findGroup gs n = some mg) :
    mg ∈ gs ∧ mg.name = n := by
  unfold findGroup at h
  exact ⟨List.mem_of_find?_eq_some h, by simpa using List.find?_some h⟩

theorem imageOf_some {p : Pool} {img : Nat} (l : Nat) (h : p.image = some img) :
    imageOf p l = some ((img : Int) + ((l : Int) - (p.base : Int))) := by
  simp [imageOf, h]; omega

theorem imageOf_none {p : Pool} (l : Nat) (h : p.image = none) : imageOf p l = none := by
  simp [imageOf, h]

theorem assignAbsolute_ok {gs : List MGroup} {pools pools' : List Pool} {s s' : Section} {g : SGroup} {l : Nat}
    (hok : PoolsOk pools) (hg : s.group = some g) (hl : s.byteLoc = some l) (hs : s.home = none)
    (hso : s.Ok pools) (h : assignAbsolute gs pools s g l = .ok (pools', s')) :
    Step pools pools' s s' ∧ ∃ k, PlacedAt gs pools s s' k l ∧ s'.loc = s.loc := by
  unfold assignAbsolute at h
  split at h <;> try (cases h; done)
  next mg hmg =>
  split at h <;> try (cases h; done)
  next spot pools1 hal =>
  split at h <;> try (cases h; done)
  next pool hp =>
  injection h with h; injection h with h1 h2
  subst h1
  obtain ⟨hin, pool', free', hp', hb, hpl, hset⟩ := allocFromPools_ok hal
  rw [hp] at hp'; cases hp'
  have hmem : pool ∈ pools := List.mem_of_getElem? hp
  have hloc : spot.loc = l := by
    unfold place at hpl
    simp only at hpl
    split at hpl <;> try (cases hpl; done)
    injection hpl with hpl; injection hpl with e1 e2
    exact e1.symm
  have hr : (Req.absolute s.size l).Ok (pool.base + pool.size) :=
    ⟨(hso pool hmem).2 l (by simp [hl]), trivial⟩
  obtain ⟨hst, hw⟩ := step_place (s := s) (s' := s') hok hp hr hpl hs (by subst h2; rfl)
    (by subst h2; simp [hl, hloc]) (by subst h2; rfl)
  subst hset
  refine ⟨hst, spot.pool, ?_, by subst h2; rfl⟩
  obtain ⟨hm1, hm2⟩ := findGroup_some hmg
  rw [hloc] at hw
  refine ⟨?_, ?_, ?_, ?_, ⟨g, mg, hg, hm1, hm2, hin⟩, ⟨pool, hp, hw, hb, ?_, ?_, ?_, ?_⟩⟩ <;> subst h2
  · exact ⟨rfl, rfl, rfl, rfl, rfl, rfl⟩
  · rfl
  · rfl
  · exact hl
  · rfl
  · rfl
  · intro img hi; exact imageOf_some l hi
  · intro hi; exact imageOf_none l hi

theorem assignFloating_ok {gs : List MGroup} {pools pools' : List Pool} {s s' : Section} {g : SGroup}
    (hok : PoolsOk pools) (hg : s.group = some g) (hs : s.home = none)
    (hso : s.Ok pools) (h : assignFloating gs pools s g = .ok (pools', s')) :
    Step pools pools' s s' ∧ ∃ k l, PlacedAt gs pools s s' k l ∧ (∀ a, s.align = some a → a ∣ l) ∧
      (∀ p, s.page = some p → s.align = none → SamePage l s.size p) ∧
      s'.loc = (int32 l).tdiv s.wordSize ∧ s.wordSize ≠ 0 := by
  unfold assignFloating at h
  split at h <;> try (cases h; done)
  next mg hmg =>
  split at h <;> try (cases h; done)
  next spot pools1 hal =>
  split at h <;> try (cases h; done)
  next hws =>
  split at h <;> try (cases h; done)
  next pool hp =>
  injection h with h; injection h with h1 h2
  subst h1
  obtain ⟨hin, pool', free', hp', hb, hpl, hset⟩ := allocFromPools_ok hal
  rw [hp] at hp'; cases hp'
  have hmem : pool ∈ pools := List.mem_of_getElem? hp
  have hr := (hso pool hmem).1
  obtain ⟨hst, hw⟩ := step_place (s := s) (s' := s') hok hp hr hpl hs (by subst h2; rfl)
    (by subst h2; rfl) (by subst h2; rfl)
  subst hset
  obtain ⟨hw1, hw2, _⟩ := place_wants (hok.lt pool hmem) (hok.inv pool hmem) hr hpl
  refine ⟨hst, spot.pool, spot.loc, ?_, hw1, hw2, by subst h2; rfl, hws⟩
  obtain ⟨hm1, hm2⟩ := findGroup_some hmg
  refine ⟨?_, ?_, ?_, ?_, ⟨g, mg, hg, hm1, hm2, hin⟩, ⟨pool, hp, hw, hb, ?_, ?_, ?_, ?_⟩⟩ <;> subst h2
  · exact ⟨rfl, rfl, rfl, rfl, rfl, rfl⟩
  · rfl
  · rfl
  · rfl
  · rfl
  · rfl
  · intro img hi; exact imageOf_some _ hi
  · intro hi; exact imageOf_none _ hi

/-- What a pass would do with an unplaced section. -/
inductive Act where
  | nothing | fixed | floating | equ
  deriving DecidableEq, Repr

/-- The decision a pass takes about an unplaced section. -/
def Pass.act (p : Pass) (s : Section) : Act :=
  let fl (b : Bool) : Act := if b && predicate p.pred s then .floating else .nothing
  match p.how with
  | .orgBank => if s.byteLoc.isSome && predicate p.pred s && s.bank != -1 then .fixed else .nothing
  | .org => if s.byteLoc.isSome && predicate p.pred s && s.bank == -1 then .fixed else .nothing
  | .bankAlignPage => fl (s.bank != -1 && s.align.isSome && s.page.isSome)
  | .bankAlign => fl (s.bank != -1 && s.align.isSome && s.page.isNone)
  | .bankPage => fl (s.bank != -1 && s.align.isNone && s.page.isSome)
  | .alignPage => fl (s.bank == -1 && s.align.isSome && s.page.isSome)
  | .align => fl (s.bank == -1 && s.align.isSome && s.page.isNone)
  | .page => fl (s.bank == -1 && s.align.isNone && s.page.isSome)
  | .plain => if s.group.isNone then .equ else fl true

/-- `truePredicate` is only used with `assignSection`. -/
def Pass.Wf (p : Pass) : Prop := p.pred = none → p.how = .plain

/-- How a section ends up when `act` is applied to it. -/
def Placed (gs : List MGroup) (pools : List Pool) (act : Act) (s s' : Section) : Prop :=
  match act with
  | .nothing => s' = s
  | .equ => PlacedEqu s s'
  | .fixed => ∃ k l, PlacedAt gs pools s s' k l ∧ s.byteLoc = some l ∧ s'.loc = s.loc
  | .floating => ∃ k l, PlacedAt gs pools s s' k l ∧ (∀ a, s.align = some a → a ∣ l) ∧
      (∀ p, s.page = some p → s.align = none → SamePage l s.size p) ∧
      s'.loc = (int32 l).tdiv s.wordSize ∧ s.wordSize ≠ 0

theorem core_ok {gs : List MGroup} {k : Option Kind} {pools pools' : List Pool} {s s' : Section} {b : Bool}
    (hok : PoolsOk pools) (hs : s.home = none) (hso : s.Ok pools)
    (h : (if b then assignSectionCore gs k pools s else .ok (pools, s)) = .ok (pools', s')) :
    Step pools pools' s s' ∧
      Placed gs pools (if b && predicate k s then .floating else .nothing) s s' := by
  cases b with
  | false =>
    simp at h
    obtain ⟨rfl, rfl⟩ := h
    exact ⟨Step.refl hok s, by simp [Placed]⟩
  | true =>
    simp only [if_true, assignSectionCore] at h
    cases hp : predicate k s with
    | false =>
      simp [hp] at h
      obtain ⟨rfl, rfl⟩ := h
      exact ⟨Step.refl hok s, by simp [Placed]⟩
    | true =>
      simp only [hp, if_true] at h
      split at h <;> try (cases h; done)
      next g hg =>
      have := assignFloating_ok hok hg hs hso h
      exact ⟨this.1, by simpa [Placed] using this.2⟩

theorem fixedCore_ok {gs : List MGroup} {k : Option Kind} {pools pools' : List Pool} {s s' : Section} {b : Bool}
    (hok : PoolsOk pools) (hs : s.home = none) (hso : s.Ok pools)
    (h : assignFixedCore gs k b pools s = .ok (pools', s')) :
    Step pools pools' s s' ∧
      Placed gs pools (if s.byteLoc.isSome && predicate k s && b then .fixed else .nothing) s s' := by
  unfold assignFixedCore at h
  split at h
  · next hl =>
    injection h with h; injection h with h1 h2
    subst h1; subst h2
    exact ⟨Step.refl hok s, by simp [Placed, hl]⟩
  · next l hl =>
    split at h
    · next hc =>
      split at h <;> try (cases h; done)
      next g hg =>
      obtain ⟨h1, k, h2, h3⟩ := assignAbsolute_ok hok hg hl hs hso h
      refine ⟨h1, ?_⟩
      simp only [hl, Option.isSome_some, Bool.true_and, hc, if_true]
      exact ⟨k, l, h2, hl, h3⟩
    · next hc =>
      injection h with h; injection h with h1 h2
      subst h1; subst h2
      exact ⟨Step.refl hok s, by simp only [hl, Option.isSome_some, Bool.true_and]; rw [if_neg hc]; rfl⟩

theorem run_ok {gs : List MGroup} {p : Pass} {pools pools' : List Pool} {s s' : Section}
    (hok : PoolsOk pools) (hs : s.home = none) (ha : s.assigned = false) (hso : s.Ok pools)
    (h : p.run gs pools s = .ok (pools', s')) :
    Step pools pools' s s' ∧ Placed gs pools (p.act s) s s' := by
  unfold Pass.run at h
  unfold Pass.act
  obtain ⟨how, k⟩ := p
  cases how <;> simp only at h ⊢
  · exact fixedCore_ok hok hs hso h
  · exact fixedCore_ok hok hs hso h
  · exact core_ok hok hs hso h
  · exact core_ok hok hs hso h
  · exact core_ok hok hs hso h
  · exact core_ok hok hs hso h
  · exact core_ok hok hs hso h
  · exact core_ok hok hs hso h
  · unfold assignSection at h
    simp only [ha, Bool.false_eq_true, if_false] at h
    split at h
    · next hg =>
      injection h with h; injection h with h1 h2
      subst h1
      simp only [hg, Option.isNone_none, if_true]
      refine ⟨⟨hok, rfl, ?_⟩, ⟨?_, ?_, hg, ?_, ?_, ?_, ?_⟩⟩
      · intro k a
        subst h2
        simp [occupies, hs]
      all_goals subst h2
      · exact ⟨rfl, rfl, rfl, rfl, rfl, rfl⟩
      all_goals rfl
    · next g hg =>
      simp only [hg, Option.isNone_some, Bool.false_eq_true, if_false, Bool.true_and]
      split at h
      · next hp =>
        have := assignFloating_ok hok hg hs hso h
        exact ⟨this.1, by simpa [Placed, hp] using this.2⟩
      · next hp =>
        injection h with h; injection h with h1 h2
        subst h1; subst h2
        exact ⟨Step.refl hok s, by simp [Placed, hp]⟩

theorem run_assigned {gs : List MGroup} {p : Pass} {pools : List Pool} {s : Section} (hwf : p.Wf)
    (ha : s.assigned = true) : p.run gs pools s = .ok (pools, s) := by
  obtain ⟨how, k⟩ := p
  have hpred : how ≠ .plain → predicate k s = false := by
    intro hne
    cases k with
    | none => exact absurd (hwf rfl) hne
    | some k => simp [predicate, ha]
  cases how
  case plain => simp [Pass.run, assignSection, ha]
  case orgBank => 
    simp only [Pass.run, assignFixedCore, hpred (by simp)]
    split <;> simp
  case org => 
    simp only [Pass.run, assignFixedCore, hpred (by simp)]
    split <;> simp
  all_goals simp [Pass.run, assignSectionCore, hpred]

/-- Relation between a section before and after a list of passes: the first pass that wants it places
it, and nothing changes afterwards. -/
def After (gs : List MGroup) (pools : List Pool) (ps : List Pass) (s s' : Section) : Prop :=
  if s.assigned || !s.used then s' = s
  else match ps.find? (fun p => p.act s != .nothing) with
    | none => s' = s
    | some p => Placed gs pools (p.act s) s s'

/-- Only the static part of the pools matters for `Placed`. -/
theorem PlacedAt.static {gs : List MGroup} {pools pools' : List Pool} {s s' : Section} {k l : Nat}
    (hst : pools'.map Pool.static = pools.map Pool.static) (h : PlacedAt gs pools' s s' k l) :
    PlacedAt gs pools s s' k l := by
  refine ⟨h.same, h.assigned, h.home, h.byteLoc, h.group, ?_⟩
  obtain ⟨p, hp, hrest⟩ := h.pool
  have e := congrArg (fun x => x[k]?) hst
  simp only [List.getElem?_map, hp, Option.map_some] at e
  cases hq : pools[k]? with
  | none => rw [hq] at e; simp at e
  | some q =>
    rw [hq] at e
    simp only [Option.map_some, Option.some.injEq, Pool.static] at e
    injection e with e1 e2 e3 e4 e5
    rw [e1, e2, e3, e4, e5] at hrest
    exact ⟨q, rfl, hrest⟩

theorem Placed.static {gs : List MGroup} {pools pools' : List Pool} {act : Act} {s s' : Section}
    (hst : pools'.map Pool.static = pools.map Pool.static) (h : Placed gs pools' act s s') :
    Placed gs pools act s s' := by
  cases act with
  | nothing => exact h
  | equ => exact h
  | fixed => obtain ⟨k, l, h1, h2⟩ := h; exact ⟨k, l, h1.static hst, h2⟩
  | floating => obtain ⟨k, l, h1, h2⟩ := h; exact ⟨k, l, h1.static hst, h2⟩

theorem Section.Ok.static {pools pools' : List Pool} {s : Section}
    (hst : pools'.map Pool.static = pools.map Pool.static) (h : s.Ok pools) : s.Ok pools' := by
  intro p hp
  have : p.static ∈ pools.map Pool.static := hst ▸ List.mem_map_of_mem hp
  obtain ⟨q, hq, he⟩ := List.mem_map.1 this
  have := h q hq
  simp only [Pool.static] at he
  injection he with e1 e2 e3 e4 e5
  rw [e3, e5] at this
  exact this

/-- Facts that hold for every section between passes. -/
def Fresh (s : Section) : Prop := s.assigned = false → s.home = none

theorem Placed.assigned {gs : List MGroup} {pools : List Pool} {act : Act} {s s' : Section}
    (hn : act ≠ .nothing) (h : Placed gs pools act s s') : s'.assigned = true := by
  cases act with
  | nothing => exact absurd rfl hn
  | equ => exact PlacedEqu.assigned h
  | fixed => obtain ⟨k, l, h1, _⟩ := h; exact h1.assigned
  | floating => obtain ⟨k, l, h1, _⟩ := h; exact h1.assigned

/-- Combined result of a sweep. -/
structure Swept (gs : List MGroup) (ps : List Pass) (pools pools' : List Pool) (ss ss' : List Section) : Prop where
  ok : PoolsOk pools'
  static : pools'.map Pool.static = pools.map Pool.static
  cons : ∀ k a, poolCover pools k a + cover (ss.flatMap (occupies k)) a =
    poolCover pools' k a + cover (ss'.flatMap (occupies k)) a
  secs : All2 (After gs pools ps) ss ss'

theorem cover_append (rs qs : List Range) (a) : cover (rs ++ qs) a = cover rs a + cover qs a := by
  simp [cover, List.countP_append]

theorem after_one {gs : List MGroup} {p : Pass} {pools pools' : List Pool} {s s' : Section} (hwf : p.Wf)
    (hok : PoolsOk pools) (hf : Fresh s) (hso : s.Ok pools)
    (h : (if s.used then p.run gs pools s else .ok (pools, s)) = .ok (pools', s')) :
    Step pools pools' s s' ∧ After gs pools [p] s s' := by
  cases hu : s.used with
  | false =>
    simp [hu] at h
    obtain ⟨rfl, rfl⟩ := h
    exact ⟨Step.refl hok s, by simp [After, hu]⟩
  | true =>
    simp only [hu, if_true] at h
    cases ha : s.assigned with
    | true =>
      rw [run_assigned hwf ha] at h
      injection h with h; injection h with h1 h2
      subst h1; subst h2
      exact ⟨Step.refl hok s, by simp [After, ha]⟩
    | false =>
      obtain ⟨h1, h2⟩ := run_ok hok (hf ha) ha hso h
      refine ⟨h1, ?_⟩
      simp only [After, ha, hu, Bool.not_true, Bool.or_false, Bool.false_eq_true, if_false, List.find?_cons,
        List.find?_nil]
      by_cases hact : p.act s = .nothing
      · rw [hact] at h2
        simpa [hact, Placed] using h2
      · have : (p.act s != .nothing) = true := by simpa using hact
        simp only [this]
        exact h2

theorem After.static {gs : List MGroup} {pools pools' : List Pool} {ps : List Pass} {s s' : Section}
    (hst : pools'.map Pool.static = pools.map Pool.static) (h : After gs pools' ps s s') :
    After gs pools ps s s' := by
  unfold After at *
  split at h
  · next hc => rw [if_pos hc]; exact h
  · next hc =>
    rw [if_neg hc]
    split at h
    · exact h
    · exact h.static hst

theorem SameSection.trans {s t u : Section} (h1 : SameSection s t) (h2 : SameSection t u) :
    SameSection s u :=
  ⟨h2.group.trans h1.group, h2.size.trans h1.size, h2.align.trans h1.align, h2.page.trans h1.page,
   h2.used.trans h1.used, h2.wordSize.trans h1.wordSize⟩

theorem After.trans {gs : List MGroup} {pools : List Pool} {p : Pass} {ps : List Pass} {s t u : Section}
    (h1 : After gs pools [p] s t) (h2 : After gs pools ps t u) : After gs pools (p :: ps) s u := by
  unfold After at h1 ⊢
  split at h1
  · next hc =>
    subst h1
    simpa [After, hc] using h2
  · next hc =>
    rw [if_neg hc]
    simp only [List.find?_cons, List.find?_nil] at h1 ⊢
    cases hact : p.act s != .nothing with
    | false =>
      simp only [hact] at h1 ⊢
      subst h1
      simpa [After, hc] using h2
    | true =>
      simp only [hact] at h1 ⊢
      have ha := h1.assigned (by intro h; simp [h] at hact)
      simp [After, ha] at h2
      subst h2
      exact h1

theorem After.fresh {gs : List MGroup} {pools : List Pool} {ps : List Pass} {s t : Section}
    (h : After gs pools ps s t) (hf : Fresh s) : Fresh t := by
  unfold After at h
  split at h
  · subst h; exact hf
  · split at h
    · subst h; exact hf
    · next q hq =>
      have hq' := List.find?_some hq
      have := h.assigned (by intro h; simp [h] at hq')
      intro hn; rw [this] at hn; cases hn

theorem Placed.ok {gs : List MGroup} {pools : List Pool} {act : Act} {s s' : Section}
    (h : Placed gs pools act s s') (hso : s.Ok pools) : (s'.assigned = true ∧ act ≠ .nothing) ∨ s'.Ok pools := by
  cases act with
  | nothing => right; cases h; exact hso
  | _ => left; exact ⟨h.assigned (by simp), by simp⟩

/-- `Section.Ok` only matters while a section is unplaced; placed sections may keep any value. -/
def OkIfFresh (pools : List Pool) (s : Section) : Prop := s.assigned = false → s.Ok pools

theorem after_one' {gs : List MGroup} {p : Pass} {pools pools' : List Pool} {s s' : Section} (hwf : p.Wf)
    (hok : PoolsOk pools) (hf : Fresh s) (hso : OkIfFresh pools s)
    (h : (if s.used then p.run gs pools s else .ok (pools, s)) = .ok (pools', s')) :
    Step pools pools' s s' ∧ After gs pools [p] s s' := by
  cases ha : s.assigned with
  | false => exact after_one hwf hok hf (hso ha) h
  | true =>
    have h' : (if s.used then p.run gs pools s else .ok (pools, s)) = .ok (pools, s) := by
      rw [run_assigned hwf ha]; simp
    rw [h'] at h
    injection h with h; injection h with h1 h2
    subst h1; subst h2
    exact ⟨Step.refl hok s, by simp [After, ha]⟩

theorem sweep_ok' {gs : List MGroup} {p : Pass} (hwf : p.Wf) : ∀ {ss pools pools' ss'}, PoolsOk pools →
    (∀ s ∈ ss, Fresh s ∧ OkIfFresh pools s) → sweep gs p pools ss = .ok (pools', ss') →
    Swept gs [p] pools pools' ss ss' := by
  intro ss
  induction ss with
  | nil =>
    intro pools pools' ss' hok _ h
    simp only [sweep] at h
    injection h with h; injection h with h1 h2
    subst h1; subst h2
    exact ⟨hok, rfl, fun _ _ => rfl, All2.nil⟩
  | cons s ss ih =>
    intro pools pools' ss' hok hss h
    unfold sweep at h
    split at h <;> try (cases h; done)
    next pools1 s1 h1 =>
    split at h <;> try (cases h; done)
    next pools2 ss2 h2 =>
    injection h with h; injection h with e1 e2
    subst e1; subst e2
    obtain ⟨hst, haf⟩ := after_one' hwf hok (hss s (by simp)).1 (hss s (by simp)).2 h1
    have hsw := ih hst.ok (fun q hq => ⟨(hss q (by simp [hq])).1, fun ha =>
      Section.Ok.static hst.static ((hss q (by simp [hq])).2 ha)⟩) h2
    refine ⟨hsw.ok, hsw.static.trans hst.static, ?_, ?_⟩
    · intro k a
      have e1 := hst.cons k a
      have e2 := hsw.cons k a
      simp only [List.flatMap_cons, cover_append]
      omega
    · refine All2.cons haf ?_
      exact hsw.secs.imp (fun _ _ h => h.static hst.static)

theorem After.okIfFresh {gs : List MGroup} {pools : List Pool} {ps : List Pass} {s t : Section}
    (h : After gs pools ps s t) (hf : OkIfFresh pools s) : OkIfFresh pools t := by
  unfold After at h
  split at h
  · subst h; exact hf
  · split at h
    · subst h; exact hf
    · next q hq =>
      have hq' := List.find?_some hq
      have := h.assigned (by intro h; simp [h] at hq')
      intro hn; rw [this] at hn; cases hn

theorem runPasses_ok {gs : List MGroup} : ∀ {ps pools pools' ss ss'}, (∀ p ∈ ps, Pass.Wf p) → PoolsOk pools →
    (∀ s ∈ ss, Fresh s ∧ OkIfFresh pools s) → runPasses gs ps pools ss = .ok (pools', ss') →
    Swept gs ps pools pools' ss ss' := by
  intro ps
  induction ps with
  | nil =>
    intro pools pools' ss ss' _ hok _ h
    simp only [runPasses] at h
    injection h with h; injection h with h1 h2
    subst h1; subst h2
    exact ⟨hok, rfl, fun _ _ => rfl, All2.refl (by simp [After]) _⟩
  | cons p ps ih =>
    intro pools pools' ss ss' hwf hok hss h
    unfold runPasses at h
    split at h <;> try (cases h; done)
    next pools1 ss1 h1 =>
    have hsw := sweep_ok' (hwf p (by simp)) hok hss h1
    have hrest := ih (fun q hq => hwf q (by simp [hq])) hsw.ok
      (hsw.secs.mem_right (fun a b ha hab => ⟨hab.fresh (hss a ha).1, fun hb =>
        Section.Ok.static hsw.static ((hab.okIfFresh (hss a ha).2) hb)⟩)) h
    refine ⟨hrest.ok, hrest.static.trans hsw.static, ?_, ?_⟩
    · intro k a
      rw [hsw.cons k a, hrest.cons k a]
    · exact All2.comp (fun a b c h1 h2 => h1.trans (h2.static hsw.static)) hsw.secs hrest.secs

theorem allPasses_wf : ∀ p ∈ allPasses, Pass.Wf p := by
  intro p hp
  have : ∀ p ∈ allPasses, p.pred = none → p.how = .plain := by decide
  exact this p hp

theorem initPools_ok {pools : List Pool} (h : ∀ p ∈ pools, p.base + p.size < W32) : PoolsOk (initPools pools) := by
  refine ⟨?_, ?_⟩ <;> intro p hp <;> simp only [initPools, List.mem_map] at hp <;> obtain ⟨q, hq, rfl⟩ := hp
  · exact h q hq
  · exact init_inv _ _

theorem initPools_static (pools : List Pool) : (initPools pools).map Pool.static = pools.map Pool.static := by
  simp [initPools, Pool.static, Function.comp_def]

theorem process_ok {gs : List MGroup} {pools pools' : List Pool} {ss ss' : List Section}
    (hin : Input pools ss) (h : assignProcess gs pools ss = .ok (pools', ss')) :
    Swept gs allPasses (initPools pools) pools' ss ss' :=
  runPasses_ok allPasses_wf (initPools_ok hin.pools32)
    (fun s hs => ⟨fun _ => (hin.fresh s hs).2,
      fun _ => Section.Ok.static (initPools_static pools) (hin.ok s hs)⟩) h

/-- The kind of an ordinary group. -/
theorem kind_exists {g : SGroup} (h : Ordinary g) : ∃ k : Kind, k.test g = true := by
  obtain ⟨name, type, data, shared⟩ := g
  rcases h with h | ⟨h, h2⟩ <;> simp only at h
  · subst h
    cases data <;> cases shared
    · exact ⟨.code, rfl⟩
    · exact ⟨.codeShared, rfl⟩
    · exact ⟨.data, rfl⟩
    · exact ⟨.dataShared, rfl⟩
  · simp only at h2
    subst h; subst h2
    cases shared
    · exact ⟨.bss, rfl⟩
    · exact ⟨.bssShared, rfl⟩

theorem kind_unique {g : SGroup} {k k' : Kind} (h : k.test g = true) (h' : k'.test g = true) : k = k' := by
  obtain ⟨name, type, data, shared⟩ := g
  cases k <;> cases k' <;> simp_all [Kind.test]

/-- For a section of kind `k`, a pass for another kind does nothing. -/
theorem act_other {s : Section} {g : SGroup} {k k' : Kind} {how : How} (hg : s.group = some g)
    (hk : k.test g = true) (hne : k' ≠ k) : Pass.act ⟨how, some k'⟩ s = .nothing := by
  have hp : predicate (some k') s = false := by
    cases ht : k'.test g with
    | true => exact absurd (kind_unique ht hk) hne
    | false => simp [predicate, hg, ht]
  cases how <;> simp [Pass.act, hp, hg]

/-- The first pass that wants an ordinary section is the first of its kind that does. -/
theorem find_kind {s : Section} {g : SGroup} {k : Kind} (hg : s.group = some g)
    (hk : k.test g = true) (ha : s.assigned = false) :
    allPasses.find? (fun p => p.act s != .nothing) =
      (howOrder.map fun h => (⟨h, some k⟩ : Pass)).find? (fun p => p.act s != .nothing) := by
  have hplain : ∀ k', Pass.act ⟨.plain, some k'⟩ s = if k' = k then .floating else .nothing := by
    intro k'
    by_cases h : k' = k
    · subst h; simp [Pass.act, hg, predicate, ha, hk]
    · simp only [h, if_false]; exact act_other hg hk h
  have hoth : ∀ k' how, k' ≠ k → (Pass.act ⟨how, some k'⟩ s != .nothing) = false := by
    intro k' how hne; simp [act_other hg hk hne]
  have hblock : ∀ k', k' ≠ k → ∀ rest : List Pass,
      ((howOrder.map fun h => (⟨h, some k'⟩ : Pass)) ++ rest).find? (fun p => p.act s != .nothing) =
        rest.find? (fun p => p.act s != .nothing) := by
    intro k' hne rest
    simp [howOrder, hoth k' _ hne]
  have hself : ∀ rest : List Pass,
      ((howOrder.map fun h => (⟨h, some k⟩ : Pass)) ++ rest).find? (fun p => p.act s != .nothing) =
        (howOrder.map fun h => (⟨h, some k⟩ : Pass)).find? (fun p => p.act s != .nothing) := by
    intro rest
    rw [List.find?_append]
    have : ((howOrder.map fun h => (⟨h, some k⟩ : Pass)).find? (fun p => p.act s != .nothing)).isSome := by
      rw [List.find?_isSome]
      exact ⟨⟨.plain, some k⟩, by simp [howOrder], by simp [hplain]⟩
    obtain ⟨q, hq⟩ := Option.isSome_iff_exists.1 this
    rw [hq]; rfl
  have hall : allPasses = (kindOrder.flatMap fun k => howOrder.map fun h => (⟨h, some k⟩ : Pass)) ++
      [⟨.plain, none⟩] := rfl
  rw [hall]
  simp only [kindOrder, List.flatMap_cons, List.flatMap_nil, List.append_nil, List.append_assoc]
  cases k <;> (first | rw [hself] | (repeat rw [hblock _ (by decide)]; try rw [hself]))

/-- Ordinary sections with a fixed address are placed by a fixed pass. -/
theorem find_fixed {s : Section} {g : SGroup} {l : Nat} (hg : s.group = some g) (ho : Ordinary g)
    (ha : s.assigned = false) (hl : s.byteLoc = some l) :
    ∃ p, allPasses.find? (fun p => p.act s != .nothing) = some p ∧ p.act s = .fixed := by
  obtain ⟨k, hk⟩ := kind_exists ho
  rw [find_kind hg hk ha]
  have hp : predicate (some k) s = true := by simp [predicate, hg, hk, ha]
  by_cases hb : s.bank = -1
  · refine ⟨⟨.org, some k⟩, ?_, ?_⟩
    · have h1 : Pass.act ⟨.orgBank, some k⟩ s = .nothing := by simp [Pass.act, hb]
      have h2 : Pass.act ⟨.org, some k⟩ s = .fixed := by simp [Pass.act, hb, hl, hp]
      simp [howOrder, h1, h2]
    · simp [Pass.act, hb, hl, hp]
  · refine ⟨⟨.orgBank, some k⟩, ?_, ?_⟩
    · have h2 : Pass.act ⟨.orgBank, some k⟩ s = .fixed := by simp [Pass.act, hb, hl, hp]
      simp [howOrder, h2]
    · simp [Pass.act, hb, hl, hp]

/-- Every used section is placed by some pass: the last one takes everything that is left. -/
theorem find_some (s : Section) : ∃ p, allPasses.find? (fun p => p.act s != .nothing) = some p := by
  have : (allPasses.find? (fun p => p.act s != .nothing)).isSome := by
    rw [List.find?_isSome]
    refine ⟨⟨.plain, none⟩, by simp [allPasses], ?_⟩
    simp only [Pass.act, predicate, Bool.and_self, if_true]
    split <;> rfl
  exact Option.isSome_iff_exists.1 this

/-- Sections without fixed address are never placed by a fixed pass. -/
theorem act_floating {s : Section} {g : SGroup} (hg : s.group = some g) (hl : s.byteLoc = none) (p : Pass)
    (hp : p.act s ≠ .nothing) : p.act s = .floating := by
  obtain ⟨how, k⟩ := p
  have e : ∀ b : Bool, (if b = true then Act.floating else Act.nothing) ≠ .nothing →
      (if b = true then Act.floating else Act.nothing) = .floating := by
    intro b; cases b <;> simp
  cases how <;> simp only [Pass.act, hl, hg, Option.isSome_none, Bool.false_and, Bool.false_eq_true,
    if_false, ne_eq, not_true_eq_false, Option.isNone_some] at hp ⊢ <;> exact e _ hp

theorem act_equ {s : Section} (hg : s.group = none) (p : Pass) (hwf : p.Wf)
    (hp : p.act s ≠ .nothing) : p.act s = .equ := by
  obtain ⟨how, k⟩ := p
  have hpr : how ≠ .plain → predicate k s = false := by
    intro hne
    cases k with
    | none => exact absurd (hwf rfl) hne
    | some k => simp [predicate, hg]
  cases how <;> simp [Pass.act, hg, hpr] at hp ⊢

end Verif.Assign
