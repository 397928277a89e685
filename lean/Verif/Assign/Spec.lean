import Verif.Assign.Model
/-!
# What it means for a section to be placed properly
-/
namespace Verif.Assign
open Verif.Alloc

/-- The section's own description is unchanged. -/
structure SameSection (s s' : Section) : Prop where
  group : s'.group = s.group
  size : s'.size = s.size
  align : s'.align = s.align
  page : s'.page = s.page
  used : s'.used = s.used
  wordSize : s'.wordSize = s.wordSize

/-- `s'` is `s` placed at byte address `l` in pool number `k`, which belongs to the section's group and to the
bank the section asked for; bank, image offset and overlay are those of the pool. -/
structure PlacedAt (gs : List MGroup) (pools : List Pool) (s s' : Section) (k l : Nat) : Prop where
  same : SameSection s s'
  assigned : s'.assigned = true
  home : s'.home = some k
  byteLoc : s'.byteLoc = some l
  group : ∃ g mg, s.group = some g ∧ mg ∈ gs ∧ mg.name = g.name ∧ k ∈ mg.pools
  pool : ∃ p, pools[k]? = some p ∧ Range.Within (l, s.size) p.base (p.base + p.size) ∧
    (s.bank = -1 ∨ s.bank = p.bank) ∧ s'.bank = p.bank ∧ s'.overlay = p.overlay ∧
    (∀ img, p.image = some img → s'.image = some ((img : Int) + ((l : Int) - (p.base : Int)))) ∧
    (p.image = none → s'.image = none)

/-- A section of exported constants gets address and bank 0 and no image offset. -/
structure PlacedEqu (s s' : Section) : Prop where
  same : SameSection s s'
  assigned : s'.assigned = true
  noGroup : s.group = none
  byteLoc : s'.byteLoc = some 0
  bank : s'.bank = 0
  image : s'.image = none
  home : s'.home = s.home

/-- The sections of one of the six ordinary kinds of group: text with any flags, or bss without the data
flag. -/
def Ordinary (g : SGroup) : Prop := g.type = 0 ∨ (g.type = 1 ∧ g.data = false)

instance (g : SGroup) : Decidable (Ordinary g) := by unfold Ordinary; infer_instance

/-- The addresses a section occupies in pool `k`. -/
def occupies (k : Nat) (s : Section) : List Range :=
  if s.home = some k then
    match s.byteLoc with
    | some l => [(l, s.size)]
    | none => []
  else []

/-- The numbers in the section header are small enough for 32-bit arithmetic in every pool. -/
def Section.Ok (pools : List Pool) (s : Section) : Prop :=
  ∀ p ∈ pools, (Req.floating s.size s.align s.page).Ok (p.base + p.size) ∧
    ∀ l ∈ s.byteLoc, l + s.size < W32

/-- The linker input: pools inside the 32-bit address space, sections not yet placed. -/
structure Input (pools : List Pool) (ss : List Section) : Prop where
  pools32 : ∀ p ∈ pools, p.base + p.size < W32
  fresh : ∀ s ∈ ss, s.assigned = false ∧ s.home = none
  ok : ∀ s ∈ ss, s.Ok pools

instance (pools : List Pool) (s : Section) : Decidable (s.Ok pools) := by
  unfold Section.Ok
  have : ∀ p : Pool, Decidable (∀ l ∈ s.byteLoc, l + s.size < W32) := fun _ =>
    match h : s.byteLoc with
    | none => isTrue (by simp)
    | some l => if h : l + s.size < W32 then isTrue (by simpa using h) else isFalse (by simpa using h)
  infer_instance

end Verif.Assign
