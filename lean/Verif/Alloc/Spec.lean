import Verif.Alloc.Model
/-!
# Specification vocabulary for memory placement

Nothing here depends on how the allocator works: ranges are sets of addresses.
-/
namespace Verif.Alloc

/-- Address `a` lies in the range that starts at `r.1` and is `r.2` bytes long. -/
def Range.Has (r : Range) (a : Nat) : Prop := r.1 ≤ a ∧ a < r.1 + r.2

instance (r : Range) (a : Nat) : Decidable (r.Has a) := by unfold Range.Has; infer_instance

/-- Two ranges have no address in common. -/
def Range.Disjoint (r s : Range) : Prop := ∀ a, ¬ (r.Has a ∧ s.Has a)

/-- The range lies between `lo` (inclusive) and `hi` (exclusive). -/
def Range.Within (r : Range) (lo hi : Nat) : Prop := lo ≤ r.1 ∧ r.1 + r.2 ≤ hi

instance (r : Range) (lo hi : Nat) : Decidable (r.Within lo hi) := by
  unfold Range.Within; infer_instance

/-- The chunk as a range. -/
def Chunk.range (c : Chunk) : Range := (c.loc, c.size)

/-- Address `a` is free. -/
def Free (cs : List Chunk) (a : Nat) : Prop := ∃ c ∈ cs, c.range.Has a

/-- Number of ranges containing address `a`. -/
def cover (rs : List Range) (a : Nat) : Nat := rs.countP (fun r => decide (r.Has a))

/-- Number of free chunks containing address `a`. -/
def freeCover (cs : List Chunk) (a : Nat) : Nat := cs.countP (fun c => decide (c.range.Has a))

/-- Total number of bytes. -/
def totalSize (rs : List Range) : Nat := (rs.map Prod.snd).sum
def totalFree (cs : List Chunk) : Nat := (cs.map Chunk.size).sum

/-- `[l, l+size)` does not straddle a multiple of `p`. -/
def SamePage (l size p : Nat) : Prop := ∃ k, k * p ≤ l ∧ l + size ≤ (k + 1) * p

/-- Location `l` satisfies the constraints the request itself makes. -/
def Req.Wants : Req → Nat → Prop
  | .absolute _ loc, l => l = loc
  | .floating s align page, l =>
      (∀ a, align = some a → a ∣ l) ∧ (∀ p, page = some p → SamePage l s p)

/-- Every address of `[l, l+size)` is free. -/
def AllFree (cs : List Chunk) (l size : Nat) : Prop := ∀ a, Range.Has (l, size) a → Free cs a

/-- The 32-bit sums made for this request do not wrap in a pool that ends at `hi`. -/
def Req.NoWrap (hi : Nat) : Req → Prop
  | .absolute s loc => loc + s < W32
  | .floating s align _ => ∀ a, align = some a → hi + a + s ≤ W32

instance (hi : Nat) : (r : Req) → Decidable (r.NoWrap hi)
  | .absolute _ _ => by unfold Req.NoWrap; infer_instance
  | .floating _ none _ => isTrue (by intro a h; cases h)
  | .floating s (some b) _ =>
    if h : hi + b + s ≤ W32 then isTrue (by intro a e; cases e; exact h)
    else isFalse (fun f => h (f b rfl))

/-- The page size is a `uint32_t`. -/
def Req.PageOk : Req → Prop
  | .absolute _ _ => True
  | .floating _ _ page => ∀ p, page = some p → p < W32

instance : (r : Req) → Decidable r.PageOk
  | .absolute _ _ => isTrue trivial
  | .floating _ _ none => isTrue (by intro a h; cases h)
  | .floating _ _ (some p) =>
    if h : p < W32 then isTrue (by intro a e; cases e; exact h)
    else isFalse (fun f => h (f p rfl))

/-- A request whose numbers are small enough for 32-bit arithmetic in a pool that ends at `hi`. -/
def Req.Ok (hi : Nat) (r : Req) : Prop := r.NoWrap hi ∧ r.PageOk

instance (hi : Nat) (r : Req) : Decidable (r.Ok hi) := by unfold Req.Ok; infer_instance

end Verif.Alloc
