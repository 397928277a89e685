import Verif.CInt
/-!
# The linker's memory pools (`xlink/group.c`)

A pool owns a list of free chunks. The list is modelled as a `List Chunk`; in place mutation of a
chunk is modelled by returning the new list.
-/
namespace Verif.Alloc

/-- `MemoryChunk` (xlink/group.c 34-39): a free range of CPU byte addresses. -/
structure Chunk where
  loc : Nat
  size : Nat
  deriving Repr, DecidableEq

/-- End address of a chunk as the C code computes it: `chunk->cpuByteLocation + chunk->size`
in `uint32_t` arithmetic. -/
def Chunk.end32 (c : Chunk) : Nat := add32 c.loc c.size

/-- `pool_AllocateMemory` (xlink/group.c 96-110): first fit. Returns the location and the
new free list. -/
def allocMemory (size : Nat) : List Chunk → Outcome (Nat × List Chunk)
  | [] => .fail
  | c :: cs =>
    if c.size ≥ size then
      .ok (c.loc, ⟨add32 c.loc size, sub32 c.size size⟩ :: cs)
    else
      match allocMemory size cs with
      | .ok (l, cs') => .ok (l, c :: cs')
      | .fail => .fail
      | .ub => .ub

/-- `pool_CarveRange` (xlink/group.c 112-128): the chunks that replace `c` when the range
`[loc, loc+size)` is taken out of it. -/
def carve (c : Chunk) (size loc : Nat) : List Chunk :=
  if loc = c.loc then
    [⟨add32 c.loc size, sub32 c.size size⟩]
  else
    [⟨c.loc, sub32 loc c.loc⟩,
     ⟨add32 loc size, sub32 c.end32 (add32 loc size)⟩]

/-- `pool_AllocateAbsolute` (xlink/group.c 130-141). Returns the new free list. -/
def allocAbsolute (size loc : Nat) : List Chunk → Outcome (List Chunk)
  | [] => .fail
  | c :: cs =>
    if c.loc ≤ loc ∧ add32 loc size ≤ c.end32 then
      .ok (carve c size loc ++ cs)
    else
      match allocAbsolute size loc cs with
      | .ok cs' => .ok (c :: cs')
      | .fail => .fail
      | .ub => .ub

/-- `start + byteAlign - 1` rounded down to a multiple of `byteAlign`
(xlink/group.c 167-168 and 192-193); only used when `align ≠ 0`. -/
def alignUp (start align : Nat) : Nat :=
  let l := sub32 (add32 start align) 1
  l - l % align

/-- The test both aligned paths make before carving (xlink/group.c 170-171 and 194). -/
def fits (c : Chunk) (size loc : Nat) : Bool :=
  decide (c.loc ≤ loc) && decide (add32 loc size ≤ c.end32)

/-- The `while` loop of `pool_AllocateAligned` (xlink/group.c 158-186) over the pages of one chunk.
`align = none` models `byteAlign == UINT32_MAX`. A zero page size or alignment is a division by
zero, i.e. undefined behaviour. `fuel` bounds the number of iterations; the caller passes the chunk
size, which is enough because every iteration advances `page` by at least one
(the completeness theorem for paged requests would be false otherwise). -/
def pageLoop (c : Chunk) (size : Nat) (align : Option Nat) (pageSize : Nat) :
    Nat → Nat → Outcome Nat
  | 0, _ => .fail
  | fuel + 1, page =>
    if page < c.end32 then
      if pageSize = 0 then .ub
      else
        let remChunk := sub32 c.end32 page
        let remPage := min (sub32 pageSize (page % pageSize)) remChunk
        if size ≤ remPage then
          match align with
          | some a =>
            if a = 0 then .ub
            else
              let l := alignUp page a
              if fits c size l then .ok l
              else pageLoop c size align pageSize fuel (add32 page remPage)
          | none => .ok page
        else pageLoop c size align pageSize fuel (add32 page remPage)
    else .fail

/-- The byte-aligned, unpaged part of `pool_AllocateAligned` (xlink/group.c 191-200). -/
def allocByteAligned (size align : Nat) : List Chunk → Outcome (Nat × List Chunk)
  | [] => .fail
  | c :: cs =>
    if align = 0 then .ub
    else
      let l := alignUp c.loc align
      if fits c size l then .ok (l, carve c size l ++ cs)
      else
        match allocByteAligned size align cs with
        | .ok (r, cs') => .ok (r, c :: cs')
        | .fail => .fail
        | .ub => .ub

/-- The paged part of `pool_AllocateAligned` (xlink/group.c 148-189). Both exits of the body are
`return`s, so only the first chunk is ever looked at. -/
def allocPaged (size : Nat) (align : Option Nat) (pageSize : Nat) :
    List Chunk → Outcome (Nat × List Chunk)
  | [] => .fail
  | c :: cs =>
    if size > pageSize then .fail
    else
      match pageLoop c size align pageSize c.size c.loc with
      | .ok l => .ok (l, carve c size l ++ cs)
      | .fail => .fail
      | .ub => .ub

/-- `pool_AllocateAligned` (xlink/group.c 143-204). `none` models the `UINT32_MAX` sentinels. -/
def allocAligned (size : Nat) (align page : Option Nat) (cs : List Chunk) :
    Outcome (Nat × List Chunk) :=
  match align, page with
  | none, none => allocMemory size cs
  | _, some p => allocPaged size align p cs
  | some a, none => allocByteAligned size a cs

/-- A placement request, as made by `group_AllocateAbsolute` and `group_AllocateAligned`. -/
inductive Req where
  | absolute (size loc : Nat)
  | floating (size : Nat) (align page : Option Nat)
  deriving Repr, DecidableEq

def Req.size : Req → Nat
  | .absolute s _ => s
  | .floating s _ _ => s

/-- One placement in a pool: the location and the new free list. -/
def place (r : Req) (cs : List Chunk) : Outcome (Nat × List Chunk) :=
  match r with
  | .absolute s l =>
    match allocAbsolute s l cs with
    | .ok cs' => .ok (l, cs')
    | .fail => .fail
    | .ub => .ub
  | .floating s a p => allocAligned s a p cs

/-- A placed range: first address and size. -/
abbrev Range := Nat × Nat

/-- A history of requests; failed requests are skipped (the group code then tries the next
pool), undefined behaviour ends everything. Returns the granted requests with their locations (in
order) and the remaining free list. -/
def history : List Req → List Chunk → Outcome (List (Req × Nat) × List Chunk)
  | [], cs => .ok ([], cs)
  | r :: rs, cs =>
    match place r cs with
    | .ok (l, cs') =>
      match history rs cs' with
      | .ok (gs, cs'') => .ok ((r, l) :: gs, cs'')
      | .fail => .fail
      | .ub => .ub
    | .fail => history rs cs
    | .ub => .ub

/-- The ranges handed out in a history. -/
def ranges (gs : List (Req × Nat)) : List Range := gs.map (fun g => (g.2, g.1.size))

/-- `group_InitMemoryChunks` (xlink/group.c 275-288): the pool starts as one free chunk. -/
def initChunks (base size : Nat) : List Chunk := [⟨base, size⟩]

end Verif.Alloc
