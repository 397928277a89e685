import Verif.Alloc.Spec
/-!
# Placing all sections (`xlink/assign.c`, and the group functions of `xlink/group.c`)

Sentinels `-1`/`UINT32_MAX` for address, alignment, page and image location are `none`; the bank
keeps its C encoding (`-1` = any bank). `error(...)` exits the linker and is `Outcome.fail`.
-/
namespace Verif.Assign
open Verif.Alloc

/-- `Group` of an object file (xlink/object.h); `type` is 0 for text and 1 for bss. -/
structure SGroup where
  name : String
  type : Nat
  data : Bool
  shared : Bool
  deriving Repr, DecidableEq

/-- `SSection` (xlink/section.h 42-77), the fields that matter for placement. `home` is a ghost field: the
index of the pool the section was placed in; the C code does not store it and nothing reads it. -/
structure Section where
  group : Option SGroup
  size : Nat
  byteLoc : Option Nat
  bank : Int
  loc : Int
  image : Option Int
  overlay : Nat
  wordSize : Nat
  align : Option Nat
  page : Option Nat
  used : Bool
  assigned : Bool
  home : Option Nat
  deriving Repr, DecidableEq

/-- `MemoryPool` (xlink/group.h 31-40). `onlyAbs` is never consulted by the code and left out. -/
structure Pool where
  image : Option Nat
  overlay : Nat
  base : Nat
  bank : Int
  size : Nat
  free : List Chunk
  deriving Repr, DecidableEq

/-- `MemoryGroup` (xlink/group.h 42-51): a name and the indices of its pools. Pools may belong to several
groups. -/
structure MGroup where
  name : String
  pools : List Nat
  deriving Repr, DecidableEq

/-- `group_FindByName` (xlink/group.c 226-235); `error` if undefined. -/
def findGroup (gs : List MGroup) (name : String) : Option MGroup :=
  gs.find? (fun g => g.name == name)

/-- A successful allocation from a group: pool index and location. -/
structure Spot where
  pool : Nat
  loc : Nat
  deriving Repr, DecidableEq

/-- The loop of `group_AllocateAbsoluteFromGroup` (xlink/group.c 237-254) and of
`group_AllocateAlignedFromGroup` (256-273); the two loops differ only in the pool function they call,
which is `place`. An index outside the pool table cannot happen and is `ub`. -/
def allocFromPools (r : Req) (bank : Int) (pools : List Pool) : List Nat → Outcome (Spot × List Pool)
  | [] => .fail
  | i :: is =>
    match pools[i]? with
    | none => .ub
    | some pool =>
      if bank = -1 ∨ bank = pool.bank then
        match place r pool.free with
        | .ok (l, free') => .ok (⟨i, l⟩, pools.set i { pool with free := free' })
        | .fail => allocFromPools r bank pools is
        | .ub => .ub
      else allocFromPools r bank pools is

/-- The image location of a placement: `-1` if the pool has none, else
`imageLocation + cpuByteLocation - pool->cpuByteLocation` (xlink/group.c 246-247, 265-266).
Simplification: no 32-bit overflow of image offsets. -/
def imageOf (pool : Pool) (l : Nat) : Option Int :=
  match pool.image with
  | none => none
  | some img => some ((img : Int) + (l : Int) - (pool.base : Int))

/-- Reading a 32-bit pattern as `int32_t`. -/
def int32 (n : Nat) : Int := if n < 2147483648 then (n : Int) else (n : Int) - 4294967296

/-- `group_AllocateAbsolute` (xlink/group.c 379-384) followed by the updates the callers make
(xlink/assign.c 45-50, 57-62): bank, image location and overlay come from the pool, the address stays. -/
def assignAbsolute (gs : List MGroup) (pools : List Pool) (s : Section) (g : SGroup) (l : Nat) :
    Outcome (List Pool × Section) :=
  match findGroup gs g.name with
  | none => .fail
  | some mg =>
    match allocFromPools (.absolute s.size l) s.bank pools mg.pools with
    | .fail => .fail
    | .ub => .ub
    | .ok (spot, pools') =>
      match pools[spot.pool]? with
      | none => .ub
      | some pool =>
        .ok (pools', { s with
          bank := pool.bank
          image := imageOf pool l
          overlay := pool.overlay
          assigned := true
          home := some spot.pool })

/-- `group_AllocateAligned` (xlink/group.c 386-392) followed by the updates of
`assignSectionCore` (xlink/assign.c 33-38) and `assignSection` (122-128). The division by
`minimumWordSize` is undefined for 0. -/
def assignFloating (gs : List MGroup) (pools : List Pool) (s : Section) (g : SGroup) :
    Outcome (List Pool × Section) :=
  match findGroup gs g.name with
  | none => .fail
  | some mg =>
    match allocFromPools (.floating s.size s.align s.page) s.bank pools mg.pools with
    | .fail => .fail
    | .ub => .ub
    | .ok (spot, pools') =>
      if s.wordSize = 0 then .ub
      else
        match pools[spot.pool]? with
        | none => .ub
        | some pool =>
          .ok (pools', { s with
            byteLoc := some spot.loc
            bank := pool.bank
            image := imageOf pool spot.loc
            overlay := pool.overlay
            loc := (int32 spot.loc).tdiv s.wordSize
            assigned := true
            home := some spot.pool })

/-- The six section predicates (xlink/assign.c 132-164) by the group type and flags they test. -/
inductive Kind where
  | codeShared | code | dataShared | data | bssShared | bss
  deriving Repr, DecidableEq

def Kind.test : Kind → SGroup → Bool
  | .codeShared, g => g.type == 0 && !g.data && g.shared
  | .code, g => g.type == 0 && !g.data && !g.shared
  | .dataShared, g => g.type == 0 && g.data && g.shared
  | .data, g => g.type == 0 && g.data && !g.shared
  | .bssShared, g => g.type == 1 && !g.data && g.shared
  | .bss, g => g.type == 1 && !g.data && !g.shared

/-- `isCode` ... `isBSSShared` (xlink/assign.c 132-164); `none` is `truePredicate` (166-169). -/
def predicate (k : Option Kind) (s : Section) : Bool :=
  match k with
  | none => true
  | some k =>
    !s.assigned &&
    match s.group with
    | none => false
    | some g => k.test g

/-- The nine functions `assign_Process` runs over the sections (xlink/assign.c 42-130). -/
inductive How where
  | orgBank | org | bankAlignPage | bankAlign | bankPage | alignPage | align | page | plain
  deriving Repr, DecidableEq

/-- One pass: a function and a predicate. -/
structure Pass where
  how : How
  pred : Option Kind
  deriving Repr, DecidableEq

/-- `assignSectionCore` (xlink/assign.c 29-40). A section without group never satisfies one of the
six predicates; with `truePredicate` the function is never called. -/
def assignSectionCore (gs : List MGroup) (k : Option Kind) (pools : List Pool) (s : Section) :
    Outcome (List Pool × Section) :=
  if predicate k s then
    match s.group with
    | none => .ub
    | some g => assignFloating gs pools s g
  else .ok (pools, s)

/-- `assignOrgAndBankFixedSection` and `assignOrgFixedSection` (xlink/assign.c 42-64), `bankOk` being the test
on the bank. -/
def assignFixedCore (gs : List MGroup) (k : Option Kind) (bankOk : Bool) (pools : List Pool)
    (s : Section) : Outcome (List Pool × Section) :=
  match s.byteLoc with
  | none => .ok (pools, s)
  | some l =>
    if predicate k s && bankOk then
      match s.group with
      | none => .ub
      | some g => assignAbsolute gs pools s g l
    else .ok (pools, s)

/-- `assignSection` (xlink/assign.c 108-130). -/
def assignSection (gs : List MGroup) (k : Option Kind) (pools : List Pool) (s : Section) :
    Outcome (List Pool × Section) :=
  if s.assigned then .ok (pools, s)
  else
    match s.group with
    | none => .ok (pools, { s with byteLoc := some 0, loc := 0, bank := 0, image := none, assigned := true })
    | some g => if predicate k s then assignFloating gs pools s g else .ok (pools, s)

/-- One pass applied to one section (xlink/assign.c 42-130). -/
def Pass.run (gs : List MGroup) (p : Pass) (pools : List Pool) (s : Section) :
    Outcome (List Pool × Section) :=
  match p.how with
  | .orgBank => assignFixedCore gs p.pred (s.bank != -1) pools s
  | .org => assignFixedCore gs p.pred (s.bank == -1) pools s
  | .bankAlignPage =>
    if s.bank != -1 && s.align.isSome && s.page.isSome then assignSectionCore gs p.pred pools s
    else .ok (pools, s)
  | .bankAlign =>
    if s.bank != -1 && s.align.isSome && s.page.isNone then assignSectionCore gs p.pred pools s
    else .ok (pools, s)
  | .bankPage =>
    if s.bank != -1 && s.align.isNone && s.page.isSome then assignSectionCore gs p.pred pools s
    else .ok (pools, s)
  | .alignPage =>
    if s.bank == -1 && s.align.isSome && s.page.isSome then assignSectionCore gs p.pred pools s
    else .ok (pools, s)
  | .align =>
    if s.bank == -1 && s.align.isSome && s.page.isNone then assignSectionCore gs p.pred pools s
    else .ok (pools, s)
  | .page =>
    if s.bank == -1 && s.align.isNone && s.page.isSome then assignSectionCore gs p.pred pools s
    else .ok (pools, s)
  | .plain => assignSection gs p.pred pools s

/-- `sect_ForEachUsedSection` (xlink/section.c 226-234) with one of the functions above. -/
def sweep (gs : List MGroup) (p : Pass) : List Pool → List Section → Outcome (List Pool × List Section)
  | pools, [] => .ok (pools, [])
  | pools, s :: ss =>
    match (if s.used then p.run gs pools s else .ok (pools, s)) with
    | .fail => .fail
    | .ub => .ub
    | .ok (pools1, s') =>
      match sweep gs p pools1 ss with
      | .fail => .fail
      | .ub => .ub
      | .ok (pools2, ss') => .ok (pools2, s' :: ss')

/-- The functions in the order they are run for one predicate (xlink/assign.c 181-189). -/
def howOrder : List How :=
  [.orgBank, .org, .bankAlignPage, .bankAlign, .bankPage, .alignPage, .align, .page, .plain]

/-- The predicates in order (xlink/assign.c 171-174). -/
def kindOrder : List Kind := [.codeShared, .code, .dataShared, .data, .bssShared, .bss]

/-- All passes of `assign_Process` (xlink/assign.c 176-191). -/
def allPasses : List Pass :=
  (kindOrder.flatMap fun k => howOrder.map fun h => ⟨h, some k⟩) ++ [⟨.plain, none⟩]

def runPasses (gs : List MGroup) : List Pass → List Pool → List Section →
    Outcome (List Pool × List Section)
  | [], pools, ss => .ok (pools, ss)
  | p :: ps, pools, ss =>
    match sweep gs p pools ss with
    | .fail => .fail
    | .ub => .ub
    | .ok (pools', ss') => runPasses gs ps pools' ss'

/-- `group_InitMemoryChunks` (xlink/group.c 275-288): every pool starts as one free chunk. -/
def initPools (pools : List Pool) : List Pool :=
  pools.map fun p => { p with free := initChunks p.base p.size }

/-- `assign_Process` (xlink/assign.c 176-194) up to, but not including, the final sort (which is
modelled in `Verif/Sort`). -/
def assignProcess (gs : List MGroup) (pools : List Pool) (ss : List Section) :
    Outcome (List Pool × List Section) :=
  runPasses gs allPasses (initPools pools) ss

end Verif.Assign
