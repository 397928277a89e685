import Verif.BinObj.Image
import Verif.Expr.LinkProps
/-!
# C30: examples, and images that are wrong
-/
namespace Verif.BinObj
open Verif.Section Verif.Expr

/-- The result for `decide`: nothing at all if undefined. -/
def outcome {α : Type} : Outcome α → Option (Option α)
  | .ok a => some (some a) | .fail => some none | .ub => none

def code : Group := ⟨0, false⟩

def plain : Settings := ⟨.plain, 1, 1⟩

/-- `SECTION "A",CODE[16]`, two bytes and `DW label+256`. -/
def secA : Sect AExpr :=
  { name := "A", group := code, flags := { loadFixed := true }, used := 4, alloc := 8, imagePosition := 16, origin := 16,
    data := [1, 2, 0, 0, 0, 0, 0, 0], patches := [⟨2, .two, false, .bin none .add (.sym 0) (.const 256)⟩] }

/-- `SECTION "B",CODE,ALIGN[2],PAGE[8]`, three bytes. -/
def secB : Sect AExpr :=
  { name := "B", group := code, flags := { aligned := true, paged := true }, used := 3, alloc := 8, align := 2, page := 8,
    data := [9, 8, 7, 0, 0, 0, 0, 0] }

/-- `SECTION "C",CODE`, three bytes. -/
def secC : Sect AExpr :=
  { name := "C", group := code, flags := {}, used := 3, alloc := 8, data := [6, 5, 4, 0, 0, 0, 0, 0] }

/-- A label in the section with number `k`. -/
def label (k : Nat) (v : Int) : Sym := { type := .label, sect := some k, value := v }

example : outcome (binWrite plain fm0 [secA, secB, secC, secB] [label 2 1]) =
    some (some [1, 2, 24, 1, 9, 8, 7, 6, 5, 4, 9, 8, 7]) := by decide +kernel

/-- The second `secB` would not fit in the page from 24 on if there was another one: 24, 28 is not enough. -/
example : outcome (binWrite plain fm0 [secA, secB, secC, secB, secB, secB] [label 2 1]) =
    some (some [1, 2, 24, 1, 9, 8, 7, 6, 5, 4, 9, 8, 7, 0, 0, 0, 9, 8, 7, 0, 9, 8, 7]) := by decide +kernel

example : outcome (verilogWrite plain fm0 [secA, secC] [label 1 0]) =
    some (some "01\n02\n14\n01\n06\n05\n04\n".toList) := by decide +kernel

/-- The hypotheses of `C30_layout_partial` for this program. -/
example : Layout 0 ([secA, secB, secC].map (wanted plain)) [16, 20, 23] 26 ∧ (∀ s ∈ [secA, secB, secC], Good (wanted plain s)) ∧
    Small 26 ([secA, secB, secC].map (wanted plain)) := by
  have hg : ∀ s ∈ [secA, secB, secC], Good (wanted plain s) := by
    intro s hs
    simp only [List.mem_cons, List.not_mem_nil, or_false] at hs
    rcases hs with rfl | rfl | rfl
    · intro h; cases h
    · intro _; refine ⟨by decide, ?_⟩; rintro p ⟨⟩; exact ⟨by decide, by decide⟩
    · intro _; refine ⟨by decide, ?_⟩; rintro p ⟨⟩
  refine ⟨.cons (q := 16) ⟨rfl, by decide, ?_⟩ (.cons (q := 20) ?_ (.cons (q := 23) ?_ (.nil _))), hg, by decide, by decide⟩
  · intro q' _ hq
    have : q' = 16 := hq
    omega
  · exact choose_first (wanted plain secB) 20 rfl (hg _ (by simp)) (by rintro p ⟨⟩; decide)
  · exact choose_first (wanted plain secC) 23 rfl (hg _ (by simp)) (by rintro p ⟨⟩)

/-- Overlapping sections are reported. -/
example : (outcome (place plain 0 [secA, { secA with imagePosition := 19, origin := 19 }])).map Option.isSome = some false := by
  decide +kernel

/-- A branch: the distance to label 0, less one, must fit in a byte with sign. -/
def branch : Sect AExpr :=
  { secC with data := [0x20, 0, 0, 0, 0, 0, 0, 0],
              patches := [⟨1, .one, false,
                .bin none .highLimit (.bin none .lowLimit (.pcRel (.const (-1)) (.sym 0)) (.const (-128))) (.const 127)⟩] }

/-- A branch in the same section works. -/
example : outcome (binWrite plain fm0 [secA, branch] [label 1 0]) = some (some [1, 2, 20, 1, 0x20, 254, 0]) := by decide +kernel

/-- **C30 does not hold:** a branch from a section without load address to a label in another section is written as 0. No error
is reported, and the image is written. The target is 4 bytes before the section, and the distance should be -5. -/
theorem C30_branch_lost :
    outcome (binWrite plain fm0 [secA, branch] [label 0 1]) = some (some [1, 2, 17, 1, 0x20, 0, 0]) ∧
    (outcome (commonPatch plain fm0 [secA, branch] (markUsed [secA, branch] [label 0 1]))).map (Option.map fun r =>
      (r.2.2, r.1.map fun s => s.patches.length)) = some (some (0, [0, 1])) := by
  decide +kernel

/-- More generally, the distance to a label in another section never has a value. -/
theorem C30_distance_unknown (fm : FMath) (A : Asm) (i k : Nat) (p : Patch AExpr) (adj : Int) (s : Nat) (hik : i ≠ k)
    (hs : (A.syms s).sect = some k) (ht : (A.syms s).type ≠ .equ) (he : p.expr = .pcRel (.const adj) (.sym s)) :
    evaluate fm A i p = .ok none := by
  unfold evaluate
  rw [he]
  simp only [reduce, sectionOffset]
  have : ∀ sec, symSectionOffset (A.syms s) i sec = none := by
    intro sec
    unfold symSectionOffset
    rw [if_neg (fun h => ht h.1), if_neg]
    rw [hs]
    intro h
    injection h with h
    exact hik h.symm
  cases A.sects[i]? with
  | none => rfl
  | some sec => simp only [Option.bind_some, this]; rfl

/-- **C30 does not hold:** a section that is moved to the next page loses its alignment if this does not divide the size of the
page. Here a section with alignment 4 is at position 6. -/
theorem C30_page_misaligned :
    (outcome (place plain 0 [{ secC with used := 3 }, { secB with align := 4, page := 6 }])).map
      (Option.map fun ss => ss.map fun s => s.imagePosition) = some (some [0, 6]) := by
  decide +kernel

/-- **C30 does not hold:** positions are calculated modulo 2^32. A section behind the end of memory overlaps the first ones. -/
theorem C30_wraps :
    (outcome (place plain 0 [secC, { secA with imagePosition := 4294967293, origin := 4294967293 }, secC])).map
      (Option.map fun ss => ss.map fun s => (s.imagePosition, s.used)) = some (some [(0, 3), (4294967293, 4), (1, 3)]) := by
  decide +kernel

/-- A section with the alignment 0 or the page size 0 divides by zero. -/
theorem C30_divides_by_zero :
    outcome ((place plain 0 [{ secC with flags := { aligned := true }, align := 0 }]).bind fun _ => .ok ()) = none ∧
    outcome ((place plain 0 [{ secC with flags := { paged := true }, used := 0, page := 0 }]).bind fun _ => .ok ()) = none := by
  decide +kernel

def z80 : Settings := ⟨.z80, 1, 1⟩

/-- **C30 does not hold:** `SECTION "A",CODE[$4000],BANK[1]` for the Z80 is not at the address $4000, where the bank 1 is, but at
$8000; without a load address the section is at $4000. -/
theorem C30_bank_address :
    (outcome (place z80 0 [{ secC with flags := { loadFixed := true, bankFixed := true }, bank := 1, imagePosition := 0x4000, origin := 0x4000 }])).map
      (Option.map fun ss => ss.map fun s => (s.imagePosition, s.origin)) = some (some [(0x8000, 0x8000)]) ∧
    (outcome (place z80 0 [{ secC with flags := { bankFixed := true }, bank := 1 }])).map
      (Option.map fun ss => ss.map fun s => (s.imagePosition, s.origin)) = some (some [(0x4000, 0x4000)]) := by
  decide +kernel

/-- **C30 does not hold:** of two sections in a bank that have no load address, the second one is refused as overlapping, although
it could follow the first one. -/
theorem C30_bank_twice (s t : Sect AExpr) (post : List (Sect AExpr)) (hs : s.flags.bankFixed = true) (ht : t.flags.bankFixed = true)
    (h0 : s.imagePosition = 0) (h1 : t.imagePosition = 0) (hb : s.bank = t.bank) (hu : 0 < s.used) (hu' : 0 < t.used)
    (hsmall : s.bank * 16384 + s.used + t.used < 2 ^ 32) : place z80 0 (s :: t :: post) = .fail := by
  have h32 : (2 : Nat) ^ 32 = W32 := rfl
  rw [h32] at hsmall
  have hfs : (wanted z80 s).fixed = some (s.bank * 16384) := by simp [wanted, inBank, hs, z80, bankSize, h0]
  have hft : (wanted z80 t).fixed = some (s.bank * 16384) := by simp [wanted, inBank, ht, z80, bankSize, h1, hb]
  generalize s.bank * 16384 = b at *
  have e1 := placeOne_fixed z80 0 s b hfs (by omega)
  have e2 := placeOne_fixed z80 (b + s.used) t b hft (by omega)
  rw [if_neg (by omega)] at e1
  rw [if_pos (by omega)] at e2
  have e3 : place z80 (b + s.used) (t :: post) = .fail := by rw [place, e2]; rfl
  rw [place, e1, ok_bind]
  simp only []
  rw [e3]
  rfl

example : place z80 0 [{ secC with flags := { bankFixed := true }, bank := 1 }, { secC with flags := { bankFixed := true }, bank := 1 }] = .fail :=
  C30_bank_twice _ _ [] rfl rfl rfl rfl rfl (by decide) (by decide) (by decide)

/-- `BANK` of a label in a section without bank is written as 0 without an error. -/
theorem C30_bank_lost :
    outcome (binWrite z80 fm0 [{ secA with patches := [⟨2, .two, false, .bin none .add (.bank 0) (.const 5)⟩] }] [label 0 1]) =
      some (some [1, 2, 0, 0]) := by
  decide +kernel

/-- The first section has a value to fill in and no address: nothing is written. With a bank only, something is. -/
example : (outcome (binWrite plain fm0 [{ secA with flags := {} }] [label 0 1])) = some none ∧
    (outcome (binWrite plain fm0 [{ secA with flags := { bankFixed := true } }] [label 0 1])) = some (some [1, 2, 1, 1]) := by
  decide +kernel

end Verif.BinObj
