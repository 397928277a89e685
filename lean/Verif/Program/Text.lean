import Verif.Program.Code
import Verif.Source.Z80
import Verif.Source.M6809
/-!
# C61: from the text of a line to the bytes of a section
-/
set_option linter.constructorNameAsVariable false

namespace Verif.Program
open Verif.Section (Env Sect)
open Verif.Section.Spec (Area)
open Verif.Expr (FMath ASym AExpr Den wrap)
open Verif.Cpu (Item Ctx)
open Verif.Lexer hiding Env
open Verif.Source
open Verif.Parse (Tok Toks)
open Spec (Value World Consistent)

/-- A program has been assembled and linked: behind the statements `pre`, in section `k` at offset `o`, it has an instruction
with the items `is`; the section has been put at `address`, and its bytes are `bs`. The symbols of that line are `now`. -/
structure Built (P : Params) (ρ : Den) (env : Env) (is : List Item) (now : Nat → ASym) (address : Int) (o : Nat) (bs : Bytes) : Prop where
  exist : ∃ (base : Nat → Int) (pre post : List (Env × Stmt)) (W1 W : World) (σ : Prog) (k : Nat) (Y1 : Area Value) (x : Sect AExpr) (ids : Nat → Nat)
    (lenv : Expr.Env) (osr : Bool) (ps : List Patch.SPatch),
    P.cfg.wordSize = 1 ∧ (∀ x ∈ pre ++ (env, .code is) :: post, x.2.Ok) ∧ Spec.run P.cfg P.fm ρ pre {} = .good W1 ∧
    Spec.run P.cfg P.fm ρ (pre ++ (env, .code is) :: post) {} = .good W ∧ Consistent base W ρ ∧
    run P (pre ++ (env, .code is) :: post) {} = .ok σ ∧ W1.areas.current = some k ∧ W1.areas.areas[k]? = some Y1 ∧ Y1.group.bss = false ∧
    σ.sects.sections[k]? = some x ∧ Linked (· ∈ names P.fm σ.asm k x) ids lenv (base k) ρ ∧ image P.fm σ.asm ids osr lenv k x = .ok (ps, bs) ∧ (∀ q ∈ ps, q.type = 5) ∧
    now = W1.syms ∧ address = base k ∧ o = Y1.cells.length

theorem Built.code {P : Params} {ρ : Den} {env : Env} {is : List Item} {now : Nat → ASym} {address : Int} {o : Nat} {bs : Bytes}
    (h : Built P ρ env is now address o bs) :
    codeAt P.fm env.big now { ρ with pc := address + o } is = some (((bs.drop o).take (sizes is)).map UInt8.toNat) := by
  obtain ⟨base, pre, post, W1, W, σ, k, Y1, x, ids, lenv, osr, ps, h1, h2, h3, h4, h5, h6, h7, h8, h9, h10, h11, h12, h13, rfl, rfl, rfl⟩ := h.exist
  exact C61_code P h1 base ρ pre post env is h2 W1 W h3 h4 h5 σ h6 k Y1 h7 h8 h9 x h10 ids lenv osr ps bs h11 h12 h13

section
open Verif.Cpu.Z80 Verif.Source.Z80

/-- **C61.** A line of text with an instruction of the Z80 becomes, in every program in which it stands, the bytes of this
instruction with the final addresses. -/
theorem C61_z80 {S : List Char → Option (List Char)} (C : Ctx) (o : Opts) (m : Mn) (xs : List Opnd) (hl : xs.length ≤ 2) (hg : ∀ x ∈ xs, x.Good)
    (hk : ∀ s v, C.known s = some v → -2147483648 ≤ v ∧ v < 2147483648)
    {is : List (Instr E)} (hs : sem o.cpu (known C xs) m (opvs xs) = some is) (hlegal : legal o is = true) (ho : odd o m (opvs xs) = false)
    {n k A : Nat} {V rest : List Char} {ts : List Token} {v : Values} {b : Buffer} (h : Written (z80Language S) n false V ts rest)
    (ht : ts.map ofToken = m.tok :: (line xs ++ [.other 10])) (hS : ∀ t ∈ ts, contents S t = none) (hA : A + 9 ≤ stackSize) (hk' : ts.length ≤ k)
    (hb : Pos v A b V 9) :
    ∃ b' its, parseLine (z80Env S) n k true b = .ok (ts, b') ∧ Pos v A b' rest 9 ∧ instr C o (ts.map ofToken) = .ok (some (its, [.other 10])) ∧
      ∀ (P : Params) (ρ : Den) (env : Env) (now : Nat → ASym) (address : Int) (off : Nat) (bs : Bytes), env.big = false →
        Built P ρ env its now address off bs → 0 ≤ address + off → address + off < 16777216 →
        slotBytes (E.val (firstValue C P.fm now { ρ with pc := address + off } xs) (secondValue C P.fm now { ρ with pc := address + off } xs))
          (address + off) (is.flatMap (·.slots o.cpu)) = some (((bs.drop off).take (sizes its)).map UInt8.toNat) := by
  obtain ⟨b', its, h1, h2, h3, h4⟩ := C59_z80 C o m xs hl hg hk hs hlegal ho h ht hS hA hk' hb
  refine ⟨b', its, h1, h2, h3, ?_⟩
  intro P ρ env now address off bs he hB h0 h16
  rw [← hB.code, he, codeAt_le]
  exact (h4 P.fm now { ρ with pc := address + off } h0 h16).symm
end

section
open Verif.Cpu.M6809 Verif.Source.M6809

/-- **C61.** A line of text with an instruction of the 6809 becomes, in every program in which it stands, bytes that the
processor reads as this instruction with the final addresses. -/
theorem C61_6809 {S : List Char → Option (List Char)} (C : Ctx) (dp : Option Nat) (m : Mn) (x : Opnd) (hg : x.Good) (hl : x.legal m = true) (hr : x.Right C dp m)
    {n k A : Nat} {V rest : List Char} {ts : List Token} {v : Values} {b : Buffer} (h : Written (asm6809.language S) n false V ts rest)
    (ht : ts.map ofToken = m.tok :: (x.toks ++ [.other 10])) (hS : ∀ t ∈ ts, contents S t = none) (hA : A + 9 ≤ stackSize) (hk : ts.length ≤ k)
    (hb : Pos v A b V 9) :
    ∃ b' done its, parseLine (asm6809.env S) n k true b = .ok (ts, b') ∧ Pos v A b' rest 9 ∧
      instr C dp (ts.map ofToken) = .ok ⟨done, its, dp, [.other 10]⟩ ∧
      ∀ (P : Params) (ρ : Den) (env : Env) (now : Nat → ASym) (address : Int) (off : Nat) (bs : Bytes), env.big = true →
        Built P ρ env its now address off bs → C.Sound P.fm wrap now { ρ with pc := address + off } → 0 ≤ address + off → address + off < 16777216 →
        (∀ v, x.value C P.fm now { ρ with pc := address + off } = some v → x.Near m (address + off) v) →
        ((decode (address + off) (((bs.drop off).take (sizes its)).map UInt8.toNat)).map (Ins.at dp)) =
          (meaning m x (x.value C P.fm now { ρ with pc := address + off }) dp (address + off)).map (⟨.mn m, ·⟩) := by
  obtain ⟨b', done, its, h1, h2, h3, h4⟩ := C59_6809 C dp m x hg hl hr h ht hS hA hk hb
  refine ⟨b', done, its, h1, h2, h3, ?_⟩
  intro P ρ env now address off bs he hB hC h0 h16 hn
  have := h4 P.fm now { ρ with pc := address + off } hC h0 h16 hn
  rw [← codeAt_be, ← he, hB.code] at this
  exact this
end

end Verif.Program
