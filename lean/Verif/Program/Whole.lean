import Verif.Program.Together
/-!
# C62: the contents of programs that are linked
-/
namespace Verif.Program
open Verif.Section (Env Sect)
open Verif.Section.Spec (Area)
open Verif.Expr (AExpr ASym SymType FMath Den I32 toI32)
open Verif.Resolve (Slot Res)
open Verif.Patch (SPatch)
open Spec (World Value Consistent Contents)

/-- The module is what the assembler makes of the program, which means `W` when its sections are at `base`. -/
structure Assembled (P : Params) (prog : List (Env × Stmt)) (base : Nat → Int) (ρ : Den) (W : World) (M : Module) : Prop where
  bytes : P.cfg.wordSize = 1
  ok : ∀ x ∈ prog, x.2.Ok
  meaning : Spec.run P.cfg P.fm ρ prog {} = .good W
  consistent : Consistent base W ρ
  accepted : run P prog {} = .ok M.prog
  fm : M.fm = P.fm

theorem Assembled.good {P : Params} {prog : List (Env × Stmt)} {base : Nat → Int} {ρ : Den} {W : World} {M : Module}
    (h : Assembled P prog base ρ W M) : M.Good base ρ := by
  obtain ⟨w, hi⟩ := inv_run h.bytes prog (inv_start P base ρ) (final_of h.consistent) h.ok h.accepted h.meaning
  refine ⟨hi.placesFinal h.consistent ρ.pc, ?_⟩
  intro s k hk
  have hsym : M.sym s = M.prog.syms s := rfl
  rw [hsym] at hk ⊢
  rcases hi.syms s with h1 | ⟨k', n, -, h2⟩
  · rw [h1] at hk ⊢
    have hsh := hi.shape s
    generalize W.syms s = y at hk hsh ⊢
    cases hsh with
    | label k' n Y hY hn =>
      have := h.consistent.fits k' Y hY
      refine ⟨rfl, ?_⟩
      show I32 (n : Int)
      unfold I32
      omega
    | _ => cases hk
  · rw [h2] at hk
    cases hk

theorem uses_names {M : Module} {k : Nat} {x : Sect AExpr} (hx : M.prog.sects.sections[k]? = some x) (s : Nat) :
    M.Uses k s ↔ s ∈ names M.fm M.prog.asm k x := by
  unfold Module.Uses Module.expressions names
  rw [hx]
  simp only [List.mem_flatMap]

/-- C62: programs that are assembled one by one and linked have the contents that their statements stand for, with the addresses
that the linker has given to the sections, and with the symbols of the other programs. -/
theorem C62_program (mods : List Module) (P : Nat → Params) (prog : Nat → List (Env × Stmt)) (W : Nat → World) (base : Nat → Nat → Int)
    (ρ : Nat → Den) (hm : ∀ (i : Nat) (M : Module), mods[i]? = some M → Assembled (P i) (prog i) (base i) (ρ i) (W i) M)
    (secs : List Resolve.Sect) (origin : Nat → Nat × Option Nat) (hl : Linking mods base secs origin) (ha : Agree mods secs origin ρ)
    (hd : ∀ (i : Nat) (M : Module), mods[i]? = some M → M.Distinct) (lnk : Slot → Outcome Res) (xs : List (Slot × Bool)) (st : Resolve.State)
    (hst : Resolve.touchAll secs lnk xs Resolve.start = .ok st) (property : Int → Int → Outcome Int)
    (hp : ∀ a b v, property a b = .ok v → I32 v) (j i k : Nat) (S : Resolve.Sect) (M : Module) (x : Sect AExpr) (hj : secs[j]? = some S)
    (ho : origin j = (i, some k)) (hM : mods[i]? = some M) (hx : M.prog.sects.sections[k]? = some x)
    (hsmall : (M.symbols k).length ≤ 4294967296) :
    ∃ Y, (W i).areas.areas[k]? = some Y ∧ (Y.group.bss = false → ∀ (osr : Bool) (ps : List SPatch) (bs : Bytes),
      image M.fm M.prog.asm (M.ids k) osr (linkEnv secs lnk st j S.loc property) k x = .ok (ps, bs) → (∀ q ∈ ps, q.type = 5) →
      Contents M.fm (ρ i) (base i k) Y bs) := by
  have hA := hm i M hM
  have hlink := C62_linked mods base ρ secs origin hl ha (fun i M h => (hm i M h).good) hd lnk xs st hst property hp j k S M hj
    (by rw [ho]; exact hM) (by rw [ho]) hsmall
  rw [ho] at hlink
  obtain ⟨-, h⟩ := C61_contents (P i) hA.bytes (base i) (ρ i) (prog i) hA.ok (W i) hA.meaning hA.consistent M.prog hA.accepted
  obtain ⟨Y, hY, -, -, -, -, -, -, -, hc⟩ := h k x hx
  refine ⟨Y, hY, ?_⟩
  intro hb osr ps bs hi hps
  rw [hA.fm] at hi ⊢
  refine hc hb (M.ids k) _ osr ps bs ⟨?_, ?_⟩ hi hps
  · intro s hs
    refine hlink.small s ((uses_names hx s).2 ?_)
    rw [hA.fm]
    exact hs
  · obtain ⟨ρ', e1, e2, e3⟩ := hlink.env
    refine ⟨ρ', fun s hs => e1 s ((uses_names hx s).2 ?_), fun s hs => e2 s ((uses_names hx s).2 ?_), e3⟩
    · rw [hA.fm]; exact hs
    · rw [hA.fm]; exact hs

end Verif.Program
