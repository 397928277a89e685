import Verif.Program.Link
import Verif.Expr.AsmProps
/-!
# C61: from statements to the bytes of sections
-/
namespace Verif.Program
open Verif.Section (Config Env Op Operand Size Group Kind Label State Sect Patch Holes HolesAll Match Rel flagsOf)
open Verif.Section.Spec (Area Cell Result digits)
open Verif.Expr (Src ASym AExpr SymType FMath Here Asm Den I32 u32 toI32 build compile reduce optimize writeExpr Evolves wrap Setting SameDen
  calculate Entry C14_value_known C14_value_linked)
open Verif.Patch (SPatch width Apart Untouched decode window C13_other_bytes_unchanged C13_patches_stored decode_bytesOf length_bytesOf EnvOk)
open Verif.Cpu (Item)
open Spec (Value Outside World Consistent Contents)

/-- The symbols that are used have numbers in the object file, and the linker, for which the section is at this address, gives
them the values that they stand for, as far as it knows them. -/
structure Linked (used : Nat → Prop) (ids : Nat → Nat) (env : Expr.Env) (address : Int) (ρ : Den) : Prop where
  small : ∀ s, used s → ids s < 4294967296
  env : ∃ ρ' : Den, (∀ s, used s → ∀ v, ρ'.sym (ids s) = some v → ρ.sym s = some v) ∧
    (∀ s, used s → ∀ v, ρ'.bank (ids s) = some v → ρ.bank s = some v) ∧
    ∀ o : Nat, ({ env with offset := o } : Expr.Env).Places { ρ' with pc := address + o }

theorem Linked.ok {used : Nat → Prop} {ids : Nat → Nat} {env : Expr.Env} {address : Int} {ρ : Den} (h : Linked used ids env address ρ) :
    EnvOk env := by
  obtain ⟨ρ', -, -, h⟩ := h.env
  have hpl := h 0
  refine ⟨?_, ?_, ?_⟩
  · intro id e h1
    have h2 := hpl.absolute id e h1
    obtain ⟨s, v⟩ := e
    subst h2
    exact hpl.symRange id v ((hpl.symbol id v).1 h1)
  · intro id v h1
    exact hpl.bankRange id v ((hpl.bank id v).1 h1)
  · intro a b v h1
    exact hpl.groupRange a b v ((hpl.group a b v).1 h1)

section
variable {P : Params} {base : Nat → Int} {ρ : Den} {σ : Prog} {w : Section.Spec.World AExpr} {W : World}

theorem final_of (hc : Consistent base W ρ) : Final base ρ W := ⟨W, Later.refl W, hc⟩

/-- In the end all names have their numbers. -/
theorem Inv.placesFinal (h : Inv P base ρ σ w W) (hc : Consistent base W ρ) (pc : Int) : σ.asm.Places base { ρ with pc := pc } := by
  refine h.places (final_of hc) (fun _ _ => rfl) ?_ rfl
  intro s hs
  rcases h.syms s with h1 | ⟨k, n, h1, h2⟩
  · rw [h1] at hs ⊢
    exact hc.constant s hs
  · rw [h2]
    exact hc.label s k n h1

/-- The places in a section of the assembler that are filled in, and the expressions. -/
theorem hole_of {k : Nat} {y : Area AExpr} {Y : Area Value} {m : Nat → ASym} (h : SimA P m base ρ k y Y) (hy : Holes y) {p : Patch AExpr}
    (hp : p ∈ y.holes) : ∃ H ∈ Y.holes, p.offset = H.offset ∧ p.size = H.size ∧ p.big = H.big ∧ Right P m base ρ k H p.expr := by
  obtain ⟨H, hH, h1, h2⟩ := h.back p hp
  have hpos := Section.size_pos p.size
  rcases h.hole H hH with ⟨-, h3⟩ | ⟨e, h3, h4⟩
  · have := h3 p hp
    rw [h1, h2] at this
    omega
  · have : p = ⟨H.offset, H.size, H.big, e⟩ := by
      obtain ⟨i, hi, ei⟩ := List.getElem_of_mem hp
      obtain ⟨j, hj, ej⟩ := List.getElem_of_mem h3
      have hpw := List.pairwise_iff_getElem.1 hy.apart
      rcases Nat.lt_trichotomy i j with hlt | rfl | hlt
      · have := hpw i j hi hj hlt
        rw [ei, ej] at this
        simp only at this
        omega
      · rw [← ei, ← ej]
      · have := hpw j i hj hi hlt
        rw [ei, ej] at this
        simp only at this
        rw [h1, h2] at this
        omega
    subst this
    exact ⟨H, hH, rfl, rfl, rfl, h4⟩

/-- The contents of a section. -/
theorem image_contents (hv : P.cfg.wordSize = 1) (h : Inv P base ρ σ w W) (hc : Consistent base W ρ) {k : Nat} {x : Sect AExpr}
    {Y : Area Value} (hx : σ.sects.sections[k]? = some x) (hY : W.areas.areas[k]? = some Y) (hb : Y.group.bss = false) {ids : Nat → Nat}
    {env : Expr.Env} (hl : Linked (· ∈ names P.fm σ.asm k x) ids env (base k) ρ) {osr : Bool} {ps : List SPatch} {bs : Bytes}
    (hi : image P.fm σ.asm ids osr env k x = .ok (ps, bs)) (hps : ∀ q ∈ ps, q.type = 5) : Contents P.fm ρ (base k) Y bs := by
  obtain ⟨y, Y', hy, hY', hrel, hsim⟩ := h.section hx
  rw [hY] at hY'
  cases hY'
  have hholes := h.holes y (List.mem_of_getElem? hy)
  have hfit := hc.fits k Y hY
  have hyb : y.group.bss = false := by rw [hsim.group]; exact hb
  obtain ⟨⟨qs, d⟩, h1, h2⟩ := Outcome.bind_ok.1 hi
  simp only at h2
  -- the expressions
  have hset : ∀ p ∈ x.patches, ∃ H ∈ Y.holes, p.offset = H.offset ∧ p.size = H.size ∧ p.big = H.big ∧
      ∃ now here, build P.fm now P.junk here H.expr.src = .ok p.expr ∧ p.expr.cached = none ∧
        Setting σ.asm base { ρ with pc := base k + p.offset } now here ⟨k, p.offset⟩ ∧ H.expr.src.Ok ∧ H.expr.src.PcOk ∧
        H.expr.src.value P.fm wrap now { ρ with pc := base k + p.offset } = H.expr.at P.fm ρ (base k + H.offset) := by
    intro p hp
    obtain ⟨H, hH, e1, e2, e3, now, here, b1, b2, b3, b4, b5, b6, b7⟩ := hole_of hsim hholes (hrel.patches.mem_iff.1 hp)
    refine ⟨H, hH, e1, e2, e3, now, here, b1, b2, ?_, b5, b6, ?_⟩
    · refine ⟨h.placesFinal hc _, b3, ?_, rfl⟩
      rw [e1]
      exact b4
    · rw [e1]; exact b7
  have hinside : ∀ p ∈ x.patches, p.offset + p.size.bytes ≤ Y.cells.length := by
    intro p hp
    rw [← hsim.length]
    exact hholes.inside p (hrel.patches.mem_iff.1 hp)
  -- what the assembler does
  have hdis : x.patches.Pairwise Disjoint := by
    have : y.holes.Pairwise Disjoint := hholes.apart.imp (fun {a b} hab => Or.inl hab)
    exact (hrel.patches.symm.pairwise_iff (R := Disjoint) (fun {a b} hab => by unfold Disjoint at hab ⊢; omega)).1 this
  have huniq : ∀ (p : Patch AExpr) (H H' : Patch Value), p.offset = H.offset → p.size = H.size → H ∈ Y.holes → p.offset = H'.offset →
      p.size = H'.size → H' ∈ Y.holes → H = H' := by
    intro p H H' e1 e2 hH e1' e2' hH'
    have hap := (h.holes' Y (List.mem_of_getElem? hY)).apart
    obtain ⟨i, hi, ei⟩ := List.getElem_of_mem hH
    obtain ⟨j, hj, ej⟩ := List.getElem_of_mem hH'
    have hpw := List.pairwise_iff_getElem.1 hap
    have hpos := Section.size_pos p.size
    rcases Nat.lt_trichotomy i j with hlt | rfl | hlt
    · have := hpw i j hi hj hlt
      rw [ei, ej, ← e1, ← e2, ← e1'] at this
      omega
    · rw [← ei, ← ej]
    · have := hpw j i hj hi hlt
      rw [ei, ej, ← e1, ← e1', ← e2'] at this
      omega
  have hVal : ∀ p ∈ x.patches, ∀ e v, reduce P.fm σ.asm ⟨k, p.offset⟩ (optimize σ.asm.syms p.expr) = .ok (e, some v) →
      ∀ H : Patch Value, p.offset = H.offset → p.size = H.size → H ∈ Y.holes → H.expr.at P.fm ρ (base k + H.offset) = some v := by
    intro p hp e v hr H e1 e2 hH
    obtain ⟨H', hH', e1', e2', e3', now, here, b1, b2, b3, b4, b5, b6⟩ := hset p hp
    have hHH := huniq p H H' e1 e2 hH e1' e2' hH'
    subst hHH
    rw [← b6]
    refine (C14_value_known P.fm b3 P.junk H.expr.src b4 b5 v ?_).1
    unfold compile
    rw [b1, Outcome.ok_bind]
    simp only [b2]
    rw [hr, Outcome.ok_bind]
  have hWr : ∀ p ∈ x.patches, ∀ e bytes, reduce P.fm σ.asm ⟨k, p.offset⟩ (optimize σ.asm.syms p.expr) = .ok (e, none) →
      writeExpr ids e = some bytes → ∀ H : Patch Value, p.offset = H.offset → p.size = H.size → H ∈ Y.holes → ∀ e,
      calculate P.fm { env with offset := p.offset } bytes = .ok (some e) →
        e.sym = none ∧ H.expr.at P.fm ρ (base k + H.offset) = some e.value := by
    intro p hp e bytes hr hw H e1 e2 hH en hen
    obtain ⟨H', hH', e1', e2', e3', now, here, b1, b2, b3, b4, b5, b6⟩ := hset p hp
    have hHH := huniq p H H' e1 e2 hH e1' e2' hH'
    subst hHH
    obtain ⟨ρ', s1, s2, s3⟩ := hl.env
    have hmem : ∀ s ∈ e.names, s ∈ names P.fm σ.asm k x := by
      intro s hs
      refine List.mem_flatMap.2 ⟨e, List.mem_filterMap.2 ⟨p, hp, ?_⟩, hs⟩
      unfold left
      rw [hr]
    have := Expr.C14_value_linked_sub P.fm b3 P.junk H.expr.src b4 b5 e ?_ ids (fun s hs => hl.small s (hmem s hs)) bytes hw
      { env with offset := p.offset } { ρ' with pc := base k + p.offset } (s3 p.offset)
      ⟨fun s hs => s1 s (hmem s hs), fun s hs => s2 s (hmem s hs), rfl⟩ en hen
    · exact ⟨this.1, by rw [← b6]; exact this.2.1⟩
    · unfold compile
      rw [b1, Outcome.ok_bind]
      simp only [b2]
      rw [hr, Outcome.ok_bind]
  obtain ⟨g1, g2, g3, g4, g5⟩ := settleAll_ok x.patches hVal hWr hdis h1
  have hqok : ∀ q ∈ qs, q.Ok := by
    intro q hq
    obtain ⟨p, hp, e1, e2⟩ := g4 q hq
    have := hinside p hp
    exact ⟨by rw [e2]; exact patchType_lt _ _, by rw [e1]; omega⟩
  have hlen : (d.take x.used).length = Y.cells.length := by
    have := hrel.inside hyb
    rw [hrel.used, hsim.length] at this
    rw [List.length_take, hrel.used, hsim.length, g1]
    omega
  have hd32 : (d.take x.used).length < 4294967296 := by rw [hlen]; omega
  obtain ⟨f1, f2⟩ := C13_other_bytes_unchanged P.fm false osr env hl.ok qs ps hqok _ bs hd32 h2
  have hall := C13_patches_stored P.fm false osr env hl.ok qs ps hqok g5 _ bs hd32 h2
  have hcells : ∀ i, i < Y.cells.length → (d.take x.used)[i]? = d[i]? := by
    intro i hi
    rw [List.getElem?_take_of_lt (by rw [hrel.used, hsim.length]; exact hi)]
  have hdata : ∀ i, i < Y.cells.length → x.data[i]? = (y.cells[i]?).map Cell.value := by
    intro i hi
    have := congrArg (·[i]?) (hrel.data hyb)
    rw [List.getElem?_take_of_lt (by rw [hrel.used, hsim.length]; exact hi), List.getElem?_map] at this
    exact this
  have hun : ∀ i, (∀ p ∈ x.patches, Outside p i) → Untouched qs i := by
    intro i hi q hq
    obtain ⟨p, hp, e1, e2⟩ := g4 q hq
    rw [e1, e2, width_patchType]
    exact hi p hp
  refine ⟨by rw [f1, hlen], ?_, ?_⟩
  · intro i hi
    by_cases hlt : i < Y.cells.length
    · have hout : ∀ p ∈ x.patches, Outside p i := by
        intro p hp
        obtain ⟨H, hH, e1, e2, -⟩ := hset p hp
        have := hi H hH
        unfold Outside at this ⊢
        rw [e1, e2]
        exact this
      rw [f2 i (hun i hout), hcells i hlt, g2 i hout, hdata i hlt, hsim.plain i hi]
    · rw [List.getElem?_eq_none (by rw [f1, hlen]; omega), List.getElem?_eq_none (by omega)]
      rfl
  · intro H hH
    have hHin := (h.holes' Y (List.mem_of_getElem? hY)).inside H hH
    rcases hsim.hole H hH with ⟨⟨v, v1, v2⟩, v3⟩ | ⟨e, he, hright⟩
    · -- stored at once
      refine ⟨v, v1, ?_⟩
      have hat : At bs H.offset (digits H.big H.size.bytes (u32 v)) := by
        refine v2.of_eq ?_
        intro i hi
        rw [digits_length] at hi
        have hout : ∀ p ∈ x.patches, Outside p i := by
          intro p hp
          have := v3 p (hrel.patches.mem_iff.1 hp)
          unfold Outside
          omega
        rw [f2 i (hun i hout), hcells i (by omega), g2 i hout, hdata i (by omega), List.getElem?_map]
      have := hat.window
      rw [digits_length] at this
      exact this
    · have hp := hrel.patches.mem_iff.2 he
      rcases g3 _ hp with ⟨v, v1, v2, v3⟩ | ⟨q, hq, q1, q2, q3⟩
      · -- stored at the end
        refine ⟨v, v1 H rfl rfl hH, ?_⟩
        have hat : At bs H.offset (digits H.big H.size.bytes (u32 v)) := by
          refine At.of_eq v2 ?_
          intro i hi
          rw [digits_length] at hi
          have hu : Untouched qs i := by
            intro q hq
            have := v3 q hq
            simp only at this
            omega
          rw [f2 i hu, hcells i (by omega)]
        have := hat.window
        rw [digits_length] at this
        exact this
      · -- stored by the linker
        simp only at q1 q2
        obtain ⟨j, hj⟩ := List.mem_iff_getElem?.1 hq
        obtain ⟨q', hq', hr⟩ := hall.get_right hj
        rcases hr with ⟨-, c2, -⟩ | ⟨en, v, q0, c1, c2, c3, c4, c5, c6⟩
        · have := hps q' (List.mem_of_getElem? hq')
          rw [c2, q2] at this
          have := patchType_lt H.size H.big
          omega
        · have c1' : calculate P.fm { env with offset := H.offset } q.expression = .ok (some en) := by
            rw [← q1]; exact c1
          obtain ⟨c7, c8⟩ := q3 H rfl rfl hH en c1'
          have hve : v = en.value := by
            unfold Patch.relocate at c2
            rw [c7] at c2
            cases c2
            rfl
          subst hve
          refine ⟨en.value, c8, ?_⟩
          rw [q1, q2] at c6
          have hw : window (patchType H.size H.big) H.offset bs = (bs.drop H.offset).take H.size.bytes := by
            unfold window
            rw [width_patchType]
          rw [hw] at c6
          rw [← bytesOf_digits]
          apply decode_inj (type := patchType H.size H.big)
          · rw [length_bytesOf, width_patchType, List.length_take, List.length_drop, f1, hlen]
            omega
          · have := decode_bytesOf (patchType_lt H.size H.big) en.value
            omega

/-- C61: a program that is accepted by the assembler, and whose sections are put at `base` by the linker, has the contents
that its statements stand for: in every section there are the bytes of the numbers and expressions, one behind the other,
and every expression is stored as the number that it has with the final addresses. -/
theorem C61_contents (P : Params) (hv : P.cfg.wordSize = 1) (base : Nat → Int) (ρ : Den) (prog : List (Env × Stmt))
    (hok : ∀ x ∈ prog, x.2.Ok) (W : World) (hW : Spec.run P.cfg P.fm ρ prog {} = .good W) (hc : Consistent base W ρ) (σ : Prog)
    (hσ : run P prog {} = .ok σ) :
    σ.sects.sections.length = W.areas.areas.length ∧
    ∀ (k : Nat) (x : Sect AExpr), σ.sects.sections[k]? = some x → ∃ Y, W.areas.areas[k]? = some Y ∧
      x.name = Y.name ∧ x.group = Y.group ∧ x.used = Y.cells.length ∧
      x.flags.loadFixed = Y.attributes.address.isSome ∧ x.origin = Y.attributes.address.getD 0 ∧
      x.flags.bankFixed = Y.attributes.bank.isSome ∧ x.bank = Y.attributes.bank.getD 0 ∧
      (Y.group.bss = false → ∀ (ids : Nat → Nat) (env : Expr.Env) (osr : Bool) (ps : List SPatch) (bs : Bytes),
        Linked (· ∈ names P.fm σ.asm k x) ids env (base k) ρ → image P.fm σ.asm ids osr env k x = .ok (ps, bs) → (∀ q ∈ ps, q.type = 5) →
        Contents P.fm ρ (base k) Y bs) := by
  obtain ⟨w, h⟩ := inv_run hv prog (inv_start P base ρ) (final_of hc) hok hσ hW
  refine ⟨by rw [h.corr.length, h.sim.length], ?_⟩
  intro k x hx
  obtain ⟨y, Y, h1, h2, h3, h4⟩ := h.section hx
  refine ⟨Y, h2, by rw [h3.name, h4.name], by rw [h3.group, h4.group], by rw [h3.used, h4.length], by rw [h3.flags, ← h4.attributes]; rfl,
    by rw [h3.origin, h4.attributes], by rw [h3.flags, ← h4.attributes]; rfl, by rw [h3.bank, h4.attributes], ?_⟩
  intro hb ids env osr ps bs hl hi hps
  exact image_contents hv h hc hx h2 hb hl hi hps

/-- C61: the symbols. A label is known by its section and offset; in a section with an address, but without a bank, it is a
number, its address. Other symbols are what they have been defined as. -/
theorem C61_symbols (P : Params) (hv : P.cfg.wordSize = 1) (base : Nat → Int) (ρ : Den) (prog : List (Env × Stmt))
    (hok : ∀ x ∈ prog, x.2.Ok) (W : World) (hW : Spec.run P.cfg P.fm ρ prog {} = .good W) (hc : Consistent base W ρ) (σ : Prog)
    (hσ : run P prog {} = .ok σ) (s : Nat) :
    σ.syms s = W.syms s ∨ ∃ k n : Nat, W.syms s = ⟨.label, some k, n⟩ ∧ σ.syms s = ⟨.equ, none, base k + n⟩ := by
  obtain ⟨w, h⟩ := inv_run hv prog (inv_start P base ρ) (final_of hc) hok hσ hW
  exact h.syms s

/-- The contents of a section at an address are determined by its statements. -/
theorem C61_unique (fm : FMath) (ρ : Den) (address : Int) (Y : Area Value) (bs bs' : Bytes) (h : Contents fm ρ address Y bs)
    (h' : Contents fm ρ address Y bs') : bs = bs' := by
  apply List.ext_getElem?
  intro i
  by_cases hi : ∀ H ∈ Y.holes, Outside H i
  · rw [h.plain i hi, h'.plain i hi]
  · have : ∃ H ∈ Y.holes, ¬ Outside H i := by
      apply Classical.byContradiction
      intro hn
      apply hi
      intro H hH
      apply Classical.byContradiction
      intro ho
      exact hn ⟨H, hH, ho⟩
    obtain ⟨H, hH, ho⟩ := this
    have ho : H.offset ≤ i ∧ i < H.offset + H.size.bytes := Classical.byContradiction ho
    obtain ⟨v, v1, v2⟩ := h.values H hH
    obtain ⟨v', v1', v2'⟩ := h'.values H hH
    rw [v1] at v1'
    cases v1'
    have e := congrArg (·[i - H.offset]?) (v2.trans v2'.symm)
    rw [List.getElem?_take_of_lt (by omega), List.getElem?_take_of_lt (by omega), List.getElem?_drop, List.getElem?_drop,
      show H.offset + (i - H.offset) = i by omega] at e
    exact e
end

end Verif.Program
