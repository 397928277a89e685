import Verif.Program.Sim
/-!
# The execution of a program

Statement by statement, the assembler does what the specification says.
-/
namespace Verif.Program
open Verif.Section (Config Env Op Operand Size Group Kind Label State Sect Patch Holes HolesAll Match Rel flagsOf area_current area_mem
  Extends Continues spec_step_extends holes_step step_agrees Agrees)
open Verif.Section.Spec (Area Cell Result digits)
open Verif.Expr (Src ASym AExpr SymType FMath Here Asm Den I32 u32 toI32 build Evolves wrap Rng inRange build_wrap cached_den toI32_of)
open Verif.Cpu (Item src_value_range)
open Spec (Value Outside World Consistent)

/-! ## Numbers of expressions -/

/-- The number of a name. -/
def num (now : Nat → ASym) (ρ : Den) (s : Nat) : Option Int :=
  if (now s).type.constant then inRange (now s).value else (ρ.sym s).bind inRange

/-- Only the numbers of names matter. -/
theorem value_congr (fm : FMath) (R : Rng) {now now' : Nat → ASym} {ρ ρ' : Den} (hn : ∀ s, num now ρ s = num now' ρ' s)
    (hb : ρ.bank = ρ'.bank) (hp : ρ.pc = ρ'.pc) (e : Src) : e.value fm R now ρ = e.value fm R now' ρ' := by
  induction e with
  | num v => rfl
  | sym s => exact hn s
  | bank s => simp only [Src.value, hb]
  | pcRel adj e ih => simp only [Src.value, ih, hp]
  | parens e ih => simp only [Src.value, ih]
  | bin op l r ihl ihr => simp only [Src.value, ihl, ihr]
  | un op e ih => simp only [Src.value, ih]
  | bit e ih => simp only [Src.value, ih]

/-! ## Symbols -/

/-- What symbols can be. -/
inductive Shape (W : World) : ASym → Prop where
  | undefined : Shape W ⟨.undefined, none, 0⟩
  | imported : Shape W ⟨.imported, none, 0⟩
  | global : Shape W ⟨.global, none, 0⟩
  | equ (v : Int) (h : I32 v) : Shape W ⟨.equ, none, v⟩
  | set (v : Int) (h : I32 v) : Shape W ⟨.set, none, v⟩
  | label (k n : Nat) (Y : Area Value) (h : W.areas.areas[k]? = some Y) (hn : n ≤ Y.cells.length) : Shape W ⟨.label, some k, n⟩

/-- The symbol of the assembler: labels in sections whose address is known are numbers. -/
def SymSim (base : Nat → Int) (y Y : ASym) : Prop :=
  y = Y ∨ ∃ k n : Nat, Y = ⟨.label, some k, n⟩ ∧ y = ⟨.equ, none, base k + n⟩

theorem Shape.later {W W' : World} (h : Extends W.areas W'.areas) {y : ASym} (hy : Shape W y) : Shape W' y := by
  cases hy with
  | undefined => exact .undefined
  | imported => exact .imported
  | global => exact .global
  | equ v h => exact .equ v h
  | set v h => exact .set v h
  | label k n Y h1 hn =>
    obtain ⟨Y', h2, c⟩ := h k Y h1
    exact .label k n Y' h2 (Nat.le_trans hn c.cells.length_le)

/-- Sections only grow and labels stay. -/
structure Later (W W' : World) : Prop where
  areas : Extends W.areas W'.areas
  syms : ∀ s, (W.syms s).type = .label → W'.syms s = W.syms s

theorem Later.refl (W : World) : Later W W := ⟨Extends.refl _, fun _ _ => rfl⟩

theorem Later.trans {U V W : World} (h : Later U V) (h' : Later V W) : Later U W := by
  refine ⟨h.areas.trans h'.areas, ?_⟩
  intro s hs
  have h1 := h.syms s hs
  rw [← h1]
  exact h'.syms s (by rw [h1]; exact hs)

section
variable {cfg : Config} {fm : FMath} {ρ : Den}

theorem operate_later {env : Env} {op : Op Value} {W W' : World} (h : Spec.operate cfg env op W = .good W') :
    Later W W' ∧ W'.syms = W.syms := by
  unfold Spec.operate at h
  split at h
  · rename_i a ha
    cases h
    exact ⟨⟨spec_step_extends ha, fun _ _ => rfl⟩, rfl⟩
  · cases h
  · cases h

theorem item_later {env : Env} {i : Item} {W W' : World} (h : Spec.item cfg env i W = .good W') : Later W W' ∧ W'.syms = W.syms := by
  unfold Spec.item at h
  split at h
  · cases h
  · cases i <;> exact operate_later h

theorem items_later {env : Env} {is : List Item} : ∀ {W W' : World}, Spec.items cfg env is W = .good W' → Later W W' := by
  induction is with
  | nil => intro W W' h; cases h; exact Later.refl W
  | cons i is ih =>
    intro W W' h
    unfold Spec.items at h
    split at h
    · rename_i W1 h1
      exact (item_later h1).1.trans (ih h)
    · cases h
    · cases h

theorem update_later {W : World} {s : Nat} {y : ASym} (h : (W.syms s).type ≠ .label) :
    Later W { W with syms := update W.syms s y } := by
  refine ⟨Extends.refl _, ?_⟩
  intro t ht
  simp only [update]
  rw [if_neg]
  rintro rfl
  exact h ht

theorem step_later {env : Env} {x : Stmt} {W W' : World} (h : Spec.step cfg fm ρ env x W = .good W') : Later W W' := by
  have hf : ∀ {s : Nat}, Spec.free (W.syms s) = true → (W.syms s).type ≠ .label := by
    intro s hs hl
    unfold Spec.free at hs
    rw [hl] at hs
    cases hs
  cases x with
  | label s =>
    simp only [Spec.step] at h
    split at h
    · split at h
      · rename_i hh; cases h; exact update_later (hf hh)
      · cases h
    · cases h
  | equ s e =>
    simp only [Spec.step] at h
    split at h
    · split at h
      · rename_i hh; cases h; exact update_later (hf hh)
      · cases h
    · cases h
  | set s e =>
    simp only [Spec.step] at h
    split at h
    · split at h
      · rename_i hh; cases h
        refine update_later ?_
        intro hl
        rw [hl] at hh
        rcases hh with hh | hh <;> cases hh
      · cases h
    · cases h
  | external s =>
    simp only [Spec.step] at h
    split at h
    · rename_i hh; cases h
      exact update_later (by rw [hh]; intro hl; cases hl)
    · cases h
  | global s =>
    simp only [Spec.step] at h
    split at h
    · rename_i hh; cases h
      exact update_later (by rw [hh]; intro hl; cases hl)
    · split at h
      · cases h; exact Later.refl W
      · cases h
  | code is => exact items_later h
  | directive d => exact (operate_later h).1

theorem run_later {xs : List (Env × Stmt)} : ∀ {W W' : World}, Spec.run cfg fm ρ xs W = .good W' → Later W W' := by
  induction xs with
  | nil => intro W W' h; cases h; exact Later.refl W
  | cons x xs ih =>
    intro W W' h
    obtain ⟨env, x⟩ := x
    unfold Spec.run at h
    split at h
    · rename_i W1 h1
      exact (step_later h1).trans (ih h)
    · cases h
    · cases h

end

/-! ## The invariant -/

structure Inv (P : Params) (base : Nat → Int) (ρ : Den) (σ : Prog) (w : Section.Spec.World AExpr) (W : World) : Prop where
  corr : Match P.cfg σ.sects w
  errors : σ.sects.errors = 0
  holes : HolesAll w
  holes' : HolesAll W.areas
  sim : SimW P σ.syms base ρ w W.areas
  syms : ∀ s, SymSim base (σ.syms s) (W.syms s)
  shape : ∀ s, Shape W (W.syms s)

/-- The final addresses. -/
structure Final (base : Nat → Int) (ρ : Den) (W : World) : Prop where
  wf : ∃ Wf, Later W Wf ∧ Consistent base Wf ρ

section
variable {P : Params} {base : Nat → Int} {ρ : Den} {σ : Prog} {w : Section.Spec.World AExpr} {W : World}

theorem Final.fits (h : Final base ρ W) {k : Nat} {Y : Area Value} (hY : W.areas.areas[k]? = some Y) :
    0 ≤ base k ∧ base k + Y.cells.length < 2147483648 := by
  obtain ⟨Wf, hl, hc⟩ := h.wf
  obtain ⟨Y', h1, h2⟩ := hl.areas k Y hY
  have := hc.fits k Y' h1
  have := h2.cells.length_le
  omega

theorem Final.fixed (h : Final base ρ W) {k : Nat} {Y : Area Value} (hY : W.areas.areas[k]? = some Y) {a : Nat}
    (ha : Y.attributes.address = some a) : base k = a := by
  obtain ⟨Wf, hl, hc⟩ := h.wf
  obtain ⟨Y', h1, h2⟩ := hl.areas k Y hY
  exact hc.fixed k Y' a h1 (by rw [h2.attributes]; exact ha)

theorem Final.label (h : Final base ρ W) {s k n : Nat} (hs : W.syms s = ⟨.label, some k, n⟩) : ρ.sym s = some (base k + n) := by
  obtain ⟨Wf, hl, hc⟩ := h.wf
  have := hl.syms s (by rw [hs])
  rw [hs] at this
  exact hc.label s k n this

theorem Final.bank (h : Final base ρ W) {s k n b : Nat} {Y : Area Value} (hs : W.syms s = ⟨.label, some k, n⟩)
    (hY : W.areas.areas[k]? = some Y) (hb : Y.attributes.bank = some b) : ρ.bank s = some (toI32 b) := by
  obtain ⟨Wf, hl, hc⟩ := h.wf
  obtain ⟨Y', h1, h2⟩ := hl.areas k Y hY
  have := hl.syms s (by rw [hs])
  rw [hs] at this
  exact hc.bank s k n Y' b this h1 (by rw [h2.attributes]; exact hb)

theorem label_range (h : Final base ρ W) {k n : Nat} {Y : Area Value} (hY : W.areas.areas[k]? = some Y) (hn : n ≤ Y.cells.length) :
    I32 (base k + n) := by
  have := h.fits hY
  unfold I32
  omega

/-- The numbers of names are the same. -/
theorem Inv.num (h : Inv P base ρ σ w W) (hf : Final base ρ W) {ρ' : Den} (hs : ∀ s, (σ.syms s).type.constant = false → ρ'.sym s = ρ.sym s)
    (s : Nat) : num σ.syms ρ' s = num W.syms ρ s := by
  unfold Program.num
  rcases h.syms s with h1 | ⟨k, n, h1, h2⟩
  · rw [h1]
    split
    · rfl
    · rename_i hc
      rw [hs s (by rw [h1]; simpa using hc)]
  · rw [h1, h2]
    simp only [SymType.constant, if_true]
    rw [hf.label h1]
    rfl

theorem Inv.evolves (h : Inv P base ρ σ w W) (hf : Final base ρ W) : Evolves σ.syms σ.syms where
  label := fun _ _ => rfl
  inSection := by
    intro s hs
    rcases h.syms s with h1 | ⟨k, n, h1, h2⟩
    · rw [h1] at hs ⊢
      have := h.shape s
      cases hh : W.syms s
      rw [hh] at this hs
      cases this <;> first | (cases hs; done) | exact ⟨_, rfl⟩
    · rw [h2] at hs; cases hs
  range := by
    intro s hs
    rcases h.syms s with h1 | ⟨k, n, h1, h2⟩
    · rw [h1] at hs ⊢
      have := h.shape s
      cases hh : W.syms s
      rw [hh] at this hs
      cases this <;> first | (cases hs; done) | assumption
    · rw [h2]
      have := h.shape s
      rw [h1] at this
      generalize hn : (n : Int) = n' at this
      cases this with
      | label k n Y hY hle => exact label_range hf hY hle

/-- Sections of the assembler and areas. -/
theorem Inv.section (h : Inv P base ρ σ w W) {k : Nat} {x : Sect AExpr} (hx : σ.sects.sections[k]? = some x) :
    ∃ y Y, w.areas[k]? = some y ∧ W.areas.areas[k]? = some Y ∧ Rel P.cfg.wordSize x y ∧ SimA P σ.syms base ρ k y Y := by
  rcases h.sim.areas k with ⟨h1, h2⟩ | ⟨y, Y, h1, h2, h3⟩
  · have := (List.getElem?_eq_some_iff.1 hx).1
    have := List.getElem?_eq_none_iff.1 h1
    have := h.corr.length
    omega
  · exact ⟨y, Y, h1, h2, h.corr.rel k x y hx h1, h3⟩

/-- The places of the symbols, as far as they are known. -/
theorem Inv.places (h : Inv P base ρ σ w W) (hf : Final base ρ W) {ρ' : Den} (hs : ∀ s, (σ.syms s).type.constant = false → ρ'.sym s = ρ.sym s)
    (hc : ∀ s, (σ.syms s).type.constant = true → ρ'.sym s = some (σ.syms s).value) (hb : ρ'.bank = ρ.bank) :
    σ.asm.Places base ρ' where
  constant := fun s hs => ⟨hc s hs, (h.evolves hf).range s hs⟩
  placed := by
    intro s k hr hk
    have hr : (σ.syms s).type.reloc = true := hr
    have hk : (σ.syms s).sect = some k := hk
    show ρ'.sym s = some (base k + (σ.syms s).value) ∧ I32 (base k + (σ.syms s).value)
    have hnc : (σ.syms s).type.constant = false := by
      cases ht : (σ.syms s).type <;> rw [ht] at hr <;> first | rfl | cases hr
    rw [hs s hnc]
    rcases h.syms s with h1 | ⟨j, n, h1, h2⟩
    · have hsh := h.shape s
      rw [h1] at hk ⊢
      generalize hy : W.syms s = y at hsh hk ⊢
      cases hsh <;> try cases hk
      rename_i n Y hle hY
      exact ⟨hf.label hy, label_range hf hY hle⟩
    · rw [h2] at hk; cases hk
  loaded := by
    intro k sec hsec hl
    have hsec : (σ.sects.sections.map BinObj.view)[k]? = some sec := hsec
    rw [List.getElem?_map] at hsec
    cases hx : σ.sects.sections[k]? with
    | none => rw [hx] at hsec; cases hsec
    | some x =>
      rw [hx] at hsec
      cases hsec
      obtain ⟨y, Y, h1, h2, h3, h4⟩ := h.section hx
      have hl : x.flags.loadFixed = true := hl
      rw [h3.flags] at hl
      show base k = x.origin
      rw [h3.origin]
      simp only [flagsOf] at hl
      obtain ⟨a, ha⟩ := Option.isSome_iff_exists.1 hl
      rw [ha]
      exact hf.fixed h2 (by rw [← h4.attributes]; exact ha)
  bank := by
    intro s k sec hk hsec hbf
    have hk : (σ.syms s).sect = some k := hk
    have hsec : (σ.sects.sections.map BinObj.view)[k]? = some sec := hsec
    rw [List.getElem?_map] at hsec
    cases hx : σ.sects.sections[k]? with
    | none => rw [hx] at hsec; cases hsec
    | some x =>
      rw [hx] at hsec
      cases hsec
      obtain ⟨y, Y, h1, h2, h3, h4⟩ := h.section hx
      have hbf : x.flags.bankFixed = true := hbf
      rw [h3.flags] at hbf
      show ρ'.bank s = some (toI32 x.bank)
      rw [h3.bank, hb]
      simp only [flagsOf] at hbf
      obtain ⟨b, hb⟩ := Option.isSome_iff_exists.1 hbf
      rw [hb]
      rcases h.syms s with h5 | ⟨j, n, h5, h6⟩
      · have hsh := h.shape s
        rw [h5] at hk
        generalize hy : W.syms s = Z at hsh hk
        cases hsh <;> try cases hk
        exact hf.bank hy h2 (by rw [← h4.attributes]; exact hb)
      · rw [h6] at hk; cases hk

/-- The meaning of names at this line. -/
def current (ρ : Den) (m : Nat → ASym) : Den :=
  { ρ with sym := fun s => if (m s).type.constant then some (m s).value else ρ.sym s }

/-- A tree that is made from an expression of this line has the number of the expression. -/
theorem Inv.tree (h : Inv P base ρ σ w W) (hf : Final base ρ W) {here : Here} {pc : Int}
    (hh : here.Matches { ρ with pc := pc }) {s : Src} (hs : s.Ok) {e : AExpr} (he : build P.fm σ.syms P.junk here s = .ok e) {v : Int}
    (hv : e.cached = some v) : s.value P.fm wrap W.syms { ρ with pc := pc } = some v := by
  have hp := h.places hf (ρ' := { current ρ σ.syms with pc := pc }) (by intro s hs; simp [current, hs]) (by intro s hs; simp [current, hs]) rfl
  have := build_wrap P.fm hp (h.evolves hf) P.junk (here := here) hh s hs he
  rw [cached_den P.fm wrap _ hv] at this
  rw [this]
  symm
  refine value_congr P.fm wrap (ρ := { current ρ σ.syms with pc := pc }) (ρ' := { ρ with pc := pc }) ?_ rfl rfl s
  intro t
  exact h.num hf (ρ' := { current ρ σ.syms with pc := pc }) (by intro s hs; simp [current, hs]) t

theorem Inv.value (h : Inv P base ρ σ w W) (hf : Final base ρ W) (pc : Int) (s : Src) :
    s.value P.fm wrap σ.syms { ρ with pc := pc } = s.value P.fm wrap W.syms { ρ with pc := pc } :=
  value_congr P.fm wrap (ρ' := { ρ with pc := pc }) (fun t => h.num hf (ρ' := { ρ with pc := pc }) (fun _ _ => rfl) t) rfl rfl s

/-- A directive, or a number. -/
theorem inv_operate (hv : P.cfg.Valid) (h : Inv P base ρ σ w W) {env : Env} {op : Op AExpr} {OP : Op Value} {σ' : Prog} {W' : World}
    (hsim : ∀ A', Section.Spec.step P.cfg env OP W.areas = .good A' →
      ∃ w', Section.Spec.step P.cfg env op w = .good w' ∧ SimW P σ.syms base ρ w' A')
    (hm : operate P env op σ = .ok σ') (hW : Spec.operate P.cfg env OP W = .good W') : ∃ w', Inv P base ρ σ' w' W' := by
  unfold Spec.operate at hW
  split at hW
  · rename_i A' hA
    cases hW
    obtain ⟨w', h1, h2⟩ := hsim A' hA
    have h3 := step_agrees hv h.corr env op
    rw [h1] at h3
    obtain ⟨s', h4, h5, h6⟩ := h3
    unfold operate at hm
    rw [h4] at hm
    change (if s'.errors = 0 then Outcome.ok { σ with sects := s' } else Outcome.fail) = _ at hm
    split at hm
    · rename_i h0
      cases hm
      have hl : Later W { W with areas := A' } := ⟨spec_step_extends hA, fun _ _ => rfl⟩
      exact ⟨w', h6, h0, holes_step h.holes h1, holes_step h.holes' hA, h2, h.syms, fun s => (h.shape s).later hl.areas⟩
    · cases hm
  · cases hW
  · cases hW

theorem inv_item (hv : P.cfg.wordSize = 1) (h : Inv P base ρ σ w W) (hf : Final base ρ W) {env : Env} {i : Item} {σ' : Prog} {W' : World}
    (hi : ∀ n s, i = .expr n s → s.Ok ∧ s.PcOk)
    (hm : item P env i σ = .ok σ') (hW : Spec.item P.cfg env i W = .good W') : ∃ w', Inv P base ρ σ' w' W' := by
  unfold item at hm
  unfold Spec.item at hW
  cases hx : σ.sects.sect with
  | none => rw [hx] at hm; cases hm
  | some x =>
    cases hz : size? i.size with
    | none => rw [hz] at hW; cases hW
    | some z =>
      rw [hx, hz] at hm
      rw [hz] at hW
      cases i with
      | const n v =>
        exact inv_operate (Or.inl hv) h (fun A' hA => sim_const h.sim h.holes h.holes' hA) hm hW
      | expr n s =>
        obtain ⟨hok, hpc⟩ := hi n s rfl
        simp only at hm hW
        obtain ⟨e, he, hm⟩ := Outcome.bind_ok.1 hm
        refine inv_operate (Or.inl hv) h (fun A' hA => sim_expr h.sim h.holes h.holes' ?_ hA) hm hW
        intro k Y hk hY
        have hcur : σ.sects.current = some k := by rw [h.corr.current, h.sim.current]; exact hk
        have hxk : σ.sects.sections[k]? = some x := by
          unfold Section.State.sect at hx
          rw [hcur] at hx
          exact hx
        obtain ⟨y, Y', h1, h2, h3, h4⟩ := h.section hxk
        rw [hY] at h2
        cases h2
        have hmat : (here σ.sects).Matches { ρ with pc := base k + Y.cells.length } := by
          intro hfix
          unfold here at hfix ⊢
          rw [hx] at hfix ⊢
          simp only at hfix ⊢
          rw [h3.flags, h4.org.1] at hfix
          simp only [flagsOf, Option.isSome_none, Bool.or_false] at hfix
          obtain ⟨a, ha⟩ := Option.isSome_iff_exists.1 hfix
          rw [h3.pc, h3.origin, h3.unmoved h4.org.1, ha, hf.fixed hY (by rw [← h4.attributes]; exact ha), hv, h4.length]
          simp only [Option.getD_some]
          omega
        cases hc : e.cached with
        | some v => exact h.tree hf hmat hok he hc
        | none =>
          intro big
          exact ⟨σ.syms, here σ.sects, he, hc, h.evolves hf, hmat, hok, hpc, h.value hf _ s⟩

/-- The expressions of a statement contain numbers of 32 bits, and distances where the parsers put them (C14). -/
def _root_.Verif.Program.Stmt.Ok : Stmt → Prop
  | .equ _ e => e.Ok
  | .set _ e => e.Ok
  | .code is => ∀ i ∈ is, ∀ n s, i = .expr n s → s.Ok ∧ s.PcOk
  | _ => True

theorem Final.before {W W' : World} (h : Final base ρ W') (hl : Later W W') : Final base ρ W := by
  obtain ⟨Wf, h1, h2⟩ := h.wf
  exact ⟨Wf, hl.trans h1, h2⟩

theorem inv_items (hv : P.cfg.wordSize = 1) {env : Env} : ∀ (is : List Item) {σ σ' : Prog} {w : Section.Spec.World AExpr} {W W' : World},
    Inv P base ρ σ w W → Final base ρ W' → (∀ i ∈ is, ∀ n s, i = .expr n s → s.Ok ∧ s.PcOk) →
    items P env is σ = .ok σ' → Spec.items P.cfg env is W = .good W' → ∃ w', Inv P base ρ σ' w' W' := by
  intro is
  induction is with
  | nil =>
    intro σ σ' w W W' h hf hi hm hW
    cases hm; cases hW
    exact ⟨w, h⟩
  | cons i is ih =>
    intro σ σ' w W W' h hf hi hm hW
    obtain ⟨σ1, h1, h2⟩ := Outcome.bind_ok.1 hm
    unfold Spec.items at hW
    split at hW
    · rename_i W1 h3
      have hl := items_later hW
      have hf1 := hf.before hl
      obtain ⟨w1, h4⟩ := inv_item hv h (hf1.before (item_later h3).1) (fun n s => hi i (by simp) n s) h1 h3
      exact ih h4 hf (fun j hj => hi j (by simp [hj])) h2 hW
    · cases hW
    · cases hW

theorem inv_update (h : Inv P base ρ σ w W) {s : Nat} {y Y : ASym} (hd : (σ.syms s).type ≠ .label) (hy : SymSim base y Y) (hY : Shape W Y) :
    Inv P base ρ { σ with syms := update σ.syms s y } w { W with syms := update W.syms s Y } where
  corr := h.corr
  errors := h.errors
  holes := h.holes
  holes' := h.holes'
  sim := by
    refine h.sim.later ?_
    intro t ht
    simp only [update]
    rw [if_neg]
    rintro rfl
    exact hd ht
  syms := by
    intro t
    simp only [update]
    by_cases e : t = s
    · rw [if_pos e, if_pos e]; exact hy
    · rw [if_neg e, if_neg e]; exact h.syms t
  shape := by
    intro t
    have e : Shape W (update W.syms s Y t) := by
      simp only [update]
      by_cases e : t = s
      · rw [if_pos e]; exact hY
      · rw [if_neg e]; exact h.shape t
    exact e.later (W' := { W with syms := update W.syms s Y }) (Extends.refl W.areas)

theorem constant_value (h : Inv P base ρ σ w W) (hf : Final base ρ W) {e : Src} (he : e.Ok) {v v' : Int}
    (hm : constant P σ.syms e = .ok v) (hW : e.value P.fm wrap W.syms ρ = some v') : v = v' ∧ I32 v' := by
  unfold constant at hm
  obtain ⟨t, ht, hm⟩ := Outcome.bind_ok.1 hm
  split at hm
  · rename_i u hu
    cases hm
    have := h.tree hf (here := ⟨false, 0⟩) (pc := ρ.pc) (by intro h; cases h) he ht hu
    rw [show ({ ρ with pc := ρ.pc } : Den) = ρ from rfl, hW] at this
    cases this
    have hr := src_value_range P.fm wrap W.syms ρ e hW
    exact ⟨toI32_of hr, hr⟩
  · cases hm

theorem inv_step (hv : P.cfg.wordSize = 1) {env : Env} {x : Stmt} (hx : x.Ok) {σ' : Prog} {W' : World} (h : Inv P base ρ σ w W)
    (hf : Final base ρ W') (hm : step P env x σ = .ok σ') (hW : Spec.step P.cfg P.fm ρ env x W = .good W') :
    ∃ w', Inv P base ρ σ' w' W' := by
  have hf0 := hf.before (step_later hW)
  have hdef : ∀ {s : Nat}, definable (σ.syms s).type = true → (σ.syms s).type ≠ .label := by
    intro s hs hl
    rw [hl] at hs
    cases hs
  cases x with
  | label s =>
    simp only [step] at hm
    simp only [Spec.step] at hW
    split at hW
    · rename_i k Y hk hY
      split at hW
      · cases hW
        obtain ⟨k', y, h1, h2, h3, h4, h5⟩ := h.sim.area hY
        rw [hk] at h1
        cases h1
        obtain ⟨x, hxs, hrel⟩ := h.corr.area h2
        have hcur : σ.sects.current = some k := by rw [h.corr.current, h.sim.current]; exact hk
        unfold Section.label at hm
        rw [hcur, hxs] at hm
        simp only at hm
        split at hm
        · rename_i hd
          cases hm
          refine ⟨w, inv_update h (hdef hd) ?_ (.label k _ Y h4 (Nat.le_refl _))⟩
          have hr := label_range hf0 h4 (Nat.le_refl _)
          have hlen : x.pc = Y.cells.length := by rw [hrel.pc, hv, Nat.div_one, h5.length]
          have hfit := hf0.fits h4
          split
          · rename_i hfl
            right
            refine ⟨k, Y.cells.length, rfl, ?_⟩
            simp only [ofLabel, ASym.mk.injEq, true_and]
            rw [hrel.flags, h5.org.1] at hfl
            simp only [flagsOf, Option.isSome_none, Bool.or_false, Bool.and_eq_true] at hfl
            obtain ⟨a, ha⟩ := Option.isSome_iff_exists.1 hfl.1
            have hb := hf0.fixed h4 (by rw [← h5.attributes]; exact ha)
            rw [hlen, hrel.unmoved h5.org.1, hrel.origin, ha, hb]
            simp only [Option.getD_some]
            rw [hb] at hfit
            rw [Nat.mod_eq_of_lt (by omega), toI32_of (by unfold I32; omega)]
            omega
          · left
            simp only [ofLabel, hlen]
            rw [toI32_of (by unfold I32; omega)]
        · cases hm
      · cases hW
    · cases hW
  | equ s e =>
    simp only [step] at hm
    simp only [Spec.step] at hW
    obtain ⟨v, h1, hm⟩ := Outcome.bind_ok.1 hm
    split at hW
    · rename_i v' hv'
      split at hW
      · split at hm
        · rename_i hd
          cases hW; cases hm
          obtain ⟨rfl, hr⟩ := constant_value h hf0 hx h1 hv'
          exact ⟨w, inv_update h (hdef hd) (Or.inl rfl) (.equ _ hr)⟩
        · cases hm
      · cases hW
    · cases hW
  | set s e =>
    simp only [step] at hm
    simp only [Spec.step] at hW
    obtain ⟨v, h1, hm⟩ := Outcome.bind_ok.1 hm
    split at hW
    · rename_i v' hv'
      split at hW
      · split at hm
        · rename_i hd
          cases hW; cases hm
          obtain ⟨rfl, hr⟩ := constant_value h hf0 hx h1 hv'
          exact ⟨w, inv_update h (by intro hl; rw [hl] at hd; cases hd) (Or.inl rfl) (.set _ hr)⟩
        · cases hm
      · cases hW
    · cases hW
  | external s =>
    simp only [step] at hm
    simp only [Spec.step] at hW
    split at hW
    · split at hm
      · rename_i hd
        cases hW; cases hm
        exact ⟨w, inv_update h (by rw [hd]; intro hl; cases hl) (Or.inl rfl) .imported⟩
      · cases hm
    · cases hW
  | global s =>
    simp only [step] at hm
    simp only [Spec.step] at hW
    rcases h.syms s with h1 | ⟨k, n, h1, h2⟩
    · rw [h1] at hm
      split at hm
      · rename_i ht
        rw [if_pos ht] at hW
        cases hm; cases hW
        exact ⟨w, inv_update h (by rw [h1, ht]; intro hl; cases hl) (Or.inl rfl) .global⟩
      · rename_i ht
        rw [if_neg (by rw [ht]; intro hl; cases hl), if_pos (Or.inl ht)] at hW
        cases hm; cases hW
        exact ⟨w, h⟩
      · rename_i ht
        rw [if_neg (by rw [ht]; intro hl; cases hl), if_pos (Or.inr ht)] at hW
        cases hm; cases hW
        exact ⟨w, h⟩
      · cases hm
    · rw [h1] at hW
      rw [h2] at hm
      simp at hm hW
      subst hm hW
      exact ⟨w, h⟩
  | code is => exact inv_items hv is h hf hx hm hW
  | directive d =>
    exact inv_operate (Or.inl hv) h (fun A' hA => sim_directive h.sim h.holes h.holes' d hA) hm hW

theorem inv_run (hv : P.cfg.wordSize = 1) : ∀ (xs : List (Env × Stmt)) {σ σ' : Prog} {w : Section.Spec.World AExpr} {W W' : World},
    Inv P base ρ σ w W → Final base ρ W' → (∀ x ∈ xs, x.2.Ok) →
    run P xs σ = .ok σ' → Spec.run P.cfg P.fm ρ xs W = .good W' → ∃ w', Inv P base ρ σ' w' W' := by
  intro xs
  induction xs with
  | nil =>
    intro σ σ' w W W' h hf hi hm hW
    cases hm; cases hW
    exact ⟨w, h⟩
  | cons x xs ih =>
    intro σ σ' w W W' h hf hi hm hW
    obtain ⟨env, x⟩ := x
    obtain ⟨σ1, h1, h2⟩ := Outcome.bind_ok.1 hm
    unfold Spec.run at hW
    split at hW
    · rename_i W1 h3
      obtain ⟨w1, h4⟩ := inv_step hv (hi _ (List.mem_cons_self ..)) h (hf.before (run_later hW)) h1 h3
      exact ih h4 hf (fun j hj => hi j (by simp [hj])) h2 hW
    · cases hW
    · cases hW

theorem inv_start (P : Params) (base : Nat → Int) (ρ : Den) : Inv P base ρ {} {} {} where
  corr := Section.match_start P.cfg
  errors := rfl
  holes := by intro y hy; cases hy
  holes' := by intro y hy; cases hy
  sim := ⟨rfl, rfl, rfl, fun k => Or.inl ⟨rfl, rfl⟩⟩
  syms := fun _ => Or.inl rfl
  shape := fun _ => .undefined

end

end Verif.Program
