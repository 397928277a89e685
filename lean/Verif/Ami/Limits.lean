import Verif.Ami.Props
/-!
# C55, C56: examples, and what is lost

Modules for which the files are not what was asked for.
-/
namespace Verif.Ami
open Verif.Expr (u32 toI32 FMath Den wrap AExpr I32 sectionAndOffset)
open Verif.Container.Amiga (padded)

def plainSect : Expr.ASect := ⟨false, false, false, false, 0, 0⟩

/-- Code with the address of a label plus 2, and uninitialised chip memory with the label. -/
def exExe : Mod :=
  ⟨[⟨[67], true, false, false, plainSect, 7, [1, 0, 0, 0, 0, 2, 3], [⟨1, true, .bin none .add (.sym 0) (.const 2)⟩]⟩,
    ⟨[66], false, false, true, plainSect, 9, [], []⟩],
   [⟨[108, 97, 98], true, ⟨.label, some 1, 4⟩⟩]⟩

theorem exExe_wf : exExe.WF where
  count := by decide
  used := by decide
  data := by decide
  inside := by decide
  count32 := by decide
  apart := by decide
  plain := by
    intro s hs p hp
    simp only [exExe, List.mem_cons, List.not_mem_nil, or_false] at hs
    rcases hs with rfl | rfl
    · simp only [List.mem_cons, List.not_mem_nil, or_false] at hp
      subst hp
      exact ⟨rfl, trivial, trivial⟩
    · cases hp
  names := by decide
  symNames := by decide

example : writeExecutable exExe false = .ok (([0x3F3, 0, 2, 0, 1, 2, 0x40000003, 0x3E9, 2].flatMap put32be) ++ ([1, 0, 0, 0, 6, 2, 3, 0] ++
    [0x3EC, 1, 1, 1, 0, 0x3F2, 0x3EB, 3, 0x3F2].flatMap put32be)) := by decide +kernel

def exBase (k : Nat) : Int := 0x1000 * (k + 1)
def exDen : Den := ⟨fun s => if s = 0 then some 0x2004 else none, fun _ => none, fun _ _ => none, 0⟩

theorem exExe_placed : exExe.asm.Places exBase exDen where
  constant := by
    intro s h
    cases s with
    | zero => cases h
    | succ s => cases h
  placed := by
    intro s k h hk
    cases s with
    | zero => cases hk; exact ⟨rfl, by decide⟩
    | succ s => cases h
  loaded := by
    intro k sec h hl
    match k with
    | 0 => cases h; cases hl
    | 1 => cases h; cases hl
    | k + 2 => cases h
  bank := by
    intro s k sec hs h hb
    match k with
    | 0 => cases h; cases hb
    | 1 => cases h; cases hb
    | k + 2 => cases h

/-- The theorem on a file: the code holds the address `0x2004 + 2`. -/
example : ∃ f hs hk m, writeExecutable exExe false = .ok f ∧ load f = some hs ∧ hs[0]? = some (false, hk) ∧ hk.memory exBase (fun _ => 0) = some m ∧
    m = [1, 0, 0, 0x20, 6, 2, 3, 0] := ⟨_, _, _, _, rfl, (by decide +kernel : load _ = some
      [(false, ⟨0x3E9, 2, [1, 0, 0, 0, 6, 2, 3, 0], ⟨[(1, [1])], [], []⟩⟩), (true, ⟨0x3EB, 3, [], ⟨[], [], []⟩⟩)]), rfl,
      (by decide +kernel : Hunk.memory _ _ _ = some [1, 0, 0, 0x20, 6, 2, 3, 0]), rfl⟩

/-- Code with the addresses of a label and of an imported symbol. -/
def exObj : Mod :=
  ⟨[⟨[67], true, true, false, plainSect, 8, [0, 0, 0, 0, 0, 0, 0, 0], [⟨4, true, .sym 0⟩, ⟨0, true, .bin none .sub (.sym 1) (.const 1)⟩]⟩],
   [⟨[108, 97, 98], true, ⟨.label, some 0, 4⟩⟩, ⟨[101, 120], false, ⟨.imported, none, 0⟩⟩]⟩

theorem exObj_wf : exObj.WF where
  count := by decide
  used := by decide
  data := by decide
  inside := by decide
  count32 := by decide
  apart := by decide
  plain := by
    intro s hs p hp
    simp only [exObj, List.mem_cons, List.not_mem_nil, or_false] at hs
    subst hs
    simp only [List.mem_cons, List.not_mem_nil, or_false] at hp
    rcases hp with rfl | rfl
    · exact trivial
    · exact ⟨rfl, trivial, trivial⟩
  names := by decide
  symNames := by decide

example : ∀ s ∈ exObj.secs, ∀ p ∈ s.patches, Positive p.expr := by
  intro s hs p hp
  simp only [exObj, List.mem_cons, List.not_mem_nil, or_false] at hs
  subst hs
  simp only [List.mem_cons, List.not_mem_nil, or_false] at hp
  rcases hp with rfl | rfl
  · exact trivial
  · exact ⟨fun _ => ⟨1, rfl⟩, trivial, trivial⟩

example : (writeObject exObj [97, 46, 115]).bind (fun f => match object f with | some x => .ok x | none => .fail) = .ok
    ([97, 46, 115], [([67], ⟨0x3EA, 2, [0xFF, 0xFF, 0xFF, 0xFF, 0, 0, 0, 4], ⟨[(0, [4])], [.ref32 [101, 120] [0], .defn [108, 97, 98] 4], [([108, 97, 98], 4)]⟩⟩)]) := by
  decide +kernel

/-! ### What is lost -/

/-- **C55 (violated).** With debug information the names of the sections are written where the names of resident libraries belong: no executable with
a first section that has a name can be loaded. -/
theorem C55_debug (M : Mod) (hM : M.WF) (s : Sec) (ss : List Sec) (h0 : M.secs = s :: ss) (hn : s.name ≠ []) (f : Bytes) (h : writeExecutable M true = .ok f) :
    load f = none := by
  unfold writeExecutable at h
  obtain ⟨_, b, hs, rfl, _⟩ := executable_hunks hM (fun _ h => h) h
  have hlen := (hM.names s (by rw [h0]; simp)).2
  have hpos := List.length_pos_iff.2 hn
  simp only [if_true]
  rw [h0, List.flatMap_cons]
  unfold fputstr load
  simp only [List.append_assoc, Nat.or_zero]
  unfold Container.Amiga.longs
  rw [get32be_put32be (by omega)]
  simp only
  unfold Container.Amiga.longs
  rw [get32be_put32be (by omega)]
  simp only
  generalize Container.Amiga.longs 3 _ = x
  cases x with
  | none => rfl
  | some x =>
    simp only [Option.map_some, Option.bind_eq_bind, Option.bind_some]
    split
    · rename_i he
      obtain ⟨_, he⟩ := List.cons.inj he
      obtain ⟨he, _⟩ := List.cons.inj he
      omega
    · rfl

/-- **C55 (violated).** Without sections a file is written that cannot be loaded. -/
theorem C55_no_sections : ∃ f, writeExecutable ⟨[], []⟩ false = .ok f ∧ load f = none := ⟨_, rfl, by decide +kernel⟩

/-- **C55.** An executable has no address: that of a section with a fixed address is lost. -/
theorem C55_fixed_address : ∃ (M N : Mod), M.WF ∧ N.WF ∧ (M.secs.map fun s => s.sect.origin) ≠ (N.secs.map fun s => s.sect.origin) ∧
    (∀ s ∈ M.secs ++ N.secs, s.sect.loadFixed = true) ∧ ∃ f, writeExecutable M false = .ok f ∧ writeExecutable N false = .ok f :=
  let m (a : Nat) : Mod := ⟨[⟨[67], true, false, false, ⟨true, false, false, false, a, 0⟩, 4, [1, 2, 3, 4], []⟩], []⟩
  have wf : ∀ a, (m a).WF := fun a => by
    refine ⟨by simp [m], ?_, ?_, ?_, ?_, ?_, ?_, ?_, ?_⟩ <;> intro s hs <;>
      simp only [m, List.mem_cons, List.not_mem_nil, or_false] at hs <;> subst hs <;> simp
  ⟨m 0x1000, m 0x2000, wf _, wf _, by decide, by decide, _, rfl, by decide +kernel⟩

/-- **C55, C56.** A label of an aligned section cannot be used: neither file is written. -/
theorem C55_aligned : ∃ M : Mod, M.WF ∧ (∃ s ∈ M.secs, ∃ p ∈ s.patches, p.be32 = true ∧ p.expr = .sym 0 ∧ (M.sym 0).sym = ⟨.label, some 0, 0⟩) ∧
    writeExecutable M false = .fail ∧ writeObject M [97] = .fail :=
  ⟨⟨[⟨[67], true, false, false, ⟨false, false, false, true, 0, 0⟩, 4, [0, 0, 0, 0], [⟨0, true, .sym 0⟩]⟩], [⟨[108], false, ⟨.label, some 0, 0⟩⟩]⟩,
    ⟨by decide, by decide, by decide, by decide, by decide, by decide, by
      intro s hs p hp
      simp only [List.mem_cons, List.not_mem_nil, or_false] at hs
      subst hs
      simp only [List.mem_cons, List.not_mem_nil, or_false] at hp
      subst hp
      exact trivial, by decide, by decide⟩,
    ⟨_, List.mem_cons_self, _, List.mem_cons_self, rfl, rfl, rfl⟩, by decide +kernel, by decide +kernel⟩

/-- **C56.** An object does not say that a section belongs in chip memory. -/
theorem C56_chip (M : Mod) (source : Bytes) : writeObject M source = writeObject { M with secs := M.secs.map fun s => { s with shared := false } } source := by
  have ha : ∀ M : Mod, (Mod.mk (M.secs.map fun s => { s with shared := false }) M.syms).asm = M.asm := by
    intro M
    unfold Mod.asm
    congr 1
    simp [List.map_map]
  have hps : ∀ (k : Nat) (s : Sec) (f : Bytes),
      putSection { M with secs := M.secs.map fun s => { s with shared := false } } true true k { s with shared := false } f = putSection M true true k s f := by
    intro k s f
    have ht : ∀ p, target { M with secs := M.secs.map fun s => { s with shared := false } } true p = target M true p := by
      intro p
      unfold target
      rw [show (Mod.asm { M with secs := M.secs.map fun s => { s with shared := false } }) = M.asm from ha M]
    unfold putSection groupOf importsOf
    simp only [ht, List.length_map]
    have hr : ∀ (pos n : Nat) l f, putRefs { M with secs := M.secs.map fun s => { s with shared := false } } pos n l f = putRefs M pos n l f := by
      intro pos n
      induction n with
      | zero => intros; rfl
      | succ n ih =>
        intro l f
        cases l with
        | nil => rfl
        | cons x l =>
          obtain ⟨a, b, c⟩ := x
          unfold putRefs
          simp only [ih]
          rfl
    have hx : ∀ pos I f, putExt { M with secs := M.secs.map fun s => { s with shared := false } } k pos I f = putExt M k pos I f := by
      intro pos I f
      unfold putExt
      rw [hr]
      rfl
    simp only [hx]
    rfl
  have hpo : ∀ (ss : List Sec) (k : Nat) (f : Bytes),
      putObject { M with secs := M.secs.map fun s => { s with shared := false } } k (ss.map fun s => { s with shared := false }) f = putObject M k ss f := by
    intro ss
    induction ss with
    | nil => intros; rfl
    | cons s ss ih =>
      intro k f
      rw [List.map_cons]
      unfold putObject
      rw [hps]
      congr 1
      funext g
      exact ih (k + 1) g
  exact (hpo M.secs 0 _).symm

/-- **C56 (violated).** An exported symbol that is not a label is defined in no hunk of any object. -/
theorem C56_exported_constant (M : Mod) (hM : M.WF) (source f : Bytes) (hz : (0 : UInt8) ∉ source) (hl : source.length < 67108861)
    (h : writeObject M source = .ok f) (n : Bytes) (hn : ∀ y ∈ M.syms, y.name = n → y.sym.type.reloc = false) :
    ∃ hs, object f = some (source, hs) ∧ ∀ x ∈ hs, ∀ v, .defn n v ∉ x.2.tail.exts := by
  obtain ⟨hs, h1, h2, h3⟩ := C56_object M hM source hz hl f h
  refine ⟨hs, h1, fun x hx v hv => ?_⟩
  obtain ⟨k, hk⟩ := List.getElem?_of_mem hx
  have hlt := (List.getElem?_eq_some_iff.1 hk).1
  obtain ⟨hk', e, _, _, hd, _⟩ := h3 k _ (List.getElem?_eq_getElem (show k < M.secs.length by omega))
  rw [hk] at e
  cases e
  obtain ⟨y, hy, hr, _, _, hyn, _⟩ := (hd n v).1 hv
  rw [hn y hy hyn] at hr
  cases hr

/-- An exported constant. -/
example : ∃ M : Mod, M.WF ∧ (∃ y ∈ M.syms, y.exported = true ∧ y.name = [99] ∧ y.sym.type = .equ) ∧ (∃ f, writeObject M [97] = .ok f) :=
  ⟨⟨[], [⟨[99], true, ⟨.equ, none, 5⟩⟩]⟩, ⟨by decide, by decide, by decide, by decide, by decide, by decide, (fun s hs => by cases hs), by decide, by decide⟩,
    ⟨_, List.mem_cons_self, rfl, rfl, rfl⟩, _, rfl⟩

/-- A number minus an imported symbol. -/
def exNeg : Mod :=
  ⟨[⟨[67], true, false, false, plainSect, 4, [0, 0, 0, 0], [⟨0, true, .bin none .sub (.const 5) (.sym 0)⟩]⟩], [⟨[120], false, ⟨.imported, none, 0⟩⟩]⟩

/-- **C56 (violated).** `5-x` with an imported symbol becomes `x+5`. -/
theorem C56_negated_import : exNeg.WF ∧ ∃ f hk m, writeObject exNeg [97] = .ok f ∧ object f = some ([97], [([67], hk)]) ∧
    hk.memory (fun _ => 0) (fun _ => 0x100) = some m ∧ m = put32be (0x100 + 5) ∧
    ∀ fm (ρ : Den), ρ.sym 0 = some 0x100 → ∃ v, (AExpr.bin none .sub (.const 5) (.sym 0)).den fm wrap ρ = some v ∧ m ≠ put32be (u32 v) := by
  refine ⟨⟨by decide, by decide, by decide, by decide, by decide, by decide, ?_, by decide, by decide⟩, _,
    ⟨0x3E9, 1, [0, 0, 0, 5], ⟨[], [.ref32 [120] [0]], []⟩⟩, [0, 0, 1, 5], rfl, by decide +kernel, by decide +kernel, by decide +kernel, fun fm ρ h => ?_⟩
  · intro s hs p hp
    simp only [exNeg, List.mem_cons, List.not_mem_nil, or_false] at hs
    subst hs
    simp only [List.mem_cons, List.not_mem_nil, or_false] at hp
    subst hp
    exact ⟨rfl, trivial, trivial⟩
  · refine ⟨toI32 (5 - 0x100), ?_, by decide +kernel⟩
    rw [Expr.den_bin, show (AExpr.sym 0).den fm wrap ρ = some 0x100 from Expr.bind_inRange.2 ⟨h, by decide⟩]
    simp only [AExpr.den, Option.bind_some, Expr.meaning, Expr.wrap_f]

end Verif.Ami
