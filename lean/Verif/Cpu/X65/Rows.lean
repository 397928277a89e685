import Verif.Cpu.X65.Values
/-!
# The rows of the table of the 6502, the 65C02 and the 65C02S, compared with the data sheets
-/
namespace Verif.Cpu.X65

open Verif.Parse (Tok Toks Tree)
open Verif.Expr (Src FMath ASym Den Rng BinOp I32 u32 toI32 meaning wrap value_bin)

/-- Options that can be set: those at the beginning, and those after an option, `BITS` or `SETBP`. -/
inductive Reach : Opts → Prop
  | start : Reach .default
  | option {o o' : Opts} (x : Opt) : Reach o → o.parse x = .ok o' → Reach o'.updated
  | bits {o o' : Opts} (m x : Option Int) : Reach o → o.bits m x = .ok o' → Reach o'
  | setBp {o o' : Opts} (n : Int) : Reach o → o.setBp n = .ok o' → Reach o'

/-- The processors that are specified. -/
def Cpu.Plain (c : Cpu) : Prop := c = .c6502 ∨ c = .c65C02 ∨ c = .c65C02S

/-- What holds of all options that can be set. -/
structure Consistent (o : Opts) : Prop where
  allowed : o.allowed = o.cpu.allowed
  small : o.cpu ≠ .c65816 → o.m16 = false ∧ o.x16 = false
  base : o.cpu.is4510 = false → o.bp = 0
  undoc : o.undocumented ≤ 3 ∧ (o.cpu ≠ .c6502 → o.undocumented = 0)

theorem Consistent.updated {o : Opts} (ha : o.allowed = o.cpu.allowed) (hs : o.cpu ≠ .c65816 → o.m16 = false ∧ o.x16 = false)
    (hu : o.undocumented ≤ 3 ∧ (o.cpu ≠ .c6502 → o.undocumented = 0)) : Consistent o.updated := by
  unfold Opts.updated
  split
  · rename_i h; exact ⟨ha, hs, fun h' => absurd (h.symm.trans h') (by decide), hu⟩
  · exact ⟨ha, hs, fun _ => rfl, hu⟩

theorem bind_ok {α β : Type} {x : Outcome α} {f : α → Outcome β} {b : β} (h : x.bind f = .ok b) :
    ∃ a, x = .ok a ∧ f a = .ok b := by
  cases x with
  | ok a => exact ⟨a, rfl, h⟩
  | fail => cases h
  | ub => cases h

theorem reach_consistent {o : Opts} (h : Reach o) : Consistent o := by
  induction h with
  | start => exact ⟨rfl, fun _ => ⟨rfl, rfl⟩, fun _ => rfl, by decide, fun _ => rfl⟩
  | @option o o' x _ hp ih =>
    cases x with
    | undocumented n =>
      simp only [Opts.parse] at hp
      split at hp
      · rename_i hn
        split at hp
        · cases hp
        · rename_i hc
          cases hp
          refine Consistent.updated ih.allowed ih.small ⟨by show n.toNat ≤ 3; omega, fun h => ?_⟩
          show n.toNat = 0
          have h : o.cpu ≠ .c6502 := h
          have : n = 0 := Classical.byContradiction fun h' => hc ⟨h, h'⟩
          omega
      · cases hp
    | cpu n =>
      simp only [Opts.parse] at hp
      split at hp
      · cases hp
        refine Consistent.updated rfl (fun h => ?_) ⟨by show 0 ≤ 3; omega, fun _ => rfl⟩
        exact ⟨decide_eq_false h, decide_eq_false h⟩
      · cases hp
    | synthesized b =>
      cases hp
      exact Consistent.updated ih.allowed ih.small ih.undoc
  | @bits o o' m x _ hp ih =>
    unfold Opts.bits at hp
    split at hp
    · rename_i hc
      obtain ⟨a, _, hp⟩ := bind_ok hp
      obtain ⟨b, _, hp⟩ := bind_ok hp
      cases hp
      exact ⟨ih.allowed, fun h => absurd hc h, ih.base, ih.undoc⟩
    · cases hp
  | @setBp o o' n _ hp ih =>
    unfold Opts.setBp at hp
    split at hp
    · rename_i hc
      split at hp
      · cases hp
        exact ⟨ih.allowed, ih.small, fun h => absurd (hc.symm.trans h) (by decide), ih.undoc⟩
      · cases hp
    · cases hp

theorem reach_mk {o : Opts} (h : Reach o) (hc : o.cpu.Plain) :
    (o.cpu, o.undocumented) ∈ machines ∧ o = mk o.cpu o.undocumented o.synthesized := by
  obtain ⟨ha, hs, hb, hu, hu'⟩ := reach_consistent h
  obtain ⟨u, cpu, syn, m16, x16, al, bp⟩ := o
  simp only at ha hs hb hu hu' hc ⊢
  have h16 : m16 = false ∧ x16 = false := hs (by rcases hc with rfl | rfl | rfl <;> decide)
  have hbp : bp = 0 := hb (by rcases hc with rfl | rfl | rfl <;> rfl)
  obtain ⟨rfl, rfl⟩ := h16
  subst hbp ha
  refine ⟨?_, rfl⟩
  rcases hc with rfl | rfl | rfl
  · have : u = 0 ∨ u = 1 ∨ u = 2 ∨ u = 3 := by omega
    rcases this with rfl | rfl | rfl | rfl <;> decide
  · cases hu' (by decide); decide
  · cases hu' (by decide); decide

/-! ### The table -/

/-- The entry of a word. -/
def entryOf (o : Opts) (name : String) : Option Entry :=
  match tok o name with
  | .other n => if T.adc.num ≤ n ∧ n ≤ T.smb7.num then table[n - T.adc.num]? else none
  | _ => none

def shapes : List Shape :=
  [.none, .a, .imm, .mem false, .mem true, .memX false, .memX true, .memY false, .memY true, .indX, .indY, .ind, .two, .three]

theorem mem_shapes (s : Shape) : s ∈ shapes := by
  cases s with
  | mem f => cases f <;> decide
  | memX f => cases f <;> decide
  | memY f => cases f <;> decide
  | _ => decide

/-- The calls for a row. -/
def rowCalls (name : String) (am : AM) (code : Nat) : List Call :=
  if name = "BIT" ∧ am = .imm then [.const code, .u8 .e] else am.calls code

/-- An instruction and the entry of the table agree. -/
def okRow (cpu : Cpu) (u : Nat) (syn : Bool) (name : String) : Bool :=
  let o := mk cpu u syn
  let ms := (isa cpu u).modes name
  match entryOf o name with
  | none => false
  | some p =>
    p.cpu.includes cpu && !p.imm.is16 o &&
    (shapes.all fun s => [false, true].all fun sm =>
      match pick ms s sm with
      | none => true
      | some am => sel (p.modes &&& o.allowed) s sm am) &&
    ms.all fun (am, code) =>
      decide (code < 256) && (decide (am ≠ .bit ∧ am ≠ .bitrel) || [0x0F, 0x8F, 0x07, 0x87].contains code) &&
      decide (p.handler ≠ .rotate ∨ am ≠ .imm) &&
      (name == "RLA" || decide (p.handler.run o none p.base am.mode = .ok (some (rowCalls name am code))))

theorem rows_ok : ∀ p ∈ machines, ∀ syn : Bool, ∀ r ∈ isa p.1 p.2, okRow p.1 p.2 syn r.1 = true := by decide +kernel

end Verif.Cpu.X65
