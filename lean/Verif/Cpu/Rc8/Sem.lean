import Verif.Cpu.Rc8.Made
import Verif.Cpu.Rc8.Reading
import Verif.Cpu.M6809.Values
/-!
# What the items of an instruction of the RC8 do
-/
set_option linter.constructorNameAsVariable false

namespace Verif.Cpu.Rc8

open Verif.Parse (Tok Toks Tree)
open Verif.Expr (Src FMath ASym Den BinOp I32 toI32 wrap value_bin meaning)
open Verif.Cpu.X65 (ok_bind EndOfLine bytesAt le le_one value_pc value_and255)
open Verif.Cpu.Z80 (code_range)

/-- The value of a tree. -/
abbrev valOf (C : Ctx) (fm : FMath) (now : Nat → ASym) (ρ : Den) (t : Tree) : Option Int := (C.src t).value fm wrap now ρ

theorem val_pc (C : Ctx) (fm : FMath) (now : Nat → ASym) (ρ : Den) (p : Int) (t : Tree) :
    valOf C fm now {ρ with pc := p} t = valOf C fm now ρ t := value_pc C fm wrap now ρ p t

/-- What the bytes of an instruction without condition must do. -/
structure Sem (C : Ctx) (f : Form Tree) (known : Bool) (items : List Item) : Prop where
  size : ∀ i ∈ items, i.size = 1
  short : items.length ≤ 100
  good : ∀ (fm : FMath) (now : Nat → ASym) (ρ : Den), C.Sound fm wrap now ρ → 0 ≤ ρ.pc → ρ.pc < 16777300 → ∀ g,
    f.eval (valOf C fm now ρ) = some g → g.fits known ρ.pc = true →
    ∃ bs, bytesAt fm wrap now ρ items = some bs ∧ Meets none g ρ.pc bs
  bad : ∀ (fm : FMath) (now : Nat → ASym) (ρ : Den), C.Sound fm wrap now ρ → 0 ≤ ρ.pc → ρ.pc < 16777300 →
    (∀ g, f.eval (valOf C fm now ρ) = some g → g.fits known ρ.pc = false) → bytesAt fm wrap now ρ items = none

section

variable (fm : FMath) (now : Nat → ASym)

theorem bytes_byte (ρ : Den) {b : Nat} (hb : b < 256) (is : List Item) :
    bytesAt fm wrap now ρ (byte b :: is) = (bytesAt fm wrap now {ρ with pc := ρ.pc + 1} is).map (b :: ·) := by
  have h1 : (byte b).code fm wrap now ρ = some b := by
    show some (b % 256 ^ 1) = _
    rw [Nat.mod_eq_of_lt (by omega)]
  rw [bytesAt, h1, Option.bind_some]
  show Option.map (fun bs => le 1 b ++ bs) (bytesAt fm wrap now {ρ with pc := ρ.pc + 1} is) = _
  rw [le_one, Nat.mod_eq_of_lt hb]
  rfl

theorem bytes_consts : ∀ (bs : List Nat) (ρ : Den), (∀ b ∈ bs, b < 256) → ∀ is,
    bytesAt fm wrap now ρ (bs.map byte ++ is) = (bytesAt fm wrap now {ρ with pc := ρ.pc + bs.length} is).map (bs ++ ·)
  | [], ρ, _, is => by
    rw [show ({ρ with pc := ρ.pc + ([] : List Nat).length} : Den) = ρ from by simp]
    simp
  | b :: bs, ρ, h, is => by
    rw [List.map_cons, List.cons_append, bytes_byte fm now ρ (h b (List.mem_cons_self ..)),
      bytes_consts bs _ (fun x hx => h x (List.mem_cons_of_mem _ hx)), Option.map_map]
    rw [show (ρ.pc + 1 + (bs.length : Int)) = ρ.pc + ((b :: bs).length : Nat) from by
      rw [List.length_cons]; omega]
    rfl

theorem bytes_only (bs : List Nat) (ρ : Den) (h : ∀ b ∈ bs, b < 256) : bytesAt fm wrap now ρ (bs.map byte) = some bs := by
  have := bytes_consts fm now bs ρ h []
  rw [List.append_nil] at this
  rw [this]
  show some (bs ++ []) = _
  rw [List.append_nil]

/-- An expression of one byte. -/
theorem bytes_expr (ρ : Den) (s : Src) (is : List Item) : bytesAt fm wrap now ρ (.expr 1 s :: is) =
    (s.value fm wrap now ρ).bind fun v => (bytesAt fm wrap now {ρ with pc := ρ.pc + 1} is).map ((v % 256).toNat :: ·) := by
  rw [bytesAt]
  show ((s.value fm wrap now ρ).map _).bind _ = _
  cases s.value fm wrap now ρ with
  | none => rfl
  | some v =>
    simp only [Option.map_some, Option.bind_some]
    congr 1
    funext bs
    rw [show (Item.expr 1 s).size = 1 from rfl, le_one]
    show (Expr.u32 v % 256 ^ 1 % 256) :: bs = _
    congr 1
    unfold Expr.u32; omega

theorem value_word (ρ : Den) (s : Src) : (checkRange s (-32768) 65535).value fm wrap now ρ =
    (s.value fm wrap now ρ).bind fun v => if -32768 ≤ v ∧ v ≤ 65535 then some v else none :=
  value_checkRange fm wrap now ρ s _ _ (by decide) (by decide)

/-- A number of eight bits. -/
theorem bytes_imm (ρ : Den) (lo hi : Int) (h1 : I32 lo) (h2 : I32 hi) (s : Src) (is : List Item) :
    bytesAt fm wrap now ρ (imm lo hi s :: is) = (s.value fm wrap now ρ).bind fun v => if lo ≤ v ∧ v ≤ hi then
      (bytesAt fm wrap now {ρ with pc := ρ.pc + 1} is).map ((v % 256).toNat :: ·) else none := by
  unfold imm
  rw [bytes_expr, value_and255, value_checkRange fm wrap now ρ _ _ _ h1 h2]
  cases s.value fm wrap now ρ with
  | none => rfl
  | some v =>
    simp only [Option.bind_some]
    by_cases h : lo ≤ v ∧ v ≤ hi
    · rw [if_pos h, if_pos h]
      simp only [Option.map_some, Option.bind_some]
      rw [Int.emod_emod_of_dvd v (Int.dvd_refl 256)]
    · rw [if_neg h, if_neg h]; rfl

end

theorem wordOf_add (pc : Int) (n : Nat) : wordOf pc + BitVec.ofNat 16 n = wordOf (pc + n) := by
  apply BitVec.eq_of_toNat_eq
  rw [BitVec.toNat_add, wordOf_toNat, wordOf_toNat, BitVec.toNat_ofNat]
  omega

/-- Bytes that do what the instruction does. -/
theorem Meets.of_does {g : Form Int} {bs : List Nat} (hs : g.straight = true) (h : Does bs fun cpu s => act cpu 0 s g) (pc : Int) :
    Meets none g pc bs := by
  intro cpu s hl
  have := h cpu (wordOf pc) s hl
  obtain ⟨h1, h2⟩ := straight_act hs cpu (wordOf (pc + bs.length)) s
  show Runs cpu _ ((goto cpu _ s g).getD _, act cpu _ s g)
  rw [h1, h2, ← wordOf_add]
  exact this

/-- One instruction of the processor. -/
theorem Meets.one {g : Form Int} {op : Nat} (ho : op < 256) (pc : Int) (hd : ∀ n, decode (wordOf pc) op n = some (1, g)) :
    Meets none g pc [op] := by
  intro cpu s hl
  have := step1 hl ho s g hd
  rw [show wordOf pc + 1 = wordOf (pc + ([op] : List Nat).length) from wordOf_add pc 1] at this
  exact .one this

theorem Meets.two {g g' : Form Int} {op n : Nat} (ho : op < 256) (hn : n < 256) (pc : Int) (hd : decode (wordOf pc) op n = some (2, g'))
    (ha : ∀ cpu next s, act cpu next s g' = act cpu next s g) (hg : ∀ cpu next s, goto cpu next s g' = goto cpu next s g) :
    Meets none g pc [op, n] := by
  intro cpu s hl
  have := step2 hl ho hn s g' hd
  rw [show wordOf pc + 2 = wordOf (pc + ([op, n] : List Nat).length) from wordOf_add pc 2, ha, hg] at this
  exact .one this

theorem fits_none {f : Form Tree} (hv : f.val = none) (k : Bool) (pc : Int) : (f.map fun _ => (0 : Int)).fits k pc = true := by
  cases f <;> first | rfl | cases hv

theorem eval_none {f : Form Tree} (hv : f.val = none) (g : Tree → Option Int) : f.eval g = some (f.map fun _ => 0) := by
  unfold Form.eval; rw [hv]

theorem eval_some {f : Form Tree} {t : Tree} (hv : f.val = some t) (g : Tree → Option Int) :
    f.eval g = (g t).map fun v => f.map fun _ => v := by
  unfold Form.eval; rw [hv]

/-- An instruction without a value. -/
theorem Sem.const (C : Ctx) {f : Form Tree} (k : Bool) (bs : List Nat) (hv : f.val = none) (hb : ∀ b ∈ bs, b < 256) (hn : bs.length ≤ 100)
    (hm : ∀ pc, Meets none (f.map fun _ => 0) pc bs) : Sem C f k (bs.map byte) where
  size i hi := by
    obtain ⟨b, _, rfl⟩ := List.mem_map.1 hi
    rfl
  short := by rw [List.length_map]; exact hn
  good fm now ρ _ _ _ g hg _ := by
    rw [eval_none hv] at hg
    cases hg
    exact ⟨bs, bytes_only fm now bs ρ hb, hm _⟩
  bad fm now ρ _ _ _ h := by
    have := h _ (eval_none hv _)
    rw [fits_none hv] at this
    cases this

/-- An instruction with a value, whose bytes are those of the value. -/
theorem Sem.value (C : Ctx) {f : Form Tree} {t : Tree} (k : Bool) (items : List Item) (hv : f.val = some t)
    (hs : ∀ i ∈ items, i.size = 1) (hn : items.length ≤ 100)
    (h : ∀ (fm : FMath) (now : Nat → ASym) (ρ : Den), C.Sound fm wrap now ρ → 0 ≤ ρ.pc → ρ.pc < 16777300 →
      (valOf C fm now ρ t = none → bytesAt fm wrap now ρ items = none) ∧ ∀ v, valOf C fm now ρ t = some v →
        ((f.map fun _ => v).fits k ρ.pc = true → ∃ bs, bytesAt fm wrap now ρ items = some bs ∧ Meets none (f.map fun _ => v) ρ.pc bs) ∧
        ((f.map fun _ => v).fits k ρ.pc = false → bytesAt fm wrap now ρ items = none)) : Sem C f k items where
  size := hs
  short := hn
  good fm now ρ hS h0 h1 g hg hf := by
    rw [eval_some hv] at hg
    obtain ⟨v, hv', rfl⟩ := Option.map_eq_some_iff.1 hg
    exact ((h fm now ρ hS h0 h1).2 v hv').1 hf
  bad fm now ρ hS h0 h1 hg := by
    cases hv' : valOf C fm now ρ t with
    | none => exact (h fm now ρ hS h0 h1).1 hv'
    | some v => exact ((h fm now ρ hS h0 h1).2 v hv').2 (hg _ (by rw [eval_some hv, hv']; rfl))

end Verif.Cpu.Rc8
