import Verif.Cpu.M6809.Checked
import Verif.Cpu.Z80.Values
/-!
# The bytes of the items
-/
set_option linter.constructorNameAsVariable false

namespace Verif.Cpu.M6809

open Verif.Parse (Tok Toks Tree)
open Verif.Expr (Src FMath ASym Den BinOp I32 u32 toI32 wrap)
open Verif.Cpu.X65 (EndOfLine ok_bind value_and255 value_pc)
open Verif.Cpu.Z80 (code_range)

variable (fm : FMath) (now : Nat → ASym) (ρ : Den)

theorem bytes_const {b : Nat} (hb : b < 256) (is : List Item) :
    bytesAt fm now ρ (.const 1 b :: is) = (bytesAt fm now {ρ with pc := ρ.pc + 1} is).map (b :: ·) := by
  have h1 : (Item.const 1 b).code fm wrap now ρ = some b := by
    show some (b % 256 ^ 1) = _
    rw [Nat.mod_eq_of_lt (by omega)]
  rw [bytesAt, h1, Option.bind_some]
  show Option.map (fun bs => be 1 b ++ bs) (bytesAt fm now {ρ with pc := ρ.pc + 1} is) = _
  rw [show be 1 b = [b] from by unfold be be; simp only [List.nil_append, List.cons.injEq, and_true]; omega]
  rfl

theorem bytes_consts : ∀ (bs : List Nat) (ρ : Den), (∀ b ∈ bs, b < 256) → ∀ is,
    bytesAt fm now ρ (bs.map (.const 1) ++ is) = (bytesAt fm now {ρ with pc := ρ.pc + bs.length} is).map (bs ++ ·)
  | [], ρ, _, is => by
    rw [show ({ρ with pc := ρ.pc + ([] : List Nat).length} : Den) = ρ from by simp]
    simp
  | b :: bs, ρ, h, is => by
    rw [List.map_cons, List.cons_append, bytes_const fm now ρ (h b (List.mem_cons_self ..)),
      bytes_consts bs _ (fun x hx => h x (List.mem_cons_of_mem _ hx)), Option.map_map]
    rw [show (ρ.pc + 1 + (bs.length : Int)) = ρ.pc + ((b :: bs).length : Nat) from by
      rw [List.length_cons]; omega]
    rfl

theorem bytes_last (n : Nat) (s : Src) : bytesAt fm now ρ [.expr n s] = ((Item.expr n s).code fm wrap now ρ).map (be n) := by
  rw [bytesAt]
  cases (Item.expr n s).code fm wrap now ρ with
  | none => rfl
  | some c =>
    show some (be n c ++ []) = some (be n c)
    rw [List.append_nil]

theorem be1 (c : Nat) : be 1 c = [c % 256] := rfl
theorem be2 (c : Nat) : be 2 c = [c / 256 % 256, c % 256] := rfl

theorem bytes_e8 (s : Src) : bytesAt fm now ρ [.expr 1 (checkRange s (-128) 255)] =
    (s.value fm wrap now ρ).bind fun v => (fit8 v).map fun n => [n] := by
  rw [bytes_last, code_range fm now ρ 1 s (-128) 255 (by decide) (by decide)]
  cases s.value fm wrap now ρ with
  | none => rfl
  | some v =>
    simp only [Option.bind_some, fit8]
    by_cases h : -128 ≤ v ∧ v ≤ 255
    · rw [if_pos h, if_pos h]
      simp only [Option.map_some, be1]
      congr 2; unfold u32; omega
    · rw [if_neg h, if_neg h]; rfl

theorem bytes_e16 (s : Src) : bytesAt fm now ρ [.expr 2 (checkRange s (-32768) 65535)] =
    (s.value fm wrap now ρ).bind fun v => (fit16 v).map fun n => [n / 256, n % 256] := by
  rw [bytes_last, code_range fm now ρ 2 s (-32768) 65535 (by decide) (by decide)]
  cases s.value fm wrap now ρ with
  | none => rfl
  | some v =>
    simp only [Option.bind_some, fit16]
    by_cases h : -32768 ≤ v ∧ v ≤ 65535
    · rw [if_pos h, if_pos h]
      simp only [Option.map_some, be2]
      rw [show u32 v % 256 ^ 2 = a16 v from by unfold u32 a16; omega]
      rw [show a16 v / 256 % 256 = a16 v / 256 from by unfold a16; omega]
    · rw [if_neg h, if_neg h]; rfl

theorem bytes_low8 (s : Src) : bytesAt fm now ρ [.expr 1 (checkRange (.bin .and s (.num 0xFF)) (-128) 255)] =
    (s.value fm wrap now ρ).map fun v => [(v % 256).toNat] := by
  rw [bytes_last, code_range fm now ρ 1 _ (-128) 255 (by decide) (by decide), value_and255]
  cases s.value fm wrap now ρ with
  | none => rfl
  | some v =>
    simp only [Option.map_some, Option.bind_some]
    rw [if_pos (by omega), Option.map_some, be1]
    congr 2; unfold u32; omega

/-- The distance to the byte behind the item. -/
theorem value_rel (s : Src) (k : Int) (hk : k = 1 ∨ k = 2) (h0 : 0 ≤ ρ.pc) (h1 : ρ.pc < 16777300) (lo hi : Int) (hl : -32768 ≤ lo ∧ lo ≤ 0)
    (hh : 0 ≤ hi ∧ hi ≤ 65535) (n : Nat) : (Item.expr n (checkRange (.pcRel (-k) s) lo hi)).code fm wrap now ρ =
      (s.value fm wrap now ρ).bind fun v => if lo ≤ v - (ρ.pc + k) ∧ v - (ρ.pc + k) ≤ hi then some (u32 (v - (ρ.pc + k)) % 256 ^ n) else none := by
  rw [code_range fm now ρ n _ lo hi (by unfold I32; omega) (by unfold I32; omega), Expr.value_pcRel]
  cases h : s.value fm wrap now ρ with
  | none => rfl
  | some v =>
    have hv := src_value_range fm wrap now ρ s h
    simp only [Option.bind_some, Expr.wrap_f]
    rw [show toI32 (toI32 (v + -k) - ρ.pc) = toI32 (v - (ρ.pc + k)) from by unfold toI32; omega]
    have hd : lo ≤ toI32 (v - (ρ.pc + k)) ∧ toI32 (v - (ρ.pc + k)) ≤ hi ↔ lo ≤ v - (ρ.pc + k) ∧ v - (ρ.pc + k) ≤ hi := by
      unfold toI32; unfold I32 at hv; omega
    by_cases hr : lo ≤ v - (ρ.pc + k) ∧ v - (ρ.pc + k) ≤ hi
    · rw [if_pos (hd.2 hr), if_pos hr, Expr.toI32_of (by unfold I32; omega)]
    · rw [if_neg (fun h => hr (hd.1 h)), if_neg hr]

theorem bytes_rel8 (s : Src) (h0 : 0 ≤ ρ.pc) (h1 : ρ.pc < 16777300) :
    bytesAt fm now ρ [.expr 1 (checkRange (.pcRel (-1) s) (-128) 255)] =
      (s.value fm wrap now ρ).bind fun v => (fit8 (v - (ρ.pc + 1))).map fun n => [n] := by
  rw [bytes_last, value_rel fm now ρ s 1 (Or.inl rfl) h0 h1 (-128) 255 (by decide) (by decide)]
  cases s.value fm wrap now ρ with
  | none => rfl
  | some v =>
    simp only [Option.bind_some, fit8]
    by_cases h : -128 ≤ v - (ρ.pc + 1) ∧ v - (ρ.pc + 1) ≤ 255
    · rw [if_pos h, if_pos h]
      simp only [Option.map_some, be1]
      congr 2; unfold u32; omega
    · rw [if_neg h, if_neg h]; rfl

theorem bytes_rel16 (s : Src) (h0 : 0 ≤ ρ.pc) (h1 : ρ.pc < 16777300) :
    bytesAt fm now ρ [.expr 2 (checkRange (.pcRel (-2) s) (-32768) 65535)] =
      (s.value fm wrap now ρ).bind fun v => (fit16 (v - (ρ.pc + 2))).map fun n => [n / 256, n % 256] := by
  rw [bytes_last, value_rel fm now ρ s 2 (Or.inr rfl) h0 h1 (-32768) 65535 (by decide) (by decide)]
  cases s.value fm wrap now ρ with
  | none => rfl
  | some v =>
    simp only [Option.bind_some, fit16]
    by_cases h : -32768 ≤ v - (ρ.pc + 2) ∧ v - (ρ.pc + 2) ≤ 65535
    · rw [if_pos h, if_pos h]
      simp only [Option.map_some, be2]
      rw [show u32 (v - (ρ.pc + 2)) % 256 ^ 2 = a16 (v - (ρ.pc + 2)) from by unfold u32 a16; omega]
      rw [show a16 (v - (ρ.pc + 2)) / 256 % 256 = a16 (v - (ρ.pc + 2)) / 256 from by unfold a16; omega]
    · rw [if_neg h, if_neg h]; rfl

end Verif.Cpu.M6809
