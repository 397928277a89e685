import Verif.Cpu.X65.Lemmas
/-!
# The bytes that the calls of the handlers put out
-/
namespace Verif.Cpu.X65

open Verif.Parse (Tok Toks Tree)
open Verif.Expr (Src FMath ASym Den Rng BinOp I32 u32 toI32 meaning wrap value_bin)

/-- The calls for a mode. -/
def AM.calls (am : AM) (code : Nat) : List Call :=
  match am with
  | .imp | .acc => [.const code]
  | .imm => [.const code, .su8 .e]
  | .zp | .zpx | .zpy | .izx | .izy | .izp => [.const code, .u8 .e]
  | .abs | .absx | .absy | .ind | .iax => [.const code, .u16 .e]
  | .rel => [.const code, .rel8 .e]
  | .zprel => [.const code, .u8 .e, .rel8 .e2]
  | .bit => [.bitOp code, .u8 .e2]
  | .bitrel => [.bitOp code, .u8 .e2, .rel8 .e3]

/-- The value of an expression of the program does not depend on where the byte is: the program counter is a label. -/
theorem value_pc (C : Ctx) (fm : FMath) (R : Rng) (now : Nat → ASym) (ρ : Den) (p : Int) (t : Tree) :
    (C.src t).value fm R now {ρ with pc := p} = (C.src t).value fm R now ρ := by
  induction t with
  | num v => rfl
  | chars s => rfl
  | sym name => rfl
  | pc s => rfl
  | paren t ih => exact ih
  | bin o l r ihl ihr =>
    show (Src.bin o (C.src l) (C.src r)).value _ _ _ _ = (Src.bin o (C.src l) (C.src r)).value _ _ _ _
    rw [value_bin, value_bin, ihl, ihr]
  | neg t ih =>
    show (Src.bin .sub (.num 0) (C.src t)).value _ _ _ _ = (Src.bin .sub (.num 0) (C.src t)).value _ _ _ _
    rw [value_bin, value_bin, ih]; rfl
  | plus t ih => exact ih
  | cpl t ih =>
    show (Src.bin .xor (.num _) (C.src t)).value _ _ _ _ = (Src.bin .xor (.num _) (C.src t)).value _ _ _ _
    rw [value_bin, value_bin, ih]; rfl
  | not t ih =>
    show (Src.un _ (C.src t)).value _ _ _ _ = (Src.un _ (C.src t)).value _ _ _ _
    unfold Src.value; rw [ih]
  | notIn t ih =>
    show (Src.un _ (C.src t)).value _ _ _ _ = (Src.un _ (C.src t)).value _ _ _ _
    unfold Src.value; rw [ih]
  | fn f t ih =>
    show (Src.un _ (C.src t)).value _ _ _ _ = (Src.un _ (C.src t)).value _ _ _ _
    unfold Src.value; rw [ih]
  | atan2 l r ihl ihr =>
    show (Src.bin _ (C.src l) (C.src r)).value _ _ _ _ = (Src.bin _ (C.src l) (C.src r)).value _ _ _ _
    rw [value_bin, value_bin, ihl, ihr]

section

variable (fm : FMath) (now : Nat → ASym) (ρ : Den)

theorem value_and255 (s : Src) : (Src.bin .and s (.num 0xFF)).value fm wrap now ρ = (s.value fm wrap now ρ).map fun v => v % 256 :=
  value_mask fm wrap now ρ s 8 (by omega)

theorem value_page (s : Src) :
    (Item.expr 1 (checkRange s 0 255)).code fm wrap now ρ = (s.value fm wrap now ρ).bind page := by
  show ((checkRange s 0 255).value fm wrap now ρ).map _ = _
  rw [value_checkRange fm wrap now ρ _ _ _ (by decide) (by decide)]
  cases s.value fm wrap now ρ with
  | none => rfl
  | some v =>
    simp only [Option.bind_some]
    unfold page
    by_cases h : 0 ≤ v ∧ v ≤ 255
    · rw [if_pos h, if_pos h, Option.map_some, u32_of_nonneg h.1 (by omega)]
      congr 1; omega
    · rw [if_neg h, if_neg h]; rfl

/-- Addresses in the zero page. -/
theorem code_page {C : Ctx} {s e : Src} (ha : Agree C s (some e)) (hk : ∀ v, C.known s = some v → s.value fm wrap now ρ = some v) :
    (Item.expr 1 (checkRange e 0 255)).code fm wrap now ρ = (s.value fm wrap now ρ).bind page := by
  rw [value_page]
  rcases ha with h | h | ⟨h, hs⟩
  · cases h; rfl
  · cases h
    rw [value_checkRange fm wrap now ρ _ _ _ (by decide) (by decide)]
    cases s.value fm wrap now ρ with
    | none => rfl
    | some v =>
      simp only [Option.bind_some]
      split
      · rfl
      · rename_i h; unfold page; rw [if_neg h]; rfl
  · cases h
    obtain ⟨v, hv, h0, h1⟩ := small_mask hs
    rw [show maskZp s = .bin .and s (.num 0xFF) from rfl, value_and255, hk v hv, Option.map_some]
    rw [show v % 256 = v from by omega]

theorem code_su8 (s : Src) :
    (Item.expr 1 (.bin .and (checkRange s (-128) 255) (.num 0xFF))).code fm wrap now ρ =
      (s.value fm wrap now ρ).bind fun v => if -128 ≤ v ∧ v ≤ 255 then some (v % 256).toNat else none := by
  show ((Src.bin .and (checkRange s (-128) 255) (.num 0xFF)).value fm wrap now ρ).map _ = _
  rw [value_and255, value_checkRange fm wrap now ρ _ _ _ (by decide) (by decide)]
  cases s.value fm wrap now ρ with
  | none => rfl
  | some v =>
    simp only [Option.bind_some]
    split
    · simp only [Option.map_some]
      unfold u32; congr 1; omega
    · rfl

theorem code_u16 (s : Src) :
    (Item.expr 2 (.bin .and (checkRange s 0 65535) (.num 0xFFFF))).code fm wrap now ρ =
      (s.value fm wrap now ρ).bind fun v => if 0 ≤ v ∧ v ≤ 65535 then some v.toNat else none := by
  show ((Src.bin .and (checkRange s 0 65535) (.num 0xFFFF)).value fm wrap now ρ).map _ = _
  have := value_mask fm wrap now ρ (checkRange s 0 65535) 16 (by omega)
  rw [show ((2 ^ 16 - 1 : Nat) : Int) = 0xFFFF from rfl] at this
  rw [this, value_checkRange fm wrap now ρ _ _ _ (by decide) (by decide)]
  cases s.value fm wrap now ρ with
  | none => rfl
  | some v =>
    simp only [Option.bind_some]
    split
    · simp only [Option.map_some]
      unfold u32; congr 1; omega
    · rfl

theorem code_rel8 (s : Src) (h0 : 0 ≤ ρ.pc) (h1 : ρ.pc < 16777220) :
    (Item.expr 1 (checkRange (.pcRel (-1) s) (-128) 127)).code fm wrap now ρ =
      (s.value fm wrap now ρ).bind fun v => distance (v - (ρ.pc + 1)) := by
  show ((checkRange (.pcRel (-1) s) (-128) 127).value fm wrap now ρ).map _ = _
  rw [value_checkRange fm wrap now ρ _ _ _ (by decide) (by decide), Expr.value_pcRel]
  cases h : s.value fm wrap now ρ with
  | none => rfl
  | some v =>
    have hv := src_value_range fm wrap now ρ s h
    simp only [Option.bind_some, Expr.wrap_f]
    rw [show toI32 (toI32 (v + -1) - ρ.pc) = toI32 (v - (ρ.pc + 1)) from by unfold toI32; omega]
    have hd : -128 ≤ toI32 (v - (ρ.pc + 1)) ∧ toI32 (v - (ρ.pc + 1)) ≤ 127 ↔ -128 ≤ v - (ρ.pc + 1) ∧ v - (ρ.pc + 1) ≤ 127 := by
      unfold toI32; unfold I32 at hv; omega
    unfold distance
    by_cases hr : -128 ≤ v - (ρ.pc + 1) ∧ v - (ρ.pc + 1) ≤ 127
    · rw [if_pos (hd.2 hr), if_pos hr, Option.map_some, Expr.toI32_of (by unfold I32; omega)]
      unfold u32; congr 1; omega
    · rw [if_neg (fun h => hr (hd.1 h)), if_neg hr]; rfl

theorem code_bitOp (s : Src) {code : Nat} (hc : code ∈ [0x0F, 0x8F, 0x07, 0x87]) :
    (Item.expr 1 (.bin .or (.num code) (.bin .asl (checkRange s 0 7) (.num 4)))).code fm wrap now ρ =
      (s.value fm wrap now ρ).bind (withBit code) := by
  show ((Src.bin .or (.num code) (.bin .asl (checkRange s 0 7) (.num 4))).value fm wrap now ρ).map _ = _
  have hi : I32 (code : Int) := by
    simp only [List.mem_cons, List.not_mem_nil, or_false] at hc
    rcases hc with rfl | rfl | rfl | rfl <;> decide
  rw [value_bin, value_bin, value_checkRange fm wrap now ρ _ _ _ (by decide) (by decide), value_num fm wrap now ρ hi,
    value_num fm wrap now ρ (v := 4) (by decide)]
  cases h : s.value fm wrap now ρ with
  | none => rfl
  | some v =>
    simp only [Option.bind_some]
    unfold withBit
    by_cases hr : 0 ≤ v ∧ v ≤ 7
    · rw [if_pos hr, if_pos hr, Option.bind_some]
      have ha : meaning fm .asl v 4 = some (v * 16) := by
        show some ((BitVec.ofInt 32 v <<< 4).toInt) = _
        rw [Expr.asl_eq, Expr.toI32_of]
        · rfl
        · unfold I32; omega
      rw [ha, Option.bind_some, wrap.keep _ (by unfold I32; omega), Option.bind_some]
      have ho : meaning fm .or (code : Int) (v * 16) = some ((code + 16 * v.toNat : Nat) : Int) := by
        show some _ = some _
        rw [Expr.or_eq]
        have h7 : ∀ c ∈ [0x0F, 0x8F, 0x07, 0x87], ∀ n : Fin 8,
            toI32 ((u32 ((c : Nat) : Int) ||| u32 (((n.val : Nat) : Int) * 16) : Nat) : Int) = ((c + 16 * n.val : Nat) : Int) := by
          decide
        have := h7 code hc ⟨v.toNat, by omega⟩
        rw [show (((⟨v.toNat, by omega⟩ : Fin 8).val : Nat) : Int) = v from by show ((v.toNat : Nat) : Int) = v; omega] at this
        rw [this]
      have hb : code < 144 := by
        simp only [List.mem_cons, List.not_mem_nil, or_false] at hc
        rcases hc with rfl | rfl | rfl | rfl <;> decide
      rw [ho, Option.bind_some, wrap.keep _ (by unfold I32; omega), Option.map_some]
      unfold u32; congr 1; omega
    · rw [if_neg hr, if_neg hr]; rfl

theorem value_asr8 (s : Src) :
    (Src.bin .asr s (.num 8)).value fm wrap now ρ = (s.value fm wrap now ρ).map fun v => v / 256 := by
  rw [value_bin, value_num fm wrap now ρ (by decide)]
  cases h : s.value fm wrap now ρ with
  | none => rfl
  | some v =>
    have hv := src_value_range fm wrap now ρ s h
    have hm : meaning fm .asr v 8 = some (v / 256) := by
      show some (v.fdiv 256) = _
      rw [Int.fdiv_eq_ediv_of_nonneg _ (by decide)]
    simp only [Option.bind_some, hm, Option.map_some]
    exact wrap.keep _ (by unfold I32 at *; omega)

theorem value_asr16 (s : Src) :
    (Src.bin .asr s (.num 16)).value fm wrap now ρ = (s.value fm wrap now ρ).map fun v => v / 65536 := by
  rw [value_bin, value_num fm wrap now ρ (by decide)]
  cases h : s.value fm wrap now ρ with
  | none => rfl
  | some v =>
    have hv := src_value_range fm wrap now ρ s h
    have hm : meaning fm .asr v 16 = some (v / 65536) := by
      show some (v.fdiv 65536) = _
      rw [Int.fdiv_eq_ediv_of_nonneg _ (by decide)]
    simp only [Option.bind_some, hm, Option.map_some]
    exact wrap.keep _ (by unfold I32 at *; omega)

theorem and_ff00 (x : Nat) : (x &&& 0xFF00) / 256 = x / 256 % 256 := by
  have h := Nat.shiftRight_and_distrib (a := x) (b := 0xFF00) (i := 8)
  rw [Nat.shiftRight_eq_div_pow, Nat.shiftRight_eq_div_pow, Nat.shiftRight_eq_div_pow] at h
  have h2 : x / 2 ^ 8 &&& 0xFF00 / 2 ^ 8 = x / 2 ^ 8 % 2 ^ 8 := Nat.and_two_pow_sub_one_eq_mod _ 8
  rw [h2] at h
  exact h

theorem swap_bits (v : Int) (x : Nat) (hd : x / 256 = u32 v / 256 % 256) (hl : x ≤ 65280) :
    toI32 ((u32 (toI32 (v * 256)) ||| u32 (toI32 (x : Int) / 256) : Nat) : Int) % 256 = v / 256 % 256 := by
  have hu : u32 (toI32 (x : Int) / 256) = u32 v / 256 % 256 := by
    rw [← hd]; unfold u32 toI32; omega
  rw [hu]
  have ho : (u32 (toI32 (v * 256)) ||| u32 v / 256 % 256) % 2 ^ 8 = u32 v / 256 % 256 := by
    rw [Nat.or_mod_two_pow, show u32 (toI32 (v * 256)) % 2 ^ 8 = 0 from by unfold u32 toI32; omega, Nat.zero_or]
    omega
  generalize u32 (toI32 (v * 256)) ||| u32 v / 256 % 256 = y at *
  have h1 : toI32 (y : Int) % 256 = ((y % 2 ^ 8 : Nat) : Int) := by unfold toI32; omega
  have h2 : ∃ q, v = 4294967296 * q + (u32 v : Nat) := ⟨v / 4294967296, by unfold u32; omega⟩
  rw [h1, ho]
  obtain ⟨q, h2⟩ := h2
  generalize u32 v = w at *
  omega

/-- The value of an immediate operand. -/
theorem value_pre (p : Pre) (s : Src) : (p.src s).value fm wrap now ρ = (s.value fm wrap now ρ).map p.byte := by
  cases p with
  | plain => show s.value fm wrap now ρ = _; cases s.value fm wrap now ρ <;> rfl
  | low => exact value_and255 fm now ρ s
  | high =>
    show (Src.bin .and (.bin .asr s (.num 8)) (.num 0xFF)).value fm wrap now ρ = _
    rw [value_and255, value_asr8]
    cases s.value fm wrap now ρ <;> rfl
  | bank =>
    show (Src.bin .and (.bin .asr s (.num 16)) (.num 0xFF)).value fm wrap now ρ = _
    rw [value_and255, value_asr16]
    cases s.value fm wrap now ρ <;> rfl
  | swap =>
    show (Src.bin .and (.bin .or (.bin .asl s (.num 8)) (.bin .asr (.bin .and s (.num 0xFF00)) (.num 8))) (.num 0xFF)).value
      fm wrap now ρ = _
    rw [value_and255, value_bin, value_bin, value_asr8, value_bin, value_num fm wrap now ρ (v := 8) (by decide),
      value_num fm wrap now ρ (v := 0xFF00) (by decide)]
    cases h : s.value fm wrap now ρ with
    | none => rfl
    | some v =>
      have hv := src_value_range fm wrap now ρ s h
      have h1 : meaning fm .asl v 8 = some (toI32 (v * 256)) := by
        show some ((BitVec.ofInt 32 v <<< 8).toInt) = _
        rw [Expr.asl_eq]; rfl
      have h2 : meaning fm .and v 0xFF00 = some (toI32 ((u32 v &&& 0xFF00 : Nat) : Int)) := by
        show some _ = some _
        rw [Expr.and_eq]; rfl
      have hl : u32 v &&& 0xFF00 ≤ 0xFF00 := Nat.and_le_right
      have hd := and_ff00 (u32 v)
      simp only [Option.bind_some, Option.map_some, h1, h2, wrap.keep _ (Expr.toI32_range _)]
      generalize u32 v &&& 0xFF00 = x at hl hd ⊢
      have h3 : ∀ a b, meaning fm .or a b = some (toI32 ((u32 a ||| u32 b : Nat) : Int)) := by
        intro a b; show some _ = some _; rw [Expr.or_eq]
      simp only [h3, Option.bind_some, wrap.keep _ (Expr.toI32_range _), Option.map_some]
      exact congrArg some (swap_bits v _ hd hl)

end

/-! ### Instructions -/

theorem le_one (c : Nat) : le 1 c = [c % 256] := rfl
theorem le_two (c : Nat) : le 2 c = [c % 256, c / 256 % 256] := rfl

/-- The bytes of the calls are those of the mode. -/
theorem emitted {C : Ctx} {am : AM} {x : Opnd} {r : Am} (hP : Parsed C am x r) {code : Nat} (hc : code < 256)
    (hb : am = .bit ∨ am = .bitrel → code ∈ [0x0F, 0x8F, 0x07, 0x87]) (hn : am = .imp ∨ am = .acc → x = .none ∨ x = .a) :
    ∃ items, emit r (am.calls code) = .ok items ∧ ∀ (fm : FMath) (now : Nat → ASym) (ρ : Den),
      C.Sound fm wrap now ρ → 0 ≤ ρ.pc → ρ.pc < 16777216 →
        bytesAt fm wrap now ρ items = (x.values fun t => (C.src t).value fm wrap now ρ).bind (am.bytes code ρ.pc) := by
  have hconst : ∀ fm now ρ, (Item.const 1 code).code fm wrap now ρ = some code := by
    intro fm now ρ
    show some _ = some _
    congr 1; omega
  have hmod : code % 256 = code := by omega
  have one : ∀ (t : Tree) (e : Src), Agree C (C.src t) (some e) → ∀ (fm : FMath) (now : Nat → ASym) (ρ : Den),
      C.Sound fm wrap now ρ →
      bytesAt fm wrap now ρ [.const 1 code, .expr 1 (checkRange e 0 255)] =
        ((C.src t).value fm wrap now ρ).bind fun v => (page v).map fun b => [code, b] := by
    intro t e ha fm now ρ hS
    simp only [bytesAt]
    rw [hconst, Option.bind_some, code_page fm now _ ha (fun v hv => by rw [value_pc]; exact hS _ _ hv), value_pc]
    cases (C.src t).value fm wrap now ρ with
    | none => rfl
    | some v =>
      simp only [Option.bind_some]
      unfold page
      split
      · rename_i h
        show some [code % 256, v.toNat % 256] = some [code, v.toNat]
        rw [hmod, show v.toNat % 256 = v.toNat from by omega]
      · rfl
  have two : ∀ (t : Tree) (fm : FMath) (now : Nat → ASym) (ρ : Den),
      bytesAt fm wrap now ρ [.const 1 code, .expr 2 (.bin .and (checkRange (C.src t) 0 65535) (.num 0xFFFF))] =
        ((C.src t).value fm wrap now ρ).bind fun v =>
          if 0 ≤ v ∧ v ≤ 65535 then some [code, (v % 256).toNat, (v / 256).toNat] else none := by
    intro t fm now ρ
    simp only [bytesAt]
    rw [hconst, Option.bind_some, code_u16, value_pc]
    cases (C.src t).value fm wrap now ρ with
    | none => rfl
    | some v =>
      simp only [Option.bind_some]
      split
      · rename_i h
        show some [code % 256, v.toNat % 256, v.toNat / 256 % 256] = some [code, (v % 256).toNat, (v / 256).toNat]
        rw [hmod, show v.toNat % 256 = (v % 256).toNat from by omega, show v.toNat / 256 % 256 = (v / 256).toNat from by omega]
      · rfl
  have agree : ∀ {s : Src} {e : Option Src}, Agree C s e → ∃ e', e = some e' := by
    rintro s e (h | h | ⟨h, _⟩) <;> exact ⟨_, h⟩
  have rel : ∀ (t : Tree) (fm : FMath) (now : Nat → ASym) (ρ : Den) (k : Nat), k ≤ 2 → 0 ≤ ρ.pc → ρ.pc < 16777216 →
      bytesAt fm wrap now {ρ with pc := ρ.pc + k} [.expr 1 (checkRange (.pcRel (-1) (C.src t)) (-128) 127)] =
        ((C.src t).value fm wrap now ρ).bind fun w => (distance (w - (ρ.pc + (k + 1)))).map fun d => [d] := by
    intro t fm now ρ k hk h0 h1
    simp only [bytesAt]
    rw [code_rel8 fm now _ _ (by show 0 ≤ ρ.pc + k; omega) (by show ρ.pc + k < 16777220; omega), value_pc]
    cases (C.src t).value fm wrap now ρ with
    | none => rfl
    | some v =>
      simp only [Option.bind_some]
      rw [show v - (ρ.pc + (k : Int) + 1) = v - (ρ.pc + (k + 1)) from by omega]
      unfold distance
      split
      · rename_i h
        show some [((v - (ρ.pc + (k + 1))) % 256).toNat % 256] = some [((v - (ρ.pc + (k + 1))) % 256).toNat]
        rw [show ((v - (ρ.pc + (k + 1))) % 256).toNat % 256 = ((v - (ρ.pc + (k + 1))) % 256).toNat from by omega]
      · rfl
  have pg : ∀ (t : Tree) (e : Src), Agree C (C.src t) (some e) → ∀ (fm : FMath) (now : Nat → ASym) (ρ : Den) (is : List Item),
      C.Sound fm wrap now ρ →
      bytesAt fm wrap now {ρ with pc := ρ.pc + 1} (.expr 1 (checkRange e 0 255) :: is) =
        ((C.src t).value fm wrap now ρ).bind fun v => (page v).bind fun b =>
          (bytesAt fm wrap now {ρ with pc := ρ.pc + 2} is).map fun bs => b :: bs := by
    intro t e ha fm now ρ is hS
    simp only [bytesAt]
    rw [code_page fm now _ ha (fun v hv => by rw [value_pc]; exact hS _ _ hv), value_pc]
    cases (C.src t).value fm wrap now ρ with
    | none => rfl
    | some v =>
      simp only [Option.bind_some]
      have hp : (ρ.pc + 1 + ((Item.expr 1 (checkRange e 0 255)).size : Nat) : Int) = ρ.pc + 2 := by
        show ρ.pc + 1 + ((1 : Nat) : Int) = _; omega
      rw [hp]
      unfold page
      split
      · rename_i h
        simp only [Option.bind_some]
        cases bytesAt fm wrap now {ρ with pc := ρ.pc + 2} is with
        | none => rfl
        | some bs =>
          show some (v.toNat % 256 :: bs) = some (v.toNat :: bs)
          rw [show v.toNat % 256 = v.toNat from by omega]
      · rfl
  have bitc : ∀ (t : Tree) (fm : FMath) (now : Nat → ASym) (ρ : Den) (is : List Item), code ∈ [0x0F, 0x8F, 0x07, 0x87] →
      bytesAt fm wrap now ρ (.expr 1 (.bin .or (.num code) (.bin .asl (checkRange (C.src t) 0 7) (.num 4))) :: is) =
        ((C.src t).value fm wrap now ρ).bind fun n => (withBit code n).bind fun c =>
          (bytesAt fm wrap now {ρ with pc := ρ.pc + 1} is).map fun bs => c :: bs := by
    intro t fm now ρ is hm
    simp only [bytesAt]
    rw [code_bitOp fm now _ _ hm]
    have hlt : code < 144 := by
      simp only [List.mem_cons, List.not_mem_nil, or_false] at hm
      rcases hm with rfl | rfl | rfl | rfl <;> decide
    cases (C.src t).value fm wrap now ρ with
    | none => rfl
    | some v =>
      simp only [Option.bind_some]
      unfold withBit
      split
      · rename_i h
        simp only [Option.bind_some]
        show ((bytesAt fm wrap now {ρ with pc := ρ.pc + 1} is).map fun bs => [(code + 16 * v.toNat) % 256] ++ bs) = _
        rw [show (code + 16 * v.toNat) % 256 = code + 16 * v.toNat from by omega]
        rfl
      · rfl
  obtain ⟨m, e, e2, e3, f⟩ := r
  have hf : ∀ P : Prop, False → P := fun _ h => h.elim
  cases am with
  | imp =>
    refine ⟨[.const 1 code], rfl, fun fm now ρ _ _ _ => ?_⟩
    simp only [bytesAt]
    rw [hconst]
    rcases hn (Or.inl rfl) with rfl | rfl <;> (show some [code % 256] = some [code]; rw [hmod])
  | acc =>
    refine ⟨[.const 1 code], rfl, fun fm now ρ _ _ _ => ?_⟩
    simp only [bytesAt]
    rw [hconst]
    rcases hn (Or.inr rfl) with rfl | rfl <;> (show some [code % 256] = some [code]; rw [hmod])
  | imm =>
    cases x <;> try exact hf _ hP
    rename_i p t
    cases (hP : e = _)
    refine ⟨[.const 1 code, .expr 1 (.bin .and (checkRange (p.src (C.src t)) (-128) 255) (.num 0xFF))], rfl, fun fm now ρ _ _ _ => ?_⟩
    simp only [bytesAt]
    rw [hconst, Option.bind_some, code_su8, value_pre, value_pc]
    show _ = (((C.src t).value fm wrap now ρ).map fun v => [p.byte v]).bind _
    cases (C.src t).value fm wrap now ρ with
    | none => rfl
    | some v =>
      simp only [Option.bind_some, Option.map_some]
      show _ = if -128 ≤ p.byte v ∧ p.byte v ≤ 255 then some [code, (p.byte v % 256).toNat] else none
      split
      · show some [code % 256, (p.byte v % 256).toNat % 256] = _
        rw [hmod, show (p.byte v % 256).toNat % 256 = (p.byte v % 256).toNat from by omega]
      · rfl
  | zprel =>
    cases x <;> try exact hf _ hP
    rename_i t w
    obtain ⟨ha, he2⟩ := (hP : Agree C (C.src t) e ∧ e2 = _)
    cases he2
    obtain ⟨e', rfl⟩ := agree ha
    refine ⟨[.const 1 code, .expr 1 (checkRange e' 0 255), .expr 1 (checkRange (.pcRel (-1) (C.src w)) (-128) 127)], rfl,
      fun fm now ρ hS h0 h1 => ?_⟩
    have h := pg t e' ha fm now ρ [.expr 1 (checkRange (.pcRel (-1) (C.src w)) (-128) 127)] hS
    have h2 := rel w fm now ρ 2 (by omega) h0 h1
    rw [show ρ.pc + ((2 : Nat) : Int) = ρ.pc + 2 from rfl] at h2
    rw [h2] at h
    show (((Item.const 1 code).code fm wrap now ρ).bind fun c =>
      (bytesAt fm wrap now {ρ with pc := ρ.pc + 1} [.expr 1 (checkRange e' 0 255),
        .expr 1 (checkRange (.pcRel (-1) (C.src w)) (-128) 127)]).map fun bs => le 1 c ++ bs) = _
    rw [hconst, Option.bind_some, h]
    show _ = (((C.src t).value fm wrap now ρ).bind fun v => ((C.src w).value fm wrap now ρ).map fun y => [v, y]).bind _
    cases (C.src t).value fm wrap now ρ with
    | none => rfl
    | some v =>
      simp only [Option.bind_some]
      cases (C.src w).value fm wrap now ρ with
      | none => simp only [Option.bind_none, Option.map_none, Option.bind_fun_none]
      | some y =>
        show _ = (page v).bind fun b => (distance (y - (ρ.pc + 3))).map fun d => [code, b, d]
        simp only [Option.bind_some]
        cases page v with
        | none => rfl
        | some b =>
          simp only [Option.bind_some]
          rw [show y - (ρ.pc + (((2 : Nat) : Int) + 1)) = y - (ρ.pc + 3) from by omega]
          cases distance (y - (ρ.pc + 3)) with
          | none => rfl
          | some d => show some [code % 256, b, d] = _; rw [hmod]; rfl
  | bit =>
    cases x <;> try exact hf _ hP
    rename_i t w
    obtain ⟨he, he2⟩ := (hP : e = some (C.src t) ∧ e2 = some (C.src w))
    cases he; cases he2
    refine ⟨[.expr 1 (.bin .or (.num code) (.bin .asl (checkRange (C.src t) 0 7) (.num 4))), .expr 1 (checkRange (C.src w) 0 255)], rfl,
      fun fm now ρ hS h0 h1 => ?_⟩
    rw [bitc t fm now ρ _ (hb (Or.inl rfl)), pg w _ (Or.inl rfl) fm now ρ [] hS]
    show _ = (((C.src t).value fm wrap now ρ).bind fun v => ((C.src w).value fm wrap now ρ).map fun y => [v, y]).bind _
    cases (C.src t).value fm wrap now ρ with
    | none => rfl
    | some v =>
      simp only [Option.bind_some]
      cases (C.src w).value fm wrap now ρ with
      | none => simp only [Option.bind_none, Option.map_none, Option.bind_fun_none]
      | some y =>
        show _ = (withBit code v).bind fun c => (page y).map fun b => [c, b]
        simp only [Option.bind_some]
        cases withBit code v with
        | none => rfl
        | some c => cases page y <;> rfl
  | bitrel =>
    cases x <;> try exact hf _ hP
    rename_i t w z
    obtain ⟨he, ha, he3⟩ := (hP : e = some (C.src t) ∧ Agree C (C.src w) e2 ∧ e3 = some (C.src z))
    cases he; cases he3
    obtain ⟨e', rfl⟩ := agree ha
    refine ⟨[.expr 1 (.bin .or (.num code) (.bin .asl (checkRange (C.src t) 0 7) (.num 4))), .expr 1 (checkRange e' 0 255),
      .expr 1 (checkRange (.pcRel (-1) (C.src z)) (-128) 127)], rfl, fun fm now ρ hS h0 h1 => ?_⟩
    have h2 := rel z fm now ρ 2 (by omega) h0 h1
    rw [show ρ.pc + ((2 : Nat) : Int) = ρ.pc + 2 from rfl] at h2
    rw [bitc t fm now ρ _ (hb (Or.inr rfl)), pg w _ ha fm now ρ _ hS, h2]
    show _ = (((C.src t).value fm wrap now ρ).bind fun v => ((C.src w).value fm wrap now ρ).bind fun y =>
      ((C.src z).value fm wrap now ρ).map fun q => [v, y, q]).bind _
    cases (C.src t).value fm wrap now ρ with
    | none => rfl
    | some v =>
      simp only [Option.bind_some]
      cases (C.src w).value fm wrap now ρ with
      | none => simp only [Option.bind_none, Option.map_none, Option.bind_fun_none]
      | some y =>
        simp only [Option.bind_some]
        cases (C.src z).value fm wrap now ρ with
        | none => simp only [Option.bind_none, Option.map_none, Option.bind_fun_none]
        | some q =>
          show _ = (withBit code v).bind fun c => (page y).bind fun b => (distance (q - (ρ.pc + 3))).map fun d => [c, b, d]
          simp only [Option.bind_some]
          rw [show q - (ρ.pc + (((2 : Nat) : Int) + 1)) = q - (ρ.pc + 3) from by omega]
          cases withBit code v with
          | none => rfl
          | some c =>
            simp only [Option.bind_some]
            cases page y with
            | none => rfl
            | some b => cases distance (q - (ρ.pc + 3)) <;> rfl
  | rel =>
    cases x <;> try exact hf _ hP
    rename_i f t
    cases (hP : e = _)
    refine ⟨[.const 1 code, .expr 1 (checkRange (.pcRel (-1) (C.src t)) (-128) 127)], rfl, fun fm now ρ hS h0 h1 => ?_⟩
    have h2 := rel t fm now ρ 1 (by omega) h0 h1
    rw [show ρ.pc + ((1 : Nat) : Int) = ρ.pc + 1 from rfl] at h2
    show (((Item.const 1 code).code fm wrap now ρ).bind fun c =>
      (bytesAt fm wrap now {ρ with pc := ρ.pc + 1} [.expr 1 (checkRange (.pcRel (-1) (C.src t)) (-128) 127)]).map
        fun bs => le 1 c ++ bs) = _
    rw [hconst, Option.bind_some, h2]
    show _ = (((C.src t).value fm wrap now ρ).map fun v => [v]).bind _
    cases (C.src t).value fm wrap now ρ with
    | none => rfl
    | some v =>
      show _ = (distance (v - (ρ.pc + 2))).map fun d => [code, d]
      simp only [Option.bind_some]
      rw [show v - (ρ.pc + (((1 : Nat) : Int) + 1)) = v - (ρ.pc + 2) from by omega]
      cases distance (v - (ρ.pc + 2)) with
      | none => rfl
      | some d => show some [code % 256, d] = _; rw [hmod]; rfl
  | zp | zpx | zpy | izx | izy | izp =>
    cases x <;> try exact hf _ hP
    all_goals
      have ha : Agree C _ e := hP
      obtain ⟨e', rfl⟩ := agree ha
      refine ⟨[.const 1 code, .expr 1 (checkRange e' 0 255)], rfl, fun fm now ρ hS _ _ => ?_⟩
      rw [one _ e' ha fm now ρ hS]
      simp only [Opnd.values, Option.bind_map]
      rfl
  | abs | absx | absy | ind | iax =>
    cases x <;> try exact hf _ hP
    all_goals
      rename_i t
      cases (hP : e = _)
      refine ⟨[.const 1 code, .expr 2 (.bin .and (checkRange (C.src t) 0 65535) (.num 0xFFFF))], rfl, fun fm now ρ hS _ _ => ?_⟩
      rw [two]
      simp only [Opnd.values, Option.bind_map]
      rfl

end Verif.Cpu.X65
