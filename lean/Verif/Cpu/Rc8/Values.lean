import Verif.Cpu.Rc8.Sem
/-!
# Instructions of the RC8 with numbers
-/
set_option linter.constructorNameAsVariable false

namespace Verif.Cpu.Rc8

open Verif.Parse (Tok Toks Tree)
open Verif.Expr (Src FMath ASym Den BinOp I32 toI32 wrap value_bin meaning)
open Verif.Cpu.X65 (ok_bind EndOfLine bytesAt le le_one value_pc value_and255 value_asr8)
open Verif.Cpu.Z80 (code_range)

variable (C : Ctx)

/-- An opcode and an expression; what `h` says is the value of the byte. -/
theorem Sem.pair {f : Form Tree} {t : Tree} (k : Bool) (op : Nat) (ho : op < 256) (s : Src) (hv : f.val = some t)
    (h : ∀ (fm : FMath) (now : Nat → ASym) (ρ : Den), C.Sound fm wrap now ρ → 0 ≤ ρ.pc → ρ.pc < 16777300 →
      (valOf C fm now ρ t = none → s.value fm wrap now {ρ with pc := ρ.pc + 1} = none) ∧ ∀ v, valOf C fm now ρ t = some v →
        ((f.map fun _ => v).fits k ρ.pc = true → ∃ w, s.value fm wrap now {ρ with pc := ρ.pc + 1} = some w ∧
          Meets none (f.map fun _ => v) ρ.pc [op, (w % 256).toNat]) ∧
        ((f.map fun _ => v).fits k ρ.pc = false → s.value fm wrap now {ρ with pc := ρ.pc + 1} = none)) :
    Sem C f k [byte op, .expr 1 s] := by
  refine Sem.value C k _ hv (fun i hi => ?_) (by simp) fun fm now ρ hS h0 h1 => ?_
  · simp only [List.mem_cons, List.not_mem_nil, or_false] at hi
    rcases hi with rfl | rfl <;> rfl
  · have hb : bytesAt fm wrap now ρ [byte op, .expr 1 s] =
        (s.value fm wrap now {ρ with pc := ρ.pc + 1}).map fun w => [op, (w % 256).toNat] := by
      rw [bytes_byte fm now ρ ho, bytes_expr]
      cases s.value fm wrap now {ρ with pc := ρ.pc + 1} <;> rfl
    obtain ⟨hn, hs⟩ := h fm now ρ hS h0 h1
    rw [hb]
    refine ⟨fun hv => by rw [hn hv]; rfl, fun v hv => ⟨fun hf => ?_, fun hf => by rw [(hs v hv).2 hf]; rfl⟩⟩
    obtain ⟨w, hw, hm⟩ := (hs v hv).1 hf
    exact ⟨_, by rw [hw]; rfl, hm⟩

theorem mod_lt (v : Int) : (v % 256).toNat < 256 := by omega

theorem byteOf_mod (v : Int) : byteOf ((v % 256).toNat : Nat) = byteOf v := byteOf_eq.2 (by omega)

/-- Numbers of eight bits. -/
theorem value_imm8 (fm : FMath) (now : Nat → ASym) (ρ : Den) (s : Src) (lo hi : Int) (h1 : I32 lo) (h2 : I32 hi) :
    (Src.bin .and (checkRange s lo hi) (.num 0xFF)).value fm wrap now ρ =
      (s.value fm wrap now ρ).bind fun v => if lo ≤ v ∧ v ≤ hi then some (v % 256) else none := by
  rw [value_and255, value_checkRange fm wrap now ρ _ _ _ h1 h2]
  cases s.value fm wrap now ρ with
  | none => rfl
  | some v =>
    simp only [Option.bind_some]
    split <;> rfl

theorem sem_imm8 {f : Form Tree} {t : Tree} (k : Bool) (op : Nat) (ho : op < 256) (hv : f.val = some t)
    (hf : ∀ v pc, (f.map fun _ => v).fits k pc = decide (-128 ≤ v ∧ v ≤ 255))
    (hd : ∀ a n, decode a op n = some (2, f.map fun _ => (n : Int)))
    (ha : ∀ cpu next s v w, byteOf v = byteOf w → act cpu next s (f.map fun _ => v) = act cpu next s (f.map fun _ => w))
    (hg : ∀ cpu next s v w, byteOf v = byteOf w → goto cpu next s (f.map fun _ => v) = goto cpu next s (f.map fun _ => w)) :
    Sem C f k [byte op, imm (-128) 255 (checkRange (C.src t) (-32768) 65535)] := by
  refine Sem.pair C k op ho _ hv fun fm now ρ _ _ _ => ?_
  rw [value_imm8 _ _ _ _ _ _ (by decide) (by decide), value_word, show (C.src t).value fm wrap now {ρ with pc := ρ.pc + 1} = _ from val_pc C fm now ρ _ t]
  refine ⟨fun h => by rw [h]; rfl, fun v h => ?_⟩
  rw [h, hf]
  simp only [Option.bind_some, decide_eq_true_eq, decide_eq_false_iff_not]
  refine ⟨fun hr => ⟨v % 256, by rw [if_pos (by omega), Option.bind_some, if_pos hr], ?_⟩, fun hr => ?_⟩
  · rw [Int.emod_emod_of_dvd v (Int.dvd_refl 256)]
    exact Meets.two ho (mod_lt v) _ (hd _ _) (fun cpu next s => ha _ _ _ _ _ (byteOf_mod v)) (fun cpu next s => hg _ _ _ _ _ (byteOf_mod v))
  · by_cases hw : -32768 ≤ v ∧ v ≤ 65535
    · rw [if_pos hw, Option.bind_some, if_neg hr]
    · rw [if_neg hw]; rfl

/-- Numbers of which eight bits are used. -/
theorem sem_any8 {f : Form Tree} {t : Tree} (k : Bool) (op : Nat) (ho : op < 256) (hv : f.val = some t)
    (hf : ∀ v pc, (f.map fun _ => v).fits k pc = decide (-32768 ≤ v ∧ v ≤ 65535))
    (hd : ∀ a n, decode a op n = some (2, f.map fun _ => (n : Int)))
    (ha : ∀ cpu next s v w, byteOf v = byteOf w → act cpu next s (f.map fun _ => v) = act cpu next s (f.map fun _ => w))
    (hg : ∀ cpu next s v w, byteOf v = byteOf w → goto cpu next s (f.map fun _ => v) = goto cpu next s (f.map fun _ => w)) :
    Sem C f k [byte op, .expr 1 (checkRange (C.src t) (-32768) 65535)] := by
  refine Sem.pair C k op ho _ hv fun fm now ρ _ _ _ => ?_
  rw [value_word, show (C.src t).value fm wrap now {ρ with pc := ρ.pc + 1} = _ from val_pc C fm now ρ _ t]
  refine ⟨fun h => by rw [h]; rfl, fun v h => ?_⟩
  rw [h, hf]
  simp only [Option.bind_some, decide_eq_true_eq, decide_eq_false_iff_not]
  refine ⟨fun hr => ⟨v, by rw [if_pos hr], ?_⟩, fun hr => by rw [if_neg hr]⟩
  exact Meets.two ho (mod_lt v) _ (hd _ _) (fun cpu next s => ha _ _ _ _ _ (byteOf_mod v)) (fun cpu next s => hg _ _ _ _ _ (byteOf_mod v))

theorem sem_shift (k : Bool) (o : Sh) (t : Tree) (op : Nat) (ho : op < 256) (hd : ∀ a n, decode a op n = some (2, .shiftn o (n : Int))) :
    Sem C (.shiftn o t) k [byte op, .expr 1 (checkRange (checkRange (C.src t) (-32768) 65535) 0 15)] := by
  refine Sem.pair C k op ho _ rfl fun fm now ρ _ _ _ => ?_
  rw [value_checkRange fm wrap now _ _ _ _ (by decide) (by decide), value_word,
    show (C.src t).value fm wrap now {ρ with pc := ρ.pc + 1} = _ from val_pc C fm now ρ _ t]
  refine ⟨fun h => by rw [h]; rfl, fun v h => ?_⟩
  rw [h]
  simp only [Form.map, Form.fits, Option.bind_some, decide_eq_true_eq, decide_eq_false_iff_not]
  refine ⟨fun hr => ⟨v, by rw [if_pos (by omega), Option.bind_some, if_pos hr], ?_⟩, fun hr => ?_⟩
  · rw [show (v % 256).toNat = v.toNat from by omega]
    refine Meets.two ho (by omega) _ (hd _ _) (fun cpu next s => ?_) (fun cpu next s => rfl)
    rw [show ((v.toNat : Nat) : Int) = v from by omega]
  · by_cases hw : -32768 ≤ v ∧ v ≤ 65535
    · rw [if_pos hw, Option.bind_some, if_neg hr]
    · rw [if_neg hw]; rfl

theorem sem_pickn (k : Bool) (r : R16) (t : Tree) :
    Sem C (.pickn r t) k [byte (0x80 ||| r.lo.n), .expr 1 (checkRange (checkRange (C.src t) (-32768) 65535) 0 255), byte (0x1C ||| r.n)] := by
  refine Sem.value C k _ rfl (fun i hi => ?_) (by simp) fun fm now ρ _ _ _ => ?_
  · simp only [List.mem_cons, List.not_mem_nil, or_false] at hi
    rcases hi with rfl | rfl | rfl <;> rfl
  rw [bytes_byte fm now ρ (by cases r <;> decide), bytes_expr, bytes_byte fm now _ (b := 0x1C ||| r.n) (by cases r <;> decide),
    value_checkRange fm wrap now _ _ _ _ (by decide) (by decide), value_word,
    show (C.src t).value fm wrap now {ρ with pc := ρ.pc + 1} = _ from val_pc C fm now ρ _ t]
  refine ⟨fun h => by rw [h]; rfl, fun v h => ?_⟩
  rw [h]
  simp only [Form.map, Form.fits, Option.bind_some, decide_eq_true_eq, decide_eq_false_iff_not]
  refine ⟨fun hr => ⟨[0x80 ||| r.lo.n, (v % 256).toNat, 0x1C ||| r.n], ?_, ?_⟩, fun hr => ?_⟩
  · rw [if_pos (by omega), Option.bind_some, if_pos hr]; rfl
  · exact Meets.of_does rfl (does_pickn r _ (mod_lt v) v (by omega)) _
  · by_cases hw : -32768 ≤ v ∧ v ≤ 65535
    · rw [if_pos hw, Option.bind_some, if_neg hr]; rfl
    · rw [if_neg hw]; rfl

/-! ### Jumps -/

/-- The distance to the byte itself. -/
theorem value_here (fm : FMath) (now : Nat → ASym) (ρ : Den) (s : Src) (h0 : 0 ≤ ρ.pc) (h1 : ρ.pc < 16777400) :
    (checkRange (.pcRel 0 s) (-128) 127).value fm wrap now ρ =
      (s.value fm wrap now ρ).bind fun v => if -128 ≤ v - ρ.pc ∧ v - ρ.pc ≤ 127 then some (v - ρ.pc) else none := by
  rw [value_checkRange fm wrap now ρ _ _ _ (by decide) (by decide), Expr.value_pcRel]
  cases h : s.value fm wrap now ρ with
  | none => rfl
  | some v =>
    have hv := src_value_range fm wrap now ρ s h
    simp only [Option.bind_some, Expr.wrap_f]
    rw [show toI32 (toI32 (v + 0) - ρ.pc) = toI32 (v - ρ.pc) from by unfold toI32; omega]
    have hd : -128 ≤ toI32 (v - ρ.pc) ∧ toI32 (v - ρ.pc) ≤ 127 ↔ -128 ≤ v - ρ.pc ∧ v - ρ.pc ≤ 127 := by
      unfold toI32; unfold I32 at hv; omega
    by_cases hr : -128 ≤ v - ρ.pc ∧ v - ρ.pc ≤ 127
    · rw [if_pos (hd.2 hr), if_pos hr, Expr.toI32_of (by unfold I32; omega)]
    · rw [if_neg (fun h => hr (hd.1 h)), if_neg hr]

theorem signed_mod {d : Int} (h : -128 ≤ d ∧ d ≤ 127) : signed (d % 256).toNat = d := by
  unfold signed
  split <;> omega

/-- The address of a jump. -/
theorem to_eq (pc v : Int) (h : -128 ≤ v - (pc + 1) ∧ v - (pc + 1) ≤ 127) :
    wordOf (((wordOf pc).toNat : Int) + 1 + signed ((v - (pc + 1)) % 256).toNat) = wordOf v := by
  rw [signed_mod h]
  apply wordOf_eq.2
  rw [wordOf_toNat]
  omega

theorem sem_jump {f : Form Tree} {t : Tree} (k : Bool) (op : Nat) (ho : op < 256) (hv : f.val = some t)
    (hf : ∀ v pc, (f.map fun _ => v).fits k pc = decide (-128 ≤ v - (pc + 1) ∧ v - (pc + 1) ≤ 127))
    (hd : ∀ (a : Word) n, decode a op n = some (2, f.map fun _ => (a.toNat : Int) + 1 + signed n))
    (ha : ∀ cpu next s v w, wordOf v = wordOf w → act cpu next s (f.map fun _ => v) = act cpu next s (f.map fun _ => w))
    (hg : ∀ cpu next s v w, wordOf v = wordOf w → goto cpu next s (f.map fun _ => v) = goto cpu next s (f.map fun _ => w)) :
    Sem C f k [byte op, .expr 1 (checkRange (.pcRel 0 (C.src t)) (-128) 127)] := by
  refine Sem.pair C k op ho _ hv fun fm now ρ _ h0 h1 => ?_
  rw [value_here fm now {ρ with pc := ρ.pc + 1} _ (by show 0 ≤ ρ.pc + 1; omega) (by show ρ.pc + 1 < _; omega),
    show (C.src t).value fm wrap now {ρ with pc := ρ.pc + 1} = _ from val_pc C fm now ρ _ t]
  refine ⟨fun h => by rw [h]; rfl, fun v h => ?_⟩
  rw [h, hf]
  simp only [Option.bind_some, decide_eq_true_eq, decide_eq_false_iff_not]
  refine ⟨fun hr => ⟨v - (ρ.pc + 1), by rw [if_pos hr], ?_⟩, fun hr => by rw [if_neg hr]⟩
  exact Meets.two ho (mod_lt _) _ (hd _ _) (fun cpu next s => ha _ _ _ _ _ (to_eq _ _ hr)) (fun cpu next s => hg _ _ _ _ _ (to_eq _ _ hr))

end Verif.Cpu.Rc8
