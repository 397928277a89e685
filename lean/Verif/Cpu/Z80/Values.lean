import Verif.Cpu.Z80.Lemmas

/-!
# The bytes that are put out are those of the specification
-/

namespace Verif.Cpu.Z80

open Verif.Parse (Tok Toks Tree)
open Verif.Expr (Src FMath ASym Den Rng BinOp I32 u32 toI32 meaning wrap value_bin)
open Verif.Cpu.X65 (ok_bind EndOfLine bytesAt le le_one le_two value_pc distance value_and255)

variable (fm : FMath) (now : Nat → ASym) (ρ : Den)

theorem value_signed (s : Src) : (signed s).value fm wrap now ρ =
    (s.value fm wrap now ρ).bind fun v => if -128 ≤ v ∧ v ≤ 127 then some v else none :=
  value_checkRange fm wrap now ρ s _ _ (by decide) (by decide)

/-- The expression of an operand has its value. -/
theorem src_value (C : Ctx) (x : Opnd) : ((x.src C).bind fun s => s.value fm wrap now ρ) = x.value C fm now ρ := by
  unfold Opnd.src Opnd.value
  cases x.tree with
  | none => rfl
  | some t =>
    simp only [Option.map_some, Option.bind_some]
    cases x.disp
    · simp only [Bool.false_eq_true, if_false, Bool.false_and]
      cases (C.src t).value fm wrap now ρ <;> rfl
    · simp only [if_true, Bool.true_and]
      rw [value_signed]
      cases (C.src t).value fm wrap now ρ with
      | none => rfl
      | some v =>
        simp only [Option.bind_some]
        by_cases h : -128 ≤ v ∧ v ≤ 127
        · simp [h.1, h.2]
        · rw [if_neg h]
          have : (decide (-128 ≤ v) && decide (v ≤ 127)) = false := by
            rw [Bool.and_eq_false_iff]
            simp only [decide_eq_false_iff_not]
            omega
          rw [this]
          rfl

theorem value_move (C : Ctx) (x : Opnd) (p : Int) : x.value C fm now {ρ with pc := p} = x.value C fm now ρ := by
  unfold Opnd.value
  cases x.tree with
  | none => rfl
  | some t => simp only [Option.bind_some]; rw [value_pc]

theorem next_value (s : Src) : (signed (.bin .add s (.num 1))).value fm wrap now ρ =
    (s.value fm wrap now ρ).bind fun v => if -128 ≤ v + 1 ∧ v + 1 ≤ 127 then some (v + 1) else none := by
  rw [value_signed, value_bin, value_num fm wrap now ρ (v := 1) (by decide)]
  cases h : s.value fm wrap now ρ with
  | none => rfl
  | some v =>
    have hv := src_value_range fm wrap now ρ s h
    simp only [Option.bind_some]
    show ((wrap.f (v + 1)).bind _) = _
    rw [Expr.wrap_f, Option.bind_some]
    unfold I32 at hv
    by_cases hr : -128 ≤ v + 1 ∧ v + 1 ≤ 127
    · rw [if_pos hr, Expr.toI32_of (by unfold I32; omega), if_pos hr]
    · rw [if_neg hr, if_neg]
      unfold toI32
      omega

/-- The names stand for the values. -/
theorem e_value {a b : Option Src} {va vb : Option Int} (ha : (a.bind fun s => s.value fm wrap now ρ) = va)
    (hb : (b.bind fun s => s.value fm wrap now ρ) = vb) (e : E) :
    ((e.src a b).bind fun s => s.value fm wrap now ρ) = e.val va vb := by
  induction e with
  | a => exact ha
  | b => exact hb
  | zero => exact value_num fm wrap now ρ (by decide)
  | one => exact value_num fm wrap now ρ (by decide)
  | next e ih =>
    unfold E.src E.val
    rw [← ih]
    cases e.src a b with
    | none => rfl
    | some s => exact next_value fm now ρ s

/-! ### The numbers -/

theorem code_range (n : Nat) (s : Src) (lo hi : Int) (hlo : I32 lo) (hhi : I32 hi) :
    (Item.expr n (checkRange s lo hi)).code fm wrap now ρ =
      (s.value fm wrap now ρ).bind fun v => if lo ≤ v ∧ v ≤ hi then some (u32 v % 256 ^ n) else none := by
  show ((checkRange s lo hi).value fm wrap now ρ).map _ = _
  rw [value_checkRange fm wrap now ρ _ _ _ hlo hhi]
  cases s.value fm wrap now ρ with
  | none => rfl
  | some v =>
    simp only [Option.bind_some]
    split <;> rfl

theorem code_rel (s : Src) (h0 : 0 ≤ ρ.pc) (h1 : ρ.pc < 2147480000) :
    (Item.expr 1 (checkRange (.pcRel (-1) s) (-128) 127)).code fm wrap now ρ =
      (s.value fm wrap now ρ).bind fun v => distance (v - (ρ.pc + 1)) := by
  show ((checkRange (.pcRel (-1) s) (-128) 127).value fm wrap now ρ).map _ = _
  rw [value_checkRange fm wrap now ρ _ _ _ (by decide) (by decide), Expr.value_pcRel]
  cases h : s.value fm wrap now ρ with
  | none => rfl
  | some v =>
    have hv := src_value_range fm wrap now ρ s h
    simp only [Option.bind_some, Expr.wrap_f]
    rw [show toI32 (toI32 (v + -1) - ρ.pc) = toI32 (v - (ρ.pc + 1)) from by unfold toI32; omega]
    have hd : -128 ≤ toI32 (v - (ρ.pc + 1)) ∧ toI32 (v - (ρ.pc + 1)) ≤ 127 ↔ -128 ≤ v - (ρ.pc + 1) ∧ v - (ρ.pc + 1) ≤ 127 := by
      unfold toI32; unfold I32 at hv; omega
    unfold distance
    by_cases hr : -128 ≤ v - (ρ.pc + 1) ∧ v - (ρ.pc + 1) ≤ 127
    · rw [if_pos (hd.2 hr), if_pos hr, Option.map_some, Expr.toI32_of (by unfold I32; omega)]
      unfold u32; congr 1; omega
    · rw [if_neg (fun h => hr (hd.1 h)), if_neg hr]; rfl

theorem code_hi (s : Src) :
    (Item.expr 1 (.bin .and (checkRange s 0xFF00 0xFFFF) (.num 0xFF))).code fm wrap now ρ =
      (s.value fm wrap now ρ).bind fun v => if 0xFF00 ≤ v ∧ v ≤ 0xFFFF then some (v - 0xFF00).toNat else none := by
  show ((Src.bin .and (checkRange s 0xFF00 0xFFFF) (.num 0xFF)).value fm wrap now ρ).map _ = _
  rw [value_and255, value_checkRange fm wrap now ρ _ _ _ (by decide) (by decide)]
  cases s.value fm wrap now ρ with
  | none => rfl
  | some v =>
    simp only [Option.bind_some]
    split
    · simp only [Option.map_some]
      unfold u32; congr 1; omega
    · rfl

theorem or_bit : ∀ c : Fin 256, c.val &&& 0x38 = 0 → ∀ n : Fin 8,
    toI32 ((u32 ((c.val : Nat) : Int) ||| u32 (((n.val : Nat) : Int) * 8) : Nat) : Int) = ((c.val + 8 * n.val : Nat) : Int) := by
  decide +kernel

theorem bit_bound : ∀ c : Fin 256, c.val &&& 0x38 = 0 → ∀ n : Fin 8, c.val + 8 * n.val < 256 := by decide +kernel

theorem code_bit (s : Src) {op : Nat} (ho : op < 256) (hm : op &&& 0x38 = 0) :
    (Item.expr 1 (.bin .or (.num op) (.bin .asl (checkRange s 0 7) (.num 3)))).code fm wrap now ρ =
      (s.value fm wrap now ρ).bind fun v => if 0 ≤ v ∧ v ≤ 7 then some (op + 8 * v.toNat) else none := by
  show ((Src.bin .or (.num op) (.bin .asl (checkRange s 0 7) (.num 3))).value fm wrap now ρ).map _ = _
  rw [value_bin, value_bin, value_checkRange fm wrap now ρ _ _ _ (by decide) (by decide),
    value_num fm wrap now ρ (v := (op : Int)) (by unfold I32; omega), value_num fm wrap now ρ (v := 3) (by decide)]
  cases h : s.value fm wrap now ρ with
  | none => rfl
  | some v =>
    simp only [Option.bind_some]
    by_cases hr : 0 ≤ v ∧ v ≤ 7
    · rw [if_pos hr, if_pos hr, Option.bind_some]
      have ha : meaning fm .asl v 3 = some (v * 8) := by
        show some ((BitVec.ofInt 32 v <<< 3).toInt) = _
        rw [Expr.asl_eq, Expr.toI32_of]
        · rfl
        · unfold I32; omega
      rw [ha, Option.bind_some, wrap.keep _ (by unfold I32; omega), Option.bind_some]
      have hv : (((⟨v.toNat, by omega⟩ : Fin 8).val : Nat) : Int) = v := by show ((v.toNat : Nat) : Int) = v; omega
      have ho' : meaning fm .or (op : Int) (v * 8) = some ((op + 8 * v.toNat : Nat) : Int) := by
        show some _ = some _
        rw [Expr.or_eq]
        have := or_bit ⟨op, ho⟩ hm ⟨v.toNat, by omega⟩
        rw [hv] at this
        exact congrArg some this
      have hb : op + 8 * v.toNat < 256 := bit_bound ⟨op, ho⟩ hm ⟨v.toNat, by omega⟩
      rw [ho', Option.bind_some, wrap.keep _ (by unfold I32; omega), Option.map_some]
      unfold u32; congr 1; omega
    · rw [if_neg hr, if_neg hr]; rfl

/-! ### The calls -/

/-- The bytes of an item, where it stands. -/
def itemBytes (i : Item) : Option (List Nat) := (i.code fm wrap now ρ).map (le i.size)

/-- The values of the expressions, and displacements are signed bytes. -/
structure Values (xs : List Opv) (a b : Option Src) (va vb : Option Int) : Prop where
  left : (a.bind fun s => s.value fm wrap now ρ) = va
  right : (b.bind fun s => s.value fm wrap now ρ) = vb
  signed : ∀ e, signedOf xs e = true → ∀ v, e.val va vb = some v → -128 ≤ v ∧ v ≤ 127

/-- An expression that is within limits. -/
theorem put_range {e : E} {a b : Option Src} {va vb : Option Int} {s : Src} (he : e.src a b = some s) {xs : List Opv}
    (V : Values fm now ρ xs a b va vb) (n : Nat) (lo hi : Int) (hlo : I32 lo) (hhi : I32 hi) :
    itemBytes fm now ρ (.expr n (checkRange s lo hi)) =
      (e.val va vb).bind fun v => if lo ≤ v ∧ v ≤ hi then some (le n (u32 v % 256 ^ n)) else none := by
  unfold itemBytes
  rw [code_range fm now ρ n s lo hi hlo hhi, ← e_value fm now ρ V.left V.right e, he, Option.bind_some]
  cases s.value fm wrap now ρ with
  | none => rfl
  | some v =>
    simp only [Option.bind_some]
    split <;> rfl

theorem bind_range {o : Option Int} {p : Int → Prop} [DecidablePred p] {f g : Int → List Nat} (h : ∀ v, p v → f v = g v) :
    (o.bind fun v => if p v then some (f v) else none) = o.bind fun v => if p v then some (g v) else none := by
  cases o with
  | none => rfl
  | some v =>
    simp only [Option.bind_some]
    split
    · rename_i hp
      rw [h v hp]
    · rfl

theorem fits_bytes {xs : List Opv} {a b : Option Src} (hn : ∀ e, namedOf xs e = true → (e.src a b).isSome = true)
    {c : Call} {s : Slot E} (h : fits xs c s = true) :
    ∃ i, c.item a b = .ok i ∧ i.size = s.size ∧ ∀ (fm : FMath) (now : Nat → ASym) (ρ : Den) (va vb : Option Int),
      0 ≤ ρ.pc → ρ.pc < 2147480000 → Values fm now ρ xs a b va vb → itemBytes fm now ρ i = s.bytes (E.val va vb) ρ.pc := by
  have out {e : E} (h : namedOf xs e = true) : ∃ s, e.src a b = some s ∧ ∀ f, Call.item.out a b e f = .ok (f s) := by
    obtain ⟨s, hs⟩ := Option.isSome_iff_exists.1 (hn e h)
    exact ⟨s, hs, fun f => by unfold Call.item.out; rw [hs]⟩
  have eq2 {e e' : E} (h : (e == e' && namedOf xs e) = true) : e' = e ∧ namedOf xs e = true := by
    obtain ⟨h1, h2⟩ := Bool.and_eq_true_iff.1 h
    exact ⟨(eq_of_beq h1).symm, h2⟩
  cases c with
  | const n =>
    refine ⟨.const 1 n, rfl, ?_⟩
    cases s with
    | byte k =>
      obtain ⟨h1, h2⟩ := Bool.and_eq_true_iff.1 h
      obtain rfl := eq_of_beq h1
      have h2 : n < 256 := by simpa [Nat.blt_eq] using h2
      refine ⟨rfl, fun fm now ρ va vb h0 h1 V => ?_⟩
      show some (le 1 (n % 256 ^ 1)) = some [n]
      rw [le_one]
      congr 2
      omega
    | s8 e =>
      cases e with
      | zero =>
        obtain rfl := eq_of_beq h
        exact ⟨rfl, fun fm now ρ va vb h0 h1 V => rfl⟩
      | _ => simp [fits] at h
    | _ => cases h
  | plain e =>
    cases s with
    | s8 e' =>
      obtain ⟨h1, h3⟩ := Bool.and_eq_true_iff.1 h
      obtain ⟨rfl, h2⟩ := eq2 h1
      obtain ⟨s, hs, ho⟩ := out h2
      refine ⟨_, ho _, rfl, fun fm now ρ va vb h0 h1 V => ?_⟩
      show ((s.value fm wrap now ρ).map _).map (le 1) = _
      have hv := e_value fm now ρ V.left V.right e'
      rw [hs, Option.bind_some] at hv
      simp only [Slot.bytes]
      rw [hv]
      cases hw : e'.val va vb with
      | none => rfl
      | some v =>
        simp only [Option.bind_some, Option.map_some]
        have hr := V.signed e' h3 v hw
        rw [if_pos hr, le_one]
        unfold u32
        congr 2
        omega
    | _ => cases h
  | su8 e =>
    cases s with
    | n8 e' =>
      obtain ⟨rfl, h2⟩ := eq2 h
      obtain ⟨s, hs, ho⟩ := out h2
      refine ⟨_, ho _, rfl, fun fm now ρ va vb h0 h1 V => ?_⟩
      rw [put_range fm now ρ hs V 1 _ _ (by decide) (by decide)]
      refine bind_range fun v hv => ?_
      rw [le_one]
      unfold u32
      congr 1
      omega
    | _ => cases h
  | u8 e =>
    cases s with
    | p8 e' =>
      obtain ⟨rfl, h2⟩ := eq2 h
      obtain ⟨s, hs, ho⟩ := out h2
      refine ⟨_, ho _, rfl, fun fm now ρ va vb h0 h1 V => ?_⟩
      rw [put_range fm now ρ hs V 1 _ _ (by decide) (by decide)]
      refine bind_range fun v hv => ?_
      rw [le_one]
      unfold u32
      congr 1
      omega
    | _ => cases h
  | s8 e =>
    cases s with
    | s8 e' =>
      obtain ⟨rfl, h2⟩ := eq2 h
      obtain ⟨s, hs, ho⟩ := out h2
      refine ⟨_, ho _, rfl, fun fm now ρ va vb h0 h1 V => ?_⟩
      unfold Z80.signed
      rw [put_range fm now ρ hs V 1 _ _ (by decide) (by decide)]
      refine bind_range fun v hv => ?_
      rw [le_one]
      unfold u32
      congr 1
      omega
    | _ => cases h
  | u16 e =>
    cases s with
    | a16 e' =>
      obtain ⟨rfl, h2⟩ := eq2 h
      obtain ⟨s, hs, ho⟩ := out h2
      refine ⟨_, ho _, rfl, fun fm now ρ va vb h0 h1 V => ?_⟩
      rw [put_range fm now ρ hs V 2 _ _ (by decide) (by decide)]
      refine bind_range fun v hv => ?_
      rw [le_two]
      unfold u32
      congr 1
      · omega
      · congr 1; omega
    | _ => cases h
  | su16 e =>
    cases s with
    | n16 e' =>
      obtain ⟨rfl, h2⟩ := eq2 h
      obtain ⟨s, hs, ho⟩ := out h2
      refine ⟨_, ho _, rfl, fun fm now ρ va vb h0 h1 V => ?_⟩
      rw [put_range fm now ρ hs V 2 _ _ (by decide) (by decide)]
      refine bind_range fun v hv => ?_
      rw [le_two]
      unfold u32
      congr 1
      · omega
      · congr 1; omega
    | _ => cases h
  | rel e =>
    cases s with
    | rel e' =>
      obtain ⟨rfl, h2⟩ := eq2 h
      obtain ⟨s, hs, ho⟩ := out h2
      refine ⟨_, ho _, rfl, fun fm now ρ va vb h0 h1 V => ?_⟩
      unfold itemBytes Z80.signed
      rw [code_rel fm now ρ s h0 h1]
      have hv := e_value fm now ρ V.left V.right e'
      rw [hs, Option.bind_some] at hv
      simp only [Slot.bytes]
      rw [hv]
      cases e'.val va vb with
      | none => rfl
      | some v =>
        simp only [Option.bind_some]
        unfold distance
        split
        · show some (le 1 _) = _
          rw [le_one]
          congr 2
          omega
        · rfl
    | _ => cases h
  | hi e =>
    cases s with
    | hi e' =>
      obtain ⟨rfl, h2⟩ := eq2 h
      obtain ⟨s, hs, ho⟩ := out h2
      refine ⟨_, ho _, rfl, fun fm now ρ va vb h0 h1 V => ?_⟩
      unfold itemBytes
      rw [code_hi fm now ρ s]
      have hv := e_value fm now ρ V.left V.right e'
      rw [hs, Option.bind_some] at hv
      simp only [Slot.bytes]
      rw [hv]
      cases e'.val va vb with
      | none => rfl
      | some v =>
        simp only [Option.bind_some]
        split
        · show some (le 1 _) = _
          rw [le_one]
          congr 2
          omega
        · rfl
    | _ => cases h
  | bit n e =>
    cases s with
    | bit k e' =>
      obtain ⟨h1, hnm⟩ := Bool.and_eq_true_iff.1 h
      obtain ⟨h1, he⟩ := Bool.and_eq_true_iff.1 h1
      obtain ⟨h1, hm⟩ := Bool.and_eq_true_iff.1 h1
      obtain ⟨h1, hl⟩ := Bool.and_eq_true_iff.1 h1
      obtain rfl := eq_of_beq h1
      obtain rfl := eq_of_beq he
      have hl : n < 256 := by simpa [Nat.blt_eq] using hl
      have hm : n &&& 0x38 = 0 := eq_of_beq hm
      obtain ⟨s, hs, ho⟩ := out hnm
      refine ⟨_, ho _, rfl, fun fm now ρ va vb h0 h1 V => ?_⟩
      unfold itemBytes
      rw [code_bit fm now ρ s hl hm]
      have hv := e_value fm now ρ V.left V.right e
      rw [hs, Option.bind_some] at hv
      simp only [Slot.bytes]
      rw [hv]
      cases e.val va vb with
      | none => rfl
      | some v =>
        simp only [Option.bind_some]
        split
        · rename_i hr
          show some (le 1 _) = _
          rw [le_one]
          have := bit_bound ⟨n, hl⟩ hm ⟨v.toNat, by omega⟩
          congr 2
          exact Nat.mod_eq_of_lt this
        · rfl
    | _ => cases h

/-- The items of the calls. Instructions have less than 16 bytes. -/
theorem fits_items {xs : List Opv} {a b : Option Src} (hn : ∀ e, namedOf xs e = true → (e.src a b).isSome = true) :
    ∀ {cs : List Call} {ss : List (Slot E)}, fitsAll xs cs ss = true → ∃ is, items a b cs = .ok is ∧
      ∀ (fm : FMath) (now : Nat → ASym) (ρ : Den) (va vb : Option Int), 0 ≤ ρ.pc → ρ.pc + 2 * ss.length < 2147480002 →
        (∀ p, Values fm now {ρ with pc := p} xs a b va vb) → bytesAt fm wrap now ρ is = slotBytes (E.val va vb) ρ.pc ss
  | [], [], _ => ⟨[], rfl, fun _ _ _ _ _ _ _ _ => rfl⟩
  | c :: cs, s :: ss, h => by
    obtain ⟨h1, h2⟩ := Bool.and_eq_true_iff.1 h
    obtain ⟨i, hi, hsz, hb⟩ := fits_bytes hn h1
    obtain ⟨is, his, hbs⟩ := fits_items hn h2
    refine ⟨i :: is, ?_, fun fm now ρ va vb h0 hl V => ?_⟩
    · unfold items
      rw [hi, ok_bind, his, ok_bind]
    · have hle : s.size ≤ 2 := by cases s <;> simp [Slot.size]
      simp only [List.length_cons] at hl
      have hb := hb fm now ρ va vb h0 (by omega) (V ρ.pc)
      have hbs := hbs fm now {ρ with pc := ρ.pc + i.size} va vb
        (by show 0 ≤ ρ.pc + (i.size : Int); omega) (by show ρ.pc + (i.size : Int) + _ < _; omega) (fun p => V p)
      unfold bytesAt slotBytes
      rw [← hb, hbs]
      unfold itemBytes
      rw [hsz]
      cases i.code fm wrap now ρ <;> rfl
  | [], _ :: _, h => by cases h
  | _ :: _, [], h => by cases h

end Verif.Cpu.Z80
