import Verif.Cpu.Rc8.Values
/-!
# Instructions of the RC8 with numbers of 16 bits
-/
set_option linter.constructorNameAsVariable false

namespace Verif.Cpu.Rc8

open Verif.Parse (Tok Toks Tree)
open Verif.Expr (Src FMath ASym Den BinOp I32 toI32 wrap value_bin meaning)
open Verif.Cpu.X65 (ok_bind EndOfLine bytesAt le le_one value_pc value_and255 value_asr8 value_asr16)

/-! ### The parts of a word -/

def lp (w : Int) : Int := (w + 128) % 256 - 128
def hp (w : Int) : Int := w / 256 - lp w / 256
def s16 (x : Int) : Int := (x + 32768) % 65536 - 32768

theorem parts (w : Int) : 256 * hp w + lp w = w := by unfold hp lp; omega

section
variable (fm : FMath) (now : Nat → ASym) (ρ : Den)

theorem value_asl (s : Src) (n : Nat) (hn : n < 32) :
    (Src.bin .asl s (.num n)).value fm wrap now ρ = (s.value fm wrap now ρ).map fun v => toI32 (v * 2 ^ n) := by
  rw [value_bin, value_num fm wrap now ρ (by unfold I32; omega)]
  cases h : s.value fm wrap now ρ with
  | none => rfl
  | some v =>
    have hm : meaning fm .asl v n = some (toI32 (v * 2 ^ n)) := by
      show (if _ then _ else _) = _
      rw [if_pos (by omega), Expr.asl_eq, Int.toNat_natCast]
    simp only [Option.bind_some, hm, Option.map_some]
    exact wrap.keep _ (Expr.toI32_range _)

theorem value_asr24 (s : Src) :
    (Src.bin .asr s (.num 24)).value fm wrap now ρ = (s.value fm wrap now ρ).map fun v => v / 16777216 := by
  rw [value_bin, value_num fm wrap now ρ (by decide)]
  cases h : s.value fm wrap now ρ with
  | none => rfl
  | some v =>
    have hv := src_value_range fm wrap now ρ s h
    have hm : meaning fm .asr v 24 = some (v / 16777216) := by
      show some (v.fdiv 16777216) = _
      rw [Int.fdiv_eq_ediv_of_nonneg _ (by decide)]
    simp only [Option.bind_some, hm, Option.map_some]
    exact wrap.keep _ (by unfold I32 at *; omega)

theorem value_low (s : Src) : (lowPart s).value fm wrap now ρ = (s.value fm wrap now ρ).map lp := by
  unfold lowPart
  rw [value_asr24, show (Src.num 24) = Src.num ((24 : Nat) : Int) from rfl, value_asl fm now ρ s 24 (by decide)]
  cases h : s.value fm wrap now ρ with
  | none => rfl
  | some v =>
    simp only [Option.map_some, Option.some.injEq]
    unfold lp toI32
    omega

theorem value_high (s : Src) : (highPart s).value fm wrap now ρ = (s.value fm wrap now ρ).map hp := by
  unfold highPart
  rw [value_bin, value_asr8, value_asr8, value_low]
  cases h : s.value fm wrap now ρ with
  | none => rfl
  | some v =>
    have hv := src_value_range fm wrap now ρ s h
    simp only [Option.map_some, Option.bind_some]
    show (wrap.f (v / 256 - lp v / 256)) = some (hp v)
    exact wrap.keep _ (by unfold I32 lp at *; omega)

theorem value_s16 (s : Src) : (word s).value fm wrap now ρ =
    (s.value fm wrap now ρ).bind fun x => if -32768 ≤ x ∧ x ≤ 65535 then some (s16 x) else none := by
  unfold word
  rw [value_asr16, show (Src.num 16) = Src.num ((16 : Nat) : Int) from rfl, value_asl fm now ρ _ 16 (by decide), value_word]
  cases h : s.value fm wrap now ρ with
  | none => rfl
  | some x =>
    simp only [Option.bind_some]
    by_cases hx : -32768 ≤ x ∧ x ≤ 65535
    · rw [if_pos hx, if_pos hx]
      simp only [Option.map_some, Option.some.injEq]
      unfold s16 toI32
      omega
    · rw [if_neg hx, if_neg hx]; rfl

theorem value_neg (s : Src) : (Src.bin .sub (.num 0) (checkRange s (-32768) 65535)).value fm wrap now ρ =
    (s.value fm wrap now ρ).bind fun v => if -32768 ≤ v ∧ v ≤ 65535 then some (-v) else none := by
  rw [value_bin, value_num fm wrap now ρ (by decide), value_word]
  cases h : s.value fm wrap now ρ with
  | none => rfl
  | some v =>
    simp only [Option.bind_some]
    by_cases hx : -32768 ≤ v ∧ v ≤ 65535
    · rw [if_pos hx, if_pos hx]
      show (wrap.f (0 - v)) = some (-v)
      rw [show (0 : Int) - v = -v from by omega]
      exact wrap.keep _ (by unfold I32; omega)
    · rw [if_neg hx, if_neg hx]; rfl

end

variable (C : Ctx)

/-- The subtraction of a number of eight bits. -/
theorem sem_sub8 (k : Bool) (q : R8) (t : Tree) :
    Sem C (.alun8 .sub q t) k [byte (0xA0 ||| q.n), imm (-128) 255 (.bin .sub (.num 0) (checkRange (C.src t) (-32768) 65535))] := by
  refine Sem.pair C k _ (by cases q <;> decide) _ rfl fun fm now ρ _ _ _ => ?_
  rw [value_imm8 _ _ _ _ _ _ (by decide) (by decide), value_neg,
    show (C.src t).value fm wrap now {ρ with pc := ρ.pc + 1} = _ from val_pc C fm now ρ _ t]
  refine ⟨fun h => by rw [h]; rfl, fun v h => ?_⟩
  rw [h]
  simp only [Form.map, Form.fits, Option.bind_some, decide_eq_true_eq, decide_eq_false_iff_not]
  refine ⟨fun hr => ⟨-v % 256, by rw [if_pos (by omega), Option.bind_some, if_pos (by omega)], ?_⟩, fun hr => ?_⟩
  · rw [Int.emod_emod_of_dvd _ (Int.dvd_refl 256)]
    refine Meets.of_does rfl (Does.to (doesAdd8 q _ (mod_lt _)) fun cpu s => ?_) _
    rw [← act_sub8]
    exact act_add8 (byteOf_mod _) q cpu s
  · by_cases hw : -32768 ≤ v ∧ v ≤ 65535
    · rw [if_pos hw, Option.bind_some, if_neg (by omega)]
    · rw [if_neg hw]; rfl

/-- The addition of a number of 16 bits. -/
theorem sem_add16 {f : Form Tree} {t : Tree} (k : Bool) (d : R16) (am : Am) (ham : am.reg = d.n) (e : Src) (σ : Int → Int)
    (hv : f.val = some t)
    (he : ∀ fm now ρ, e.value fm wrap now ρ = (valOf C fm now ρ t).bind fun v => if -32768 ≤ v ∧ v ≤ 65535 then some (σ v) else none)
    (hf : ∀ v pc, (f.map fun _ => v).fits k pc =
      decide ((-32768 ≤ v ∧ v ≤ 65535) ∧ (-32768 ≤ σ v ∧ σ v < 32640 ∨ 32767 < σ v ∧ σ v ≤ 65535)))
    (hs : ∀ v : Int, (f.map fun _ => v).straight = true)
    (ha : ∀ cpu s v, act cpu 0 s (.alun16 .add d (σ v)) = act cpu 0 s (f.map fun _ => v)) :
    ∃ items, addWord C am e = .ok items ∧ Sem C f k items := by
  have ho1 : opReg 0xBC am = byte (0xBC ||| d.n) := by unfold opReg; rw [ham]; rfl
  have ho2 : opReg 0xA0 (highOf am) = byte (0xA0 ||| d.hi.n) := by
    unfold opReg highOf; rw [ham]; cases d <;> rfl
  have hb1 : 0xBC ||| d.n < 256 := lt_bc d
  have hb2 : 0xA0 ||| d.hi.n < 256 := by cases d <;> decide
  have hsz : ∀ a b c : Item, ∀ l lo hi s, l = [a, imm lo hi s] → a.size = 1 → ∀ i ∈ l, i.size = 1 := by
    intro a b c l lo hi s hl h i hi
    subst hl
    simp only [List.mem_cons, List.not_mem_nil, or_false] at hi
    rcases hi with rfl | rfl
    · exact h
    · rfl
  -- the value of the word
  have hw : ∀ fm now ρ, (word e).value fm wrap now ρ = (valOf C fm now ρ t).bind fun v =>
      if (-32768 ≤ v ∧ v ≤ 65535) ∧ (-32768 ≤ σ v ∧ σ v ≤ 65535) then some (s16 (σ v)) else none := by
    intro fm now ρ
    rw [value_s16, he]
    cases valOf C fm now ρ t with
    | none => rfl
    | some v =>
      simp only [Option.bind_some]
      by_cases h1 : -32768 ≤ v ∧ v ≤ 65535
      · rw [if_pos h1, Option.bind_some]
        by_cases h2 : -32768 ≤ σ v ∧ σ v ≤ 65535
        · rw [if_pos h2, if_pos ⟨h1, h2⟩]
        · rw [if_neg h2, if_neg (fun h => h2 h.2)]
      · rw [if_neg h1, if_neg (fun h => h1 h.1)]; rfl
  have hpc : ∀ fm now (ρ : Den) p, (word e).value fm wrap now {ρ with pc := p} = (word e).value fm wrap now ρ := by
    intro fm now ρ p
    rw [hw, hw, val_pc]
  unfold addWord
  simp only
  by_cases hsm : fitsByte (C.known e) (C.known (word e)) = true
  · rw [if_pos hsm]
    refine ⟨_, rfl, ?_⟩
    rw [ho1]
    have hk : ∃ w, C.known (word e) = some w ∧ -128 ≤ w ∧ w ≤ 127 := by
      cases h1 : C.known e with
      | none => rw [h1] at hsm; cases hsm
      | some x =>
        cases h2 : C.known (word e) with
        | none => rw [h1, h2] at hsm; cases hsm
        | some w =>
          rw [h1, h2] at hsm
          exact ⟨w, rfl, of_decide_eq_true hsm⟩
    obtain ⟨w, hkw, hwr⟩ := hk
    refine Sem.value C k _ hv (hsz _ (byte 0) (byte 0) _ _ _ _ rfl rfl) (by simp) fun fm now ρ hS _ _ => ?_
    have hval := hS _ _ hkw
    rw [bytes_byte fm now ρ hb1, bytes_imm fm now _ _ _ (by decide) (by decide), hpc, hval]
    rw [hw] at hval
    refine ⟨fun h => (by rw [h] at hval; cases hval), fun v h => ?_⟩
    rw [h, Option.bind_some] at hval
    have hc : (-32768 ≤ v ∧ v ≤ 65535) ∧ (-32768 ≤ σ v ∧ σ v ≤ 65535) := by
      by_cases hc : (-32768 ≤ v ∧ v ≤ 65535) ∧ (-32768 ≤ σ v ∧ σ v ≤ 65535)
      · exact hc
      · rw [if_neg hc] at hval; cases hval
    rw [if_pos hc] at hval
    have hs16 : s16 (σ v) = w := Option.some.inj hval
    refine ⟨fun _ => ⟨[0xBC ||| d.n, (w % 256).toNat], ?_, ?_⟩, fun hx => ?_⟩
    · simp only [Option.bind_some]
      rw [if_pos (by omega)]
      rfl
    · refine Meets.of_does (hs v) (Does.to (does_add16_low d _ (mod_lt w) (σ v) ?_) fun cpu s => ha cpu s v) _
      rw [signed_mod (by omega)]
      unfold s16 at hs16
      omega
    · rw [hf, decide_eq_false_iff_not] at hx
      unfold s16 at hs16
      exact absurd ⟨hc.1, by omega⟩ hx
  · rw [if_neg hsm]
    refine ⟨_, rfl, ?_⟩
    rw [ho1, ho2]
    refine Sem.value C k _ hv ?_ ?_ fun fm now ρ hS _ _ => ?_
    · intro i hi
      rw [List.mem_append] at hi
      rcases hi with hi | hi
      · by_cases h : C.known (lowPart (word e)) = some 0
        · rw [if_pos h] at hi; cases hi
        · rw [if_neg h] at hi; exact hsz _ (byte 0) (byte 0) _ _ _ _ rfl rfl i hi
      · by_cases h : C.known (highPart (word e)) = some 0
        · rw [if_pos h] at hi; cases hi
        · rw [if_neg h] at hi; exact hsz _ (byte 0) (byte 0) _ _ _ _ rfl rfl i hi
    · rw [List.length_append]; split <;> split <;> simp
    have hlow : ∀ p, (lowPart (word e)).value fm wrap now {ρ with pc := p} = ((word e).value fm wrap now ρ).map lp := by
      intro p; rw [value_low, hpc]
    have hhigh : ∀ p, (highPart (word e)).value fm wrap now {ρ with pc := p} = ((word e).value fm wrap now ρ).map hp := by
      intro p; rw [value_high, hpc]
    have hk1 : C.known (lowPart (word e)) = some 0 → ∃ w, (word e).value fm wrap now ρ = some w ∧ lp w = 0 := by
      intro h
      have := hS _ _ h
      rw [value_low] at this
      exact Option.map_eq_some_iff.1 this
    have hk2 : C.known (highPart (word e)) = some 0 → ∃ w, (word e).value fm wrap now ρ = some w ∧ hp w = 0 := by
      intro h
      have := hS _ _ h
      rw [value_high] at this
      exact Option.map_eq_some_iff.1 this
    -- the bytes
    have hbytes : (∀ w, (word e).value fm wrap now ρ = some w → ∀ bs,
        (bs = (if C.known (lowPart (word e)) = some 0 then [] else [0xBC ||| d.n, (lp w % 256).toNat]) ++
          (if C.known (highPart (word e)) = some 0 then [] else [0xA0 ||| d.hi.n, (hp w % 256).toNat])) →
        bytesAt fm wrap now ρ ((if C.known (lowPart (word e)) = some 0 then [] else [byte (0xBC ||| d.n), imm (-128) 127 (lowPart (word e))]) ++
          (if C.known (highPart (word e)) = some 0 then [] else [byte (0xA0 ||| d.hi.n), imm (-128) 127 (highPart (word e))])) =
        if -128 ≤ hp w ∧ hp w ≤ 127 then some bs else none) ∧
      ((word e).value fm wrap now ρ = none →
        bytesAt fm wrap now ρ ((if C.known (lowPart (word e)) = some 0 then [] else [byte (0xBC ||| d.n), imm (-128) 127 (lowPart (word e))]) ++
          (if C.known (highPart (word e)) = some 0 then [] else [byte (0xA0 ||| d.hi.n), imm (-128) 127 (highPart (word e))])) = none) := by
      have hl : ∀ w, -128 ≤ lp w ∧ lp w ≤ 127 := fun w => by unfold lp; omega
      refine ⟨fun w hw' bs hbs => ?_, fun hn => ?_⟩
      · subst hbs
        by_cases h1 : C.known (lowPart (word e)) = some 0 <;> by_cases h2 : C.known (highPart (word e)) = some 0
        · obtain ⟨w', hw'', h0⟩ := hk2 h2
          rw [hw'] at hw''; cases hw''
          rw [if_pos h1, if_pos h2, if_pos h1, if_pos h2, if_pos (by omega)]
          rfl
        · rw [if_pos h1, if_neg h2, if_pos h1, if_neg h2, List.nil_append, List.nil_append,
            bytes_byte fm now ρ hb2, bytes_imm fm now _ _ _ (by decide) (by decide), hhigh, hw']
          simp only [Option.map_some, Option.bind_some]
          split <;> rfl
        · obtain ⟨w', hw'', h0⟩ := hk2 h2
          rw [hw'] at hw''; cases hw''
          rw [if_neg h1, if_pos h2, if_neg h1, if_pos h2, List.append_nil, List.append_nil,
            bytes_byte fm now ρ hb1, bytes_imm fm now _ _ _ (by decide) (by decide), hlow, hw']
          simp only [Option.map_some, Option.bind_some]
          rw [if_pos (hl w), if_pos (by omega)]
          rfl
        · rw [if_neg h1, if_neg h2, if_neg h1, if_neg h2, List.cons_append, List.cons_append, List.nil_append,
            bytes_byte fm now ρ hb1, bytes_imm fm now _ _ _ (by decide) (by decide), hlow, hw']
          simp only [Option.map_some, Option.bind_some]
          rw [if_pos (hl w), bytes_byte fm now _ hb2, bytes_imm fm now _ _ _ (by decide) (by decide), hhigh, hw']
          simp only [Option.map_some, Option.bind_some]
          split <;> rfl
      · have h1 : C.known (lowPart (word e)) ≠ some 0 := fun h => by
          obtain ⟨w, hw', _⟩ := hk1 h; rw [hn] at hw'; cases hw'
        have h2 : C.known (highPart (word e)) ≠ some 0 := fun h => by
          obtain ⟨w, hw', _⟩ := hk2 h; rw [hn] at hw'; cases hw'
        rw [if_neg h1, if_neg h2, List.cons_append, List.cons_append, List.nil_append,
          bytes_byte fm now ρ hb1, bytes_imm fm now _ _ _ (by decide) (by decide), hlow, hn]
        rfl
    have hwv := hw fm now ρ
    refine ⟨fun h => hbytes.2 (by rw [hwv, h]; rfl), fun v h => ?_⟩
    rw [h, Option.bind_some] at hwv
    rw [hf]
    simp only [decide_eq_true_eq, decide_eq_false_iff_not]
    by_cases hc : (-32768 ≤ v ∧ v ≤ 65535) ∧ (-32768 ≤ σ v ∧ σ v ≤ 65535)
    · rw [if_pos hc] at hwv
      have hb := hbytes.1 _ hwv _ rfl
      have hp1 := parts (s16 (σ v))
      have hq : 256 * hp (s16 (σ v)) + lp (s16 (σ v)) = s16 (σ v) := hp1
      have hls : -128 ≤ lp (s16 (σ v)) ∧ lp (s16 (σ v)) ≤ 127 := by unfold lp; omega
      have hmod : s16 (σ v) % 65536 = σ v % 65536 := by unfold s16; omega
      refine ⟨fun hr => ?_, fun hr => ?_⟩
      · have hh : -128 ≤ hp (s16 (σ v)) ∧ hp (s16 (σ v)) ≤ 127 := by
          have : s16 (σ v) < 32640 ∧ -32768 ≤ s16 (σ v) := by unfold s16; omega
          omega
        rw [if_pos hh] at hb
        refine ⟨_, hb, Meets.of_does (hs v) (Does.to ?_ fun cpu s => ha cpu s v) _⟩
        by_cases h1 : C.known (lowPart (word e)) = some 0 <;> by_cases h2 : C.known (highPart (word e)) = some 0
        · obtain ⟨w, hw', hz⟩ := hk2 h2
          obtain ⟨w', hw'', hz'⟩ := hk1 h1
          rw [hwv] at hw' hw''
          cases hw'; cases hw''
          rw [if_pos h1, if_pos h2]
          exact does_add16_zero d _ (by omega)
        · obtain ⟨w', hw'', hz'⟩ := hk1 h1
          rw [hwv] at hw''
          cases hw''
          rw [if_pos h1, if_neg h2]
          exact does_add16_high d _ (mod_lt _) _ (by omega)
        · obtain ⟨w, hw', hz⟩ := hk2 h2
          rw [hwv] at hw'
          cases hw'
          rw [if_neg h1, if_pos h2]
          exact does_add16_low d _ (mod_lt _) _ (by rw [signed_mod hls]; omega)
        · rw [if_neg h1, if_neg h2]
          exact does_add16 d _ _ (mod_lt _) (mod_lt _) _ (by rw [signed_mod hls]; omega)
      · rw [hb, if_neg]
        intro hh
        apply hr
        refine ⟨hc.1, ?_⟩
        have : s16 (σ v) < 32640 := by omega
        unfold s16 at this
        omega
    · rw [if_neg hc] at hwv
      exact ⟨fun hr => absurd ⟨hr.1, by omega⟩ hc, fun _ => hbytes.2 hwv⟩

/-! ### Loads -/

theorem get_set (s : State) (r : R16) (w : Word) : (s.set r w).get r = w := by
  unfold State.get State.set
  have h1 : ((s.set8 r.hi (hi w)).set8 r.lo (lo w)).reg r.hi = hi w := by cases r <;> rfl
  have h2 : ((s.set8 r.hi (hi w)).set8 r.lo (lo w)).reg r.lo = lo w := by cases r <;> rfl
  rw [h1, h2]
  apply BitVec.eq_of_toNat_eq
  unfold pair hi lo
  simp only [BitVec.toNat_ofNat]
  have := w.isLt
  omega

/-- What a known word is loaded with. -/
theorem does_const (d : R16) (am : Am) (ham : am.reg = d.n) (v : Int) : ∃ bs : List Nat,
    loadConst am ((v % 65536).toNat >>> 8) ((v % 65536).toNat &&& 0xFF) = bs.map byte ∧ (∀ b ∈ bs, b < 256) ∧ bs.length ≤ 4 ∧
    Does bs fun cpu s => act cpu 0 s (.ldn16 d v) := by
  have hx : (v % 65536).toNat < 65536 := by omega
  have hv : (v % 65536) = ((v % 65536).toNat : Int) := by omega
  generalize hn : (v % 65536).toNat = x at *
  have e1 : x >>> 8 = x / 256 := Nat.shiftRight_eq_div_pow x 8
  have e2 : x &&& 0xFF = x % 256 := Nat.and_two_pow_sub_one_eq_mod x 8
  rw [e1, e2]
  have hsum : v % 65536 = 256 * ((x / 256 : Nat) : Int) + ((x % 256 : Nat) : Int) := by omega
  have hbit : ∀ l, l < 256 → (l &&& 0x80 ≠ 0 → 128 ≤ l) ∧ (l &&& 0x80 = 0 → l < 128) := by decide +kernel
  have h1 : opReg 0x80 (highOf am) = byte (0x80 ||| d.hi.n) := by unfold opReg highOf; rw [ham]; cases d <;> rfl
  have h2 : opReg 0x80 (lowOf am) = byte (0x80 ||| d.lo.n) := by unfold opReg lowOf; rw [ham]; cases d <;> rfl
  have hft : (highOf am).reg = 0 ∧ (lowOf am).reg = 1 → d = .ft := by
    unfold highOf lowOf; rw [ham]; cases d <;> first | (intro; rfl) | (intro h; exact absurd h (by decide))
  have b1 : 0x80 ||| d.hi.n < 256 := by cases d <;> decide
  have b2 : 0x80 ||| d.lo.n < 256 := by cases d <;> decide
  have b3 : x / 256 < 256 := by omega
  have b4 : x % 256 < 256 := by omega
  unfold loadConst
  rw [h1, h2]
  split
  · rename_i hc
    have hd := hft ⟨hc.1, hc.2.1⟩
    subst hd
    refine ⟨[0x81, x % 256, 0x49], rfl, ?_, by simp, does_ldn16_ext (x / 256) (x % 256) b4 v hsum ?_⟩
    · intro b hb; simp only [List.mem_cons, List.not_mem_nil, or_false] at hb; omega
    · rcases hc.2.2 with h | h
      · exact .inl ⟨h.1, (hbit _ b4).1 h.2⟩
      · exact .inr ⟨h.1, (hbit _ b4).2 h.2⟩
  · split
    · rename_i hc
      have hd := hft ⟨hc.1, hc.2.1⟩
      subst hd
      refine ⟨[0x81, x % 256, 0x78], rfl, ?_, by simp, does_ldn16_same (x % 256) b4 v ?_⟩
      · intro b hb; simp only [List.mem_cons, List.not_mem_nil, or_false] at hb; omega
      · rw [hsum, hc.2.2]
    · refine ⟨[0x80 ||| d.hi.n, x / 256, 0x80 ||| d.lo.n, x % 256], rfl, ?_, by simp, does_ldn16 d _ _ b3 b4 v hsum⟩
      intro b hb; simp only [List.mem_cons, List.not_mem_nil, or_false] at hb
      rcases hb with rfl | rfl | rfl | rfl <;> assumption

/-- The items that load a word, and others behind them. -/
theorem load_bytes (d : R16) (am : Am) (ham : am.reg = d.n) (e : Src) (t : Tree)
    (he : ∀ fm now ρ, (checkRange e (-32768) 65535).value fm wrap now ρ =
      (valOf C fm now ρ t).bind fun v => if -32768 ≤ v ∧ v ≤ 65535 then some v else none) :
    ∃ items, loadImm C am (some e) = .ok items ∧ (∀ i ∈ items, i.size = 1) ∧ items.length ≤ 4 ∧
      ∀ fm now ρ, C.Sound fm wrap now ρ → ∀ tail,
        (valOf C fm now ρ t = none → bytesAt fm wrap now ρ (items ++ tail) = none) ∧ ∀ v, valOf C fm now ρ t = some v →
        ((if (C.known (checkRange e (-32768) 65535)).isSome then -32768 else 0) ≤ v ∧ v ≤ 65535 →
          ∃ bs : List Nat, bytesAt fm wrap now ρ (items ++ tail) = (bytesAt fm wrap now {ρ with pc := ρ.pc + bs.length} tail).map (bs ++ ·) ∧
            Does bs fun cpu s => act cpu 0 s (.ldn16 d v)) ∧
        (¬ ((if (C.known (checkRange e (-32768) 65535)).isSome then -32768 else 0) ≤ v ∧ v ≤ 65535) →
          bytesAt fm wrap now ρ (items ++ tail) = none) := by
  unfold loadImm
  simp only
  cases hk : C.known (checkRange e (-32768) 65535) with
  | some x =>
    obtain ⟨bs, hbs, hb, hn, hd⟩ := does_const d am ham x
    refine ⟨_, rfl, ?_, ?_, fun fm now ρ hS tail => ?_⟩
    · rw [hbs]; intro i hi
      obtain ⟨b, _, rfl⟩ := List.mem_map.1 hi
      rfl
    · rw [hbs, List.length_map]; exact hn
    · have hx := hS _ _ hk
      rw [he] at hx
      refine ⟨fun h => (by rw [h] at hx; cases hx), fun v h => ?_⟩
      rw [h, Option.bind_some] at hx
      by_cases hr : -32768 ≤ v ∧ v ≤ 65535
      · rw [if_pos hr] at hx
        cases hx
        refine ⟨fun _ => ⟨bs, ?_, hd⟩, fun h => absurd hr h⟩
        rw [hbs, bytes_consts fm now bs ρ hb]
      · rw [if_neg hr] at hx; cases hx
  | none =>
    have h1 : opReg 0x80 (highOf am) = byte (0x80 ||| d.hi.n) := by unfold opReg highOf; rw [ham]; cases d <;> rfl
    have h2 : opReg 0x80 (lowOf am) = byte (0x80 ||| d.lo.n) := by unfold opReg lowOf; rw [ham]; cases d <;> rfl
    have b1 : 0x80 ||| d.hi.n < 256 := by cases d <;> decide
    have b2 : 0x80 ||| d.lo.n < 256 := by cases d <;> decide
    refine ⟨_, rfl, ?_, by simp, fun fm now ρ hS tail => ?_⟩
    · intro i hi
      simp only [List.mem_cons, List.not_mem_nil, or_false] at hi
      rcases hi with rfl | rfl | rfl | rfl <;> rfl
    · have hb : bytesAt fm wrap now ρ ([opReg 0x80 (highOf am), imm 0 255 (.bin .asr (checkRange e (-32768) 65535) (.num 8)),
          opReg 0x80 (lowOf am), imm 0 255 (.bin .and (checkRange e (-32768) 65535) (.num 0xFF))] ++ tail) =
          (valOf C fm now ρ t).bind fun v => if 0 ≤ v ∧ v ≤ 65535 then
            (bytesAt fm wrap now {ρ with pc := ρ.pc + 4} tail).map
              ([0x80 ||| d.hi.n, (v / 256 % 256).toNat, 0x80 ||| d.lo.n, (v % 256).toNat] ++ ·) else none := by
        simp only [List.cons_append, List.nil_append]
        rw [h1, h2, bytes_byte fm now _ b1, bytes_imm fm now _ _ _ (by decide) (by decide), value_asr8, he, val_pc]
        cases hv : valOf C fm now ρ t with
        | none => rfl
        | some v =>
          simp only [Option.bind_some]
          by_cases hr : -32768 ≤ v ∧ v ≤ 65535
          · rw [if_pos hr]
            simp only [Option.map_some, Option.bind_some]
            by_cases hr' : 0 ≤ v ∧ v ≤ 65535
            · rw [if_pos (show 0 ≤ v / 256 ∧ v / 256 ≤ 255 by omega), if_pos hr', bytes_byte fm now _ b2,
                bytes_imm fm now _ _ _ (by decide) (by decide), value_and255, he, val_pc, val_pc, hv]
              simp only [Option.bind_some]
              rw [if_pos hr]
              simp only [Option.map_some, Option.bind_some]
              rw [if_pos (by omega), Int.emod_emod_of_dvd v (Int.dvd_refl 256)]
              simp only [Option.map_map]
              rw [show ρ.pc + 1 + 1 + 1 + 1 = ρ.pc + 4 by omega]
              rfl
            · rw [if_neg (by omega), if_neg hr']; rfl
          · rw [if_neg hr, if_neg (by omega)]; rfl
      rw [hb]
      refine ⟨fun h => by rw [h]; rfl, fun v h => ?_⟩
      rw [h]
      simp only [Option.bind_some, Option.isSome_none, Bool.false_eq_true, if_false]
      refine ⟨fun hr => ⟨_, by rw [if_pos hr]; rfl, does_ldn16 d _ _ (by omega) (by omega) v (by omega)⟩, fun hr => by rw [if_neg hr]⟩

/-- Whether the assembler knows a word when it reads it: `LD` checks its range twice. -/
theorem sem_ldn16 (d : R16) (am : Am) (ham : am.reg = d.n) (t : Tree) : ∃ items,
    loadImm C am (some (checkRange (C.src t) (-32768) 65535)) = .ok items ∧
    Sem C (.ldn16 d t) (C.known (checkRange (checkRange (C.src t) (-32768) 65535) (-32768) 65535)).isSome items := by
  obtain ⟨items, h1, h2, h3, h4⟩ := load_bytes C d am ham (checkRange (C.src t) (-32768) 65535) t (fun fm now ρ => by
    rw [value_word, value_word]
    show ((valOf C fm now ρ t).bind _).bind _ = _
    cases valOf C fm now ρ t with
    | none => rfl
    | some v =>
      simp only [Option.bind_some]
      by_cases hr : -32768 ≤ v ∧ v ≤ 65535
      · rw [if_pos hr, Option.bind_some, if_pos hr]
      · rw [if_neg hr]; rfl)
  refine ⟨items, h1, Sem.value C _ items rfl h2 (by omega) fun fm now ρ hS _ _ => ?_⟩
  have := h4 fm now ρ hS []
  rw [List.append_nil] at this
  refine ⟨this.1, fun v hv => ?_⟩
  simp only [Form.map, Form.fits, decide_eq_true_eq, decide_eq_false_iff_not]
  refine ⟨fun hr => ?_, (this.2 v hv).2⟩
  obtain ⟨bs, hb, hd⟩ := (this.2 v hv).1 hr
  refine ⟨bs, ?_, Meets.of_does rfl hd _⟩
  rw [hb]
  show some (bs ++ []) = _
  rw [List.append_nil]

/-- `JAL` with a label. -/
theorem sem_jaln (t : Tree) : ∃ items, loadImm C ⟨mHL, 3, none⟩ (some (C.src t)) = .ok items ∧
    Sem C (.jaln t) (C.known (checkRange (C.src t) (-32768) 65535)).isSome (items ++ [byte 0x3B]) := by
  obtain ⟨items, h1, h2, h3, h4⟩ := load_bytes C .hl ⟨mHL, 3, none⟩ rfl (C.src t) t (fun fm now ρ => value_word fm now ρ _)
  refine ⟨items, h1, Sem.value C _ _ rfl ?_ (by simp; omega) fun fm now ρ hS _ _ => ?_⟩
  · intro i hi
    rw [List.mem_append] at hi
    rcases hi with hi | hi
    · exact h2 i hi
    · rw [List.mem_singleton] at hi; subst hi; rfl
  have := h4 fm now ρ hS [byte 0x3B]
  refine ⟨this.1, fun v hv => ?_⟩
  simp only [Form.map, Form.fits, decide_eq_true_eq, decide_eq_false_iff_not]
  refine ⟨fun hr => ?_, (this.2 v hv).2⟩
  obtain ⟨bs, hb, hd⟩ := (this.2 v hv).1 hr
  refine ⟨bs ++ [0x3B], ?_, ?_⟩
  · rw [hb, show ([byte 0x3B] : List Item) = [0x3B].map byte from rfl, bytes_only fm now [0x3B] _ (by decide)]
    rfl
  · intro cpu s hl
    obtain ⟨hl1, hl2⟩ := hl.append
    have r1 := hd cpu _ s hl1
    have r2 := step1 hl2 (by decide) (act cpu 0 s (.ldn16 .hl v)) (.jal .hl) (fun n => rfl)
    refine r1.trans (.one ?_)
    have e1 : wordOf ρ.pc + BitVec.ofNat 16 bs.length + 1 = wordOf (ρ.pc + (bs ++ [0x3B]).length) := by
      rw [wordOf_add, show (1 : Word) = BitVec.ofNat 16 1 from rfl, wordOf_add, List.length_append]
      congr 1
      simp only [List.length_cons, List.length_nil]
      omega
    rw [e1] at r2
    have e2 : goto cpu (wordOf (ρ.pc + (bs ++ [0x3B]).length)) (act cpu 0 s (.ldn16 .hl v)) (.jal .hl) = some (wordOf v) := by
      show some ((s.set .hl (wordOf v)).get .hl) = _
      rw [get_set]
    rw [e2] at r2
    exact r2

end Verif.Cpu.Rc8
