import Verif.Cpu.Rc8.Table
/-!
# Lines of the RC8, with their conditions
-/
set_option linter.constructorNameAsVariable false

namespace Verif.Cpu.Rc8

open Verif.Parse (Tok Toks Tree)
open Verif.Expr (Src FMath ASym Den BinOp I32 toI32 wrap)
open Verif.Cpu.X65 (ok_bind EndOfLine bytesAt)

variable (C : Ctx)

/-- The number of a condition. -/
abbrev Cond.n (c : Cond) : Nat := c.ctorIdx

/-- What is read of a condition. -/
def ccOf : Option Cond → Nat
  | none => always
  | some c => c.n

theorem inv_n (c : Cond) : invert c.n = c.inv.n := by cases c <;> rfl

theorem no_div (t : Tree) (xs : Toks) : t.toks ≠ .op .div :: xs := by
  induction t generalizing xs with
  | bin o l r hl hr =>
    intro h
    obtain ⟨y, ys, hy, _⟩ := toks_cons l
    rw [show (Tree.bin o l r).toks = l.toks ++ .op o :: r.toks from rfl, hy] at h
    simp only [List.cons_append, List.cons.injEq] at h
    exact hl ys (by rw [hy, h.1])
  | pc s => cases s <;> intro h <;> cases h
  | _ => intro h; cases h

theorem opnd_div (o : Opnd) (hg : ∀ rs, o = .regs rs → (listed rs).isSome = true) (rest xs : Toks) : o.toks ++ rest ≠ .op .div :: xs := by
  cases o with
  | val t =>
    obtain ⟨y, ys, hy, _⟩ := toks_cons t
    intro h
    rw [show (Opnd.val t).toks = y :: ys from hy] at h
    simp only [List.cons_append, List.cons.injEq] at h
    exact no_div t ys (by rw [hy, h.1])
  | regs rs =>
    intro h
    have := hg rs rfl
    rcases rs with _ | ⟨⟨a, _ | b⟩, _ | ⟨x, rs⟩⟩
    · cases this
    all_goals cases a <;> cases h
  | r8 r => intro h; cases h
  | r16 r => intro h; cases h
  | ptr r v => intro h; cases h
  | indC => intro h; cases h

theorem condition_none {toks : Toks} (h : ∀ xs, toks ≠ .op .div :: xs) : condition toks = .ok (always, toks) := by
  unfold condition
  split
  · exact absurd rfl (h _)
  · exact absurd rfl (h _)
  · rfl

theorem condition_reads (c : Option Cond) {toks : Toks} (h : c = none → ∀ xs, toks ≠ .op .div :: xs) :
    condition (condToks c ++ toks) = .ok (ccOf c, toks) := by
  cases c with
  | none => exact condition_none (h rfl)
  | some c => cases c <;> rfl

/-- Any operand that is allowed. -/
theorem operand_reads (A : Nat) (o : Opnd) (hg : o.Good (maxOf A)) (ha : has A (o.am C A).mode = true) {rest : Toks} (he : Ends rest) :
    addressing C A (o.toks ++ rest) = .ok (some (o.am C A, rest)) := by
  by_cases hl : ∃ rs, o = .regs rs
  · obtain ⟨rs, rfl⟩ := hl
    obtain ⟨l, h⟩ := Option.isSome_iff_exists.1 (show (listed rs).isSome = true from hg)
    exact addressing_list C A ha h he
  · exact addressing_reads C A o hg (fun rs h => hl ⟨rs, h⟩) ha he

/-- Operands can be read. -/
def Goods (e : Entry) : List Opnd → Prop
  | [] => True
  | [a] => a.Good (maxOf e.first)
  | a :: b :: _ => a.Good (maxOf e.first) ∧ b.Good (maxOf e.second)

/-- What is left when the operands have been read. -/
def finish (target : Nat) (m : Mn) (c : Option Cond) (os : List Opnd) (rest : Toks) : Outcome (Option Result) :=
  (if !(entry m).pass && ccOf c != always then jumpRel (0x90 + invert (ccOf c)) (some (.sym target)) else .ok []).bind fun before =>
    ((entry m).handler.run C (entry m).base (ccOf c) (fstAm C (entry m).first os) (sndAm C (entry m).second os)).bind fun items =>
      .ok (some ⟨before ++ items, !(entry m).pass && ccOf c != always, rest⟩)

theorem second_none {A : Nat} (h : has A mNone = true) {rest : Toks} (he : EndOfLine rest) : secondMode C A rest = .ok (noMode, rest) := by
  rcases he.cases with rfl | ⟨xs, rfl⟩
  · exact if_pos (Or.inl h)
  · exact if_pos (Or.inl h)

theorem instr_reads (target : Nat) (m : Mn) (c : Option Cond) (os : List Opnd) (hg : Goods (entry m) os) (ha : Allowed C (entry m) os)
    {rest : Toks} (he : EndOfLine rest) : instr C target (line m c os ++ rest) = finish C target m c os rest := by
  have hr (toks : Toks) : instr C target (m.tok :: toks) = (condition toks).bind fun (cc, rest) =>
        (addressing C (entry m).first rest).bind fun
          | none => .fail
          | some (m1, rest) =>
            (secondMode C (entry m).second rest).bind fun (m2, rest) =>
            let skip := !(entry m).pass && cc != always
            (if skip then jumpRel (0x90 + invert cc) (some (.sym target)) else .ok []).bind fun before =>
            ((entry m).handler.run C (entry m).base cc m1 m2).bind fun items =>
            .ok (some ⟨before ++ items, skip, rest⟩) := by
    have h1 : T.add.num ≤ 6000 + m.ctorIdx ∧ 6000 + m.ctorIdx ≤ T.xor.num := by cases m <;> decide
    have h2 : table[6000 + m.ctorIdx - T.add.num]? = some (entry m) := by
      rw [show 6000 + m.ctorIdx - T.add.num = m.ctorIdx from by rw [show T.add.num = 6000 from rfl]; omega]
      exact entry_eq m
    rw [show m.tok = .other (6000 + m.ctorIdx) from rfl, instr, if_pos h1, h2]
    rfl
  rw [show line m c os ++ rest = m.tok :: (condToks c ++ (opndToks os ++ rest)) from by simp [line], hr]
  rcases os with _ | ⟨a, _ | ⟨b, _ | ⟨x, os⟩⟩⟩
  · rw [condition_reads c (toks := opndToks [] ++ rest) (fun _ xs h => by
      rcases he.cases with rfl | ⟨ys, rfl⟩ <;> cases h), ok_bind]
    obtain ⟨h1, h2⟩ := ha
    show (addressing C (entry m).first rest).bind _ = _
    rw [h1, absent_reads C he, ok_bind]
    show (secondMode C (entry m).second rest).bind _ = _
    rw [second_none C (by rw [h2]; decide) he, ok_bind]
    rfl
  · have hl : ∀ rs, a = .regs rs → (listed rs).isSome = true := fun rs h => by subst h; exact hg
    rw [condition_reads c (toks := opndToks [a] ++ rest) (fun _ xs => opnd_div a hl rest xs), ok_bind]
    show (addressing C (entry m).first (a.toks ++ rest)).bind _ = _
    rw [operand_reads C _ a hg ha.1 he.ends, ok_bind]
    show (secondMode C (entry m).second rest).bind _ = _
    rw [second_none C ha.2 he, ok_bind]
    rfl
  · have hl : ∀ rs, a = .regs rs → (listed rs).isSome = true := fun rs h => by subst h; exact hg.1
    rw [show opndToks [a, b] ++ rest = a.toks ++ (.comma :: (b.toks ++ rest)) from by simp [opndToks],
      condition_reads c (fun _ xs => opnd_div a hl _ xs), ok_bind]
    show (addressing C (entry m).first (a.toks ++ (.comma :: (b.toks ++ rest)))).bind _ = _
    rw [operand_reads C _ a hg.1 ha.1 (Ends.comma _), ok_bind]
    show (secondMode C (entry m).second (.comma :: (b.toks ++ rest))).bind _ = _
    rw [secondMode, operand_reads C _ b hg.2 ha.2 he.ends, ok_bind, ok_bind]
    rfl
  · exact ha.elim

/-- What must hold for the bytes of a line. `label` says whether a label behind the line is made for it. -/
structure Line (target : Nat) (c : Option Cond) (f : Form Tree) (known label : Bool) (items : List Item) : Prop where
  size : ∀ i ∈ items, i.size = 1
  good : ∀ (fm : FMath) (now : Nat → ASym) (ρ : Den), (∀ p, C.Sound fm wrap now {ρ with pc := p}) → 0 ≤ ρ.pc → ρ.pc < 16777216 →
    (label = true → (Src.sym target).value fm wrap now ρ = some (ρ.pc + items.length)) → ∀ g,
    f.eval (valOf C fm now ρ) = some g → g.fits known (ρ.pc + if label then 2 else 0) = true →
    ∃ bs, bytesAt fm wrap now ρ items = some bs ∧ Meets c g ρ.pc bs
  bad : ∀ (fm : FMath) (now : Nat → ASym) (ρ : Den), (∀ p, C.Sound fm wrap now {ρ with pc := p}) → 0 ≤ ρ.pc → ρ.pc < 16777216 →
    (label = true → (Src.sym target).value fm wrap now ρ = some (ρ.pc + items.length)) →
    (∀ g, f.eval (valOf C fm now ρ) = some g → g.fits known (ρ.pc + if label then 2 else 0) = false) → bytesAt fm wrap now ρ items = none

theorem Sem.line {f : Form Tree} {k : Bool} {items : List Item} (h : Sem C f k items) (target : Nat) : Line C target none f k false items where
  size := h.size
  good fm now ρ hS h0 h1 _ g hg hf := h.good fm now ρ (hS ρ.pc) h0 (by omega) g hg (by rw [show (if false = true then (2 : Int) else 0) = 0 from rfl, Int.add_zero] at hf; exact hf)
  bad fm now ρ hS h0 h1 _ hg := h.bad fm now ρ (hS ρ.pc) h0 (by omega) fun g e => by
    have := hg g e
    rw [show (if false = true then (2 : Int) else 0) = 0 from rfl, Int.add_zero] at this
    exact this

/-- The number of bytes. -/
theorem bytes_length (fm : FMath) (now : Nat → ASym) : ∀ (items : List Item) (ρ : Den) (bs : List Nat), (∀ i ∈ items, i.size = 1) →
    bytesAt fm wrap now ρ items = some bs → bs.length = items.length
  | [], ρ, bs, _, h => by cases h; rfl
  | i :: is, ρ, bs, hs, h => by
    rw [bytesAt] at h
    obtain ⟨c, _, h⟩ := Option.bind_eq_some_iff.1 h
    obtain ⟨bs', h', rfl⟩ := Option.map_eq_some_iff.1 h
    rw [List.length_append, bytes_length fm now is _ bs' (fun j hj => hs j (List.mem_cons_of_mem _ hj)) h', hs i (List.mem_cons_self ..),
      List.length_cons, show (X65.le 1 c).length = 1 from rfl]
    omega

theorem signed_small {n : Nat} (h : n < 128) : signed n = n := if_pos h

theorem decode_cond (c : Cond) (a : Word) (n : Nat) : decode a (0x90 + c.n) n = some (2, .jc (some c) ((a.toNat : Int) + 1 + signed n)) := by
  cases c <;> rfl

/-- An instruction that is jumped over if the condition does not hold. -/
theorem Meets.over {c : Cond} {g : Form Int} {pc : Int} {bs : List Nat} (hb : bs.length ≤ 100) (h : Meets none g (pc + 2) bs) :
    Meets (some c) g pc ((0x90 + c.inv.n) :: (bs.length + 1) :: bs) := by
  intro cpu s hl
  obtain ⟨h1, h2⟩ := Loaded.append (bs := [0x90 + c.inv.n, bs.length + 1]) (cs := bs) hl
  have hs := step2 h1 (by cases c <;> decide) (by omega) s _ (decode_cond c.inv (wordOf pc) (bs.length + 1))
  have hn : pc + (((0x90 + c.inv.n) :: (bs.length + 1) :: bs).length : Nat) = pc + 2 + bs.length := by
    simp only [List.length_cons]; omega
  rw [hn]
  have ht : wordOf (((wordOf pc).toNat : Int) + 1 + signed (bs.length + 1)) = wordOf (pc + 2 + bs.length) := by
    rw [wordOf_eq, signed_small (by omega), wordOf_toNat]; omega
  have h3 : wordOf pc + 2 = wordOf (pc + 2) := wordOf_add pc 2
  simp only [goto, cpu.inverse, ht, h3] at hs
  show Runs cpu _ (if cpu.holds c (s.reg .f) = true then _ else _)
  cases hc : cpu.holds c (s.reg .f) with
  | true =>
    simp only [hc, Bool.not_true, Bool.false_eq_true, if_false, Option.getD_none] at hs
    refine .step hs ?_
    rw [if_pos rfl]
    have := h cpu s (by
      rw [← h3]; exact h2)
    exact this
  | false =>
    simp only [hc, Bool.not_false, if_true, Option.getD_some] at hs
    rw [if_neg (by decide)]
    exact .one hs

theorem sym_pc (fm : FMath) (now : Nat → ASym) (ρ : Den) (n : Nat) (p : Int) :
    (Src.sym n).value fm wrap now {ρ with pc := p} = (Src.sym n).value fm wrap now ρ := rfl

theorem bytes_over (fm : FMath) (now : Nat → ASym) (ρ : Den) (h0 : 0 ≤ ρ.pc) (h1 : ρ.pc < 16777216) (target op : Nat) (ho : op < 256)
    (items : List Item) (hn : items.length ≤ 100) (ht : (Src.sym target).value fm wrap now ρ = some (ρ.pc + (items.length + 2 : Nat))) :
    bytesAt fm wrap now ρ (byte op :: .expr 1 (checkRange (.pcRel 0 (.sym target)) (-128) 127) :: items) =
      (bytesAt fm wrap now {ρ with pc := ρ.pc + 2} items).map fun bs => op :: (items.length + 1) :: bs := by
  rw [bytes_byte fm now ρ ho, bytes_expr, value_here fm now {ρ with pc := ρ.pc + 1} _ (by show 0 ≤ ρ.pc + 1; omega) (by show ρ.pc + 1 < _; omega),
    sym_pc, ht, Option.bind_some, if_pos (by show -128 ≤ ρ.pc + _ - (ρ.pc + 1) ∧ ρ.pc + _ - (ρ.pc + 1) ≤ 127; omega), Option.bind_some]
  show Option.map _ (Option.map _ (bytesAt fm wrap now {ρ with pc := ρ.pc + 1 + 1} items)) = _
  rw [show ρ.pc + 1 + 1 = ρ.pc + 2 from by omega, Option.map_map,
    show ((ρ.pc + ((items.length + 2 : Nat) : Int) - (ρ.pc + 1)) % 256).toNat = items.length + 1 from by omega]
  rfl

theorem eval_pc (fm : FMath) (now : Nat → ASym) (ρ : Den) (f : Form Tree) (p : Int) :
    f.eval (valOf C fm now {ρ with pc := p}) = f.eval (valOf C fm now ρ) := by
  unfold Form.eval
  split
  · rfl
  · rw [val_pc]

theorem Sem.over {f : Form Tree} {k : Bool} {items : List Item} (h : Sem C f k items) (target : Nat) (c : Cond) :
    Line C target (some c) f k true (byte (0x90 + c.inv.n) :: .expr 1 (checkRange (.pcRel 0 (.sym target)) (-128) 127) :: items) where
  size i hi := by
    simp only [List.mem_cons] at hi
    rcases hi with rfl | rfl | hi
    · rfl
    · rfl
    · exact h.size i hi
  good fm now ρ hS h0 h1 hl g hg hf := by
    rw [if_pos rfl] at hf
    obtain ⟨bs, hb, hm⟩ := h.good fm now {ρ with pc := ρ.pc + 2} (hS _) (by show 0 ≤ ρ.pc + 2; omega) (by show ρ.pc + 2 < _; omega) g
      (by rw [eval_pc]; exact hg) hf
    have hn := bytes_length fm now items _ bs h.size hb
    refine ⟨_, by rw [bytes_over fm now ρ h0 h1 target _ (by cases c <;> decide) items h.short (hl rfl), hb]; rfl, ?_⟩
    rw [← hn]
    exact Meets.over (hn ▸ h.short) hm
  bad fm now ρ hS h0 h1 hl hg := by
    rw [bytes_over fm now ρ h0 h1 target _ (by cases c <;> decide) items h.short (hl rfl),
      h.bad fm now {ρ with pc := ρ.pc + 2} (hS _) (by show 0 ≤ ρ.pc + 2; omega) (by show ρ.pc + 2 < _; omega) fun g e => by
        rw [eval_pc] at e
        have := hg g e
        rw [if_pos rfl] at this
        exact this]
    rfl

end Verif.Cpu.Rc8
