import Verif.Parse.Props
import Verif.Expr.AsmProps
/-!
# Instructions: what the parsers of all processors have in common

The parsers of instructions read operands with the parser of expressions and put numbers and expressions into the current
section. An expression is represented by the calls that make it (`Src`); what becomes of it is the subject of C14.
-/
namespace Verif.Cpu

open Verif.Parse
open Verif.Expr (BinOp UnOp Src FMath ASym Den Rng AExpr I32 u32 toI32 meaning inRange inRange_some value_bin)

/-- The calls that the parser of expressions makes (xasm/motor/expression.c 57-315), written down. -/
def srcAlg (ids : List Char → Nat) (here : Nat) : Alg Src where
  num v := .num v
  sym name := .ok (some (.sym (ids name)))
  pc := .ok (some (.sym here))
  paren s := .ok (some (.parens s))
  bin o a b := .ok (some (.bin o a b))
  un f a := .ok (some (.un f a))

/-- Where an instruction is read: the numbers of the symbols, the label that is made for the program counter, and the values
of the expressions that are constant when they are read (`expr_IsConstant`, `value.integer`). -/
structure Ctx where
  ids : List Char → Nat
  here : Nat
  known : Src → Option Int

/-- `parse_Expression` (xasm/motor/parse_expression.c 654-657). -/
def expr (C : Ctx) (max : Nat) (toks : Toks) : Outcome (Option Src × Toks) := parseExpr (srcAlg C.ids C.here) max toks

/-- `parse_ExpectChar` with a comma, `parse_ExpectComma` (xasm/motor/parse.c 122-131). The error that is reported is a failure. -/
def comma : Toks → Outcome Toks
  | .comma :: rest => .ok rest
  | _ => .fail

/-- What is put into the section: a number or the value of an expression, and the number of bytes
(`sect_OutputConst16`, `sect_OutputExpr16` and so on, xasm/motor/section.c 207-435). -/
inductive Item where
  | const (n : Nat) (v : Nat)
  | expr (n : Nat) (s : Src)
  deriving DecidableEq

/-- `expr_CheckRange` (xasm/motor/expression.c 357-368). -/
def checkRange (s : Src) (low high : Int) : Src := s.checkRange low high

/-! ### Specification -/

/-- The number that is in the section in the end, the lower bytes of the value of the expression. -/
def Item.code (fm : FMath) (R : Rng) (now : Nat → ASym) (ρ : Den) : Item → Option Nat
  | .const n v => some (v % 256 ^ n)
  | .expr n s => (s.value fm R now ρ).map fun v => u32 v % 256 ^ n

/-- The number of bytes. -/
def Item.size : Item → Nat
  | .const n _ => n
  | .expr n _ => n

/-- The numbers of several items; they exist if all have one. -/
def codes (fm : FMath) (R : Rng) (now : Nat → ASym) (ρ : Den) : List Item → Option (List Nat)
  | [] => some []
  | i :: is => do
    let a ← i.code fm R now ρ
    let as ← codes fm R now ρ is
    some (a :: as)

/-- An expression with the necessary parentheses, in which strings are not compared. -/
structure Readable (max : Nat) (t : Tree) : Prop where
  fits : t.Fits opLevel 1 6
  nots : t.Nots
  leads : t.leads = false
  short : t.Short max
  strings : t.Plain ∨ t.Calm

/-- What may follow an operand: the end, a comma, a closing parenthesis or a token that is not part of expressions. -/
def Ends (rest : Toks) : Prop := ∀ x, rest.head? = some x → x = .comma ∨ x = .rp ∨ ∃ n, x = .other n

theorem Ends.stops {rest : Toks} (h : Ends rest) : Stops 0 rest := by
  intro o ho
  rcases h _ ho with h | h | ⟨n, h⟩ <;> cases h

theorem Ends.noDot {rest : Toks} (h : Ends rest) : NoDot rest := by
  intro w hw
  rcases h _ hw with h | h | ⟨n, h⟩ <;> cases h

theorem Ends.comma (rest : Toks) : Ends (.comma :: rest) := fun x hx => by
  simp only [List.head?_cons, Option.some.injEq] at hx; exact Or.inl hx.symm

theorem Ends.rp (rest : Toks) : Ends (.rp :: rest) := fun x hx => by
  simp only [List.head?_cons, Option.some.injEq] at hx; exact Or.inr (Or.inl hx.symm)

theorem Ends.other (n : Nat) (rest : Toks) : Ends (.other n :: rest) := fun x hx => by
  simp only [List.head?_cons, Option.some.injEq] at hx; exact Or.inr (Or.inr ⟨n, hx.symm⟩)

theorem value_src (ids : List Char → Nat) (here : Nat) (t : Tree) : t.value (srcAlg ids here) = some (t.src ids here) := by
  induction t with
  | num v => rfl
  | chars s => rfl
  | sym name => rfl
  | pc s => rfl
  | paren t ih => simp only [Tree.value, ih, Option.bind_some]; rfl
  | bin o l r ihl ihr => simp only [Tree.value, ihl, ihr, Option.bind_some]; rfl
  | neg t ih => simp only [Tree.value, ih, Option.bind_some]; rfl
  | plus t ih => simp only [Tree.value, ih]; rfl
  | cpl t ih => simp only [Tree.value, ih, Option.bind_some]; rfl
  | not t ih => simp only [Tree.value, ih, Option.bind_some]; rfl
  | notIn t ih => simp only [Tree.value, ih, Option.bind_some]; rfl
  | fn f t ih => simp only [Tree.value, ih, Option.bind_some]; rfl
  | atan2 l r ihl ihr => simp only [Tree.value, ihl, ihr, Option.bind_some]; rfl

/-- The expression that an operand stands for. -/
abbrev Ctx.src (C : Ctx) (t : Tree) : Src := t.src C.ids C.here

theorem expr_reads (C : Ctx) {max : Nat} {t : Tree} (h : Readable max t) {rest : Toks} (he : Ends rest) :
    expr C max (t.toks ++ rest) = .ok (some (C.src t), rest) := by
  unfold expr
  rcases h.strings with hp | hc
  · exact C37_without_strings _ max t rest _ h.fits h.nots h.leads hp (Or.inl he.stops) (value_src _ _ t)
  · exact C37_characters _ max t rest _ h.fits h.nots h.leads hc h.short he.stops he.noDot (value_src _ _ t)

/-- Before a `+` that is followed by a register. -/
theorem expr_reads_plus (C : Ctx) {max : Nat} {t : Tree} (h : Readable max t) (hp : t.Plain) (n : Nat) (rest : Toks) :
    expr C max (t.toks ++ .op .add :: .other n :: rest) = .ok (some (C.src t), .op .add :: .other n :: rest) :=
  C37_without_strings _ max t _ _ h.fits h.nots h.leads hp (Or.inr ⟨n, rest, rfl⟩) (value_src _ _ t)

/-- What is known is the value: what C14 says about an expression whose value is known when it is read. -/
def Ctx.Sound (C : Ctx) (fm : FMath) (R : Rng) (now : Nat → ASym) (ρ : Den) : Prop :=
  ∀ s v, C.known s = some v → s.value fm R now ρ = some v

/-- The first token of an expression. -/
inductive Begins : Tok → Prop
  | num (v : Int) : Begins (.num v)
  | str (s : List Char) : Begins (.str s)
  | sym (s : List Char) : Begins (.sym s)
  | op (o : BinOp) : Begins (.op o)
  | cpl : Begins .cpl
  | not : Begins .not
  | lp : Begins .lp
  | at : Begins .at
  | fn (f : UnOp) : Begins (.fn f)
  | atan2 : Begins .atan2

theorem toks_cons (t : Tree) : ∃ x xs, t.toks = x :: xs ∧ Begins x := by
  induction t with
  | num v => exact ⟨_, _, rfl, .num v⟩
  | chars s => exact ⟨_, _, rfl, .str s⟩
  | sym name => exact ⟨_, _, rfl, .sym name⟩
  | pc s => cases s with
    | true => exact ⟨_, _, rfl, .op _⟩
    | false => exact ⟨_, _, rfl, .at⟩
  | paren t ih => exact ⟨_, _, rfl, .lp⟩
  | bin o l r ihl ihr =>
    obtain ⟨x, xs, h, hb⟩ := ihl
    exact ⟨x, xs ++ .op o :: r.toks, by simp [Tree.toks, h], hb⟩
  | neg t ih => exact ⟨_, _, rfl, .op _⟩
  | plus t ih => exact ⟨_, _, rfl, .op _⟩
  | cpl t ih => exact ⟨_, _, rfl, .cpl⟩
  | not t ih => exact ⟨_, _, rfl, .not⟩
  | notIn t ih => exact ⟨_, _, rfl, .not⟩
  | fn f t ih => exact ⟨_, _, rfl, .fn f⟩
  | atan2 l r ihl ihr => exact ⟨_, _, rfl, .atan2⟩

/-! ### Values of the expressions that the parsers of instructions make -/

section

variable (fm : FMath) (R : Rng) (now : Nat → ASym) (ρ : Den)

theorem src_value_range (s : Src) : ∀ {v : Int}, s.value fm R now ρ = some v → I32 v := by
  induction s with
  | num v => intro w h; exact (inRange_some.1 h).2
  | sym s =>
    intro w h
    unfold Src.value at h
    split at h
    · exact (inRange_some.1 h).2
    · obtain ⟨a, _, h⟩ := Option.bind_eq_some_iff.1 h; exact (inRange_some.1 h).2
  | bank s => intro w h; obtain ⟨a, _, h⟩ := Option.bind_eq_some_iff.1 h; exact (inRange_some.1 h).2
  | pcRel adj e ih =>
    intro w h
    rw [Expr.value_pcRel] at h
    obtain ⟨a, ha, h⟩ := Option.bind_eq_some_iff.1 h
    obtain ⟨t, ht, h⟩ := Option.bind_eq_some_iff.1 h
    obtain ⟨d, hd, h⟩ := Option.bind_eq_some_iff.1 h
    exact R.range _ _ h
  | parens e ih => intro w h; exact ih h
  | bin op l r ihl ihr =>
    intro w h
    rw [value_bin] at h
    obtain ⟨a, ha, h⟩ := Option.bind_eq_some_iff.1 h
    obtain ⟨b, hb, h⟩ := Option.bind_eq_some_iff.1 h
    obtain ⟨t, ht, h⟩ := Option.bind_eq_some_iff.1 h
    exact R.range _ _ h
  | un op e ih =>
    intro w h
    obtain ⟨a, ha, h⟩ := Option.bind_eq_some_iff.1 h
    cases h; exact Expr.meaningUn_range _ _ _
  | bit e ih =>
    intro w h
    obtain ⟨a, ha, h⟩ := Option.bind_eq_some_iff.1 h
    have := Expr.bitOf_range h; unfold I32; omega

theorem value_num {v : Int} (h : I32 v) : (Src.num v).value fm R now ρ = some v := inRange_some.2 ⟨rfl, h⟩

/-- The value within limits. -/
theorem value_checkRange (s : Src) (lo hi : Int) (hlo : I32 lo) (hhi : I32 hi) :
    (checkRange s lo hi).value fm R now ρ =
      (s.value fm R now ρ).bind fun a => if lo ≤ a ∧ a ≤ hi then some a else none := by
  unfold checkRange Src.checkRange
  rw [value_bin, value_bin, value_num fm R now ρ hlo, value_num fm R now ρ hhi]
  cases h : s.value fm R now ρ with
  | none => rfl
  | some a =>
    have ha := src_value_range fm R now ρ s h
    simp only [Option.bind_some, meaning]
    by_cases h1 : lo ≤ a
    · simp only [if_pos h1, Option.bind_some, R.keep a ha]
      by_cases h2 : a ≤ hi
      · simp only [if_pos h2, Option.bind_some, R.keep a ha, if_pos (And.intro h1 h2)]
      · simp only [if_neg h2, Option.bind_none, if_neg (fun h : lo ≤ a ∧ a ≤ hi => h2 h.2)]
    · simp only [if_neg h1, Option.bind_none, if_neg (fun h : lo ≤ a ∧ a ≤ hi => h1 h.1)]

theorem u32_of_nonneg {v : Int} (h : 0 ≤ v) (h' : v < 4294967296) : u32 v = v.toNat := by
  unfold u32; rw [Int.emod_eq_of_lt h h']

/-- The lower bits of a value. -/
theorem value_mask (s : Src) (k : Nat) (hk : k ≤ 30) :
    (Src.bin .and s (.num (2 ^ k - 1 : Nat))).value fm R now ρ =
      (s.value fm R now ρ).map fun (a : Int) => a % ((2 ^ k : Nat) : Int) := by
  have hpow : 2 ^ k ≤ 2 ^ 30 := Nat.pow_le_pow_right (by decide) hk
  have hp : 0 < 2 ^ k := Nat.two_pow_pos k
  rw [value_bin, value_num fm R now ρ (v := ((2 ^ k - 1 : Nat) : Int)) (by unfold I32; omega)]
  cases h : s.value fm R now ρ with
  | none => rfl
  | some a =>
    have hu : u32 ((2 ^ k - 1 : Nat) : Int) = 2 ^ k - 1 := by
      rw [u32_of_nonneg (by omega) (by omega), Int.toNat_natCast]
    have he : meaning fm .and a ((2 ^ k - 1 : Nat) : Int) = some (a % (2 ^ k : Nat)) := by
      show some _ = some _
      rw [Expr.and_eq, hu, Nat.and_two_pow_sub_one_eq_mod]
      have hm : ((u32 a % 2 ^ k : Nat) : Int) = a % (2 ^ k : Nat) := by
        rw [Int.natCast_emod, Expr.u32_cast]
        have hd : ((2 ^ k : Nat) : Int) ∣ 4294967296 := by
          have : (2 ^ k : Nat) ∣ 2 ^ 32 := Nat.pow_dvd_pow 2 (by omega)
          exact Int.natCast_dvd_natCast.2 this
        exact Int.emod_emod_of_dvd a hd
      rw [hm, Expr.toI32_of]
      have h0 : (0 : Int) ≤ a % (2 ^ k : Nat) := Int.emod_nonneg _ (by omega)
      have h1 : a % (2 ^ k : Nat) < (2 ^ k : Nat) := Int.emod_lt_of_pos _ (by omega)
      unfold I32; omega
    have h0 : (0 : Int) ≤ a % (2 ^ k : Nat) := Int.emod_nonneg _ (by omega)
    have h1 : a % (2 ^ k : Nat) < (2 ^ k : Nat) := Int.emod_lt_of_pos _ (by omega)
    simp only [Option.bind_some, he, Option.map_some]
    exact R.keep _ (by unfold I32; omega)

/-- A field that is inserted below the bits of an opcode. -/
theorem value_insert (s : Src) (k a : Nat) (hk : 2 ^ k * a < 2 ^ 30) (hs : 2 ^ k ≤ 2 ^ 30)
    (hv : ∀ v, s.value fm R now ρ = some v → 0 ≤ v ∧ v < (2 ^ k : Nat)) :
    (Src.bin .or (.num (2 ^ k * a : Nat)) s).value fm R now ρ =
      (s.value fm R now ρ).map fun (v : Int) => ((2 ^ k * a : Nat) : Int) + v := by
  rw [value_bin, value_num fm R now ρ (v := ((2 ^ k * a : Nat) : Int)) (by unfold I32; omega)]
  cases h : s.value fm R now ρ with
  | none => rfl
  | some v =>
    obtain ⟨h0, h1⟩ := hv v h
    have e1 : u32 ((2 ^ k * a : Nat) : Int) = 2 ^ k * a := by rw [u32_of_nonneg (by omega) (by omega), Int.toNat_natCast]
    have e2 : u32 v = v.toNat := u32_of_nonneg h0 (by omega)
    have e3 : 2 ^ k * a ||| v.toNat = 2 ^ k * a + v.toNat := (Nat.two_pow_add_eq_or_of_lt (by omega) a).symm
    have he : meaning fm .or ((2 ^ k * a : Nat) : Int) v = some (((2 ^ k * a + v.toNat : Nat)) : Int) := by
      show some _ = some _
      rw [Expr.or_eq, e1, e2, e3, Expr.toI32_of]
      unfold I32; omega
    simp only [Option.bind_some, he, Option.map_some]
    rw [R.keep _ (by unfold I32; omega)]
    congr 1; omega

end

open Verif.Expr (Asm Site Here Env Entry Setting compile writeExpr calculate SameDen wrap) in
/-- What C14 says about items: a value that the assembler knows is the number in the section. -/
theorem code_known (fm : FMath) {A : Asm} {base : Nat → Int} {ρ : Den} {now : Nat → ASym} {here : Here} {p : Site}
    (S : Setting A base ρ now here p) (junk : AExpr → Bool) (n : Nat) (s : Src) (hs : s.Ok) (hpc : s.PcOk) (v : Int)
    (h : compile fm now junk here A p s = .ok (.inl v)) :
    (Item.expr n s).code fm wrap now ρ = some (u32 v % 256 ^ n) := by
  show (s.value fm wrap now ρ).map _ = _
  rw [(Expr.C14_value_known fm S junk s hs hpc v h).1]; rfl

open Verif.Expr (Asm Site Here Env Entry Setting compile writeExpr calculate SameDen wrap) in
/-- … and so is a value that the linker calculates. -/
theorem code_linked (fm : FMath) {A : Asm} {base : Nat → Int} {ρ : Den} {now : Nat → ASym} {here : Here} {p : Site}
    (S : Setting A base ρ now here p) (junk : AExpr → Bool) (n : Nat) (s : Src) (hs : s.Ok) (hpc : s.PcOk) (e' : AExpr)
    (h : compile fm now junk here A p s = .ok (.inr e')) (ids : Nat → Nat) (hids : ∀ s, ids s < 4294967296)
    (bytes : Bytes) (hw : writeExpr ids e' = some bytes) (env : Env) (ρ' : Den) (henv : env.Places ρ')
    (hsame : SameDen ids ρ ρ') (x : Entry) (hx : calculate fm env bytes = .ok (some x)) :
    (Item.expr n s).code fm wrap now ρ = some (u32 x.value % 256 ^ n) := by
  show (s.value fm wrap now ρ).map _ = _
  rw [(Expr.C14_value_linked fm S junk s hs hpc e' h ids hids bytes hw env ρ' henv hsame x hx).2.1]; rfl

end Verif.Cpu
