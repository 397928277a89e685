import Verif.Parse.Converse
import Verif.Expr.LinkProps
/-!
# Properties of the expression parser
-/
namespace Verif.Parse

open Verif.Expr (BinOp UnOp Src FMath ASym AExpr Here mkBin mkUn mkSym mkParens build meaning meaningUn fm0)

section

variable {β : Type} (alg : Alg β) (max : Nat)

/-- **C37.** An expression that has the parentheses that the precedence and the associativity of the operators need is
read as it is written: the calls for its operators are made from the inside to the outside, with the operands that belong
to them, up to a token that cannot be part of the expression (`Halts`). The precedence is `opLevel`; all operators associate
to the left. Strings must not be compared where an operand
begins (`Quiet`). -/
theorem C37_reads (t : Tree) (rest : Toks) (v : β) (hf : t.Fits opLevel 1 6) (hn : t.Nots) (hl : t.leads = false)
    (hsh : t.Short max) (hq : t.Quiet rest) (hs : Halts 0 rest) (hv : t.value alg = some v) :
    parseExpr alg max (t.toks ++ rest) = .ok (some v, rest) :=
  expr_of_reads alg max (reads alg max t hf hn hsh 0 (Nat.zero_le _)) hl hv hq (by omega) hs

/-- **C37, the converse.** If there are no strings, whatever the parser accepts is such an expression, and the result is
that of the expression. -/
theorem C37_only (toks rest : Toks) (v : β) (hs : StringFree toks) (h : parseExpr alg max toks = .ok (some v, rest)) :
    ∃ t : Tree, toks = t.toks ++ rest ∧ t.Fits opLevel 1 6 ∧ t.Nots ∧ t.leads = false ∧ t.Plain ∧ t.value alg = some v := by
  obtain ⟨t, ht⟩ := expr_sound alg max _ _ _ _ hs h
  exact ⟨t, ht.toks, ht.fits, ht.nots, ht.leads (by omega), ht.plain, ht.value⟩

theorem short_plain (t : Tree) (h : t.Plain) : t.Short max := by
  induction t with
  | chars s => exact h.elim
  | bin o l r ihl ihr => exact ⟨ihl h.1, ihr h.2⟩
  | atan2 l r ihl ihr => exact ⟨ihl h.1, ihr h.2⟩
  | num _ => trivial
  | sym _ => trivial
  | pc _ => trivial
  | paren t ih => exact ih h
  | neg t ih => exact ih h
  | plus t ih => exact ih h
  | cpl t ih => exact ih h
  | not t ih => exact ih h
  | notIn t ih => exact ih h
  | fn f t ih => exact ih h

/-- **C37 without character constants**: no condition on strings is left. -/
theorem C37_without_strings (t : Tree) (rest : Toks) (v : β) (hf : t.Fits opLevel 1 6) (hn : t.Nots) (hl : t.leads = false)
    (hp : t.Plain) (hs : Halts 0 rest) (hv : t.value alg = some v) :
    parseExpr alg max (t.toks ++ rest) = .ok (some v, rest) :=
  C37_reads alg max t rest v hf hn hl (short_plain max t hp) (quiet_plain t rest hp) hs hv

/-- **C37 with character constants**, but without comparisons and without `+` in front of operands. -/
theorem C37_characters (t : Tree) (rest : Toks) (v : β) (hf : t.Fits opLevel 1 6) (hn : t.Nots) (hl : t.leads = false)
    (hc : t.Calm) (hsh : t.Short max) (hs : Stops 0 rest) (hd : NoDot rest) (hv : t.value alg = some v) :
    parseExpr alg max (t.toks ++ rest) = .ok (some v, rest) :=
  C37_reads alg max t rest v hf hn hl hsh (quiet_calm t rest hc hs hd) (Or.inl hs) hv

end

/-! ### Comparing strings -/

theorem strCompare_iff (o : BinOp) (s t : List Char) : strCompare o s t = true ↔ StrHolds o s t := by
  have hle : ¬ t < s ↔ (s < t ∨ s = t) := by
    rw [List.not_lt]
    constructor
    · intro h
      by_cases hlt : s < t
      · exact Or.inl hlt
      · exact Or.inr (List.le_antisymm h (List.not_lt.1 hlt))
    · rintro (h | h)
      · exact List.le_of_lt h
      · rw [h]; exact List.le_refl _
  have hge : ¬ s < t ↔ (t < s ∨ s = t) := by
    rw [List.not_lt]
    constructor
    · intro h
      by_cases hlt : t < s
      · exact Or.inl hlt
      · exact Or.inr (List.le_antisymm (List.not_lt.1 hlt) h)
    · rintro (h | h)
      · exact List.le_of_lt h
      · rw [h]; exact List.le_refl _
  cases o <;> simp only [strCompare, StrHolds, bne_iff_ne, beq_iff_eq, decide_eq_true_eq, Bool.not_eq_true', decide_eq_false_iff_not,
    Bool.false_eq_true, ne_eq, hle, hge]

/-- **C37, strings**: a comparison of two strings is 1 if it is true of them and 0 if it is not. -/
theorem C37_strings_compared {β : Type} (alg : Alg β) (max : Nat) (o : BinOp) (s t : List Char) (rest : Toks) (ho : isCmp o = true)
    (hs : Stops 0 rest) (hd : NoDot rest) :
    ∃ b : Bool, parseExpr alg max (.str s :: .op o :: .str t :: rest) = .ok (some (alg.num (if b then 1 else 0)), rest) ∧
      (b = true ↔ StrHolds o s t) := by
  refine ⟨strCompare o s t, ?_, strCompare_iff o s t⟩
  have h1 : ∀ n, strExpr (n + 1) (.str s :: .op o :: .str t :: rest) = .ok (some s, .op o :: .str t :: rest) := by
    intro n
    cases o <;> simp [isCmp] at ho <;> rfl
  have hadd : rest.head? ≠ some (.op .add) := fun h => absurd (hs _ h 3 rfl) (by omega)
  have h2 : ∀ n, strExpr (n + 1) (.str t :: rest) = .ok (some t, rest) := by
    intro n
    unfold strExpr
    have : strPri (strExpr n) (.str t :: rest) = .ok (some t, rest) := by
      unfold strPri
      split
      · rename_i heq
        simp only [List.cons.injEq] at heq
        exact absurd (by rw [heq.2]; rfl) (hd _)
      all_goals simp_all
    rw [this, ok_bind]
    exact strLoop_other _ _ _ _ (by omega) hadd
  have h8 : ∀ e0, prio8 alg max e0 (.str s :: .op o :: .str t :: rest) =
      .ok (some (alg.num (if strCompare o s t then 1 else 0)), rest) := by
    intro e0
    unfold prio8
    rw [h1, ok_bind]
    show (if isCmp o then _ else _) = _
    rw [if_pos ho, h2]
    rfl
  generalize (if strCompare o s t then (1 : Int) else 0) = v at h8
  have key : ∀ d k, k + d = 7 → ∀ f, 0 < f → «at» alg max (expr alg max (rest.length + 3)) (rest.length + 4) f k
      (.str s :: .op o :: .str t :: rest) = .ok (some (alg.num v), rest) := by
    intro d
    induction d with
    | zero => intro k hk f _; cases hk; exact h8 _
    | succ d ih =>
      intro k hk f hf
      rw [Parse.down alg max _ _ f k (some (alg.num v)) _ rest (by omega) hf (fun _ => by simp)
        (fun _ c hc => by simp at hc; subst hc; rfl) (fun f' hf' => ih (k + 1) (by omega) f' (by omega)) (by simp)]
      exact loopAt_stops alg max _ _ _ _ _ _ (by omega) (fun o ho j hj => absurd (hs o ho j hj) (by omega))
  exact key 7 0 rfl 1 (by omega)

example : ∃ b : Bool, parseExpr (⟨fun v => v, fun _ => .fail, .fail, fun _ => .fail, fun _ _ _ => .fail, fun _ _ => .fail⟩ : Alg Int) 4
    [.str "AB".toList, .op .le, .str "B".toList] = .ok (some (if b then 1 else 0), []) ∧ (b = true ↔ StrHolds .le "AB".toList "B".toList) :=
  C37_strings_compared _ 4 .le _ _ [] rfl (fun _ h => absurd h (by simp)) (fun _ => by simp)

/-! ### Printing with the necessary parentheses -/

/-- Parentheses, if they are needed. -/
def guardIf (b : Bool) (t : Tree) : Tree := if b then .paren t else t

/-- Adds the parentheses that are needed. -/
def Tree.protect : Tree → Tree
  | bin o l r =>
    let k := (opLevel o).getD 0
    .bin o (guardIf (decide (l.protect.CodeLevel < k)) l.protect) (guardIf (decide (r.protect.CodeLevel ≤ k)) r.protect)
  | neg t => .neg (guardIf (decide (t.protect.CodeLevel < 6)) t.protect)
  | plus t => .plus (guardIf (decide (t.protect.CodeLevel < 6)) t.protect)
  | cpl t => .cpl (guardIf (decide (t.protect.CodeLevel < 6)) t.protect)
  | not t => .not (guardIf (decide (t.protect.CodeLevel < 1)) t.protect)
  | notIn t => .not (guardIf (decide (t.protect.CodeLevel < 1)) t.protect)
  | paren t => .paren t.protect
  | fn f t => .fn f t.protect
  | atan2 a b => .atan2 a.protect b.protect
  | t => t

/-- The operators with two operands are those of the language. -/
def Tree.Infix : Tree → Prop
  | num _ | chars _ | sym _ | pc _ => True
  | bin o l r => (opLevel o).isSome ∧ l.Infix ∧ r.Infix
  | atan2 a b => a.Infix ∧ b.Infix
  | paren t | neg t | plus t | cpl t | not t | notIn t | fn _ t => t.Infix

theorem guardIf_level (b : Bool) (t : Tree) (k : Nat) (hk : k ≤ 7) (h : b = false → k ≤ t.CodeLevel) : k ≤ (guardIf b t).CodeLevel := by
  cases b with
  | true => exact hk
  | false => exact h rfl

theorem guardIf_fits (b : Bool) (t : Tree) (h : t.Fits opLevel 1 6) : (guardIf b t).Fits opLevel 1 6 := by
  cases b <;> exact h

theorem guardIf_leads (b : Bool) (t : Tree) (h : t.leads = false) : (guardIf b t).leads = false := by
  cases b
  · exact h
  · rfl

theorem guardIf_nots (b : Bool) (t : Tree) (h : t.Nots) (hl : t.leads = false) : (guardIf b t).Nots := by
  cases b
  · exact h
  · exact ⟨hl, h⟩

theorem guardIf_plain (b : Bool) (t : Tree) (h : t.Plain) : (guardIf b t).Plain := by
  cases b <;> exact h

theorem protect_leads (t : Tree) : t.protect.leads = false := by
  induction t with
  | bin o l r ihl _ => exact guardIf_leads _ _ ihl
  | _ => rfl

theorem protect_fits (t : Tree) (h : t.Infix) : t.protect.Fits opLevel 1 6 := by
  induction t with
  | bin o l r ihl ihr =>
    obtain ⟨ho, hl, hr⟩ := h
    obtain ⟨k, hk⟩ := Option.isSome_iff_exists.1 ho
    have hk5 := opLevel_le o k hk
    refine ⟨⟨k, hk, ?_, ?_⟩, guardIf_fits _ _ (ihl hl), guardIf_fits _ _ (ihr hr)⟩
    · refine guardIf_level _ _ k (by omega) fun hb => ?_
      simp only [hk, Option.getD_some, decide_eq_false_iff_not] at hb
      omega
    · refine guardIf_level _ _ (k + 1) (by omega) fun hb => ?_
      simp only [hk, Option.getD_some, decide_eq_false_iff_not] at hb
      omega
  | neg t ih => exact ⟨guardIf_level _ _ 6 (by omega) fun hb => by simp only [decide_eq_false_iff_not] at hb; omega, guardIf_fits _ _ (ih h)⟩
  | plus t ih => exact ⟨guardIf_level _ _ 6 (by omega) fun hb => by simp only [decide_eq_false_iff_not] at hb; omega, guardIf_fits _ _ (ih h)⟩
  | cpl t ih => exact ⟨guardIf_level _ _ 6 (by omega) fun hb => by simp only [decide_eq_false_iff_not] at hb; omega, guardIf_fits _ _ (ih h)⟩
  | not t ih => exact ⟨guardIf_level _ _ 1 (by omega) fun hb => by simp only [decide_eq_false_iff_not] at hb; omega, guardIf_fits _ _ (ih h)⟩
  | notIn t ih => exact ⟨guardIf_level _ _ 1 (by omega) fun hb => by simp only [decide_eq_false_iff_not] at hb; omega, guardIf_fits _ _ (ih h)⟩
  | atan2 a b iha ihb => exact ⟨iha h.1, ihb h.2⟩
  | paren t ih => exact ih h
  | fn f t ih => exact ih h
  | _ => trivial

theorem protect_nots (t : Tree) : t.protect.Nots := by
  induction t with
  | bin o l r ihl ihr =>
    exact ⟨fun _ => ⟨guardIf_leads _ _ (protect_leads l), guardIf_leads _ _ (protect_leads r)⟩,
      guardIf_nots _ _ ihl (protect_leads l), guardIf_nots _ _ ihr (protect_leads r)⟩
  | neg t ih => exact guardIf_nots _ _ ih (protect_leads t)
  | plus t ih => exact guardIf_nots _ _ ih (protect_leads t)
  | cpl t ih => exact guardIf_nots _ _ ih (protect_leads t)
  | not t ih => exact ⟨guardIf_leads _ _ (protect_leads t), guardIf_nots _ _ ih (protect_leads t)⟩
  | notIn t ih => exact ⟨guardIf_leads _ _ (protect_leads t), guardIf_nots _ _ ih (protect_leads t)⟩
  | atan2 a b iha ihb => exact ⟨protect_leads a, protect_leads b, iha, ihb⟩
  | paren t ih => exact ⟨protect_leads t, ih⟩
  | fn f t ih => exact ⟨protect_leads t, ih⟩
  | _ => trivial

theorem protect_plain (t : Tree) (h : t.Plain) : t.protect.Plain := by
  induction t with
  | bin o l r ihl ihr => exact ⟨guardIf_plain _ _ (ihl h.1), guardIf_plain _ _ (ihr h.2)⟩
  | atan2 a b iha ihb => exact ⟨iha h.1, ihb h.2⟩
  | neg t ih => exact guardIf_plain _ _ (ih h)
  | plus t ih => exact guardIf_plain _ _ (ih h)
  | cpl t ih => exact guardIf_plain _ _ (ih h)
  | not t ih => exact guardIf_plain _ _ (ih h)
  | notIn t ih => exact guardIf_plain _ _ (ih h)
  | paren t ih => exact ih h
  | fn f t ih => exact ih h
  | num _ => trivial
  | pc _ => trivial
  | chars _ => exact h
  | sym _ => exact h

section

variable {β : Type} (alg : Alg β) (max : Nat)

theorem guardIf_value (hpar : ∀ v, alg.paren v = .ok (some v)) (b : Bool) (t : Tree) : (guardIf b t).value alg = t.value alg := by
  cases b
  · rfl
  · show (t.value alg).bind (fun v => done (alg.paren v)) = _
    cases t.value alg with
    | none => rfl
    | some v => simp only [Option.bind_some, hpar, done]

theorem protect_value (hpar : ∀ v, alg.paren v = .ok (some v)) (t : Tree) : t.protect.value alg = t.value alg := by
  induction t with
  | bin o l r ihl ihr => simp only [Tree.protect, Tree.value, guardIf_value alg hpar, ihl, ihr]
  | atan2 a b iha ihb => simp only [Tree.protect, Tree.value, iha, ihb]
  | num _ => rfl
  | pc _ => rfl
  | chars _ => rfl
  | sym _ => rfl
  | _ => simp only [Tree.protect, Tree.value, guardIf_value alg hpar, *]

/-- **C37, printing and parsing.** Any expression without character constants, printed with the parentheses that it needs,
is parsed again and has the same value. `alg` computes values: parentheses change nothing. -/
theorem C37_print (hpar : ∀ v, alg.paren v = .ok (some v)) (t : Tree) (rest : Toks) (v : β) (hi : t.Infix) (hp : t.Plain)
    (hs : Halts 0 rest) (hv : t.value alg = some v) :
    parseExpr alg max (t.protect.toks ++ rest) = .ok (some v, rest) :=
  C37_without_strings alg max t.protect rest v (protect_fits t hi) (protect_nots t) (protect_leads t) (protect_plain t hp) hs
    ((protect_value alg hpar t).trans hv)

end

/-! ### The documented precedence -/

/-- Where the precedence in the documentation and in the code agree: behind a shift operator there is no multiplication or
division without parentheses, behind `~!` there are no `&&` and `||` without parentheses, and `~!` is only written where it
binds as loosely as it is documented. -/
def Tree.Agrees : Tree → Prop
  | num _ | chars _ | sym _ | pc _ => True
  | bin o l r => (o = .asl ∨ o = .asr → r.DocLevel ≠ 6) ∧ l.Agrees ∧ r.Agrees
  | not t => t.DocLevel ≠ 1 ∧ t.Agrees
  | notIn _ => False
  | atan2 a b => a.Agrees ∧ b.Agrees
  | paren t | neg t | plus t | cpl t | fn _ t => t.Agrees

/-- From the documented precedence to that of the code. -/
def toCode : Nat → Nat
  | 0 => 1
  | 1 => 0
  | 2 => 2
  | 3 => 3
  | 4 => 4
  | 5 => 5
  | 6 => 5
  | 7 => 6
  | _ => 7

theorem toCode_op (o : BinOp) (k : Nat) (h : docLevel o = some k) : opLevel o = some (toCode k) ∧ 1 ≤ k ∧ k ≤ 6 := by
  cases o <;> simp only [docLevel, Option.some.injEq, reduceCtorEq] at h <;> subst h <;> decide

theorem toCode_level (t : Tree) (h : t.Fits docLevel 0 7) : t.level opLevel 1 6 = toCode (t.level docLevel 0 7) := by
  cases t with
  | bin o l r =>
    obtain ⟨⟨k, hk, _⟩, _⟩ := h
    obtain ⟨h1, h2⟩ := toCode_op o k hk
    simp only [Tree.level, hk, h1, Option.getD_some]
  | _ => rfl

theorem toCode_le (a b : Nat) (ha : 1 ≤ a) (hab : a ≤ b) : toCode a ≤ toCode b := by
  unfold toCode
  split <;> split <;> simp_all <;> omega

theorem toCode_lt (a b : Nat) (ha : 1 ≤ a) (ha6 : a ≤ 6) (hab : a < b) (h : a = 5 → b ≠ 6) : toCode a < toCode b := by
  unfold toCode
  split <;> split <;> simp_all <;> omega

theorem agrees_leads (t : Tree) (h : t.Agrees) : t.leads = false := by
  induction t with
  | notIn _ => exact h.elim
  | bin o l r ihl _ => exact ihl h.2.1
  | _ => rfl

theorem agrees_fits (t : Tree) (h : t.Fits docLevel 0 7) (ha : t.Agrees) : t.Fits opLevel 1 6 := by
  induction t with
  | bin o l r ihl ihr =>
    obtain ⟨⟨k, hk, hkl, hkr⟩, hl, hr⟩ := h
    obtain ⟨h1, h2, h3⟩ := toCode_op o k hk
    refine ⟨⟨toCode k, h1, ?_, ?_⟩, ihl hl ha.2.1, ihr hr ha.2.2⟩
    · rw [toCode_level l hl]; exact toCode_le _ _ h2 hkl
    · rw [toCode_level r hr]
      refine toCode_lt _ _ h2 h3 hkr fun h5 => ha.1 ?_
      subst h5
      cases o <;> simp [docLevel] at hk <;> simp
  | not t ih =>
    refine ⟨?_, ih h.2 ha.2⟩
    rw [toCode_level t h.2]
    have := ha.1
    unfold toCode
    split <;> simp_all
  | neg t ih => exact ⟨by rw [toCode_level t h.2]; exact toCode_le 7 _ (by omega) h.1, ih h.2 ha⟩
  | plus t ih => exact ⟨by rw [toCode_level t h.2]; exact toCode_le 7 _ (by omega) h.1, ih h.2 ha⟩
  | cpl t ih => exact ⟨by rw [toCode_level t h.2]; exact toCode_le 7 _ (by omega) h.1, ih h.2 ha⟩
  | notIn t => exact ha.elim
  | paren t ih => exact ih h ha
  | fn f t ih => exact ih h ha
  | atan2 a b iha ihb => exact ⟨iha h.1 ha.1, ihb h.2 ha.2⟩
  | _ => trivial

theorem agrees_nots (t : Tree) (ha : t.Agrees) : t.Nots := by
  induction t with
  | bin o l r ihl ihr => exact ⟨fun _ => ⟨agrees_leads l ha.2.1, agrees_leads r ha.2.2⟩, ihl ha.2.1, ihr ha.2.2⟩
  | not t ih => exact ⟨agrees_leads t ha.2, ih ha.2⟩
  | neg t ih => exact ih ha
  | plus t ih => exact ih ha
  | cpl t ih => exact ih ha
  | notIn t => exact ha.elim
  | paren t ih => exact ⟨agrees_leads t ha, ih ha⟩
  | fn f t ih => exact ⟨agrees_leads t ha, ih ha⟩
  | atan2 a b iha ihb => exact ⟨agrees_leads a ha.1, agrees_leads b ha.2, iha ha.1, ihb ha.2⟩
  | _ => trivial

/-- **C37, the documented precedence** (partly): with the precedence of the documentation, expressions are read as they
are written if they are not of the kinds in which the code and the documentation differ (`Agrees`; see
`C37_shift` and `C37_not`). -/
theorem C37_documented_partial {β : Type} (alg : Alg β) (max : Nat) (t : Tree) (rest : Toks) (v : β) (hf : t.Fits docLevel 0 7)
    (ha : t.Agrees) (hsh : t.Short max) (hq : t.Quiet rest) (hs : Halts 0 rest) (hv : t.value alg = some v) :
    parseExpr alg max (t.toks ++ rest) = .ok (some v, rest) :=
  C37_reads alg max t rest v (agrees_fits t hf ha) (agrees_nots t ha) (agrees_leads t ha) hsh hq hs hv

/-! ### The expressions of the assembler -/

/-- The expression that is written, as in the theorems about expressions (C14); `ids` gives the symbols numbers, `here` is
the label that is made for the program counter. -/
def Tree.src (ids : List Char → Nat) (here : Nat) : Tree → Src
  | num v => .num v
  | chars s => .num (Verif.Expr.toI32 (charsNum s : Nat))
  | sym name => .sym (ids name)
  | pc _ => .sym here
  | paren t => .parens (t.src ids here)
  | bin o l r => .bin o (l.src ids here) (r.src ids here)
  | neg t => .bin .sub (.num 0) (t.src ids here)
  | plus t => t.src ids here
  | cpl t => .bin .xor (.num (-1)) (t.src ids here)
  | not t | notIn t => .un .not (t.src ids here)
  | fn f t => .un f (t.src ids here)
  | atan2 a b => .bin .atan2 (a.src ids here) (b.src ids here)

/-- A pointer that is not null. -/
def some' (o : Outcome AExpr) : Outcome (Option AExpr) := o.bind fun e => .ok (some e)

/-- The functions that the parser calls (xasm/motor/expression.c 57-315). `expr_Pc` is `expr_Symbol` of the label that it
makes. -/
def asmAlg (fm : FMath) (now : Nat → ASym) (junk : AExpr → Bool) (ids : List Char → Nat) (here : Nat) : Alg AExpr where
  num v := .const v
  sym name := some' (mkSym now (ids name))
  pc := some' (mkSym now here)
  paren e := .ok (some (mkParens e))
  bin o a b := some' (mkBin fm now junk o a b)
  un f e := .ok (some (mkUn fm f e))

theorem done_some' (o : Outcome AExpr) (e : AExpr) (h : o = .ok e) : done (some' o) = some e := by rw [h]; rfl

theorem obind_ok {α γ : Type} {o : Outcome α} {f : α → Outcome γ} {b : γ} (h : (o >>= f) = .ok b) :
    ∃ a, o = .ok a ∧ f a = .ok b := bind_ok h

theorem value_asm (fm : FMath) (now : Nat → ASym) (junk : AExpr → Bool) (at' : Here) (ids : List Char → Nat) (here : Nat) (t : Tree) :
    ∀ e, build fm now junk at' (t.src ids here) = .ok e → t.value (asmAlg fm now junk ids here) = some e := by
  induction t with
  | num v => intro e h; cases h; rfl
  | chars s => intro e h; cases h; rfl
  | sym name => intro e h; exact done_some' _ e h
  | pc s => intro e h; exact done_some' _ e h
  | paren t ih =>
    intro e h
    obtain ⟨a, h1, h2⟩ := obind_ok h
    cases h2
    simp only [Tree.value, ih a h1, Option.bind_some]; rfl
  | bin o l r ihl ihr =>
    intro e h
    obtain ⟨a, h1, h2⟩ := obind_ok h
    obtain ⟨b, h3, h4⟩ := obind_ok h2
    simp only [Tree.value, ihl a h1, ihr b h3, Option.bind_some]
    exact done_some' _ e h4
  | atan2 l r ihl ihr =>
    intro e h
    obtain ⟨a, h1, h2⟩ := obind_ok h
    obtain ⟨b, h3, h4⟩ := obind_ok h2
    simp only [Tree.value, ihl a h1, ihr b h3, Option.bind_some]
    exact done_some' _ e h4
  | neg t ih =>
    intro e h
    obtain ⟨a, h1, h2⟩ := obind_ok h
    obtain ⟨b, h3, h4⟩ := obind_ok h2
    cases h1
    simp only [Tree.value, ih b h3, Option.bind_some]
    exact done_some' _ e h4
  | cpl t ih =>
    intro e h
    obtain ⟨a, h1, h2⟩ := obind_ok h
    obtain ⟨b, h3, h4⟩ := obind_ok h2
    cases h1
    simp only [Tree.value, ih b h3, Option.bind_some]
    exact done_some' _ e h4
  | plus t ih => intro e h; exact ih e h
  | not t ih =>
    intro e h
    obtain ⟨a, h1, h2⟩ := obind_ok h
    cases h2
    simp only [Tree.value, ih a h1, Option.bind_some]; rfl
  | notIn t ih =>
    intro e h
    obtain ⟨a, h1, h2⟩ := obind_ok h
    cases h2
    simp only [Tree.value, ih a h1, Option.bind_some]; rfl
  | fn f t ih =>
    intro e h
    obtain ⟨a, h1, h2⟩ := obind_ok h
    cases h2
    simp only [Tree.value, ih a h1, Option.bind_some]; rfl

/-- **C37 in the assembler.** The tree that the assembler makes from the tokens of an expression is the one that the
theorems about the values of expressions (C14, C26, C38, C39) speak about. -/
theorem C37_build (fm : FMath) (now : Nat → ASym) (junk : AExpr → Bool) (at' : Here) (ids : List Char → Nat) (here : Nat) (max : Nat)
    (t : Tree) (rest : Toks) (e : AExpr) (hf : t.Fits opLevel 1 6) (hn : t.Nots) (hl : t.leads = false)
    (hsh : t.Short max) (hq : t.Quiet rest) (hs : Halts 0 rest) (he : build fm now junk at' (t.src ids here) = .ok e) :
    parseExpr (asmAlg fm now junk ids here) max (t.toks ++ rest) = .ok (some e, rest) :=
  C37_reads _ max t rest e hf hn hl hsh hq hs (value_asm fm now junk at' ids here t e he)

/-! ### Examples, and where the documentation is wrong -/

/-- Numbers. -/
def intAlg : Alg Int where
  num v := v
  sym _ := .fail
  pc := .ok (some 100)
  paren v := .ok (some v)
  bin o a b := .ok (meaning fm0 o a b)
  un f a := .ok (some (meaningUn fm0 f a))

/-- `2*(3+*)-~!-4<5&&1|6` -/
def tree1 : Tree :=
  .bin .boolAnd (.bin .lt (.bin .sub (.bin .mul (.num 2) (.paren (.bin .add (.num 3) (.pc true)))) (.notIn (.neg (.num 4)))) (.num 5))
    (.bin .or (.num 1) (.num 6))

def toks1 : Toks := [.num 2, .op .mul, .lp, .num 3, .op .add, .op .mul, .rp, .op .sub, .not, .op .sub, .num 4, .op .lt, .num 5,
  .op .boolAnd, .num 1, .op .or, .num 6]

example : tree1.toks = toks1 := by decide +kernel

example : parseExpr intAlg 4 (toks1 ++ [.comma, .num 1]) = .ok (some 0, [.comma, .num 1]) :=
  C37_without_strings intAlg 4 tree1 [.comma, .num 1] 0
    ⟨⟨0, rfl, by decide, by decide⟩, ⟨⟨2, rfl, by decide, by decide⟩, ⟨⟨3, rfl, by decide, by decide⟩,
      ⟨⟨5, rfl, by decide, by decide⟩, trivial, ⟨3, rfl, by decide, by decide⟩, trivial, trivial⟩,
      by decide, by decide, trivial⟩, trivial⟩, ⟨4, rfl, by decide, by decide⟩, trivial, trivial⟩
    ⟨fun _ => ⟨rfl, rfl⟩, ⟨fun h => absurd h (by decide), ⟨fun h => absurd h (by decide),
      ⟨fun h => absurd h (by decide), trivial, rfl, fun h => absurd h (by decide), trivial, trivial⟩, trivial⟩, trivial⟩,
      fun h => absurd h (by decide), trivial, trivial⟩
    rfl ⟨⟨⟨⟨trivial, trivial, trivial⟩, trivial⟩, trivial⟩, trivial, trivial⟩ (Or.inl fun _ h => absurd h (by simp)) (by decide +kernel)

/-- `"AB"-1*'C'`, with a constant that is too long if only one character is allowed -/
def tree2 : Tree := .bin .sub (.chars "AB".toList) (.bin .mul (.num 1) (.chars "C".toList))

example : parseExpr intAlg 4 (tree2.toks ++ []) = .ok (some 16639, []) :=
  C37_characters intAlg 4 tree2 [] 16639
    ⟨⟨3, rfl, by decide, by decide⟩, trivial, ⟨5, rfl, by decide, by decide⟩, trivial, trivial⟩
    ⟨fun h => absurd h (by decide), trivial, fun h => absurd h (by decide), trivial, trivial⟩
    rfl ⟨rfl, trivial, rfl, trivial, trivial⟩ ⟨by show _ ≤ _; decide, trivial, by show _ ≤ _; decide⟩ (fun _ h => absurd h (by simp))
    (fun _ => by simp) (by decide +kernel)

/-- The tree that says: first add, then negate, then subtract from the difference of two numbers. -/
def tree3 : Tree := .bin .sub (.num 9) (.bin .sub (.num 5) (.neg (.bin .add (.num 1) (.num 2))))

example : tree3.protect.toks = [.num 9, .op .sub, .lp, .num 5, .op .sub, .op .sub, .lp, .num 1, .op .add, .num 2, .rp, .rp] := by
  decide +kernel

example : parseExpr intAlg 4 (tree3.protect.toks ++ []) = .ok (some 1, []) :=
  C37_print intAlg 4 (fun _ => rfl) tree3 [] 1 ⟨rfl, trivial, rfl, trivial, rfl, trivial, trivial⟩
    ⟨trivial, trivial, trivial, trivial⟩ (Or.inl fun _ h => absurd h (by simp)) (by decide +kernel)

/-- **C37 fails: shifts.** According to the documentation, multiplication binds more tightly than shifts; in the code, both
are in the same loop. `1 << 2 * 3` is 12 instead of 64. -/
theorem C37_shift : ∃ (t : Tree) (v : Int), t.Fits docLevel 0 7 ∧ t.Plain ∧ t.value intAlg = some v ∧ v = 64 ∧
    parseExpr intAlg 4 t.toks = .ok (some 12, []) :=
  ⟨.bin .asl (.num 1) (.bin .mul (.num 2) (.num 3)), 64,
    ⟨⟨5, rfl, by decide, by decide⟩, trivial, ⟨6, rfl, by decide, by decide⟩, trivial, trivial⟩,
    ⟨trivial, trivial, trivial⟩, by decide +kernel, rfl, by decide +kernel⟩

/-- **C37 fails: `~!`.** According to the documentation, `~!` binds least of all; in the code, `&&` and `||` bind less.
`~! 0 && 0` is 0 (false) instead of 1 (true). -/
theorem C37_not : ∃ (t : Tree) (v : Int), t.Fits docLevel 0 7 ∧ t.Plain ∧ t.value intAlg = some v ∧ v = 1 ∧
    parseExpr intAlg 4 t.toks = .ok (some 0, []) :=
  ⟨.not (.bin .boolAnd (.num 0) (.num 0)), 1,
    ⟨by decide, ⟨1, rfl, by decide, by decide⟩, trivial, trivial⟩,
    ⟨trivial, trivial⟩, by decide +kernel, rfl, by decide +kernel⟩

/-- **C37 fails: characters.** A character constant cannot be compared with a number: a comparison of strings is tried. -/
theorem C37_characters_compared (s : List Char) (v : Int) :
    (Tree.bin .eq (.chars s) (.num v)).Fits opLevel 1 6 ∧
    parseExpr intAlg 4 (Tree.bin .eq (.chars s) (.num v)).toks = .fail :=
  ⟨⟨⟨2, rfl, by show 2 ≤ 7; omega, by show 2 < 7; omega⟩, trivial, trivial⟩, rfl⟩

/-- **C37 fails: `+`.** A `+` in front of a character constant in parentheses makes `parse_StringExpression` append the
constant to a string that is not there. -/
theorem C37_plus_string (s : List Char) :
    (Tree.paren (.plus (.chars s))).Fits opLevel 1 6 ∧ parseExpr intAlg 4 (Tree.paren (.plus (.chars s))).toks = .ub :=
  ⟨⟨by show 6 ≤ 7; omega, trivial⟩, rfl⟩

/-- **C37 fails: labels.** A local label that is called `upper` or `lower` is taken for a member function of a string that
is not there. -/
theorem C37_member_label (alg : Alg Int) : parseExpr alg 4 (Tree.sym ".lower".toList).toks = .ub := rfl

end Verif.Parse
