import Verif.Lexer.Written
import Verif.Lexer.Parsed
import Verif.Lexer.Tokens
import Verif.Cpu.Common
/-!
# From text to tokens of the parsers

The parsers of expressions and of instructions look at the number of a token and at its value.
-/
namespace Verif.Source

open Verif.Lexer
open Verif.Parse (Tok Toks Tree)
open Verif.Expr (BinOp UnOp I32 u32 toI32)

/-- What the parsers see of words (xasm/motor/tokens.h 38-77; the cases of xasm/motor/parse_expression.c 183-184, 270-293, 414-427, 447-462, 475-509, 522-536, 549-568, 581-610,
620-645). -/
def ofWord (n : Nat) : Tok :=
  match n with
  | 305 => .op .eq
  | 306 => .op .ne
  | 307 => .op .gt
  | 308 => .op .ge
  | 309 => .op .lt
  | 310 => .op .le
  | 311 => .op .boolOr
  | 312 => .op .boolAnd
  | 313 => .not
  | 314 => .op .or
  | 315 => .op .xor
  | 316 => .op .and
  | 317 => .op .asl
  | 318 => .op .asr
  | 319 => .cpl
  | 320 => .op .add
  | 321 => .op .sub
  | 322 => .op .mul
  | 323 => .op .div
  | 324 => .op .mod
  | 332 => .op .fdiv
  | 333 => .op .fmul
  | 334 => .fn .sin
  | 335 => .fn .cos
  | 336 => .fn .tan
  | 337 => .fn .asin
  | 338 => .fn .acos
  | 339 => .fn .atan
  | 340 => .atan2
  | n => .other n

/-- Characters are their own tokens (xasm/motor/lexer.c 133-144). -/
def ofChar (c : Char) : Tok :=
  if c = '(' then .lp else if c = ')' then .rp else if c = ',' then .comma else if c = '@' then .at else .other c.toNat

/-- A token as the parsers see it. Numbers are `int32_t` (xasm/motor/parse_expression.c 137-141). `T_LABEL` and `T_FLOAT` are 301 and 304 (xasm/motor/tokens.h 33-36). -/
def ofToken : Token → Tok
  | .number n => .num (toI32 n)
  | .float .. => .other 304
  | .label _ => .other 301
  | .ident s => .sym s
  | .string s => .str s
  | .word n => ofWord n
  | .char c => ofChar c

/-! ### Every list of tokens can be written -/

/-- Tokens that are written with `*` at the start. -/
def isStar (k : Tok) : Bool := k = .op .mul || k = .op .fmul

/-- There is a text for the token. -/
def Writable (L : Language) (k : Tok) : Prop :=
  ∃ s t, Spelling L s t ∧ ofToken t = k ∧ contents L.strings t = none ∧ (s.head? = some '*' → isStar k = true)

/-- A `*` does not come directly behind another one, or first. -/
def Apart : Bool → Toks → Prop
  | _, [] => True
  | ok, k :: ks => (isStar k = true → ok = true) ∧ Apart (!isStar k) ks

theorem Apart.mono {ks : Toks} (h : Apart false ks) (ok : Bool) : Apart ok ks := by
  cases ks with
  | nil => trivial
  | cons k ks => exact ⟨fun hk => absurd (h.1 hk) (by decide), h.2⟩

theorem written_exists {L : Language} {n : Nat} (hn : 1 < n) (rest : List Char) : ∀ (ks : Toks) (star : Bool), (∀ k ∈ ks, Writable L k) → Apart star ks →
    ∃ V ts, Written L n star V ts rest ∧ ts.map ofToken = ks ++ [.other 10] ∧ ∀ t ∈ ts, contents L.strings t = none
  | [], star, _, _ => ⟨_, _, .newline (g := []) (c := []) (by intro c h; cases h) (by simp; omega) (by decide) (.inl rfl), rfl,
      by intro t ht; cases ht with | head => rfl | tail _ h => cases h⟩
  | k :: ks, star, hw, ha => by
    obtain ⟨s, t, hs, ht, hc, hstar⟩ := hw k List.mem_cons_self
    by_cases h : s.head? = some '*'
    · have hk := hstar h
      obtain ⟨V, ts, h1, h2, h3⟩ := written_exists hn rest ks false (fun k hk => hw k (List.mem_cons_of_mem _ hk)) (by have := ha.2; rwa [hk] at this)
      have : star = true := ha.1 hk
      subst this
      exact ⟨_, _, .star hs h h1, by rw [List.map_cons, ht, h2]; rfl, by
        intro t' ht'
        cases ht' with
        | head => exact hc
        | tail _ ht' => exact h3 t' ht'⟩
    · obtain ⟨V, ts, h1, h2, h3⟩ := written_exists hn rest ks true (fun k hk => hw k (List.mem_cons_of_mem _ hk)) (by
        have := ha.2
        cases hk : isStar k with
        | true => rw [hk] at this; exact Apart.mono this _
        | false => rw [hk] at this; exact this)
      exact ⟨_, _, .token (g := [' ']) hs h (by intro c h; cases h with | head => decide | tail _ h => cases h) (by decide) (by simpa using hn) h1,
        by rw [List.map_cons, ht, h2]; rfl, by
          intro t' ht'
          cases ht' with
          | head => exact hc
          | tail _ ht' => exact h3 t' ht'⟩

/-- Names that can be used in an expression. -/
def Usable (L : Language) (s : List Char) : Prop := IsName s ∧ s.length ≤ 256 ∧ named L.words s = none ∧ L.strings s = none

/-- Numbers, names and characters that can be written. The program counter is written `@` here. -/
def Texts (L : Language) : Tree → Prop
  | .num v => I32 v
  | .chars s => s.length ≤ 256 ∧ ∀ c ∈ s, c ≠ '"' ∧ c ≠ '\\' ∧ c ≠ '{' ∧ c ≠ '\n' ∧ c ≠ nul
  | .sym name => Usable L name
  | .pc star => star = false
  | .paren t | .neg t | .plus t | .cpl t | .not t | .notIn t => Texts L t
  | .fn f t => f ≠ .not ∧ Texts L t
  | .bin o l r => Parse.opLevel o ≠ none ∧ Texts L l ∧ Texts L r
  | .atan2 l r => Texts L l ∧ Texts L r

/-- The language has the words of expressions. -/
structure Standard (L : Language) : Prop where
  words : ∀ n ∈ [305, 306, 307, 308, 309, 310, 311, 312, 313, 314, 315, 316, 317, 318, 319, 320, 321, 322, 323, 324, 332, 333, 334, 335, 336, 337, 338, 339, 340],
    ∃ s w, named L.words s = some w ∧ w.token = n ∧ (s.head? = some '*' → isStar (ofWord n) = true)
  chars : ∀ c ∈ ['(', ')', ',', '@', '[', ']'], named L.words [c] = none

theorem Standard.word {L : Language} (h : Standard L) {n : Nat} (hn : n ∈ [305, 306, 307, 308, 309, 310, 311, 312, 313, 314, 315, 316, 317, 318, 319, 320, 321, 322, 323, 324,
    332, 333, 334, 335, 336, 337, 338, 339, 340]) : Writable L (ofWord n) := by
  obtain ⟨s, w, hw, rfl, hs⟩ := h.words n hn
  exact ⟨s, _, .word hw, rfl, rfl, hs⟩

theorem Standard.char {L : Language} (h : Standard L) {c : Char} (hc : c ∈ ['(', ')', ',', '@', '[', ']']) : Writable L (ofChar c) := by
  refine ⟨[c], .char c, ?_, rfl, rfl, ?_⟩
  · have hx : NoNumber [c] ∧ isStart c = false ∧ c ≠ '"' ∧ c ≠ '\'' ∧ c ≠ '*' ∧ c ≠ ';' ∧ isSpace c = false := by
      refine ⟨fun x hx => ?_, ?_⟩
      · cases hx; revert c; decide
      · revert c; decide
    exact .char hx.1 hx.2.1 (h.chars c hc) hx.2.2.1 hx.2.2.2.1 hx.2.2.2.2.1 hx.2.2.2.2.2.1 hx.2.2.2.2.2.2
  · intro hs; cases hs; revert hc; decide

/-- Hexadecimal digits, the last one first. -/
def hexRev : Nat → Nat → List Char
  | 0, _ => []
  | k + 1, n => (if n % 16 < 10 then Char.ofNat (48 + n % 16) else Char.ofNat (55 + n % 16)) :: hexRev k (n / 16)

theorem hexRev_length (k n : Nat) : (hexRev k n).length = k := by
  induction k generalizing n with
  | zero => rfl
  | succ k ih => simp [hexRev, ih]

theorem hexRev_value (z w : Char) (k n : Nat) (hn : n < 16 ^ k) : positionalRev z w 16 (hexRev k n) = some n := by
  induction k generalizing n with
  | zero => have : n = 0 := by simpa using hn
            subst this; rfl
  | succ k ih =>
    have hd : digit z w 16 (if n % 16 < 10 then Char.ofNat (48 + n % 16) else Char.ofNat (55 + n % 16)) = some (n % 16) := by
      have : n % 16 < 16 := Nat.mod_lt _ (by decide)
      generalize n % 16 = m at *
      unfold digit
      rw [if_neg (by decide)]
      revert m
      decide
    show (digit z w 16 _).bind (fun d => (positionalRev z w 16 (hexRev k (n / 16))).bind fun m => some (d + 16 * m)) = some n
    rw [hd, ih (n / 16) (by rw [Nat.pow_succ] at hn; omega)]
    simp only [Option.bind_some]
    congr 1
    omega

theorem writable_num (L : Language) {v : Int} (h : I32 v) : Writable L (.num v) := by
  have hu : u32 v < 16 ^ 8 := by
    have : u32 v < 4294967296 := by unfold u32; omega
    exact this
  refine ⟨['$'] ++ (hexRev 8 (u32 v)).reverse, .number (u32 v % 2 ^ 32), .number .hex ?_ (by intro h; cases h) (by simp [hexRev_length]), ?_, rfl, ?_⟩
  · unfold positional
    rw [List.reverse_reverse]
    exact hexRev_value _ _ _ _ hu
  · show Tok.num (toI32 ((u32 v % 2 ^ 32 : Nat) : Int)) = _
    rw [Nat.mod_eq_of_lt (by simpa using hu), Verif.Expr.toI32_u32 h]
  · intro h; cases h

theorem writable_sym {L : Language} {s : List Char} (h : Usable L s) : Writable L (.sym s) := by
  refine ⟨s, .ident s, .name h.1 h.2.1 h.2.2.1, rfl, h.2.2.2, fun hs => ?_⟩
  exfalso
  have := h.1
  unfold IsName at this
  split at this
  · cases hs
  · cases hs; revert this; rintro ⟨h, _⟩; revert h; decide
  · cases this

theorem writable_str (L : Language) {s : List Char} (h : s.length ≤ 256 ∧ ∀ c ∈ s, c ≠ '"' ∧ c ≠ '\\' ∧ c ≠ '{' ∧ c ≠ '\n' ∧ c ≠ nul) : Writable L (.str s) := by
  have hq : ∀ s : List Char, (∀ c ∈ s, c ≠ '"' ∧ c ≠ '\\' ∧ c ≠ '{' ∧ c ≠ '\n' ∧ c ≠ nul) → Quoted (some '"') s := by
    intro s hs
    induction s with
    | nil => exact .nil _
    | cons c s ih =>
      obtain ⟨h1, h2, h3, h4, h5⟩ := hs c List.mem_cons_self
      exact .plain h1 h2 h3 h4 h5 (ih fun c hc => hs c (List.mem_cons_of_mem _ hc))
  exact ⟨'"' :: s ++ ['"'], .string s, .string (.inl rfl) (hq s h.2) h.1, rfl, rfl, fun h => by cases h⟩

theorem writable_op {L : Language} (h : Standard L) {o : BinOp} (ho : Parse.opLevel o ≠ none) : Writable L (.op o) := by
  cases o with
  | lowLimit | highLimit | atan2 | assert => exact absurd rfl ho
  | sub => exact h.word (n := 321) (by decide)
  | add => exact h.word (n := 320) (by decide)
  | xor => exact h.word (n := 315) (by decide)
  | or => exact h.word (n := 314) (by decide)
  | and => exact h.word (n := 316) (by decide)
  | asl => exact h.word (n := 317) (by decide)
  | asr => exact h.word (n := 318) (by decide)
  | mul => exact h.word (n := 322) (by decide)
  | div => exact h.word (n := 323) (by decide)
  | mod => exact h.word (n := 324) (by decide)
  | boolOr => exact h.word (n := 311) (by decide)
  | boolAnd => exact h.word (n := 312) (by decide)
  | ge => exact h.word (n := 308) (by decide)
  | gt => exact h.word (n := 307) (by decide)
  | le => exact h.word (n := 310) (by decide)
  | lt => exact h.word (n := 309) (by decide)
  | eq => exact h.word (n := 305) (by decide)
  | ne => exact h.word (n := 306) (by decide)
  | fdiv => exact h.word (n := 332) (by decide)
  | fmul => exact h.word (n := 333) (by decide)

/-- **Every expression can be written.** -/
theorem writable_tree {L : Language} (h : Standard L) : ∀ (t : Tree), Texts L t → ∀ k ∈ t.toks, Writable L k := by
  have hlp : Writable L .lp := h.char (c := '(') (by decide)
  have hrp : Writable L .rp := h.char (c := ')') (by decide)
  have hcomma : Writable L .comma := h.char (c := ',') (by decide)
  intro t
  induction t with
  | num v => intro ht k hk; cases hk with | head => exact writable_num L ht | tail _ hk => cases hk
  | chars s => intro ht k hk; cases hk with | head => exact writable_str L ht | tail _ hk => cases hk
  | sym s => intro ht k hk; cases hk with | head => exact writable_sym ht | tail _ hk => cases hk
  | pc s =>
    intro ht k hk
    cases (show s = false from ht)
    cases hk with
    | head => exact h.char (c := '@') (by decide)
    | tail _ hk => cases hk
  | paren t ih =>
    intro ht k hk
    simp only [Tree.toks, List.mem_cons, List.mem_append, List.not_mem_nil, or_false] at hk
    rcases hk with rfl | hk | rfl
    · exact hlp
    · exact ih ht k hk
    · exact hrp
  | bin o l r ihl ihr =>
    intro ht k hk
    simp only [Tree.toks, List.mem_cons, List.mem_append] at hk
    rcases hk with hk | rfl | hk
    · exact ihl ht.2.1 k hk
    · exact writable_op h ht.1
    · exact ihr ht.2.2 k hk
  | neg t ih =>
    intro ht k hk
    simp only [Tree.toks, List.mem_cons] at hk
    rcases hk with rfl | hk
    · exact writable_op h (by decide)
    · exact ih ht k hk
  | plus t ih =>
    intro ht k hk
    simp only [Tree.toks, List.mem_cons] at hk
    rcases hk with rfl | hk
    · exact writable_op h (by decide)
    · exact ih ht k hk
  | cpl t ih =>
    intro ht k hk
    simp only [Tree.toks, List.mem_cons] at hk
    rcases hk with rfl | hk
    · exact h.word (n := 319) (by decide)
    · exact ih ht k hk
  | not t ih =>
    intro ht k hk
    simp only [Tree.toks, List.mem_cons] at hk
    rcases hk with rfl | hk
    · exact h.word (n := 313) (by decide)
    · exact ih ht k hk
  | notIn t ih =>
    intro ht k hk
    simp only [Tree.toks, List.mem_cons] at hk
    rcases hk with rfl | hk
    · exact h.word (n := 313) (by decide)
    · exact ih ht k hk
  | fn f t ih =>
    intro ht k hk
    simp only [Tree.toks, List.mem_cons, List.mem_append, List.not_mem_nil, or_false] at hk
    rcases hk with rfl | rfl | hk | rfl
    · cases f with
      | not => exact absurd rfl ht.1
      | sin => exact h.word (n := 334) (by decide)
      | cos => exact h.word (n := 335) (by decide)
      | tan => exact h.word (n := 336) (by decide)
      | asin => exact h.word (n := 337) (by decide)
      | acos => exact h.word (n := 338) (by decide)
      | atan => exact h.word (n := 339) (by decide)
    · exact hlp
    · exact ih ht.2 k hk
    · exact hrp
  | atan2 l r ihl ihr =>
    intro ht k hk
    simp only [Tree.toks, List.mem_cons, List.mem_append, List.not_mem_nil, or_false] at hk
    rcases hk with rfl | rfl | hk | rfl | hk | rfl
    · exact h.word (n := 340) (by decide)
    · exact hlp
    · exact ihl ht.1 k hk
    · exact hcomma
    · exact ihr ht.2 k hk
    · exact hrp

theorem apart_cons {k : Tok} {ks : Toks} (hk : isStar k = false) (h : Apart true ks) (ok : Bool) : Apart ok (k :: ks) := by
  refine ⟨fun h => ?_, ?_⟩
  · rw [hk] at h; cases h
  · rw [hk]; exact h

theorem apart_op {o : BinOp} {ks : Toks} (h : ∀ ok, Apart ok ks) : Apart true (.op o :: ks) := ⟨fun _ => rfl, h _⟩

/-- Expressions neither begin nor end with a `*`. -/
theorem apart_tree {L : Language} : ∀ (t : Tree), Texts L t → ∀ (ok : Bool) {rest : Toks}, Apart true rest → Apart ok (t.toks ++ rest) := by
  intro t
  induction t with
  | num v => intro _ ok rest hr; exact apart_cons rfl hr ok
  | chars s => intro _ ok rest hr; exact apart_cons rfl hr ok
  | sym s => intro _ ok rest hr; exact apart_cons rfl hr ok
  | pc s => intro ht ok rest hr; cases (show s = false from ht); exact apart_cons rfl hr ok
  | paren t ih =>
    intro ht ok rest hr
    simp only [Tree.toks, List.cons_append, List.append_assoc]
    exact apart_cons rfl (ih ht true (apart_cons rfl hr true)) ok
  | bin o l r ihl ihr =>
    intro ht ok rest hr
    simp only [Tree.toks, List.cons_append, List.append_assoc]
    exact ihl ht.2.1 ok (apart_op fun ok => ihr ht.2.2 ok hr)
  | neg t ih => intro ht ok rest hr; exact apart_cons (by decide) (ih ht true hr) ok
  | plus t ih => intro ht ok rest hr; exact apart_cons (by decide) (ih ht true hr) ok
  | cpl t ih => intro ht ok rest hr; exact apart_cons (by decide) (ih ht true hr) ok
  | not t ih => intro ht ok rest hr; exact apart_cons (by decide) (ih ht true hr) ok
  | notIn t ih => intro ht ok rest hr; exact apart_cons (by decide) (ih ht true hr) ok
  | fn f t ih =>
    intro ht ok rest hr
    simp only [Tree.toks, List.cons_append, List.append_assoc]
    exact apart_cons rfl (apart_cons rfl (ih ht.2 true (apart_cons rfl hr true)) true) ok
  | atan2 l r ihl ihr =>
    intro ht ok rest hr
    simp only [Tree.toks, List.cons_append, List.append_assoc]
    exact apart_cons rfl (apart_cons rfl (ihl ht.1 true (apart_cons rfl (ihr ht.2 true (apart_cons rfl hr true)) true)) true) ok

/-! ### Reading a line -/

/-- **C59.** From a line whose tokens are separated, the parser gets these tokens. -/
theorem C59_read {v : Values} {A d : Nat} {E : Env} {L : Language} (hE : E.Is L) (hL : Regular L) {n k : Nat} {V rest : List Char} {ts : List Token} {b : Buffer}
    (h : Written L n false V ts rest) (hs : ∀ t ∈ ts, contents L.strings t = none) (hd : 2 ≤ d) (hT : E.words.maxLength ≤ d) (hA : A + d ≤ stackSize)
    (hk : ts.length ≤ k) (hb : Pos v A b V d) : ∃ b', parseLine E n k true b = .ok (ts, b') ∧ Pos v A b' rest d :=
  C58_parse hE ((h.first hL).parsed hs) hd hT hA hk hb

end Verif.Source
