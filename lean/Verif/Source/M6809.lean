import Verif.Source.Languages
import Verif.Cpu.M6809.Limits
/-!
# C59: from the text of a line to the bytes of a 6809 instruction
-/
set_option linter.constructorNameAsVariable false

namespace Verif.Source.M6809

open Verif.Lexer
open Verif.Source
open Verif.Parse (Tok Toks Tree)
open Verif.Expr (FMath ASym Den wrap)
open Verif.Cpu (Ctx Item)
open Verif.Cpu.X65 (EndOfLine)
open Verif.Cpu.M6809

theorem mem6809 : asm6809 ∈ assemblers := by simp [assemblers]

/-- **C59.** A line with an instruction of the 6809, written with blanks between its parts and perhaps a comment, becomes the bytes
that the processor reads as this instruction. -/
theorem C59_6809 {S : List Char → Option (List Char)} (C : Ctx) (dp : Option Nat) (m : Mn) (x : Opnd) (hg : x.Good) (hl : x.legal m = true) (hr : x.Right C dp m)
    {n k A : Nat} {V rest : List Char} {ts : List Token} {v : Values} {b : Buffer} (h : Written (asm6809.language S) n false V ts rest)
    (ht : ts.map ofToken = m.tok :: (x.toks ++ [.other 10])) (hS : ∀ t ∈ ts, contents S t = none) (hA : A + 9 ≤ stackSize) (hk : ts.length ≤ k)
    (hb : Pos v A b V 9) :
    ∃ b' done its, parseLine (asm6809.env S) n k true b = .ok (ts, b') ∧ Pos v A b' rest 9 ∧
      instr C dp (ts.map ofToken) = .ok ⟨done, its, dp, [.other 10]⟩ ∧
      ∀ fm now ρ, C.Sound fm wrap now ρ → 0 ≤ ρ.pc → ρ.pc < 16777216 → (∀ v, x.value C fm now ρ = some v → x.Near m ρ.pc v) →
        ((bytesAt fm now ρ its).bind (decode ρ.pc)).map (Ins.at dp) = (meaning m x (x.value C fm now ρ) dp ρ.pc).map (⟨.mn m, ·⟩) := by
  obtain ⟨b', h1, h2⟩ := C59_line mem6809 h hS hA hk hb
  obtain ⟨done, its, h3, h4⟩ := C60_encode (C := C) (dp := dp) (rest := [.other 10]) hg hl hr (by intro x hx; cases hx; rfl)
  exact ⟨b', done, its, h1, h2, by rw [ht]; exact h3, h4⟩

/-! ### Every instruction can be written -/

theorem words_unique : ∀ w ∈ asm6809.all, named asm6809.all w.name = some w := by decide +kernel

theorem mns_written : (Mn.all.all fun m => asm6809.all.any fun w => w.token == m.num && w.name.head? != some '*') = true := by decide +kernel
theorem regs_written : ∀ r : R, (asm6809.all.any fun w => w.token == r.num && w.name.head? != some '*') = true := by
  intro r; cases r <;> decide +kernel
theorem hash_free : named asm6809.all ['#'] = none := by decide +kernel

attribute [local irreducible] Assembler.all

theorem ofWord_other : ∀ n, 341 ≤ n → ofWord n = .other n := by
  intro n hn
  unfold ofWord
  split <;> first | omega | rfl

theorem writable_word {S : List Char → Option (List Char)} {n : Nat} (hn : 341 ≤ n)
    (h : (asm6809.all.any fun w => w.token == n && w.name.head? != some '*') = true) : Writable (asm6809.language S) (.other n) := by
  obtain ⟨w, hw, h⟩ := List.any_eq_true.1 h
  obtain ⟨h1, h2⟩ := Bool.and_eq_true_iff.1 h
  cases eq_of_beq h1
  exact ⟨w.name, .word w.token, .word (words_unique w hw), ofWord_other _ hn, rfl, fun hs => by rw [hs] at h2; cases h2⟩

theorem writable_mn (S : List Char → Option (List Char)) (m : Mn) : Writable (asm6809.language S) m.tok :=
  writable_word (by unfold Mn.num; omega) (List.all_eq_true.1 mns_written m (mem_all m))

theorem writable_reg (S : List Char → Option (List Char)) (r : R) : Writable (asm6809.language S) r.tok :=
  writable_word (by unfold R.num; omega) (regs_written r)

theorem standard (S : List Char → Option (List Char)) : Standard (asm6809.language S) := Assembler.standard (assemblers_ok _ mem6809) S

theorem writable_hash (S : List Char → Option (List Char)) : Writable (asm6809.language S) (.other 35) :=
  ⟨['#'], .char '#', .char (by intro c h; cases h; decide) (by decide) hash_free (by decide) (by decide) (by decide) (by decide) (by decide), rfl, rfl,
    fun h => by cases h⟩

/-- Tokens that can be written before others. -/
def Fine (S : List Char → Option (List Char)) (ks : Toks) : Prop :=
  (∀ k ∈ ks, Writable (asm6809.language S) k) ∧ ∀ rest, Apart true rest → Apart true (ks ++ rest)

variable {S : List Char → Option (List Char)}

theorem Fine.nil : Fine S [] := ⟨fun k hk => (by cases hk), fun _ h => h⟩

theorem Fine.one {k : Tok} (h : Writable (asm6809.language S) k) (hs : isStar k = false) : Fine S [k] :=
  ⟨fun k' hk => (by cases List.mem_singleton.1 hk; exact h), fun rest hr => apart_cons hs hr _⟩

theorem Fine.append {xs ys : Toks} (hx : Fine S xs) (hy : Fine S ys) : Fine S (xs ++ ys) :=
  ⟨fun k hk => (List.mem_append.1 hk).elim (hx.1 k) (hy.1 k), fun rest hr => by
    rw [List.append_assoc]
    exact hx.2 _ (hy.2 _ hr)⟩

theorem Fine.cons {k : Tok} {ks : Toks} (h : Fine S [k]) (hk : Fine S ks) : Fine S (k :: ks) := h.append hk

theorem Fine.tree {t : Tree} (h : Texts (asm6809.language S) t) : Fine S t.toks :=
  ⟨writable_tree (standard S) t h, fun _ hr => apart_tree t h _ hr⟩

theorem fine_char {c : Char} (h : c ∈ ['(', ')', ',', '@', '[', ']']) (hs : isStar (ofChar c) = false) : Fine S [ofChar c] := .one ((standard S).char h) hs
theorem fine_comma : Fine S [.comma] := fine_char (c := ',') (by decide) rfl
theorem fine_open : Fine S [.other 91] := fine_char (c := '[') (by decide) rfl
theorem fine_close : Fine S [.other 93] := fine_char (c := ']') (by decide) rfl
theorem fine_reg (r : R) : Fine S [r.tok] := .one (writable_reg S r) rfl
theorem fine_plus : Fine S [.op .add] := .one (writable_op (standard S) (by decide)) rfl
theorem fine_minus : Fine S [.op .sub] := .one (writable_op (standard S) (by decide)) rfl

theorem fine_force (f : Force) : Fine S f.toks := by
  cases f with
  | no => exact .nil
  | lt => exact .one (writable_op (standard S) (by decide)) rfl
  | gt => exact .one (writable_op (standard S) (by decide)) rfl

theorem fine_brackets (i : Bool) {ks : Toks} (h : Fine S ks) : Fine S (brackets i ks) := by
  cases i with
  | false => exact h
  | true => exact fine_open.cons (h.append fine_close)

theorem fine_list : ∀ rs : List R, Fine S (commaList rs)
  | [] => .nil
  | [r] => fine_reg r
  | r :: q :: rs => (fine_reg r).cons (fine_comma.cons (fine_list (q :: rs)))

theorem fine_opnd {x : Opnd} (h : ∀ t, x.tree = some t → Texts (asm6809.language S) t) : Fine S x.toks := by
  cases x with
  | none => exact .nil
  | imm t => exact (Fine.one (writable_hash S) rfl).cons (.tree (h t rfl))
  | addr i f t => exact fine_brackets i ((fine_force f).append (.tree (h t rfl)))
  | off i f t r => exact fine_brackets i (((fine_force f).append (.tree (h t rfl))).append (fine_comma.cons (fine_reg r)))
  | zero i r => exact fine_brackets i (fine_comma.cons (fine_reg r))
  | inc1 i r => exact fine_brackets i (fine_comma.cons ((fine_reg r).cons fine_plus))
  | inc2 i r => exact fine_brackets i (fine_comma.cons ((fine_reg r).cons (fine_plus.cons fine_plus)))
  | dec1 i r => exact fine_brackets i (fine_comma.cons (fine_minus.cons (fine_reg r)))
  | dec2 i r => exact fine_brackets i (fine_comma.cons (fine_minus.cons (fine_minus.cons (fine_reg r))))
  | acc i a r => exact fine_brackets i ((fine_reg a).cons (fine_comma.cons (fine_reg r)))
  | pcr i f t => exact fine_brackets i (((fine_force f).append (.tree (h t rfl))).append (fine_comma.cons (fine_reg _)))
  | pair a b => exact (fine_reg a).cons (fine_comma.cons (fine_reg b))
  | list rs => exact fine_list rs

/-- **C59.** For every instruction whose names can be used there is a line that is read as it. -/
theorem C59_6809_written (S : List Char → Option (List Char)) (m : Mn) (x : Opnd) (h : ∀ t, x.tree = some t → Texts (asm6809.language S) t) {n : Nat} (hn : 1 < n)
    (rest : List Char) :
    ∃ V ts, Written (asm6809.language S) n false V ts rest ∧ ts.map ofToken = m.tok :: (x.toks ++ [.other 10]) ∧ ∀ t ∈ ts, contents S t = none := by
  have hf : Fine S (m.tok :: x.toks) := (Fine.one (writable_mn S m) rfl).cons (fine_opnd h)
  obtain ⟨V, ts, a, b, c⟩ := written_exists hn rest (m.tok :: x.toks) false (L := asm6809.language S) hf.1 (by
    have := (fine_opnd h).2 [] trivial
    rw [List.append_nil] at this
    exact apart_cons rfl this _)
  exact ⟨V, ts, a, b, c⟩

/-! ### An example -/

def text0 : List Char := "\tadca\t[ 40 , x ]\n".toList

theorem blank : Blanks [' '] := by intro c h; cases h with | head => decide | tail _ h => cases h
theorem tab : Blanks ['\t'] := by intro c h; cases h with | head => decide | tail _ h => cases h

theorem char_spelling {c : Char} (h : c ∈ ['(', ')', ',', '@', '[', ']']) : Spelling (asm6809.language S) [c] (.char c) := by
  have h4 : ∀ c ∈ ['(', ')', ',', '@', '[', ']'], isStart c = false ∧ c ≠ '"' ∧ c ≠ '\'' ∧ c ≠ '*' ∧ c ≠ ';' ∧ isSpace c = false ∧
      (c ≠ '$' ∧ c ≠ '%' ∧ c ≠ '`' ∧ ¬('0' ≤ c ∧ c ≤ '9')) := by decide
  obtain ⟨a1, a2, a3, a4, a5, a6, a7⟩ := h4 c h
  exact .char (by intro x hx; cases hx; exact a7) a1 ((standard S).chars c h) a2 a3 a4 a5 a6

theorem adca_word : named asm6809.all "adca".toList = some ⟨"ADCA".toList, Mn.adca.num⟩ := by unfold Assembler.all; decide +kernel
theorem x_word : named asm6809.all "x".toList = some ⟨"X".toList, R.x.num⟩ := by unfold Assembler.all; decide +kernel

theorem written0 : Written (asm6809.language strings0) 300 false text0
    [.word Mn.adca.num, .char '[', .number 40, .char ',', .word R.x.num, .char ']', .char '\n'] [] := by
  refine .token (g := ['\t']) (s := "adca".toList) (.word (w := ⟨"ADCA".toList, Mn.adca.num⟩) adca_word) (by decide) tab (by decide) (by decide) ?_
  refine .token (g := ['\t']) (s := "[".toList) (char_spelling (by decide)) (by decide) tab (by decide) (by decide) ?_
  refine .token (g := [' ']) (s := "40".toList) (.number (pre := []) (value := 40) .dec (by decide) (by decide) (by decide)) (by decide) blank (by decide) (by decide) ?_
  refine .token (g := [' ']) (s := ",".toList) (char_spelling (by decide)) (by decide) blank (by decide) (by decide) ?_
  refine .token (g := [' ']) (s := "x".toList) (.word (w := ⟨"X".toList, R.x.num⟩) x_word) (by decide) blank (by decide) (by decide) ?_
  refine .token (g := [' ']) (s := "]".toList) (char_spelling (by decide)) (by decide) blank (by decide) (by decide) ?_
  exact .newline (g := []) (c := []) (by intro c h; cases h) (by decide) (by decide) (.inl rfl)

/-- The tokens of the example are those of `ADCA [40,X]`. -/
example : ([.word Mn.adca.num, .char '[', .number 40, .char ',', .word R.x.num, .char ']', .char '\n'] : List Token).map ofToken =
    Mn.adca.tok :: ((Opnd.off true .no (.num 40) .x).toks ++ [.other 10]) := rfl

end Verif.Source.M6809
