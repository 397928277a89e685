import Verif.Source.Check
import Verif.Cpu.Z80.Props
/-!
# C59: from the text of a line to the bytes of a Z80 instruction
-/
namespace Verif.Source.Z80

open Verif.Lexer
open Verif.Source
open Verif.Parse (Tok Toks Tree)
open Verif.Expr (FMath ASym Den wrap)
open Verif.Cpu (Ctx Item)
open Verif.Cpu.X65 (EndOfLine bytesAt)
open Verif.Cpu.Z80

theorem regular (S : List Char → Option (List Char)) : Regular (z80Language S) := regular_of (by decide +kernel) S
theorem standard (S : List Char → Option (List Char)) : Standard (z80Language S) := standard_of (by decide +kernel) S

theorem ofWord_other : ∀ n, 341 ≤ n → ofWord n = .other n := by
  intro n hn
  unfold ofWord
  split <;> first | omega | rfl

/-- **C59.** A line with an instruction, written with blanks between its parts and perhaps a comment, becomes the bytes of the instruction that
it means. -/
theorem C59_z80 {S : List Char → Option (List Char)} (C : Ctx) (o : Opts) (m : Mn) (xs : List Opnd) (hl : xs.length ≤ 2) (hg : ∀ x ∈ xs, x.Good)
    (hk : ∀ s v, C.known s = some v → -2147483648 ≤ v ∧ v < 2147483648)
    {is : List (Instr E)} (hs : sem o.cpu (known C xs) m (opvs xs) = some is) (hlegal : legal o is = true) (ho : odd o m (opvs xs) = false)
    {n k A : Nat} {V rest : List Char} {ts : List Token} {v : Values} {b : Buffer} (h : Written (z80Language S) n false V ts rest)
    (ht : ts.map ofToken = m.tok :: (line xs ++ [.other 10])) (hS : ∀ t ∈ ts, contents S t = none) (hA : A + 9 ≤ stackSize) (hk' : ts.length ≤ k)
    (hb : Pos v A b V 9) :
    ∃ b' its, parseLine (z80Env S) n k true b = .ok (ts, b') ∧ Pos v A b' rest 9 ∧ instr C o (ts.map ofToken) = .ok (some (its, [.other 10])) ∧
      ∀ (fm : FMath) (now : Nat → ASym) (ρ : Den), 0 ≤ ρ.pc → ρ.pc < 16777216 →
        bytesAt fm wrap now ρ its =
          slotBytes (E.val (firstValue C fm now ρ xs) (secondValue C fm now ρ xs)) ρ.pc (is.flatMap (·.slots o.cpu)) := by
  obtain ⟨b', h1, h2⟩ := C59_read (z80_is S) (regular S) h hS (by decide) (by rw [z80_maxLength]; exact Nat.le_refl _) hA hk' hb
  obtain ⟨its, h3, h4⟩ := C57_encode C o m xs hl hg hk (rest := [.other 10]) (by intro x hx; cases hx; rfl) hs hlegal ho
  exact ⟨b', its, h1, h2, by rw [ht]; exact h3, h4⟩

/-! ### Every instruction can be written -/

/-- The expressions of the operand can be written. -/
def OpndTexts (S : List Char → Option (List Char)) : Opnd → Prop
  | .reg _ | .idx _ _ none => True
  | .idx _ _ (some t) | .expr t | .ind t | .spDisp t => Texts (z80Language S) t

theorem writable_word {S : List Char → Option (List Char)} {n : Nat} (hn : 341 ≤ n)
    (h : (allWords z80Config Cpu.Z80.words).any (fun w => w.token == n && w.name.head? != some '*') = true) : Writable (z80Language S) (.other n) := by
  obtain ⟨w, hw, h⟩ := List.any_eq_true.1 h
  obtain ⟨h1, h2⟩ := Bool.and_eq_true_iff.1 h
  cases eq_of_beq h1
  exact ⟨w.name, .word w.token, .word (z80_words_unique w hw), ofWord_other _ hn, rfl, fun hs => by rw [hs] at h2; cases h2⟩

theorem rg_written (x : Rg) : (allWords z80Config Cpu.Z80.words).any (fun w => w.token == x.num && w.name.head? != some '*') = true := by
  have h : (Rg.all.all fun x => (allWords z80Config Cpu.Z80.words).any (fun w => w.token == x.num && w.name.head? != some '*')) = true := by decide +kernel
  exact List.all_eq_true.1 h x (mem_rgs x)

theorem mn_written (m : Mn) : (allWords z80Config Cpu.Z80.words).any (fun w => w.token == (if m = .set then symSet else m.num) && w.name.head? != some '*') = true := by
  have h : (Mn.all.all fun m => (allWords z80Config Cpu.Z80.words).any
      (fun w => w.token == (if m = .set then symSet else m.num) && w.name.head? != some '*')) = true := by decide +kernel
  exact List.all_eq_true.1 h m (mem_all m)

theorem writable_rg (S : List Char → Option (List Char)) (x : Rg) : Writable (z80Language S) (.other x.num) :=
  writable_word (by unfold Rg.num; omega) (rg_written x)

theorem writable_mn (S : List Char → Option (List Char)) (m : Mn) : Writable (z80Language S) m.tok :=
  writable_word (by unfold Mn.num symSet; split <;> omega) (mn_written m)

theorem writable_opnd {S : List Char → Option (List Char)} {x : Opnd} (h : OpndTexts S x) : ∀ k ∈ x.toks, Writable (z80Language S) k := by
  have hlp : Writable (z80Language S) .lp := (standard S).char (c := '(') (by decide)
  have hrp : Writable (z80Language S) .rp := (standard S).char (c := ')') (by decide)
  have hls : Writable (z80Language S) (.other 91) := (standard S).char (c := '[') (by decide)
  have hrs : Writable (z80Language S) (.other 93) := (standard S).char (c := ']') (by decide)
  intro k hk
  cases x with
  | reg x => cases List.mem_singleton.1 hk; exact writable_rg S x
  | idx x s d =>
    cases d with
    | none =>
      cases s <;> simp only [Opnd.toks, List.mem_cons, List.not_mem_nil, or_false] at hk <;> rcases hk with rfl | rfl | rfl
      · exact hlp
      · exact writable_rg S _
      · exact hrp
      · exact hls
      · exact writable_rg S _
      · exact hrs
    | some t =>
      cases s <;> simp only [Opnd.toks, List.mem_cons, List.mem_append, List.not_mem_nil, or_false] at hk <;> rcases hk with rfl | rfl | hk | rfl
      · exact hlp
      · exact writable_rg S _
      · exact writable_tree (standard S) t h k hk
      · exact hrp
      · exact hls
      · exact writable_rg S _
      · exact writable_tree (standard S) t h k hk
      · exact hrs
  | expr t => exact writable_tree (standard S) t h k hk
  | ind t =>
    simp only [Opnd.toks, List.mem_cons, List.mem_append, List.not_mem_nil, or_false] at hk
    rcases hk with rfl | hk | rfl
    · exact hls
    · exact writable_tree (standard S) t h k hk
    · exact hrs
  | spDisp t =>
    simp only [Opnd.toks, List.mem_cons] at hk
    rcases hk with rfl | hk
    · exact writable_rg S _
    · exact writable_tree (standard S) t h k hk

theorem apart_opnd {S : List Char → Option (List Char)} {x : Opnd} (h : OpndTexts S x) {rest : Toks} (hr : Apart true rest) : Apart true (x.toks ++ rest) := by
  cases x with
  | reg x => exact apart_cons rfl hr _
  | idx x s d =>
    cases d with
    | none => cases s <;> exact apart_cons rfl (apart_cons rfl (apart_cons rfl hr _) _) _
    | some t =>
      cases s <;> simp only [Opnd.toks, List.cons_append, List.append_assoc]
      · exact apart_cons rfl (apart_cons rfl (apart_tree t h _ (apart_cons rfl hr _)) _) _
      · exact apart_cons rfl (apart_cons rfl (apart_tree t h _ (apart_cons rfl hr _)) _) _
  | expr t => exact apart_tree t h _ hr
  | ind t =>
    simp only [Opnd.toks, List.cons_append, List.append_assoc]
    exact apart_cons rfl (apart_tree t h _ (apart_cons rfl hr _)) _
  | spDisp t => exact apart_cons rfl (apart_tree t h _ hr) _

theorem writable_line {S : List Char → Option (List Char)} : ∀ {xs : List Opnd}, (∀ x ∈ xs, OpndTexts S x) →
    (∀ k ∈ line xs, Writable (z80Language S) k) ∧ Apart true (line xs)
  | [], _ => ⟨fun k hk => (by cases hk), trivial⟩
  | [x], h => ⟨writable_opnd (h x (by simp)), by
      have := apart_opnd (h x (by simp)) (rest := []) trivial
      rwa [List.append_nil] at this⟩
  | x :: y :: xs, h => by
    obtain ⟨h1, h2⟩ := writable_line (xs := y :: xs) (fun z hz => h z (List.mem_cons_of_mem _ hz))
    refine ⟨fun k hk => ?_, ?_⟩
    · simp only [line, List.mem_append, List.mem_cons] at hk
      rcases hk with hk | rfl | hk
      · exact writable_opnd (h x (by simp)) k hk
      · exact (standard S).char (c := ',') (by decide)
      · exact h1 k hk
    · exact apart_opnd (h x (by simp)) (apart_cons rfl h2 _)

/-- **C59.** For every instruction whose names can be used there is a line that is read as it. -/
theorem C59_z80_written (S : List Char → Option (List Char)) (m : Mn) (xs : List Opnd) (h : ∀ x ∈ xs, OpndTexts S x) {n : Nat} (hn : 1 < n) (rest : List Char) :
    ∃ V ts, Written (z80Language S) n false V ts rest ∧ ts.map ofToken = m.tok :: (line xs ++ [.other 10]) ∧ ∀ t ∈ ts, contents S t = none := by
  obtain ⟨h1, h2⟩ := writable_line h
  obtain ⟨V, ts, a, b, c⟩ := written_exists hn rest (m.tok :: line xs) false (L := z80Language S) (fun k hk => by
    cases hk with
    | head => exact writable_mn S m
    | tail _ hk => exact h1 k hk) (apart_cons rfl h2 _)
  exact ⟨V, ts, a, b, c⟩

/-! ### An example -/

def text0 : List Char := " ld ( ix + 5 ) , 42 ; the answer\n nop\n".toList

theorem blank : Blanks [' '] := by intro c h; cases h with | head => decide | tail _ h => cases h

theorem written0 : Written (z80Language strings0) 300 false text0
    [.word Mn.ld.num, .char '(', .word Rg.ix.num, .word 320, .number 5, .char ')', .char ',', .number 42, .char '\n'] " nop\n".toList := by
  refine .token (g := [' ']) (s := "ld".toList) (.word (w := ⟨"LD".toList, Mn.ld.num⟩) (by decide +kernel)) (by decide) blank (by decide) (by decide) ?_
  refine .token (g := [' ']) (s := "(".toList) (.char (by intro c h; cases h; decide) (by decide) (by decide +kernel) (by decide) (by decide) (by decide) (by decide) (by decide))
    (by decide) blank (by decide) (by decide) ?_
  refine .token (g := [' ']) (s := "ix".toList) (.word (w := ⟨"IX".toList, Rg.ix.num⟩) (by decide +kernel)) (by decide) blank (by decide) (by decide) ?_
  refine .token (g := [' ']) (s := "+".toList) (.word (w := ⟨"+".toList, 320⟩) (by decide +kernel)) (by decide) blank (by decide) (by decide) ?_
  refine .token (g := [' ']) (s := "5".toList) (.number (pre := []) (value := 5) .dec (by decide) (by decide) (by decide)) (by decide) blank (by decide) (by decide) ?_
  refine .token (g := [' ']) (s := ")".toList) (.char (by intro c h; cases h; decide) (by decide) (by decide +kernel) (by decide) (by decide) (by decide) (by decide) (by decide))
    (by decide) blank (by decide) (by decide) ?_
  refine .token (g := [' ']) (s := ",".toList) (.char (by intro c h; cases h; decide) (by decide) (by decide +kernel) (by decide) (by decide) (by decide) (by decide) (by decide))
    (by decide) blank (by decide) (by decide) ?_
  refine .token (g := [' ']) (s := "42".toList) (.number (pre := []) (value := 42) .dec (by decide) (by decide) (by decide)) (by decide) blank (by decide) (by decide) ?_
  exact .newline (g := [' ']) (c := "; the answer".toList) blank (by decide) (by decide) (.inr (.inl rfl))

/-- The hypotheses of `C59_z80` hold for a line; its bytes are DD 36 05 2A. -/
example : ∃ b' its, parseLine (z80Env strings0) 300 9 true (init text0 args0 (some "_7".toList)) =
      .ok ([.word Mn.ld.num, .char '(', .word Rg.ix.num, .word 320, .number 5, .char ')', .char ',', .number 42, .char '\n'], b') ∧
    Pos (Lexer.values args0 (some "_7".toList)) 3 b' " nop\n".toList 9 ∧
    instr C0 z80 ([Token.word Mn.ld.num, .char '(', .word Rg.ix.num, .word 320, .number 5, .char ')', .char ',', .number 42, .char '\n'].map ofToken) =
      .ok (some (its, [.other 10])) ∧
    ∀ (fm : FMath) (now : Nat → ASym) (ρ : Den), 0 ≤ ρ.pc → ρ.pc < 16777216 → bytesAt fm wrap now ρ its = some [0xDD, 0x36, 5, 42] := by
  have hs : sem Cpu.z80 (known C0 [.idx .ix false (some (.plus (.num 5))), .expr (.num 42)]) .ld
      (opvs [.idx .ix false (some (.plus (.num 5))), .expr (.num 42)]) = some [.ldImm (.idx .ix .a) .b] := rfl
  obtain ⟨b', its, h1, h2, h3, h4⟩ := C59_z80 C0 z80 .ld [.idx .ix false (some (.plus (.num 5))), .expr (.num 42)] (by simp)
    (by
      intro x hx
      rcases List.mem_cons.1 hx with rfl | hx
      · exact ⟨readable_plus 1 5, .inl rfl⟩
      · cases List.mem_singleton.1 hx
        exact ⟨readable_num 2 42, fun h => (nomatch h)⟩) C0_known hs rfl (by decide +kernel) written0 rfl (by decide) (A := 3) (by decide) (Nat.le_refl _)
    ⟨by
      have := (shows_init text0 args0 (some "_7".toList) 3 (by decide) plain0 (by decide +kernel)).mono (d' := 9) (by omega)
      rwa [show substitute (Lexer.values args0 (some "_7".toList)) text0 = text0 by decide +kernel] at this, rfl, by decide +kernel⟩
  exact ⟨b', its, h1, h2, h3, fun fm now ρ h0 h1 => by rw [h4 fm now ρ h0 h1]; rfl⟩

end Verif.Source.Z80
