import Verif.Source.Text
import Verif.Lexer.ScanLimits
/-!
# Languages of the assemblers

What `C59_read` needs of the words of an assembler, as a check.
-/
namespace Verif.Source

open Verif.Lexer
open Verif.Parse (Tok Toks Tree)

/-- A word that blanks, `*` and `;` separate. -/
def wordOk (w : Word) : Bool :=
  !w.name.isEmpty && w.name.all (fun c => c.toNat < 128 && upper c == c && isSpace c == false) &&
  w.name.all (· != ';') && (w.name.all (· != '*') || w.name.all (· == '*')) &&
  (match w.name with
   | [] => false
   | c :: _ => c != '$' && c != '%' && c != '`' && !('0' ≤ c && c ≤ '9') && c != '"' && c != '\'' && c != '.') &&
  (w.name.dropWhile isSymbol).head? != some '$' && (w.name.dropWhile isSymbol).head? != some '#' && Nat.ble w.name.length 256

theorem regular_of {ws : List Word} (h : ws.all wordOk = true) (S : List Char → Option (List Char)) : Regular ⟨ws, S, options0⟩ := by
  have hw : ∀ w ∈ ws, wordOk w = true := List.all_eq_true.1 h
  have parts : ∀ w ∈ ws, (w.name ≠ [] ∧ ∀ c ∈ w.name, c.toNat < 128 ∧ upper c = c ∧ isSpace c = false) ∧ ';' ∉ w.name ∧
      ('*' ∈ w.name → ∀ c ∈ w.name, c = '*') ∧ (NoNumber w.name ∧ w.name.head? ≠ some '"' ∧ w.name.head? ≠ some '\'' ∧ w.name.head? ≠ some '.') ∧
      ((w.name.dropWhile isSymbol).head? ≠ some '$' ∧ (w.name.dropWhile isSymbol).head? ≠ some '#') ∧ w.name.length ≤ 256 := by
    intro w hm
    have := hw w hm
    unfold wordOk at this
    simp only [Bool.and_eq_true] at this
    obtain ⟨⟨⟨⟨⟨⟨⟨h1, h2⟩, h3⟩, h4⟩, h5⟩, h6⟩, h7⟩, h8⟩ := this
    refine ⟨⟨(by intro h; rw [h] at h1; cases h1), fun c hc => ?_⟩, fun hc => ?_, fun hs c hc => ?_, ?_, ⟨?_, ?_⟩, Nat.le_of_ble_eq_true h8⟩
    · have := List.all_eq_true.1 h2 c hc
      simpa [and_assoc] using this
    · have := List.all_eq_true.1 h3 _ hc
      revert this; decide
    · rcases Bool.or_eq_true_iff.1 h4 with h4 | h4
      · have := List.all_eq_true.1 h4 _ hs
        exact absurd this (by decide)
      · simpa using List.all_eq_true.1 h4 c hc
    · cases hn : w.name with
      | nil => rw [hn] at h5; cases h5
      | cons c cs =>
        rw [hn] at h5
        simp only [Bool.and_eq_true, bne_iff_ne, ne_eq, Bool.not_eq_true', Bool.and_eq_false_iff, decide_eq_false_iff_not] at h5
        obtain ⟨⟨⟨⟨⟨⟨a1, a2⟩, a3⟩, a4⟩, a5⟩, a6⟩, a7⟩ := h5
        refine ⟨fun x hx => ?_, ?_, ?_, ?_⟩
        · cases hx
          exact ⟨a1, a2, a3, fun h => by rcases a4 with h' | h'; exact h' h.1; exact h' h.2⟩
        · intro h; cases h; exact a5 rfl
        · intro h; cases h; exact a6 rfl
        · intro h; cases h; exact a7 rfl
    · simpa using h6
    · simpa using h7
  exact
    { good := fun w hm => (parts w hm).1, comment := fun w hm => (parts w hm).2.1, star := fun w hm => (parts w hm).2.2.1,
      begins := fun w hm => (parts w hm).2.2.2.1, ends := fun w hm => (parts w hm).2.2.2.2.1, short := fun w hm => (parts w hm).2.2.2.2.2,
      bin0 := (by decide : isSpace options0.bin0 = false ∧ options0.bin0 ≠ '*' ∧ options0.bin0 ≠ ';'),
      bin1 := (by decide : isSpace options0.bin1 = false ∧ options0.bin1 ≠ '*' ∧ options0.bin1 ≠ ';') }

/-- The words of expressions. -/
def standardWords : List (String × Nat) :=
  [("==", 305), ("~=", 306), (">", 307), (">=", 308), ("<", 309), ("<=", 310), ("||", 311), ("&&", 312), ("~!", 313), ("|", 314), ("^", 315), ("&", 316),
   ("<<", 317), (">>", 318), ("~", 319), ("+", 320), ("-", 321), ("*", 322), ("/", 323), ("~/", 324), ("//", 332), ("**", 333), ("SIN", 334), ("COS", 335),
   ("TAN", 336), ("ASIN", 337), ("ACOS", 338), ("ATAN", 339), ("ATAN2", 340)]

def standardOk (ws : List Word) : Bool :=
  standardWords.all (fun (s, n) => (named ws s.toList).map (·.token) == some n) && ['(', ')', ',', '@', '[', ']'].all fun c => named ws [c] == none

theorem standard_of {ws : List Word} (h : standardOk ws = true) (S : List Char → Option (List Char)) : Standard ⟨ws, S, options0⟩ := by
  obtain ⟨h1, h2⟩ := Bool.and_eq_true_iff.1 h
  refine ⟨fun n hn => ?_, fun c hc => by simpa using List.all_eq_true.1 h2 c hc⟩
  have : ∀ n ∈ [305, 306, 307, 308, 309, 310, 311, 312, 313, 314, 315, 316, 317, 318, 319, 320, 321, 322, 323, 324, 332, 333, 334, 335, 336, 337, 338, 339, 340],
      ∃ p ∈ standardWords, p.2 = n ∧ (p.1.toList.head? = some '*' → isStar (ofWord n) = true) := by decide
  obtain ⟨⟨s, m⟩, hp, rfl, hs⟩ := this n hn
  have := List.all_eq_true.1 h1 _ hp
  obtain ⟨w, hw, hm⟩ := Option.map_eq_some_iff.1 (eq_of_beq this)
  exact ⟨s.toList, w, hw, hm, hs⟩

end Verif.Source
