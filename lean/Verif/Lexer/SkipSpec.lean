import Verif.Lexer.Skip
/-!
# Lines, directives and blocks

What the lines of a source text are and which blocks their directives form, independently of how the text is read.
-/
namespace Verif.Lexer

/-- A character of a name. -/
def symbolChar (c : Char) : Prop := (c.toNat ∈ List.range' 97 26 ∨ c.toNat ∈ List.range' 65 26) ∨ c.toNat ∈ List.range' 48 10 ∨ c = '_'

/-- A letter. -/
def letter (c : Char) : Prop := c.toNat ∈ List.range' 97 26 ∨ c.toNat ∈ List.range' 65 26

instance (c : Char) : Decidable (letter c) := by unfold letter; infer_instance
instance (c : Char) : Decidable (symbolChar c) := by unfold symbolChar; infer_instance

/-- A line of the source. -/
inductive Line where
  /-- A comment in the first column. -/
  | comment (mark : Char) (text : List Char)
  /-- A label, which may be empty, and nothing else. -/
  | bare (label : List Char)
  /-- A label, which may be empty, white space and a comment. -/
  | remark (label gap : List Char) (mark : Char) (text : List Char)
  /-- A label, which may be empty, white space, a word of letters, which may be empty, and anything else. -/
  | stmt (label gap word rest : List Char)

/-- The text of a line, without its end. -/
def Line.text : Line → List Char
  | comment mark text => mark :: text
  | bare label => label
  | remark label gap mark text => label ++ gap ++ mark :: text
  | stmt label gap word rest => label ++ gap ++ word ++ rest

/-- A label contains no white space and no semicolon, and it does not begin with an asterisk: these begin a comment. -/
def Label (label : List Char) : Prop :=
  (∀ c ∈ label, c ≠ ' ' ∧ c ≠ '\t' ∧ c ≠ '\n' ∧ c ≠ ';') ∧ label.head? ≠ some '*'

/-- White space. -/
def Gap (gap : List Char) : Prop := gap ≠ [] ∧ ∀ c ∈ gap, c = ' ' ∨ c = '\t'

/-- The parts of a line are what they are called. The word ends where the letters end; if there is no word, what follows
is neither white space nor a comment. No word is longer than 256 letters. -/
def Line.Ok : Line → Prop
  | comment mark text => (mark = ';' ∨ mark = '*') ∧ '\n' ∉ text
  | bare label => Label label
  | remark label gap mark text => Label label ∧ Gap gap ∧ (mark = ';' ∨ mark = '*') ∧ '\n' ∉ text
  | stmt label gap word rest => Label label ∧ Gap gap ∧ (∀ c ∈ word, letter c) ∧ word.length ≤ 256 ∧ '\n' ∉ rest ∧
      (∀ c ∈ rest.head?, ¬ letter c) ∧
      (word = [] → ∀ c ∈ rest.head?, c ≠ ' ' ∧ c ≠ '\t' ∧ c ≠ ';' ∧ c ≠ '*')

instance (l : List Char) : Decidable (Label l) := by unfold Label; infer_instance
instance (l : List Char) : Decidable (Gap l) := by unfold Gap; infer_instance
instance (l : Line) : Decidable l.Ok := by cases l <;> unfold Line.Ok <;> infer_instance

/-- The directive of a line: the whole first word behind the label, if it is a reserved word. -/
def Line.directive (words : Words) : Line → Option Dir
  | stmt _ _ word rest => if ∃ c ∈ rest.head?, symbolChar c then none else words word
  | _ => none

/-- No name begins with a reserved word followed by a digit or an underscore. -/
def Line.Plain (words : Words) : Line → Prop
  | stmt _ _ word rest => (∃ c ∈ rest.head?, symbolChar c) → words word = none
  | _ => True

instance (words : Words) (l : Line) : Decidable (l.Plain words) := by cases l <;> unfold Line.Plain <;> infer_instance

/-- What follows the directive in a line. -/
def Line.rest : Line → List Char
  | stmt _ _ _ rest => rest
  | _ => []

/-- The text of some lines, every one of them preceded by the end of the previous line. -/
def linesText : List Line → List Char
  | [] => []
  | l :: ls => '\n' :: l.text ++ linesText ls

/-- The directives of some lines. -/
def directives (words : Words) (ls : List Line) : List Dir := ls.filterMap (Line.directive words)

/-- The kinds of blocks. -/
inductive Kind where
  | cond | «macro» | rept
  deriving DecidableEq

/-- The directives that begin a block. -/
def begins : Dir → Option Kind
  | .if => some .cond
  | .ifc => some .cond
  | .ifd => some .cond
  | .ifeq => some .cond
  | .ifge => some .cond
  | .ifgt => some .cond
  | .ifle => some .cond
  | .iflt => some .cond
  | .ifnc => some .cond
  | .ifnd => some .cond
  | .macro => some .macro
  | .rept => some .rept
  | _ => none

/-- The directive that ends a block. -/
def ends : Kind → Dir
  | .cond => .endc
  | .macro => .endm
  | .rept => .endr

/-- Complete blocks and other directives, none of which satisfies `stop` outside the blocks. -/
inductive Complete : (Dir → Prop) → List Dir → Prop
  | nil (stop : Dir → Prop) : Complete stop []
  | plain {stop : Dir → Prop} {d : Dir} {ds : List Dir} : begins d = none → ¬ stop d → Complete stop ds → Complete stop (d :: ds)
  | block {stop : Dir → Prop} {d : Dir} {k : Kind} {body ds : List Dir} : begins d = some k → ¬ stop d →
      Complete (· = ends k) body → Complete stop ds → Complete stop (d :: (body ++ ends k :: ds))

end Verif.Lexer
