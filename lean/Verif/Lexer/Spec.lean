/-!
# Texts with macro arguments

What a macro body means, independently of how it is read: `\0` to `\9` stand for the arguments and `\@` for the unique
value.
-/
namespace Verif.Lexer

/-- What the character behind a backslash stands for, if it is a placeholder. -/
abbrev Values := Char → Option (List Char)

/-- The values of the placeholders for a list of arguments and a unique value: a digit always is a placeholder, an
argument that is not there is empty. -/
def values (args : List (Option (List Char))) (unique : Option (List Char)) : Values := fun c =>
  if c = '@' then some (unique.getD [])
  else if c.isDigit then
    match args[c.toNat - '0'.toNat]? with
    | some (some v) => some v
    | _ => some []
  else none

/-- The text with all placeholders replaced, from left to right. Replaced text is not looked at again. -/
def substitute (v : Values) : List Char → List Char
  | [] => []
  | [c] => [c]
  | c :: d :: rest =>
    if c = '\\' then
      match v d with
      | some value => value ++ substitute v rest
      | none => c :: substitute v (d :: rest)
    else c :: substitute v (d :: rest)

/-- No placeholder with an empty value is directly followed by a backslash. -/
def NoEmpty (v : Values) : List Char → Prop
  | [] => True
  | [_] => True
  | c :: d :: rest =>
    if c = '\\' then
      match v d with
      | some value => (value = [] → rest.head? ≠ some '\\') ∧ NoEmpty v rest
      | none => NoEmpty v (d :: rest)
    else NoEmpty v (d :: rest)

/-- A text in which no backslash is followed by the character of a placeholder. -/
def Literal (v : Values) : List Char → Prop
  | [] => True
  | c :: rest => (c = '\\' → ∀ d, rest.head? = some d → v d = none) ∧ Literal v rest

end Verif.Lexer
