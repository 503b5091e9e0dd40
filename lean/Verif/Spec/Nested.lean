import Verif.Model.Combi

/-! What a laid out condition looks like, and what keeping a text means (C90). -/

namespace Glompo.Spec.Nested

/-- `n` blanks before a line. -/
def shifted (n : Nat) (line : List Char) : List Char := List.replicate n ' ' ++ line

/-- Text put behind the last line. -/
def atEnd (suffix : List Char) (lines : List (List Char)) : List (List Char) :=
  lines.dropLast ++ [lines.getLast?.getD [] ++ suffix]

/-- The lines of a condition at depth `n`: a basic condition is one line; a combination is an opening bracket, the two
parts one deeper with the operator behind the first one, and the closing bracket at the depth of the opening one. -/
def block (text : Nat → List Char) (n : Nat) : Cond → List (List Char)
  | .leaf i => [shifted n (text i)]
  | .or _ a b =>
    [shifted n ['[']] ++ atEnd " | ".toList (block text (n + 1) a) ++ block text (n + 1) b ++ [shifted n [']']]
  | .and _ a b =>
    [shifted n ['[']] ++ atEnd " & ".toList (block text (n + 1) a) ++ block text (n + 1) b ++ [shifted n [']']]

/-- The whole text: the outermost brackets are left out. -/
def layout (text : Nat → List Char) : Cond → List (List Char)
  | .leaf i => block text 0 (.leaf i)
  | .or _ a b => atEnd " | ".toList (block text 0 a) ++ block text 0 b
  | .and _ a b => atEnd " & ".toList (block text 0 a) ++ block text 0 b

/-- Lines separated by line ends. -/
def lineSep (lines : List (List Char)) : List Char := List.intercalate ['\n'] lines

/-- A name without brackets and line ends, and not empty. -/
def Plain (s : List Char) : Prop := s ≠ [] ∧ '[' ∉ s ∧ ']' ∉ s ∧ '\n' ∉ s

/-- What is left of a text without blanks and line ends. -/
def inked (s : List Char) : List Char := s.filter fun c => c != ' ' && c != '\n'

end Glompo.Spec.Nested
