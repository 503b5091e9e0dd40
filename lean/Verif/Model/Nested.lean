import Verif.Model.Combi

/-!
# `nested_string_formatting` (`glompo/common/helpers.py:117-184`)

Texts are lists of characters.
-/

namespace Glompo.Nested

/-- Belongs to the model of `helpers.py:158-159`. -/
abbrev Text := List Char

/-- helpers.py:158-159: the last character is dropped if it is a closing bracket; `s[-1]` of an empty text is an
`IndexError`. -/
def lastStep (s : Text) : Except Err Text :=
  match s.getLast? with
  | none => .error .indexError
  | some d => .ok (if d = ']' then s.dropLast else s)

/-- helpers.py:156-159: the first character is dropped if it is an opening bracket, then the last one. -/
def strip (s : Text) : Except Err Text :=
  match s with
  | [] => .error .indexError
  | c :: t => lastStep (if c = '[' then t else c :: t)

/-- helpers.py:162: `replace('[', '[\n')`. -/
def breakOpen (s : Text) : Text := s.flatMap fun c => if c = '[' then ['[', '\n'] else [c]

/-- helpers.py:163: `replace(']', '\n]')`. -/
def breakClose (s : Text) : Text := s.flatMap fun c => if c = ']' then ['\n', ']'] else [c]

/-- `str.split('\n')` (helpers.py:167). -/
def splitLines : Text → List Text
  | [] => [[]]
  | c :: t =>
    if c = '\n' then [] :: splitLines t
    else match splitLines t with
      | [] => [[c]]  -- never happens
      | l :: ls => (c :: l) :: ls

/-- `' ' * level + line`; a negative level gives no blanks. Belongs to the model of `helpers.py:170-178`. -/
def pad (level : Int) (line : Text) : Text := List.replicate level.toNat ' ' ++ line

/-- helpers.py:170-178: indentation by the number of brackets seen. -/
def indent : Int → List Text → List Text
  | _, [] => []
  | level, line :: rest =>
    if '[' ∈ line then pad level line :: indent (level + 1) rest
    else
      let level := if ']' ∈ line then level - 1 else level
      pad level line :: indent level rest

/-- `'\n'.join(lines)` (helpers.py:180). -/
def join : List Text → Text
  | [] => []
  | [l] => l
  | l :: ls => l ++ '\n' :: join ls

/-- helpers.py:117-184: `nested_string_formatting`. -/
def format (s : Text) : Except Err Text :=
  match strip s with
  | .error e => .error e
  | .ok s => .ok (join (indent 0 (splitLines (breakClose (breakOpen s)))))

/-- `__str__` of conditions (corebase.py:34-44, 76-77, 113-114, 128-129); `name` gives the text of the basic ones. -/
def condStr (name : Nat → String) : Cond → String
  | .leaf i => name i
  | .or _ a b => "[" ++ condStr name a ++ " | \n" ++ condStr name b ++ "]"
  | .and _ a b => "[" ++ condStr name a ++ " & \n" ++ condStr name b ++ "]"

end Glompo.Nested
