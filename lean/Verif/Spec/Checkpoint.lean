import Verif.Model.Checkpoint

/-!
# Specification vocabulary for checkpoint names and files
-/

namespace Glompo.Spec

open Glompo.Checkpoint

/-- A point in time between the years 0 and 9999. -/
structure IsTime (t : Clock) : Prop where
  year : t.year < 10000
  month : t.month < 100
  day : t.day < 100
  hour : t.hour < 100
  minute : t.minute < 100
  second : t.second < 100

/-- The text `a` contains the text `b`. -/
def Contains (a b : List Char) : Prop := ∃ l r, a = l ++ b ++ r

/-- The text `b` occurs (at least) twice in `a`. -/
def ContainsTwice (a b : List Char) : Prop := ∃ l m r, a = l ++ b ++ m ++ b ++ r

/-- The format has none of the two special characters of patterns which are not escaped. -/
def PlainFormat (fmt : List Char) : Prop := '?' ∉ fmt ∧ '\\' ∉ fmt

/-- The order of Python strings: by code points, lexicographically. -/
def Before (a b : Name) : Prop := a.map Char.toNat < b.map Char.toNat

instance (a b : Name) : Decidable (Before a b) := by unfold Before; infer_instance

/-- Names in a directory. -/
def names (d : Dir) : List Name := d.map (·.1)

/-- There is something which is not a directory. -/
def IsFile (x : Option Node) : Prop := x ≠ none ∧ x ≠ some .dir

instance (x : Option Node) : Decidable (IsFile x) := by unfold IsFile; infer_instance

/-- Nothing goes wrong. -/
def noFaults : Faults := ⟨none, none, none, false⟩

end Glompo.Spec
