import Verif.Model.Scope

/-!
# Vocabulary of the scope

Histories have the most recent call first.
-/

namespace Glompo.Spec.Scope

open Glompo Glompo.Scope

/-- The points handed in for optimizer `i` since its line was added, in order. -/
def given : List Ev → Nat → List Pt
  | [], _ => []
  | .add j :: h, i => if j = i then [] else given h i
  | .update j x y :: h, i => if j = i then given h i ++ [(x, y)] else given h i
  | _ :: h, i => given h i

/-- Optimizer `i` has been added. -/
def Added (h : List Ev) (i : Nat) : Prop := .add i ∈ h

/-- Points and marks are handed in only for optimizers that were added. -/
def Known : List Ev → Prop
  | [] => True
  | .update i _ _ :: h => Added h i ∧ Known h
  | .mark _ i :: h => Added h i ∧ Known h
  | _ :: h => Known h

/-- Evaluation counts handed in so far. -/
def counts : List Ev → List Int
  | [] => []
  | .update _ x _ :: h => x :: counts h
  | _ :: h => counts h

/-- `v` is the least of the values. -/
def IsLeast (v : PyF) (l : List PyF) : Prop := v ∈ l ∧ ∀ w ∈ l, PyF.le v w = true

/-- A line shows the running minimum of the values given. -/
def RunningMin (shown given : List PyF) : Prop :=
  shown.length = given.length ∧ ∀ (k : Nat) (v : PyF), shown[k]? = some v → IsLeast v (given.take (k + 1))

/-- Calls that count towards the next redraw. -/
def events : List Ev → Nat
  | [] => 0
  | .update _ _ _ :: h => events h + 1
  | .mark _ _ :: h => events h + 1
  | _ :: h => events h

end Glompo.Spec.Scope
