import Verif.Model.Combi

namespace Glompo.Spec

open Glompo

/-- Boolean value of the expression. -/
def boolValue (answer : Nat → Bool) : Cond → Bool
  | .leaf i => answer i
  | .or _ a b => boolValue answer a || boolValue answer b
  | .and _ a b => boolValue answer a && boolValue answer b

/-- The basic conditions which the documented lazy rule evaluates, in order. -/
def lazyOrder (answer : Nat → Bool) : Cond → List Nat
  | .leaf i => [i]
  | .or _ a b => if boolValue answer a then lazyOrder answer a else lazyOrder answer a ++ lazyOrder answer b
  | .and _ a b => if boolValue answer a then lazyOrder answer a ++ lazyOrder answer b else lazyOrder answer a

/-- All object names of a tree. -/
def objects : Cond → List Nat
  | .leaf i => [i]
  | .or i a b => i :: (objects a ++ objects b)
  | .and i a b => i :: (objects a ++ objects b)

/-- Names of the basic conditions, left to right. -/
def leaves : Cond → List Nat
  | .leaf i => [i]
  | .or _ a b => leaves a ++ leaves b
  | .and _ a b => leaves a ++ leaves b

/-- The text of an expression in which every basic condition `i` is shown with the result `res i`. -/
def shownText (name : Nat → String) (res : Nat → Option Bool) : Cond → String
  | .leaf i => name i ++ " = " ++ (match res i with | some true => "True" | some false => "False" | none => "None")
  | .or _ a b => "[" ++ shownText name res a ++ " | \n" ++ shownText name res b ++ "]"
  | .and _ a b => "[" ++ shownText name res a ++ " & \n" ++ shownText name res b ++ "]"

end Glompo.Spec
