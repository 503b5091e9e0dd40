import Verif.Model.Helpers

/-!
# Specification vocabulary for the helpers
-/

namespace Glompo.Spec

open Glompo Glompo.Helpers

/-- What stands at a position of a nested value; a position is the list of indices leading to it. -/
def Nest.at : Nest → List Nat → Option Nest
  | t, [] => some t
  | .seq l, i :: p => match l[i]? with | some t => Nest.at t p | none => none
  | _, _ :: _ => none

/-- Not a sequence (a string counts as one item). -/
def Nest.isItem : Nest → Bool
  | .seq _ => false
  | _ => true

end Glompo.Spec
