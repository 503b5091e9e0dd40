import Verif.Model.Queue

/-!
# Specification vocabulary for the results queue
-/

namespace Glompo.Spec

open Glompo.CQueue (Call)

/-- The item a call brings. -/
def item? {α : Type} : Call α → Option α
  | .put x _ => some x
  | .putNowait x => some x
  | .putIncache x => some x
  | _ => none

/-- The items of those calls which ended without an exception, in call order. -/
def acceptedItems {α : Type} : List (Call α) → List Bool → List α
  | c :: cs, true :: bs => (item? c).toList ++ acceptedItems cs bs
  | _ :: cs, false :: bs => acceptedItems cs bs
  | _, _ => []

/-- Every call which may add something ended without an exception (an `Empty` on the consumer's side is allowed). -/
def NoFull {α : Type} : List (Call α) → List Bool → Prop
  | c :: cs, b :: bs => (b = false → c = .get) ∧ NoFull cs bs
  | _, _ => True

end Glompo.Spec
