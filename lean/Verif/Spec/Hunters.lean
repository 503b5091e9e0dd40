import Verif.Model.Hunters
import Verif.Spec.Logger

namespace Glompo.Spec

open Glompo

/-- Values reported by optimizer `i`, oldest first. -/
def valuesOf (es : List IterRes) (i : Nat) : List PyF := (evalsOf es i).map (·.fx)

/-- `m` is a smallest value of the list. -/
def IsLeast (m : PyF) (l : List PyF) : Prop := m ∈ l ∧ ∀ a ∈ l, PyF.le m a = true

/-- The operations from the registration of optimizer `i` on. -/
def fromAdd (ops : List Logger.Op) (i : Nat) : List Logger.Op :=
  ops.dropWhile fun op => match op with
    | .add j _ => decide (j ≠ i)
    | _ => true

/-- Values written to a metadata key of optimizer `i` since its registration (which writes `opt_type`). -/
def metaWrites (ops : List Logger.Op) (i : Nat) (key : String) : List String :=
  (fromAdd ops i).filterMap fun op => match op with
    | .add j t => if j = i ∧ key = "opt_type" then some t else none
    | .putMeta j k v => if j = i ∧ k = key then some v else none
    | _ => none

/-- Messages stored for optimizer `i` since its registration. -/
def msgWrites (ops : List Logger.Op) (i : Nat) : List String :=
  (fromAdd ops i).filterMap fun op => match op with
    | .putMsg j m => if j = i then some m else none
    | _ => none

end Glompo.Spec
