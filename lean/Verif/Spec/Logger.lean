import Verif.Model.Logger

/-!
# Specification vocabulary for the logger properties

Only the *operations* appear here (which calls were made, in which order), never the logger's state.
-/

namespace Glompo.Spec

open Glompo.Logger (Op)

/-- The evaluations handed to the logger, oldest first. -/
def evals (ops : List Op) : List IterRes :=
  ops.filterMap fun op => match op with
    | .put r => some r
    | _ => none

/-- Ids registered by a sequence of operations. -/
def added (ops : List Op) : List Nat :=
  ops.filterMap fun op => match op with
    | .add i _ => some i
    | _ => none

/-- Ids for which an iteration history was opened by a sequence of operations. -/
def opened (ops : List Op) : List Nat :=
  ops.filterMap fun op => match op with
    | .addHist i _ => some i
    | _ => none

/-- An operation the manager may perform after the operations `pre`. -/
def OpOk (pre : List Op) : Op → Prop
  | .add i _ => i ≠ 0 ∧ i ∉ added pre
  | .addHist i _ => i ∈ added pre ∧ i ∉ opened pre
  | .put r => r.optId ∈ added pre ∧ r.optId ∈ opened pre
  | _ => True

/-- A history as the manager produces it: optimizers are registered once, with a positive id, histories are opened
once and after registration, and evaluations come only from optimizers registered and opened before. -/
def WellFormed (ops : List Op) : Prop :=
  ∀ pre op post, ops = pre ++ op :: post → OpOk pre op

/-- `k` is the position of the earliest smallest value among those evaluations of `es` which satisfy `P`; `nan` and
`+inf` values do not take part. -/
def EarliestMin (P : IterRes → Prop) (es : List IterRes) (k : Nat) : Prop :=
  ∃ r, es[k]? = some r ∧ P r ∧ PyF.lt r.fx .pinf = true ∧
    ∀ j r', es[j]? = some r' → P r' →
      PyF.lt r'.fx r.fx = false ∧ (j < k → PyF.le r'.fx r.fx = false)

/-- No evaluation satisfying `P` has a value below `+inf`. -/
def NoneQualifies (P : IterRes → Prop) (es : List IterRes) : Prop :=
  ∀ r ∈ es, P r → PyF.lt r.fx .pinf = false

/-- Evaluation numbers (from 1) of the evaluations of optimizer `i`. -/
def callIds (es : List IterRes) (i : Nat) : List Nat :=
  ((es.zipIdx 1).filter fun p => p.1.optId == i).map (·.2)

/-- The evaluations of optimizer `i`. -/
def evalsOf (es : List IterRes) (i : Nat) : List IterRes := es.filter fun r => r.optId == i

/-- The memory of optimizer `i` is released by a `clear_cache` call somewhere in the history. -/
def Cleared (ops : List Op) (i : Nat) : Prop :=
  Op.clear none ∈ ops ∨ Op.clear (some 0) ∈ ops ∨ Op.clear (some i) ∈ ops

end Glompo.Spec
