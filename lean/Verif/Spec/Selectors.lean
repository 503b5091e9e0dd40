import Verif.Model.Selectors

namespace Glompo.Spec

/-- The optimizers actually proposed, in order. -/
def proposals (answers : List Sel) : List AvailOpt :=
  answers.filterMap fun a => match a with
    | .chosen o => some o
    | _ => none

/-- Number of thresholds reached after `f` evaluations. -/
def reached (thresholds : List PyF) (f : Nat) : Nat := (thresholds.filter fun th => PyF.le th (.fin f)).length

/-- Evaluation counts of successive requests never decrease. -/
def MonotoneReqs : List Req → Prop
  | [] => True
  | [_] => True
  | a :: b :: t => a.view.fCounter ≤ b.view.fCounter ∧ MonotoneReqs (b :: t)

/-- Stage of the chain at each request: a request made while spawning is allowed moves on by one stage, unless the stage
already equals the number of thresholds reached; other requests change nothing. -/
def chainStages (ths : List PyF) (allow : SelView → Bool) : Nat → List Req → List Nat
  | _, [] => []
  | stage, r :: rs =>
    let st := if allow r.view then min (stage + 1) (reached ths r.view.fCounter) else stage
    st :: chainStages ths allow st rs

/-- Answer of a chain which is in the given stage. -/
def chainAnswer (opts : List AvailOpt) (allow : SelView → Bool) (r : Req) (stage : Nat) : Sel :=
  if allow r.view then
    match opts[stage]? with
    | some o => if o.workers ≤ r.slots then .chosen o else .nothing
    | none => .raised .indexError
  else .stop

end Glompo.Spec
