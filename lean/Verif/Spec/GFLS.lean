import Verif.Model.GFLS

/-! # What a user of the GFLS optimizer relies on (C86, C87) -/

namespace Glompo.Spec.GFLS

open Glompo Glompo.GFLS

/-- The reasons given to stop in an iteration, in order, whoever gives them. -/
def reasons (managed : Bool) (it : Iter) : List String :=
  it.hooks.filter (· ≠ "") ++ (if it.callback = "" then [] else [it.callback]) ++
    if managed then it.msgs.filterMap (fun m => match m with | .stop r => some r | .save => none) else []

/-- The iteration leaves the optimizer with a reason to stop. -/
def Stops (managed : Bool) (it : Iter) : Prop := ∃ r, (reasons managed it).getLast? = some r ∧ r ≠ ""

/-- Every one of the evaluations asked for, from number `a` up to `b` (exclusive), has been told exactly once or is still running, and
there are no others. -/
def Accounted (a b : Nat) (told : List (Nat × Answer)) (running : List Nat) : Prop :=
  (told.map (·.1) ++ running).Perm (List.range' a (b - a))

/-- The states saved by an optimizer in a run, which was resumed from a saved state so many times before. -/
inductive Saved (workers : Nat) (managed : Bool) (eval : Nat → Answer) : Nat → Opt → Prop
  | first (env : List Iter) (o : Opt) : o ∈ (minimize workers managed false eval fresh env).2.1 → Saved workers managed eval 0 o
  | resumed (k : Nat) (o : Opt) (env : List Iter) (o' : Opt) : Saved workers managed eval k o →
      o' ∈ (minimize workers managed true eval o env).2.1 → Saved workers managed eval (k + 1) o'

end Glompo.Spec.GFLS
