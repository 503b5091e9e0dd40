import Verif.Model.OldResults

/-! What results of an earlier optimization are (C91). -/

namespace Glompo.Spec.OldResults
open Glompo.OldResults

/-- Results of an optimization, as named in the documentation: the summary, the plots of trajectories, the plots of parameters and the
iteration log. -/
def IsResult (n : List Char) : Prop :=
  n = "glompo_manager_log.yml".toList ∨ n = "glompo_log.h5".toList ∨
  (∃ mid, n = "trajectories".toList ++ mid ++ ".png".toList ∧ '/' ∉ mid) ∨
  (∃ mid, n = "opt".toList ++ mid ++ "_parms.png".toList ∧ '/' ∉ mid)

/-- Results which belong to a different optimization: an optimization which is resumed goes on with the log it finds. -/
def IsOld (restart : Bool) (n : List Char) : Prop := IsResult n ∧ ¬ (restart = true ∧ n = "glompo_log.h5".toList)

/-- Print streams of the optimizers. -/
def IsStream (n : List Char) : Prop :=
  n = "glompo_optimizer_printstreams".toList ∨ ∃ t, n = "glompo_optimizer_printstreams/".toList ++ t

/-- What is at a path. -/
def at_ (d : Dir) (n : List Char) : Option Node := dictGet d n

/-- There is something at the path. -/
def Has (d : Dir) (n : List Char) : Prop := at_ d n ≠ none

end Glompo.Spec.OldResults
