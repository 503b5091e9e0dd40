import Verif.Model.FileLogger

/-!
# What waits to be written to the log file
-/

namespace Glompo.Spec

open Glompo.FileLogger (FOp)

/-- Number of evaluations held back in memory. -/
def unwritten (s : FileLogger) : Nat := (s.chunk.flatMap (·.2)).length

/-- No operation raised an exception. -/
def NoneRaised (s : FileLogger) (ops : List FOp) : Prop :=
  ∀ pre op post, ops = pre ++ op :: post → ((s.run pre).step op).2 = none

/-- Size in memory of the first evaluation, 0 before it. -/
def firstSize (ops : List FOp) : Nat := (ops.findSome? fun op => match op with | .put _ n => some n | _ => none).getD 0

end Glompo.Spec
