import Verif.Spec.FileLogger
import Verif.Model.Rollback

/-!
# Histories of a log over several sessions
-/

namespace Glompo.Spec.Rollback

open Glompo Glompo.Spec Glompo.Rollback
open Glompo.FileLogger (FOp init)

/-- Optimizers are numbered from 1 in the order they are registered. -/
def Numbered (ops : List FOp) : Prop := added (toOps ops) = List.range' 1 (added (toOps ops)).length

instance (ops : List FOp) : Decidable (Numbered ops) := by unfold Numbered; infer_instance

/-- What the sessions after a checkpoint may look like for the resumption to be seamless: `pre` is what the logger had got at the
checkpoint, `post` what it got afterwards. The last two conditions exclude the cases refuted below and optimizers registered before
the checkpoint whose first evaluation came after it. -/
structure Resumable (pre post : List FOp) : Prop where
  wf : FWellFormed (pre ++ post)
  numbered : Numbered (pre ++ post)
  noted : evals (toOps post) ≠ [] ∨ added (toOps post) = []
  opened : ∀ i, i ∈ added (toOps pre) → i ∈ opened (toOps post) → i ∈ Spec.opened (toOps pre)

/-- The life of a log over any number of sessions: operations, and resumptions from a checkpoint taken earlier. A checkpoint is taken
after a flush; the session in which it was taken went on with any operations and closed the file. The list is what counts: the
operations which were not undone. -/
inductive Life (traj : Bool) : List FOp → FileLogger → Prop
  | start : Life traj [] (init traj)
  | op {ops : List FOp} {s : FileLogger} (op : FOp) : Life traj ops s → FWellFormed (ops ++ [op]) →
      Life traj (ops ++ [op]) (s.step op).1
  | resume {ops : List FOp} {s : FileLogger} (post : List FOp) (sum : String) {f : LogFile} : Life traj (ops ++ [.flush none]) s →
      Resumable (ops ++ [.flush none]) post →
      rollback sum (evals (toOps ops)).length (added (toOps ops)).length (closedFile sum (s.run post)) = (f, none) →
      Life traj (ops ++ [.flush none]) (reopen s f)

end Glompo.Spec.Rollback
