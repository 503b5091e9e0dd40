import Verif.Spec.Manager
import Verif.Model.Status

/-! What a status message should say. -/

namespace Glompo.Spec

open Glompo.Manager

/-- The message `m` is right after the history `ev`, in which `logged` is what the log holds, with so many worker slots:

* it counts the processes running and the workers they take;
* the number of evaluations is the one accepted, written with a blank between groups of three digits;
* the values are of running optimizers, in the order of their ids; an optimizer which has not announced its end has a line
  exactly if evaluations of it are logged, with the last of them;
* the best value is the one of the last result. -/
structure Reports (ev : List Ev) (logged : List IterRes) (jobs : Int) (m : Status.Message) : Prop where
  alive : m.alive = ((startedOf ev).filter fun p => decide (p.1 ∉ diedOf ev)).length
  slots : m.slots = load ev
  jobs : m.maxJobs = jobs
  number : Nat.ofDigitChars 10 (m.evals.filter fun c => c != ' ') 0 = (acceptedOf ev).length
  blanks : ∀ k < m.evals.length, m.evals.reverse[k]? = some ' ' ↔ k % 4 = 3
  running : ∀ p ∈ m.values, Running ev p.1
  values : ∀ i, Running ev i → Ev.received (.fin i) ∉ ev → ∀ v, (i, v) ∈ m.values ↔
    ((logged.filter fun r => r.optId == i).getLast?.map (·.fx)) = some v
  order : m.values.Pairwise fun p q => p.1 < q.1
  best : m.best = (lastResult ev).map (·.2.1)

end Glompo.Spec
