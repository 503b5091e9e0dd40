import Verif.Model.Restart
import Verif.Spec.Spawn

/-! # What a resumed optimizer is to be called with -/

namespace Glompo.Restart

open Glompo Glompo.Spawn

/-- Class, backend and all arguments of the call are those the user asked for. -/
def AsAsked (m : Mode Val) (σ : Spawn.Store Val) (it : Item) (o : Created Val) : Prop :=
  o.cls = it.cls ∧ o.backend = (it.asked σ "backend").getD m.default ∧ ∀ k, dictGet o.call k = it.askedCall σ k

/-- The workers the user asked for. -/
def workersAsked (σ : Spawn.Store Val) (it : Item) : Val := (it.asked σ "workers").getD (.int 1)

/-- The workers of an optimizer. -/
def workers (o : Created Val) : Int :=
  match dictGet o.init "workers" with
  | some (.int n) => n
  | _ => 0

end Glompo.Restart
