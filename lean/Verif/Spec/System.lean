import Verif.Spec.Manager
import Verif.Spec.Optimizer
import Verif.Spec.QueueConc

/-!
# The whole system: manager, results queue and optimizers together

The three are modelled separately (`Model/Manager`, `Model/QueueConc`, `Model/Optimizer`), each with an arbitrary
surrounding. Here the surrounding of each is the others.
-/

namespace Glompo.Spec

open Glompo.Manager (Ev Obs Msg)

/-- An optimizer process: settings, the user's code, and what it sees up to some moment. -/
structure Child where
  cfg : Optimizer.Cfg
  code : Optimizer.Routine
  fuel : Nat
  env : List Optimizer.Obs

/-- What the optimizer has done up to that moment. -/
def Child.did (c : Child) : List Optimizer.Ev := (Optimizer.minimize c.cfg c.code c.fuel ⟨c.env, []⟩).2.ev

/-- The evaluations the optimizer has made. -/
def Child.made (c : Child) : List IterRes := Spec.Optimizer.evalsOf c.cfg.optId c.did

/-- What optimizers put on the queue, as the manager reads it. -/
def asMsg : IterRes ⊕ Nat → Msg
  | .inl r => .res r
  | .inr i => .fin i

/-- The chunks the manager got from the queue. -/
def chunksOf (e : List Obs) : List (List Msg) :=
  e.filterMap fun o => match o.ans with | .chunk (some c) => some c | _ => none

/-- Manager, queue and optimizers fit together at some moment: optimizer `i` reports with number `i`; what it put on the queue
is what the queue got from thread `i` (a call of `put` which has begun counts, and none failed); what the manager got from the
queue is what the queue gave away, apart from what is thrown away at the end. -/
structure Together (e : List Obs) (q : QueueConc.State (IterRes ⊕ Nat)) (child : Nat → Child) : Prop where
  reach : ∃ cap chunk, QueueConc.Reachable cap chunk q
  ids : ∀ i, (child i).cfg.optId = i
  puts : ∀ i, q.sent i = Spec.Optimizer.queueOf (child i).did
  good : ∀ i, ∀ x ∈ (child i).did, Spec.Optimizer.isLost x = false
  gets : ∃ thrown, q.received.map (fun c => c.map fun m => asMsg m.2) = chunksOf e ++ thrown

/-- What happened in the present run. -/
def thisRun (cfg : Manager.Cfg) (s : Manager.State) (fuel : Nat) (e : Manager.Env) : List Ev :=
  (happened cfg s fuel e).drop s.ev.length

/-- The messages the pipe to optimizer `i` gets at an event (manager.py:1198, 1606, 1626, 1645, 1806, 1867, 1870). An optimizer
which is terminated (manager.py:1604, 1431, 1446) gets none. -/
inductive Sends (i : Nat) : Ev → Optimizer.Msg → Prop where
  | stop : Sends i (.stop i) (.int 1)
  | crash : Sends i (.stop i) (.tuple 1 [.str "GloMPO Crash"])
  | share (x : Vec) (fx : PyF) : Sends i (.share i x fx) (.tuple 4 [.vec x, .num fx])
  | pause : Sends i (.pauseReq i) (.int 2)
  | save (path : Optimizer.Arg) : Sends i (.save i) (.tuple 0 [path])
  | pass : Sends i (.pass i) (.int 3)

/-- The pipe to optimizer `i`: what it has read was sent by the manager in these events, in this order. -/
def Piped (ev : List Ev) (i : Nat) (c : Child) : Prop :=
  ∃ sent : List Ev, sent.Sublist ev ∧ List.Forall₂ (Sends i) sent (Spec.Optimizer.msgsOf c.env)

/-- What the manager did at an event, and what it makes optimizer `i` do. -/
inductive Orders (i : Nat) : Ev → Optimizer.Ev → Prop where
  | stop (reason : Option Optimizer.Arg) : Orders i (.stop i) (.stopped reason)
  | share (x : Vec) (fx : PyF) : Orders i (.share i x fx) (.injected (.vec x) (.num fx))
  | save (path : Optimizer.Arg) : Orders i (.save i) (.saved path)
  | pass : Orders i (.pass i) .passed

end Glompo.Spec
