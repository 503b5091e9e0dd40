import Verif.Model.Optimizer

/-! # Vocabulary for the theorems about optimizers (C42, C43), on the record of what happened -/

namespace Glompo.Spec.Optimizer

open Glompo Glompo.Optimizer

/-- What was put on the results queue, oldest first: results, and end markers. -/
def queueOf : List Ev → List (IterRes ⊕ Nat)
  | [] => []
  | .queued r :: t => .inl r :: queueOf t
  | .queuedEnd i :: t => .inr i :: queueOf t
  | _ :: t => queueOf t

/-- The evaluations of the task which returned something, as they are to be reported by optimizer `i`. -/
def evalsOf (i : Nat) : List Ev → List IterRes
  | [] => []
  | .evaluated x (v :: ex) :: t => { optId := i, x := x, fx := v, extras := ex } :: evalsOf i t
  | _ :: t => evalsOf i t

/-- Putting a result on the queue raised an exception. -/
def isLost : Ev → Bool
  | .lost _ => true
  | .lostEnd => true
  | _ => false

/-- The messages among observations. -/
def msgsOf : List Obs → List Msg
  | [] => []
  | .msg m :: t => m :: msgsOf t
  | _ :: t => msgsOf t

/-- The documented reaction to an instruction of the manager: save to the path, stop for the reason, reply that it waits,
continue, take the incumbent. Anything else is ignored. -/
def documented : Msg → Ev
  | .tuple 0 [p] => .saved p
  | .tuple 1 [r] => .stopped (some r)
  | .int 1 => .stopped none
  | .tuple 1 [] => .stopped none
  | .int 2 => .sent 1
  | .tuple 2 [] => .sent 1
  | .int 3 => .passed
  | .tuple 3 [] => .passed
  | .tuple 4 [x, fx] => .injected x fx
  | _ => .ignored

/-- Everything but the waiting itself. -/
def actsOf (l : List Ev) : List Ev := l.filter fun e => decide (e ≠ .held ∧ e ≠ .resumed)

/-- An instruction of the manager was carried out, other than the request to pause. -/
def isOrder : Ev → Bool
  | .saved _ => true
  | .stopped _ => true
  | .passed => true
  | .injected _ _ => true
  | _ => false

/-- A save or a continue instruction was carried out. -/
def isRelease : Ev → Bool
  | .saved _ => true
  | .passed => true
  | _ => false

/-- The code of an instruction, if it is one. -/
def codeOf : Msg → Option Int
  | .int k => if 0 ≤ k ∧ k ≤ 4 then some k else none
  | .tuple k _ => if 0 ≤ k ∧ k ≤ 4 then some k else none
  | _ => none

/-- A complete instruction (or something to be ignored), other than the request to pause. -/
def Plain (m : Msg) : Prop :=
  (∃ p, m = .tuple 0 [p]) ∨ (∃ r, m = .tuple 1 [r]) ∨ m = .int 3 ∨ (∃ x fx, m = .tuple 4 [x, fx]) ∨ codeOf m = none ∧ m ≠ .emptyTuple

/-- What the outside world answers to a message which is carried out without trouble: saving and stopping take a while. -/
def smooth : List Msg → List Obs
  | [] => []
  | .tuple 0 a :: t => .msg (.tuple 0 a) :: .unit :: smooth t
  | .tuple 1 a :: t => .msg (.tuple 1 a) :: .unit :: smooth t
  | m :: t => .msg m :: smooth t

end Glompo.Spec.Optimizer
