import Verif.Model.QueueConc

/-!
# Specification vocabulary for the concurrent results queue
-/

namespace Glompo.QueueConc

variable {α : Type}

/-- The values of thread `t` in a list of items. -/
def ofThread (t : Nat) (l : List (Item α)) : List α := (l.filter fun i => i.1 == t).map (·.2)

/-- The value thread `t` has announced by its call but not stored yet. -/
def pending : PC α → List α
  | .slow x => [x]
  | .fullWait x => [x]
  | .fastWait x => [x]
  | .slowPut x => [x]
  | .fastPutWait x => [x]
  | .incWait x => [x]
  | _ => []

/-- The cached items which have not been handed to the queue. -/
def held (s : State α) : List (Item α) :=
  match s.lock with
  | none => s.cache
  | some t => match s.pc t with
    | .resetting => []
    | _ => s.cache

/-- Thread is holding `cache_lock`. -/
def holds : PC α → Bool
  | .locked => true
  | .resetting => true
  | _ => false

end Glompo.QueueConc
