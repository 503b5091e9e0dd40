import Verif.Model.Basic

/-!
# `glompo/core/_backends.py:101-190`: `ChunkingQueue`, one call at a time

A call is one atomic step here. That is what the locks of the code make it look like to a caller; the interleavings
inside the calls are the subject of `Verif.Model.QueueConc`.
-/

namespace Glompo

/-- `ChunkingQueue` (_backends.py:129-135). `q` is the content of the underlying `queue.Queue`, oldest first. -/
structure CQueue (α : Type) where
  cap : Nat
  chunk : Nat
  fast : Bool
  cache : List α
  q : List (List α)
  deriving DecidableEq, Repr

namespace CQueue

variable {α : Type}

/-- `ChunkingQueue.__init__` (_backends.py:129-135). -/
def init (cap chunk : Nat) : CQueue α := { cap := cap, chunk := chunk, fast := false, cache := [], q := [] }

/-- `queue.Queue` has room for one more entry (`maxsize = 0` means no limit). Belongs to the model of `_backends.py:154-174`. -/
def hasRoom (s : CQueue α) : Bool := s.cap == 0 || decide (s.q.length < s.cap)

/-- How a call ends: it returns, it raises `queue.Full` / `queue.Empty`, or it waits for ever in this state. Belongs to the model of `_backends.py:141-152`. -/
inductive Outcome (α : Type) where
  | returned (s : CQueue α)
  | got (s : CQueue α) (c : List α)
  | full (s : CQueue α)
  | empty (s : CQueue α)
  | blocks
  deriving DecidableEq, Repr

/-- `queue.Queue.put(entry, block, timeout)`; `forever` is `block=True, timeout=None`, otherwise the call gives up
with `Full`. Belongs to the model of `_backends.py:141-152`. -/
def rawPut (s : CQueue α) (entry : List α) (forever : Bool) (done : CQueue α → CQueue α) : Outcome α :=
  if s.hasRoom then .returned (done { s with q := s.q ++ [entry] })
  else if forever then .blocks else .full s

/-- `ChunkingQueue.put` (_backends.py:141-152). -/
def put (s : CQueue α) (x : α) (forever : Bool) : Outcome α :=
  if s.fast then
    let s1 := { s with cache := s.cache ++ [x] }
    s1.rawPut s1.cache forever (fun s => { s with cache := [] })
  else s.rawPut [x] forever id

/-- `ChunkingQueue.put_nowait` (_backends.py:154-174). -/
def putNowait (s : CQueue α) (x : α) : Outcome α :=
  if s.fast = false then
    if s.hasRoom then .returned { s with q := s.q ++ [[x]] }
    else .returned { s with fast := true, cache := s.cache ++ [x] }
  else
    let s1 := { s with cache := s.cache ++ [x] }
    if s1.chunk ≤ s1.cache.length then s1.rawPut s1.cache true (fun s => { s with cache := [] })
    else .returned s1

/-- `ChunkingQueue.put_incache` (_backends.py:176-183). -/
def putIncache (s : CQueue α) (x : α) : Outcome α := .returned { s with fast := true, cache := s.cache ++ [x] }

/-- `ChunkingQueue.flush` (_backends.py:185-190). -/
def flush (s : CQueue α) (forever : Bool) : Outcome α :=
  if s.fast then s.rawPut s.cache forever (fun s => { s with cache := [] }) else .returned s

/-- `queue.Queue.get_nowait` (used at manager.py:1475, 1652). -/
def get (s : CQueue α) : Outcome α :=
  match s.q with
  | [] => .empty s
  | c :: t => .got { s with q := t } c

/-- `ChunkingQueue.has_cache` (_backends.py:137-139). -/
def hasCache (s : CQueue α) : Bool := !s.cache.isEmpty

/-- The calls. Belongs to the model of `_backends.py:141-152`, `_backends.py:154-174`, `_backends.py:176-183`, `_backends.py:185-190`. -/
inductive Call (α : Type) where
  | put (x : α) (forever : Bool)
  | putNowait (x : α)
  | putIncache (x : α)
  | flush (forever : Bool)
  | get
  deriving DecidableEq, Repr

/-- Belongs to the model of `_backends.py:129-135`, `_backends.py:141-152`, `_backends.py:154-174`, `_backends.py:176-183`. -/
def step (s : CQueue α) : Call α → Outcome α
  | .put x b => s.put x b
  | .putNowait x => s.putNowait x
  | .putIncache x => s.putIncache x
  | .flush b => s.flush b
  | .get => s.get

/-- A sequence of calls. The result is `none` if a call never returns. Otherwise: the final state, what the consumer
received (chunk by chunk) and, for each call, whether it ended without an exception. Belongs to the model of `_backends.py:129-135`, `_backends.py:141-152`. -/
def run (s : CQueue α) : List (Call α) → Option (CQueue α × List (List α) × List Bool)
  | [] => some (s, [], [])
  | c :: cs =>
    match s.step c with
    | .blocks => none
    | .returned s' => (run s' cs).map fun r => (r.1, r.2.1, true :: r.2.2)
    | .got s' x => (run s' cs).map fun r => (r.1, x :: r.2.1, true :: r.2.2)
    | .full s' => (run s' cs).map fun r => (r.1, r.2.1, false :: r.2.2)
    | .empty s' => (run s' cs).map fun r => (r.1, r.2.1, false :: r.2.2)

end CQueue
end Glompo
