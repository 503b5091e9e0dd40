import Verif.Model.Basic

/-!
# `glompo/core/_backends.py:101-190`: `ChunkingQueue` under concurrent use

Every producer thread is at some point inside one of the methods. A step of the system is one step of one thread, or a
`get` of the consumer. The points between which other threads can act are: reading `fast_func`, the `put` of the
underlying `queue.Queue` (atomic under its own mutex), acquiring `cache_lock`, the (possibly waiting) `put` while
holding the lock, and the reset of the cache followed by the release of the lock.
Items are tagged with the thread which puts them. Calls with a timeout are not part of this model.
-/

namespace Glompo.QueueConc

/-- An item: the producing thread and a value. Belongs to the model of `_backends.py:129-135`. -/
abbrev Item (α : Type) := Nat × α

/-- Where a producer thread is. Belongs to the model of `_backends.py:129-135`. -/
inductive PC (α : Type) where
  | idle
  /-- in `put_nowait` after reading `fast_func` as false (_backends.py:160-162) -/
  | slow (x : α)
  /-- in `put_nowait` after `Full`, before `cache_lock` (_backends.py:163-164) -/
  | fullWait (x : α)
  /-- in `put_nowait` after reading `fast_func` as true, before `cache_lock` (_backends.py:169-170) -/
  | fastWait (x : α)
  /-- in `put` after reading `fast_func` as false, waiting for room (_backends.py:151-152) -/
  | slowPut (x : α)
  /-- in `put` after reading `fast_func` as true, before `cache_lock` (_backends.py:146-147) -/
  | fastPutWait (x : α)
  /-- in `put_incache` before `cache_lock` (_backends.py:181-182) -/
  | incWait (x : α)
  /-- in `flush` after reading `fast_func` as true, before `cache_lock` (_backends.py:187-188) -/
  | flushWait
  /-- holding `cache_lock`, waiting for room to put the cache (_backends.py:149, 173, 189) -/
  | locked
  /-- holding `cache_lock`, the cache has been put but not reset yet (_backends.py:150, 174, 190) -/
  | resetting
  deriving DecidableEq, Repr

/-- The shared queue, the threads, and two ghost records: `sent` (items of the calls begun, per thread) and
`received` (what the consumer got). Belongs to the model of `_backends.py:129-135`. -/
structure State (α : Type) where
  cap : Nat
  chunk : Nat
  fast : Bool
  cache : List (Item α)
  q : List (List (Item α))
  lock : Option Nat
  pc : Nat → PC α
  sent : Nat → List α
  received : List (List (Item α))

variable {α : Type}

/-- `ChunkingQueue.__init__` (_backends.py:129-135) and all threads outside. -/
def init (cap chunk : Nat) : State α :=
  { cap := cap, chunk := chunk, fast := false, cache := [], q := [], lock := none, pc := fun _ => .idle,
    sent := fun _ => [], received := [] }

/-- Room for one more entry in the underlying queue. Belongs to the model of `_backends.py:129-135`. -/
def Room (s : State α) : Prop := s.cap = 0 ∨ s.q.length < s.cap

/-- Thread `t` moves to `p`. Belongs to the model of `_backends.py:129-135`. -/
def goto (s : State α) (t : Nat) (p : PC α) : State α :=
  { s with pc := fun u => if u = t then p else s.pc u }

/-- Thread `t` begins a call which brings `x`. Belongs to the model of `_backends.py:129-135`. -/
def begin (s : State α) (t : Nat) (x : α) (p : PC α) : State α :=
  { s with
    pc := fun u => if u = t then p else s.pc u
    sent := fun u => if u = t then s.sent u ++ [x] else s.sent u }

/-- One step of one thread, or of the consumer. Belongs to the model of `_backends.py:129-135`. -/
inductive Step : State α → State α → Prop where
  | nowaitSlow (s t x) : s.pc t = .idle → s.fast = false → Step s (begin s t x (.slow x))
  | nowaitFast (s t x) : s.pc t = .idle → s.fast = true → Step s (begin s t x (.fastWait x))
  | slowOk (s t x) : s.pc t = .slow x → Room s → Step s { goto s t .idle with q := s.q ++ [[(t, x)]] }
  | slowFull (s t x) : s.pc t = .slow x → ¬ Room s → Step s (goto s t (.fullWait x))
  | fullLock (s t x) : s.pc t = .fullWait x → s.lock = none →
      Step s { goto s t .idle with fast := true, cache := s.cache ++ [(t, x)] }
  | fastLockShort (s t x) : s.pc t = .fastWait x → s.lock = none → ¬ s.chunk ≤ s.cache.length + 1 →
      Step s { goto s t .idle with cache := s.cache ++ [(t, x)] }
  | fastLockLong (s t x) : s.pc t = .fastWait x → s.lock = none → s.chunk ≤ s.cache.length + 1 →
      Step s { goto s t .locked with cache := s.cache ++ [(t, x)], lock := some t }
  | putSlow (s t x) : s.pc t = .idle → s.fast = false → Step s (begin s t x (.slowPut x))
  | putFast (s t x) : s.pc t = .idle → s.fast = true → Step s (begin s t x (.fastPutWait x))
  | slowPutOk (s t x) : s.pc t = .slowPut x → Room s → Step s { goto s t .idle with q := s.q ++ [[(t, x)]] }
  | fastPutLock (s t x) : s.pc t = .fastPutWait x → s.lock = none →
      Step s { goto s t .locked with cache := s.cache ++ [(t, x)], lock := some t }
  | incBegin (s t x) : s.pc t = .idle → Step s { begin s t x (.incWait x) with fast := true }
  | incLock (s t x) : s.pc t = .incWait x → s.lock = none →
      Step s { goto s t .idle with cache := s.cache ++ [(t, x)] }
  | flushNothing (s t) : s.pc t = .idle → s.fast = false → Step s s
  | flushBegin (s t) : s.pc t = .idle → s.fast = true → Step s (goto s t .flushWait)
  | flushLock (s t) : s.pc t = .flushWait → s.lock = none → Step s { goto s t .locked with lock := some t }
  | lockedPut (s t) : s.pc t = .locked → Room s → Step s { goto s t .resetting with q := s.q ++ [s.cache] }
  | reset (s t) : s.pc t = .resetting → Step s { goto s t .idle with cache := [], lock := none }
  | get (s c r) : s.q = c :: r → Step s { s with q := r, received := s.received ++ [c] }

/-- States which some schedule reaches. Belongs to the model of `_backends.py:129-135`. -/
inductive Reachable (cap chunk : Nat) : State α → Prop where
  | init : Reachable cap chunk (init cap chunk)
  | step (s s') : Reachable cap chunk s → Step s s' → Reachable cap chunk s'

end Glompo.QueueConc
