import Verif.Lemmas.QueueConc

/-!
# C58, C59: the results queue under concurrent producers
-/

namespace Glompo.Props

open Glompo.QueueConc

variable {α : Type}

/-- **C58.** In every state that any number of producer threads and the consumer can reach by any interleaving, and for
every thread `t`: the values of `t` the consumer has received, followed by those in the queue, followed by those in
the cache and the value `t` is about to store, are exactly the values of the calls `t` has begun, in that order. No
result is lost, duplicated or overtaken by a later one of the same thread, also while the queue switches to caching. -/
theorem C58_concurrent_fifo (cap chunk : Nat) (s : State α) (h : Reachable cap chunk s) (t : Nat) :
    ofThread t s.received.flatten ++ ofThread t s.q.flatten ++ ofThread t (held s) ++ pending (s.pc t) = s.sent t := by
  simpa using (inv_reachable h).cons t

/-- When all calls have returned and the queue is drained, everything in the cache or received is exactly what was
sent. -/
theorem C58_quiescent (cap chunk : Nat) (s : State α) (h : Reachable cap chunk s) (hidle : ∀ t, s.pc t = .idle)
    (t : Nat) : ofThread t (s.received.flatten ++ s.q.flatten ++ s.cache) = s.sent t := by
  have inv := inv_reachable h
  have hl : s.lock = none := by
    cases hq : s.lock with
    | none => rfl
    | some u => have := (inv.lock u).mpr hq; rw [hidle u] at this; cases this
  have := inv.cons t
  rw [held_none hl, hidle t] at this
  simpa [pending] using this

/-- **C59.** No interleaving gets stuck: whenever some thread is inside a call, that thread or the holder of the lock
can make a step, or the queue holds something the consumer can take. At most one thread is between putting and resetting the cache. -/
theorem C59_no_deadlock (cap chunk : Nat) (s : State α) (h : Reachable cap chunk s) :
    ((∃ t, s.pc t ≠ .idle) →
      s.q ≠ [] ∨ ∃ s' u, Step s s' ∧ s.pc u ≠ .idle ∧ s'.pc u ≠ s.pc u) ∧
    (∀ t u, holds (s.pc t) = true → holds (s.pc u) = true → t = u) := by
  have inv := inv_reachable h
  refine ⟨?_, ?_⟩
  · rintro ⟨t, ht⟩
    have hroom : s.q ≠ [] ∨ Room s := by
      cases hq : s.q with
      | cons a b => left; simp
      | nil =>
        right
        simp only [Room, hq]
        by_cases hc : s.cap = 0
        · exact Or.inl hc
        · right; simp; omega
    rcases hroom with hq | hroom
    · exact Or.inl hq
    right
    cases hl : s.lock with
    | some u =>
      have hu := (inv.lock u).mpr hl
      cases hp : s.pc u with
      | locked => exact ⟨_, u, Step.lockedPut s u hp hroom, by rw [hp]; simp, by simp [goto, hp]⟩
      | resetting => exact ⟨_, u, Step.reset s u hp, by rw [hp]; simp, by simp [goto, hp]⟩
      | _ => rw [hp] at hu; cases hu
    | none =>
      have hnh : holds (s.pc t) = false := by
        cases hh : holds (s.pc t) with
        | false => rfl
        | true => have := (inv.lock t).mp hh; rw [hl] at this; cases this
      cases hp : s.pc t with
      | idle => exact absurd hp ht
      | locked => rw [hp] at hnh; cases hnh
      | resetting => rw [hp] at hnh; cases hnh
      | slow x => exact ⟨_, t, Step.slowOk s t x hp hroom, by rw [hp]; simp, by simp [goto, hp]⟩
      | slowPut x => exact ⟨_, t, Step.slowPutOk s t x hp hroom, by rw [hp]; simp, by simp [goto, hp]⟩
      | fullWait x => exact ⟨_, t, Step.fullLock s t x hp hl, by rw [hp]; simp, by simp [goto, hp]⟩
      | fastPutWait x => exact ⟨_, t, Step.fastPutLock s t x hp hl, by rw [hp]; simp, by simp [goto, hp]⟩
      | incWait x => exact ⟨_, t, Step.incLock s t x hp hl, by rw [hp]; simp, by simp [goto, hp]⟩
      | flushWait => exact ⟨_, t, Step.flushLock s t hp hl, by rw [hp]; simp, by simp [goto, hp]⟩
      | fastWait x =>
        by_cases hlen : s.chunk ≤ s.cache.length + 1
        · exact ⟨_, t, Step.fastLockLong s t x hp hl hlen, by rw [hp]; simp, by simp [goto, hp]⟩
        · exact ⟨_, t, Step.fastLockShort s t x hp hl hlen, by rw [hp]; simp, by simp [goto, hp]⟩
  · intro t u ht hu
    have h1 := (inv.lock t).mp ht
    have h2 := (inv.lock u).mp hu
    rw [h1] at h2; exact Option.some.inj h2

/-- A reachable state in which thread 1 has filled the queue (capacity one), thread 2 was sent to the cache and thread 1
still is in the slow branch (it read `fast_func` before the switch). -/
example : ∃ s : State Nat, Reachable 1 2 s ∧ s.fast = true ∧ s.q = [[(1, 10)]] ∧ s.cache = [(2, 20)] ∧
    s.pc 1 = .slow 11 := by
  let s0 : State Nat := init 1 2
  let s1 := begin s0 1 10 (.slow 10)
  let s2 : State Nat := { goto s1 1 .idle with q := s1.q ++ [[(1, 10)]] }
  let s3 := begin s2 2 20 (.slow 20)
  let s4 := goto s3 2 (.fullWait 20)
  let s5 := begin s4 1 11 (.slow 11)
  let s6 : State Nat := { goto s5 2 .idle with fast := true, cache := s5.cache ++ [(2, 20)] }
  have r1 : Reachable 1 2 s1 := .step _ _ .init (.nowaitSlow s0 1 10 rfl rfl)
  have r2 : Reachable 1 2 s2 := .step _ _ r1 (.slowOk s1 1 10 rfl (Or.inr (by decide)))
  have r3 : Reachable 1 2 s3 := .step _ _ r2 (.nowaitSlow s2 2 20 rfl rfl)
  have r4 : Reachable 1 2 s4 := .step _ _ r3 (.slowFull s3 2 20 rfl (by
    simp [Room, s3, s2, s1, s0, begin, goto, QueueConc.init]))
  have r5 : Reachable 1 2 s5 := .step _ _ r4 (.nowaitSlow s4 1 11 rfl rfl)
  have r6 : Reachable 1 2 s6 := .step _ _ r5 (.fullLock s5 2 20 rfl rfl)
  exact ⟨s6, r6, rfl, rfl, rfl, rfl⟩

end Glompo.Props
