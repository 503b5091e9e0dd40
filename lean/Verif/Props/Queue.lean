import Verif.Lemmas.Queue

/-!
# C05, C06, C07: the results queue, call by call
-/

namespace Glompo.Props

open Glompo Glompo.Spec Glompo.CQueue

variable {α : Type}

/-- **C05.** Whatever the capacity and the chunk size and whatever the sequence of calls (none of which is given up
with `Full`): the items received by the consumer, followed by those waiting in the queue, followed by those in the
cache, are the items of the accepted calls in call order, each exactly once. -/
theorem C05_queue_exact (cap chunk : Nat) (cs : List (Call α)) (s : CQueue α) (recv : List (List α))
    (oks : List Bool) (h : (CQueue.init cap chunk).run cs = some (s, recv, oks)) (hnf : NoFull cs oks) :
    recv.flatten ++ s.q.flatten ++ s.cache = acceptedItems cs oks := by
  simpa [CQueue.init] using run_conserves cs (CQueue.init cap chunk) s recv oks (fun _ => rfl) h hnf

/-- **C05.** The queue says that it has something in its cache exactly if something accepted has not been put where the consumer can get it. -/
theorem C05_has_cache (cap chunk : Nat) (cs : List (Call α)) (s : CQueue α) (recv : List (List α))
    (oks : List Bool) (h : (CQueue.init cap chunk).run cs = some (s, recv, oks)) (hnf : NoFull cs oks) :
    s.hasCache = true ↔ recv.flatten ++ s.q.flatten ≠ acceptedItems cs oks := by
  rw [← C05_queue_exact cap chunk cs s recv oks h hnf]
  cases hc : s.cache <;> simp [hasCache, hc]

/-- Calls which drive a queue of capacity 2 into caching, with an `Empty` read at the end. -/
def sampleCalls : List (Call Nat) :=
  [.putNowait 1, .putNowait 2, .putNowait 3, .get, .putNowait 4, .get, .putNowait 5, .put 6 true, .get, .flush true,
   .get, .get, .get]

example : (CQueue.init 2 3).run sampleCalls =
    some ({ cap := 2, chunk := 3, fast := true, cache := [], q := [] }, [[1], [2], [3, 4, 5], [6], []],
      [true, true, true, true, true, true, true, true, true, true, true, true, false]) := by decide

/-- **C06 (refuted).** In caching mode a `put` that raises `Full` keeps the item: after retrying, the item is
delivered twice. -/
theorem C06_failed_put_refuted :
    ∃ (s s1 s2 s3 : CQueue Nat) (c : List Nat), (CQueue.init 1 5).run [.putNowait 1, .putNowait 2] =
        some (s, [], [true, true]) ∧ s.put 7 false = .full s1 ∧ s1.get = .got s2 [1] ∧
      s2.put 7 false = .returned s3 ∧ s3.q = [c] ∧ c = [2, 7, 7] :=
  ⟨_, _, _, _, _, rfl, rfl, rfl, rfl, rfl, rfl⟩

/-- **C06 (what does hold).** As long as caching is not switched on, a failing `put` changes nothing; and
`put_nowait`, `put_incache` never fail. -/
theorem C06_failed_put_partial (s s' : CQueue α) (x : α) (b : Bool) :
    (s.fast = false → s.put x b = .full s' → s' = s) ∧
    s.putNowait x ≠ .full s' ∧ s.putIncache x ≠ .full s' ∧
    (s.flush b = .full s' → s' = s) := by
  obtain ⟨cap, chunk, fast, cache, q⟩ := s
  refine ⟨?_, ?_, by simp [putIncache], ?_⟩
  · rintro h; simp only at h; subst h
    simp only [CQueue.put, rawPut, Bool.false_eq_true, if_false, id]
    split
    · simp
    · split <;> simp [eq_comm]
  · cases fast <;> simp only [putNowait, rawPut] <;> (repeat' split) <;> simp_all
  · simp only [CQueue.flush, rawPut]
    (repeat' split) <;> simp [eq_comm]

example : ({ cap := 1, chunk := 5, fast := false, cache := [], q := [[1]] } : CQueue Nat).put 7 false =
    .full { cap := 1, chunk := 5, fast := false, cache := [], q := [[1]] } := by decide

/-- **C07.** Without `put_incache` (which GloMPO never calls), no chunk exceeds the chunk size, or two items if the
chunk size is smaller than two; the cache stays one below that; and after a `put` or a `flush` that returns, the cache
is empty. -/
theorem C07_chunk_bounds (cap chunk : Nat) (cs : List (Call α)) (s : CQueue α) (recv : List (List α))
    (oks : List Bool) (hni : ∀ x, Call.putIncache x ∉ cs) (h : (CQueue.init cap chunk).run cs = some (s, recv, oks))
    (hnf : NoFull cs oks) :
    (∀ c ∈ recv ++ s.q, c.length ≤ max 2 chunk) ∧ s.cache.length < max 2 chunk ∧
    (∀ x b s', s.put x b = .returned s' → s'.cache = []) ∧ (∀ b s', s.flush b = .returned s' → s'.cache = []) := by
  have h0 : Sized (CQueue.init cap chunk : CQueue α) :=
    ⟨fun _ => rfl, by simp [CQueue.init]; omega, by simp [CQueue.init]⟩
  obtain ⟨h1, h2, h3⟩ := run_size cs _ s recv oks h0 hni h hnf
  have h2 : s.chunk = chunk := h2
  have hq := h1.chunks
  have hc := h1.cache
  rw [h2] at hq hc
  refine ⟨?_, by omega, ?_, ?_⟩
  · intro c hc
    rcases List.mem_append.mp hc with hc | hc
    · exact h3 c hc
    · exact hq c hc
  · intro x b s' hs
    have := step_size s (.put x b) h1 (by simp)
    simp only [CQueue.step, hs] at this
    exact this.2.2 (Or.inl ⟨x, b, rfl⟩)
  · intro b s' hs
    have := step_size s (.flush b) h1 (by simp)
    simp only [CQueue.step, hs] at this
    exact this.2.2 (Or.inr ⟨b, rfl⟩)

/-- The bound of two is met for chunk size one. -/
example : ((CQueue.init 1 1).run [.putNowait 1, .putNowait 2, .get, .putNowait 3]).map (fun r => r.1.q) =
    some [[2, 3]] := by decide

end Glompo.Props
