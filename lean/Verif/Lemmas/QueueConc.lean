import Verif.Spec.QueueConc

namespace Glompo.QueueConc

variable {α : Type}

@[simp] theorem ofThread_nil (t : Nat) : ofThread t ([] : List (Item α)) = [] := rfl
@[simp] theorem ofThread_append (t : Nat) (a b : List (Item α)) :
    ofThread t (a ++ b) = ofThread t a ++ ofThread t b := by
  simp [ofThread]
@[simp] theorem ofThread_self (t : Nat) (x : α) : ofThread t [(t, x)] = [x] := by simp [ofThread]
theorem ofThread_other {t u : Nat} (h : u ≠ t) (x : α) : ofThread t [(u, x)] = [] := by simp [ofThread, h]

/-- Program points which are only reached after `fast_func` was seen to be (or set to) true. -/
def needsFast : PC α → Bool
  | .idle => false
  | .slow _ => false
  | .fullWait _ => false
  | .slowPut _ => false
  | _ => true

def isSlow : PC α → Bool
  | .slow _ => true
  | .slowPut _ => true
  | _ => false

structure Inv (s : State α) : Prop where
  fast : s.fast = false → s.cache = []
  fastpc : ∀ t, needsFast (s.pc t) = true → s.fast = true
  lock : ∀ t, holds (s.pc t) = true ↔ s.lock = some t
  slow : ∀ t, isSlow (s.pc t) = true → ofThread t s.cache = []
  cons : ∀ t, ofThread t (s.received.flatten ++ s.q.flatten ++ held s) ++ pending (s.pc t) = s.sent t

theorem held_none {s : State α} (h : s.lock = none) : held s = s.cache := by simp [held, h]

theorem held_eq {s s' : State α} (hc : s'.cache = s.cache) (hl : s'.lock = s.lock)
    (hp : ∀ t, s.lock = some t → s'.pc t = s.pc t) : held s' = held s := by
  simp only [held, hl, hc]
  cases h : s.lock with
  | none => rfl
  | some t => simp only [hp t h]

theorem inv_init (cap chunk : Nat) : Inv (init cap chunk : State α) :=
  ⟨fun _ => rfl, by simp [init, needsFast], by simp [init, holds], by simp [init, isSlow],
   by simp [init, held, pending]⟩

theorem inv_step {s s' : State α} (h : Inv s) (st : Step s s') : Inv s' := by
  have hnl : ∀ {t : Nat}, holds (s.pc t) = false → s.lock ≠ some t := by
    intro t ht e; have := (h.lock t).mpr e; rw [ht] at this; cases this
  -- a thread that begins a call
  have hbegin : ∀ (t : Nat) (x : α) (p : PC α), s.pc t = .idle → pending p = [x] → holds p = false →
      (needsFast p = true → s.fast = true) → (isSlow p = true → s.fast = false) → Inv (begin s t x p) := by
    intro t x p hi hp1 hp2 hp3 hp4
    have hh : held (begin s t x p) = held s := by
      refine held_eq rfl rfl (fun u hu => ?_)
      have : u ≠ t := by intro e; subst e; exact hnl (by rw [hi]; rfl) hu
      simp [begin, this]
    refine ⟨h.fast, ?_, ?_, ?_, ?_⟩
    · intro u hu
      by_cases e : u = t
      · subst e; simp [begin] at hu; exact hp3 hu
      · simp [begin, e] at hu; exact h.fastpc u hu
    · intro u
      by_cases e : u = t
      · subst e; simp only [begin, if_true, hp2]
        constructor
        · intro e; cases e
        · intro e; exact absurd e (hnl (by rw [hi]; rfl))
      · simp only [begin, e, if_false]; exact h.lock u
    · intro u hu
      by_cases e : u = t
      · subst e; simp [begin] at hu
        have := h.fast (hp4 hu)
        simp [begin, this]
      · simp [begin, e] at hu; exact h.slow u hu
    · intro u
      rw [hh]
      have hc := h.cons u
      by_cases e : u = t
      · subst e
        rw [hi, show pending (PC.idle : PC α) = [] from rfl] at hc
        simp only [begin, if_true, hp1, ← hc]; simp
      · simpa [begin, e] using hc
  -- a thread that only moves
  have hgoto : ∀ (t : Nat) (p : PC α), pending p = pending (s.pc t) → holds p = false → holds (s.pc t) = false →
      (needsFast p = true → s.fast = true) → (isSlow p = true → isSlow (s.pc t) = true) → Inv (goto s t p) := by
    intro t p hp1 hp2 hp2' hp3 hp4
    have hh : held (goto s t p) = held s := by
      refine held_eq rfl rfl (fun u hu => ?_)
      have : u ≠ t := by intro e; subst e; exact hnl hp2' hu
      simp [goto, this]
    refine ⟨h.fast, ?_, ?_, ?_, ?_⟩
    · intro u hu
      by_cases e : u = t
      · subst e; simp [goto] at hu; exact hp3 hu
      · simp [goto, e] at hu; exact h.fastpc u hu
    · intro u
      by_cases e : u = t
      · subst e; simp only [goto, if_true, hp2]
        constructor
        · intro e; cases e
        · intro e; exact absurd e (hnl hp2')
      · simp only [goto, e, if_false]; exact h.lock u
    · intro u hu
      by_cases e : u = t
      · subst e; simp [goto] at hu; exact h.slow u (hp4 hu)
      · simp [goto, e] at hu; exact h.slow u hu
    · intro u
      rw [hh]
      have hc := h.cons u
      by_cases e : u = t
      · subst e; simpa [goto, hp1] using hc
      · simpa [goto, e] using hc
  -- a thread that puts its item straight on the queue
  have hdirect : ∀ (t : Nat) (x : α), pending (s.pc t) = [x] → isSlow (s.pc t) = true → holds (s.pc t) = false →
      Inv { goto s t .idle with q := s.q ++ [[(t, x)]] } := by
    intro t x hp1 hp2 hp3
    have hh : held { goto s t .idle with q := s.q ++ [[(t, x)]] } = held s := by
      refine held_eq rfl rfl (fun u hu => ?_)
      have : u ≠ t := by intro e; subst e; exact hnl hp3 hu
      simp [goto, this]
    refine ⟨h.fast, ?_, ?_, ?_, ?_⟩
    · intro u hu
      by_cases e : u = t
      · subst e; simp [goto, needsFast] at hu
      · simp [goto, e] at hu; exact h.fastpc u hu
    · intro u
      by_cases e : u = t
      · subst e; simp only [goto, if_true, holds]
        constructor
        · intro e; cases e
        · intro e; exact absurd e (hnl hp3)
      · simp only [goto, e, if_false]; exact h.lock u
    · intro u hu
      by_cases e : u = t
      · subst e; simp [goto, isSlow] at hu
      · simp [goto, e] at hu; exact h.slow u hu
    · intro u
      rw [hh]
      have hc := h.cons u
      by_cases e : u = t
      · subst e
        have hcache := h.slow u hp2
        have hheld : ofThread u (held s) = [] := by
          simp only [held]
          split
          · exact hcache
          · split
            · rfl
            · exact hcache
        rw [hp1] at hc
        simp only [goto, if_true, pending, ofThread_append, hheld, List.append_nil, List.flatten_append,
          List.flatten_cons, List.flatten_nil, ofThread_self] at hc ⊢
        rw [← hc]; simp
      · simp only [goto, e, if_false]
        simp only [ofThread_append, List.flatten_append, List.flatten_cons, List.flatten_nil, List.append_nil,
          ofThread_other (Ne.symm e)] at hc ⊢
        exact hc
  -- a thread that gets the lock and appends its item to the cache
  have happend : ∀ (t : Nat) (x : α) (p : PC α) (f : Bool) (l : Option Nat), pending (s.pc t) = [x] →
      holds (s.pc t) = false →
      s.lock = none → f = true → ((p = .idle ∧ l = none) ∨ (p = .locked ∧ l = some t)) →
      Inv { goto s t p with fast := f, cache := s.cache ++ [(t, x)], lock := l } := by
    intro t x p f l hp1 hp1' hl hf hp
    have hh : held { goto s t p with fast := f, cache := s.cache ++ [(t, x)], lock := l } = s.cache ++ [(t, x)] := by
      rcases hp with ⟨rfl, rfl⟩ | ⟨rfl, rfl⟩
      · rfl
      · simp [held, goto]
    have hother : ∀ u, u ≠ t → holds (s.pc u) = false := by
      intro u hu
      cases hq : holds (s.pc u) with
      | false => rfl
      | true => have := (h.lock u).mp hq; rw [hl] at this; cases this
    refine ⟨?_, ?_, ?_, ?_, ?_⟩
    · intro e; simp only at e; rw [hf] at e; cases e
    · intro u hu; exact hf
    · intro u
      by_cases e : u = t
      · subst e
        rcases hp with ⟨rfl, rfl⟩ | ⟨rfl, rfl⟩ <;> simp [goto, holds]
      · simp only [goto, e, if_false, hother u e]
        rcases hp with ⟨rfl, rfl⟩ | ⟨rfl, rfl⟩
        · simp
        · simp [Ne.symm e]
    · intro u hu
      by_cases e : u = t
      · subst e
        rcases hp with ⟨rfl, rfl⟩ | ⟨rfl, rfl⟩ <;> simp [goto, isSlow] at hu
      · simp [goto, e] at hu
        simp only [ofThread_append, ofThread_other (Ne.symm e), List.append_nil]
        exact h.slow u hu
    · intro u
      rw [hh]
      have hc := h.cons u
      rw [held_none hl] at hc
      by_cases e : u = t
      · subst e
        rw [hp1] at hc
        have hpend : pending p = ([] : List α) := by
          rcases hp with ⟨rfl, -⟩ | ⟨rfl, -⟩ <;> rfl
        simp only [goto, if_true, hpend, List.append_nil, ofThread_append, ofThread_self] at hc ⊢
        rw [← hc]; simp
      · simp only [goto, e, if_false]
        simp only [ofThread_append, ofThread_other (Ne.symm e), List.append_nil] at hc ⊢
        exact hc
  cases st with
  | nowaitSlow t x hi hf => exact hbegin t x _ hi rfl rfl (by simp [needsFast]) (fun _ => hf)
  | nowaitFast t x hi hf => exact hbegin t x _ hi rfl rfl (fun _ => hf) (by simp [isSlow])
  | putSlow t x hi hf => exact hbegin t x _ hi rfl rfl (by simp [needsFast]) (fun _ => hf)
  | putFast t x hi hf => exact hbegin t x _ hi rfl rfl (fun _ => hf) (by simp [isSlow])
  | slowOk t x hp _ => exact hdirect t x (by rw [hp]; rfl) (by rw [hp]; rfl) (by rw [hp]; rfl)
  | slowPutOk t x hp _ => exact hdirect t x (by rw [hp]; rfl) (by rw [hp]; rfl) (by rw [hp]; rfl)
  | slowFull t x hp _ =>
    exact hgoto t _ (by rw [hp]; rfl) rfl (by rw [hp]; rfl) (by simp [needsFast]) (by simp [isSlow])
  | fullLock t x hp hl =>
    have := happend t x .idle true none (by rw [hp]; rfl) (by rw [hp]; rfl) hl rfl (Or.inl ⟨rfl, rfl⟩)
    rw [← hl] at this; exact this
  | fastLockShort t x hp hl hlen =>
    have := happend t x .idle s.fast none (by rw [hp]; rfl) (by rw [hp]; rfl) hl (h.fastpc t (by rw [hp]; rfl))
      (Or.inl ⟨rfl, rfl⟩)
    rw [← hl] at this; exact this
  | fastLockLong t x hp hl hlen =>
    exact happend t x .locked s.fast (some t) (by rw [hp]; rfl) (by rw [hp]; rfl) hl
      (h.fastpc t (by rw [hp]; rfl)) (Or.inr ⟨rfl, rfl⟩)
  | fastPutLock t x hp hl =>
    exact happend t x .locked s.fast (some t) (by rw [hp]; rfl) (by rw [hp]; rfl) hl
      (h.fastpc t (by rw [hp]; rfl)) (Or.inr ⟨rfl, rfl⟩)
  | incLock t x hp hl =>
    have := happend t x .idle s.fast none (by rw [hp]; rfl) (by rw [hp]; rfl) hl (h.fastpc t (by rw [hp]; rfl))
      (Or.inl ⟨rfl, rfl⟩)
    rw [← hl] at this; exact this
  | incBegin t x hi =>
    have hh : held { begin s t x (.incWait x) with fast := true } = held s := by
      refine held_eq rfl rfl (fun u hu => ?_)
      have : u ≠ t := by intro e; subst e; exact hnl (by rw [hi]; rfl) hu
      simp [begin, this]
    refine ⟨by simp, fun _ _ => rfl, ?_, ?_, ?_⟩
    · intro u
      by_cases e : u = t
      · subst e; simp only [begin, if_true, holds]
        constructor
        · intro e; cases e
        · intro e; exact absurd e (hnl (by rw [hi]; rfl))
      · simp only [begin, e, if_false]; exact h.lock u
    · intro u hu
      by_cases e : u = t
      · subst e; simp [begin, isSlow] at hu
      · simp [begin, e] at hu; exact h.slow u hu
    · intro u
      rw [hh]
      have hc := h.cons u
      by_cases e : u = t
      · subst e
        rw [hi] at hc
        simp only [begin, if_true, ← hc, pending]; simp
      · simpa [begin, e] using hc
  | flushNothing t hi hf => exact h
  | flushBegin t hi hf => exact hgoto t _ (by rw [hi]; rfl) rfl (by rw [hi]; rfl) (fun _ => hf) (by simp [isSlow])
  | flushLock t hp hl =>
    have hother : ∀ u, u ≠ t → holds (s.pc u) = false := by
      intro u hu
      cases hq : holds (s.pc u) with
      | false => rfl
      | true => have := (h.lock u).mp hq; rw [hl] at this; cases this
    refine ⟨h.fast, ?_, ?_, ?_, ?_⟩
    · intro u _; exact h.fastpc t (by rw [hp]; rfl)
    · intro u
      by_cases e : u = t
      · subst e; simp [goto, holds]
      · simp [goto, e, hother u e, Ne.symm e]
    · intro u hu
      by_cases e : u = t
      · subst e; simp [goto, isSlow] at hu
      · simp [goto, e] at hu; exact h.slow u hu
    · intro u
      have hc := h.cons u
      rw [held_none hl] at hc
      have hh : held { goto s t .locked with lock := some t } = s.cache := by simp [held, goto]
      rw [hh]
      by_cases e : u = t
      · subst e; rw [hp] at hc; simpa [goto, pending] using hc
      · simpa [goto, e] using hc
  | lockedPut t hp hr =>
    have hl : s.lock = some t := (h.lock t).mp (by rw [hp]; rfl)
    have hh0 : held s = s.cache := by simp [held, hl, hp]
    have hh : held { goto s t .resetting with q := s.q ++ [s.cache] } = [] := by simp [held, goto, hl]
    refine ⟨h.fast, ?_, ?_, ?_, ?_⟩
    · intro u _; exact h.fastpc t (by rw [hp]; rfl)
    · intro u
      by_cases e : u = t
      · subst e; simp [goto, holds, hl]
      · simp only [goto, e, if_false]; exact h.lock u
    · intro u hu
      by_cases e : u = t
      · subst e; simp [goto, isSlow] at hu
      · simp [goto, e] at hu; exact h.slow u hu
    · intro u
      have hc := h.cons u
      rw [hh0] at hc
      rw [hh]
      by_cases e : u = t
      · subst e; rw [hp] at hc; simpa [goto, pending] using hc
      · simpa [goto, e] using hc
  | reset t hp =>
    have hl : s.lock = some t := (h.lock t).mp (by rw [hp]; rfl)
    have hh0 : held s = [] := by simp [held, hl, hp]
    have hh : held { goto s t .idle with cache := [], lock := none } = [] := by simp [held]
    refine ⟨fun _ => rfl, ?_, ?_, ?_, ?_⟩
    · intro u _; exact h.fastpc t (by rw [hp]; rfl)
    · intro u
      by_cases e : u = t
      · subst e; simp [goto, holds]
      · simp only [goto, e, if_false]
        constructor
        · intro hq
          have := (h.lock u).mp hq
          rw [hl] at this; cases this; exact absurd rfl e
        · intro hq; cases hq
    · intro u _; rfl
    · intro u
      have hc := h.cons u
      rw [hh0] at hc
      rw [hh]
      by_cases e : u = t
      · subst e; rw [hp] at hc; simpa [goto, pending] using hc
      · simpa [goto, e] using hc
  | get c r hq =>
    refine ⟨h.fast, h.fastpc, h.lock, h.slow, ?_⟩
    intro u
    have hc := h.cons u
    have hh : held { s with q := r, received := s.received ++ [c] } = held s := rfl
    rw [hh]
    rw [hq] at hc
    simpa using hc

theorem inv_reachable {cap chunk : Nat} {s : State α} (h : Reachable cap chunk s) : Inv s := by
  induction h with
  | init => exact inv_init cap chunk
  | step s s' _ st ih => exact inv_step ih st

end Glompo.QueueConc
