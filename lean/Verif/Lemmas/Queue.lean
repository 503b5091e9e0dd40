import Verif.Spec.Queue

namespace Glompo.CQueue

open Glompo.Spec

variable {α : Type}

/-- Nothing is cached before caching is switched on. -/
def Ok (s : CQueue α) : Prop := s.fast = false → s.cache = []

/-- What one call does to the sequence of items held. -/
def StepSpec (s : CQueue α) (c : Call α) : Outcome α → Prop
  | .returned s' => Ok s' ∧ c ≠ .get ∧ s'.q.flatten ++ s'.cache = s.q.flatten ++ s.cache ++ (item? c).toList
  | .got s' x => Ok s' ∧ c = .get ∧ x ++ (s'.q.flatten ++ s'.cache) = s.q.flatten ++ s.cache
  | .full s' => Ok s' ∧ c ≠ .get ∧ (s.fast = false → s' = s) ∧ s'.fast = s.fast
  | .empty s' => s' = s ∧ c = .get
  | .blocks => True

theorem step_spec (s : CQueue α) (c : Call α) (h : Ok s) : StepSpec s c (s.step c) := by
  obtain ⟨cap, chunk, fast, cache, q⟩ := s
  simp only [Ok] at h
  cases c with
  | get =>
    simp only [step, get]
    cases q with
    | nil => exact ⟨rfl, rfl⟩
    | cons c t => exact ⟨h, rfl, by simp⟩
  | put x b =>
    cases fast with
    | true =>
      simp only [step, put, rawPut, if_true]
      split
      · exact ⟨fun _ => rfl, by simp, by simp [item?]⟩
      · split
        · trivial
        · exact ⟨by simp [Ok], by simp, by simp, rfl⟩
    | false =>
      simp only [step, put, rawPut, Bool.false_eq_true, if_false, id]
      split
      · exact ⟨h, by simp, by simp [item?, h rfl]⟩
      · split
        · trivial
        · exact ⟨h, by simp, fun _ => rfl, rfl⟩
  | putNowait x =>
    cases fast with
    | true =>
      simp only [step, putNowait, rawPut, Bool.true_eq_false, if_false]
      split
      · split
        · exact ⟨fun _ => rfl, by simp, by simp [item?]⟩
        · simp [StepSpec]
      · exact ⟨by simp [Ok], by simp, by simp [item?]⟩
    | false =>
      simp only [step, putNowait, if_true]
      split
      · exact ⟨h, by simp, by simp [item?, h rfl]⟩
      · exact ⟨by simp [Ok], by simp, by simp [item?]⟩
  | putIncache x => exact ⟨by simp [Ok], by simp, by simp [item?]⟩
  | flush b =>
    cases fast with
    | true =>
      simp only [step, flush, rawPut, if_true]
      split
      · exact ⟨fun _ => rfl, by simp, by simp [item?]⟩
      · split
        · trivial
        · exact ⟨by simp [Ok], by simp, by simp, rfl⟩
    | false =>
      simp only [step, flush, Bool.false_eq_true, if_false]
      exact ⟨h, by simp, by simp [item?]⟩

theorem run_conserves (cs : List (Call α)) : ∀ (s s' : CQueue α) (recv : List (List α)) (oks : List Bool),
    Ok s → s.run cs = some (s', recv, oks) → NoFull cs oks →
    recv.flatten ++ s'.q.flatten ++ s'.cache = s.q.flatten ++ s.cache ++ acceptedItems cs oks := by
  induction cs with
  | nil => intro s s' recv oks _ h _; simp [run] at h; obtain ⟨rfl, rfl, rfl⟩ := h; simp [acceptedItems]
  | cons c cs ih =>
    intro s s' recv oks hinv h hnf
    have hs := step_spec s c hinv
    simp only [run] at h
    cases hstep : s.step c with
    | blocks => simp [hstep] at h
    | returned s1 =>
      rw [hstep] at h hs
      simp only [Option.map_eq_some_iff] at h
      obtain ⟨⟨a, b, d⟩, h1, h2⟩ := h
      cases h2
      have := ih _ _ _ _ hs.1 h1 hnf.2
      rw [this]
      simp only [acceptedItems]
      rw [hs.2.2]; simp
    | got s1 x =>
      rw [hstep] at h hs
      simp only [Option.map_eq_some_iff] at h
      obtain ⟨⟨a, b, d⟩, h1, h2⟩ := h
      cases h2
      have := ih _ _ _ _ hs.1 h1 hnf.2
      obtain ⟨-, rfl, h3⟩ := hs
      simp only [List.flatten_cons, acceptedItems, item?, Option.toList_none, List.nil_append]
      rw [List.append_assoc] at this ⊢
      rw [List.append_assoc, this, ← h3]; simp
    | full s1 =>
      rw [hstep] at h hs
      simp only [Option.map_eq_some_iff] at h
      obtain ⟨⟨a, b, d⟩, h1, h2⟩ := h
      cases h2
      exact absurd (hnf.1 rfl) hs.2.1
    | empty s1 =>
      rw [hstep] at h hs
      obtain ⟨rfl, rfl⟩ := hs
      simp only [Option.map_eq_some_iff] at h
      obtain ⟨⟨a, b, d⟩, h1, h2⟩ := h
      cases h2
      simpa [acceptedItems] using ih _ _ _ _ hinv h1 hnf.2

/-- Invariant of C07: sizes. -/
structure Sized (s : CQueue α) : Prop where
  ok : Ok s
  cache : s.cache.length + 1 ≤ max 2 s.chunk
  chunks : ∀ c ∈ s.q, c.length ≤ max 2 s.chunk

def SizeSpec (s : CQueue α) (c : Call α) : Outcome α → Prop
  | .returned s' => Sized s' ∧ s'.chunk = s.chunk ∧
      ((∃ x b, c = .put x b) ∨ (∃ b, c = .flush b) → s'.cache = [])
  | .got s' x => Sized s' ∧ s'.chunk = s.chunk ∧ x.length ≤ max 2 s.chunk
  | .empty s' => Sized s' ∧ s'.chunk = s.chunk
  | .full _ => True
  | .blocks => True

theorem step_size (s : CQueue α) (c : Call α) (h : Sized s) (hc : ∀ x, c ≠ .putIncache x) :
    SizeSpec s c (s.step c) := by
  obtain ⟨h0, h1, h2⟩ := h
  obtain ⟨cap, chunk, fast, cache, q⟩ := s
  simp only [Ok] at h0
  simp only at h1 h2
  have app : ∀ e : List α, e.length ≤ max 2 chunk → ∀ c ∈ q ++ [e], c.length ≤ max 2 chunk := by
    intro e he c hc
    rcases List.mem_append.mp hc with hc | hc
    · exact h2 c hc
    · simp at hc; subst hc; exact he
  cases c with
  | get =>
    simp only [step, get]
    cases q with
    | nil => exact ⟨⟨h0, h1, h2⟩, rfl⟩
    | cons x t =>
      exact ⟨⟨h0, h1, fun c hc => h2 c (List.mem_cons_of_mem _ hc)⟩, rfl, h2 x List.mem_cons_self⟩
  | put x b =>
    cases fast with
    | true =>
      simp only [step, put, rawPut, if_true]
      split
      · exact ⟨⟨fun _ => rfl, by simp; omega, app _ (by simpa using h1)⟩, rfl, fun _ => rfl⟩
      · split <;> trivial
    | false =>
      simp only [step, put, rawPut, Bool.false_eq_true, if_false, id]
      split
      · exact ⟨⟨h0, h1, app _ (by simp; omega)⟩, rfl, fun _ => h0 rfl⟩
      · split <;> trivial
  | putNowait x =>
    cases fast with
    | true =>
      simp only [step, putNowait, rawPut, Bool.true_eq_false, if_false]
      split
      · split
        · exact ⟨⟨fun _ => rfl, by simp; omega, app _ (by simpa using h1)⟩, rfl, fun _ => rfl⟩
        · simp [SizeSpec]
      · rename_i hl
        refine ⟨⟨by simp [Ok], ?_, h2⟩, rfl, by simp⟩
        simp at hl ⊢; omega
    | false =>
      simp only [step, putNowait, if_true]
      split
      · exact ⟨⟨h0, h1, app _ (by simp; omega)⟩, rfl, by simp⟩
      · refine ⟨⟨by simp [Ok], ?_, h2⟩, rfl, by simp⟩
        simp [h0 rfl]; omega
  | putIncache x => exact absurd rfl (hc x)
  | flush b =>
    cases fast with
    | true =>
      simp only [step, flush, rawPut, if_true]
      split
      · exact ⟨⟨fun _ => rfl, by simp; omega, app _ (by omega)⟩, rfl, fun _ => rfl⟩
      · split <;> trivial
    | false =>
      simp only [step, flush, Bool.false_eq_true, if_false]
      exact ⟨⟨h0, h1, h2⟩, rfl, fun _ => h0 rfl⟩

theorem run_size (cs : List (Call α)) : ∀ (s s' : CQueue α) (recv : List (List α)) (oks : List Bool),
    Sized s → (∀ x, Call.putIncache x ∉ cs) → s.run cs = some (s', recv, oks) → NoFull cs oks →
    Sized s' ∧ s'.chunk = s.chunk ∧ ∀ c ∈ recv, c.length ≤ max 2 s.chunk := by
  induction cs with
  | nil => intro s s' recv oks hs _ h _; simp [run] at h; obtain ⟨rfl, rfl, rfl⟩ := h; exact ⟨hs, rfl, by simp⟩
  | cons c cs ih =>
    intro s s' recv oks hs0 hni h hnf
    have hs := step_size s c hs0 (fun x e => hni x (by rw [e]; exact List.mem_cons_self))
    have hsp := step_spec s c hs0.ok
    have hni' : ∀ x, Call.putIncache x ∉ cs := fun x hx => hni x (List.mem_cons_of_mem _ hx)
    simp only [run] at h
    cases hstep : s.step c with
    | blocks => simp [hstep] at h
    | returned s1 =>
      rw [hstep] at h hs
      simp only [Option.map_eq_some_iff] at h
      obtain ⟨⟨a, b, d⟩, h1, h2⟩ := h
      cases h2
      obtain ⟨i1, i2, i3⟩ := ih _ _ _ _ hs.1 hni' h1 hnf.2
      rw [hs.2.1] at i2 i3; exact ⟨i1, i2, i3⟩
    | got s1 x =>
      rw [hstep] at h hs
      simp only [Option.map_eq_some_iff] at h
      obtain ⟨⟨a, b, d⟩, h1, h2⟩ := h
      cases h2
      obtain ⟨i1, i2, i3⟩ := ih _ _ _ _ hs.1 hni' h1 hnf.2
      rw [hs.2.1] at i2 i3
      refine ⟨i1, i2, ?_⟩
      intro c hc
      rcases List.mem_cons.mp hc with rfl | hc
      · exact hs.2.2
      · exact i3 c hc
    | full s1 =>
      rw [hstep] at h hsp
      simp only [Option.map_eq_some_iff] at h
      obtain ⟨⟨a, b, d⟩, h1, h2⟩ := h
      cases h2
      exact absurd (hnf.1 rfl) hsp.2.1
    | empty s1 =>
      rw [hstep] at h hs
      simp only [Option.map_eq_some_iff] at h
      obtain ⟨⟨a, b, d⟩, h1, h2⟩ := h
      cases h2
      obtain ⟨i1, i2, i3⟩ := ih _ _ _ _ hs.1 hni' h1 hnf.2
      rw [hs.2] at i2 i3; exact ⟨i1, i2, i3⟩

end Glompo.CQueue
