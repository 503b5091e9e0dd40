import Verif.Model.Nevergrad

/-! # C88, C89: the Nevergrad and SciPy optimizers -/

namespace Glompo.Props

open Glompo Glompo.Nevergrad

/-- Somebody wishes to stop when the value is told: the value meets the termination condition, the user's callback (there is at most one)
says so, or the manager sends the instruction. -/
def NgStops (zero : PyF) (a : Arg) (t : Tell) : Prop :=
  PyF.le (.fin (10 ^ 30)) t.fx = true ∨ PyF.le t.fx zero = true ∨ (a = .one ∧ t.answers 0 = true) ∨ Msg.stop ∈ t.msgs

theorem ng_call (zero : PyF) (a : Arg) (ha : a = .none ∨ a = .one) (t : Tell) (w : W) (hc : w.callbacks = initCallbacks a) (hs : w.stop = false) :
    ∃ w', call zero true t w = .ok w' ∧ w'.callbacks = w.callbacks ∧
      (NgStops zero a t → w'.stop = true ∧ w'.exhausted = true ∧ ∃ s, s ≠ "" ∧ w'.sent = w.sent ++ [s]) ∧
      (¬ NgStops zero a t → w' = w) := by
  have hu : ∃ b, userStop w.callbacks t = .ok b ∧ (b = true ↔ a = .one ∧ t.answers 0 = true) := by
    rw [hc]
    rcases ha with rfl | rfl
    · exact ⟨false, by simp [initCallbacks, userStop], by simp⟩
    · exact ⟨t.answers 0, by simp [initCallbacks, userStop, List.range_succ], by simp⟩
  obtain ⟨b, hb, hb'⟩ := hu
  have hcv : converged zero t.fx = true ↔ PyF.le (.fin (10 ^ 30)) t.fx = true ∨ PyF.le t.fx zero = true := by
    unfold converged; rw [Bool.or_eq_true]
  unfold call
  simp only [hs, Bool.false_eq_true, if_false]
  have hr : ∃ s, reason zero t w = .ok s ∧ (s ≠ "" ↔ converged zero t.fx = true ∨ b = true) := by
    unfold reason
    rw [hb]
    by_cases h : converged zero t.fx = true
    · exact ⟨_, by rw [if_pos h], by simp [h]⟩
    · exact ⟨_, by rw [if_neg h], by cases b <;> simp [h]⟩
  obtain ⟨s, h1, h2⟩ := hr
  rw [h1]
  refine ⟨glompo t w s, rfl, ?_, fun h => ?_, fun h => ?_⟩
  · unfold glompo; simp only; split <;> split <;> rfl
  · unfold glompo
    simp only [hs, Bool.false_or, List.contains_iff_mem]
    by_cases hse : s = ""
    · have : Msg.stop ∈ t.msgs := by
        unfold NgStops at h
        rcases h with h | h | h | h
        · exact absurd hse (h2.mpr (.inl (hcv.mpr (.inl h))))
        · exact absurd hse (h2.mpr (.inl (hcv.mpr (.inr h))))
        · exact absurd hse (h2.mpr (.inr (hb'.mpr h)))
        · exact h
      simp [hse, this]
    · simp [hse]
  · unfold NgStops at h
    simp only [not_or] at h
    obtain ⟨n1, n2, n3, n4⟩ := h
    have hse : s = "" := by
      refine Classical.byContradiction fun hne => ?_
      rcases h2.mp hne with h | h
      · rcases hcv.mp h with h | h
        · exact n1 h
        · exact n2 h
      · exact n3 (hb'.mp h)
    unfold glompo
    cases w
    simp_all

/-- C88 (partial). Under a manager, with at most one callback function: for every sequence of values told, however many arrive after the stop,
the wrapper never fails; it ends the run exactly if somebody wished to stop; and the manager is told exactly once in that case,
otherwise never.

Missing: see the refuted parts for optimizers on their own, with several callbacks, and resumed ones. -/
theorem C88_nevergrad_stop_partial (zero : PyF) (a : Arg) (ha : a = .none ∨ a = .one) (ts : List Tell) :
    ∃ w, run zero true ts (begin false a) = .ok w ∧
      ((∃ t ∈ ts, NgStops zero a t) → w.exhausted = true ∧ w.sent.length = 1) ∧
      ((∀ t ∈ ts, ¬ NgStops zero a t) → w.exhausted = false ∧ w.sent = []) := by
  have stopped : ∀ (ts : List Tell) (w : W), w.stop = true → run zero true ts w = .ok w := by
    intro ts
    induction ts with
    | nil => intro w _; rfl
    | cons t ts ih => intro w h; simp [run, call, h, ih w h]
  have key : ∀ (ts : List Tell) (w : W), w.callbacks = initCallbacks a → w.stop = false → w.exhausted = false → w.sent = [] →
      ∃ w', run zero true ts w = .ok w' ∧ ((∃ t ∈ ts, NgStops zero a t) → w'.exhausted = true ∧ w'.sent.length = 1) ∧
        ((∀ t ∈ ts, ¬ NgStops zero a t) → w'.exhausted = false ∧ w'.sent = []) := by
    intro ts
    induction ts with
    | nil => intro w _ _ h3 h4; exact ⟨w, rfl, by simp, fun _ => ⟨h3, h4⟩⟩
    | cons t ts ih =>
      intro w h1 h2 h3 h4
      obtain ⟨w1, c1, c2, c3, c4⟩ := ng_call zero a ha t w h1 h2
      by_cases hst : NgStops zero a t
      · obtain ⟨d1, d2, s, _, d3⟩ := c3 hst
        refine ⟨w1, by simp [run, c1, stopped ts w1 d1], fun _ => ⟨d2, by rw [d3, h4]; rfl⟩, fun h => absurd hst (h t (by simp))⟩
      · have := c4 hst
        subst this
        obtain ⟨w', e1, e2, e3⟩ := ih w1 h1 h2 h3 h4
        refine ⟨w', by simp [run, c1, e1], fun ⟨t', ht', hs'⟩ => e2 ?_, fun h => e3 (fun t' ht' => h t' (by simp [ht']))⟩
        rcases List.mem_cons.mp ht' with rfl | ht'
        · exact absurd hs' hst
        · exact ⟨t', ht', hs'⟩
  exact key ts (begin false a) rfl rfl rfl rfl

/-- A run stopped by the manager at the second value, with two more values arriving afterwards, one of which meets the termination
condition. -/
def ngRun : List Tell :=
  [{ fx := .fin 3, answers := fun _ => false, msgs := [.other] }, { fx := .fin 2, answers := fun _ => false, msgs := [.stop] },
   { fx := .pinf, answers := fun _ => true, msgs := [.stop] }, { fx := .fin 1, answers := fun _ => true, msgs := [] }]

example : (run .ninf true ngRun (begin false .one)).toOption.map (·.sent) = some ["GloMPO termination signal."] := by decide +kernel
example : ∃ t ∈ ngRun, NgStops .ninf .one t :=
  ⟨{ fx := .fin 2, answers := fun _ => false, msgs := [.stop] }, by simp [ngRun], .inr (.inr (.inr (by simp)))⟩

/-- C88, refuted part: used on its own, the optimizer ignores its termination conditions and the callbacks: it never ends the run. -/
theorem C88_alone_refuted (zero : PyF) (ts : List Tell) (a : Arg) (ha : a = .none ∨ a = .one) :
    ∃ w, run zero false ts (begin false a) = .ok w ∧ w.exhausted = false := by
  have hc : (begin false a).callbacks = .list (if a = .one then 1 else 0) := by rcases ha with rfl | rfl <;> rfl
  generalize hw : begin false a = w at hc
  have he : w.exhausted = false := by rw [← hw]; rfl
  have hs : w.stop = false := by rw [← hw]; rfl
  refine ⟨w, ?_, he⟩
  clear hw
  induction ts with
  | nil => rfl
  | cons t ts ih =>
    have : call zero false t w = .ok w := by
      unfold call reason userStop
      rw [hc]
      by_cases h : converged zero t.fx = true <;> simp [hs, h]
    simp [run, this, ih]

/-- C88, refuted part: with several callbacks, the optimizer fails at the first value (unless this meets the termination condition). -/
theorem C88_several_refuted (zero : PyF) (managed : Bool) (n : Nat) (t : Tell) (ts : List Tell) (h : converged zero t.fx = false) :
    run zero managed (t :: ts) (begin false (.several n)) = .error .other := by
  simp [run, call, reason, h, begin, initCallbacks, userStop]

/-- C88, refuted part: an optimizer resumed from a checkpoint without callbacks, as the manager does, fails at the first value (unless this
meets the termination condition). -/
theorem C88_resumed_refuted (zero : PyF) (managed : Bool) (t : Tell) (ts : List Tell) (a : Arg) (ha : a = .none ∨ a = .one)
    (h : converged zero t.fx = false) : run zero managed (t :: ts) (begin true a) = .error .typeError := by
  rcases ha with rfl | rfl <;> simp [run, call, reason, h, begin, restartCallbacks, userStop]

example : converged .ninf (.fin 3) = false := by decide +kernel

/-- C89. The answer the SciPy wrapper gives to SciPy is that of the last callback which has one. -/
theorem C89_scipy_callback (l : List (Option Bool)) : scipyCallback l = (l.filterMap id).getLast? := by
  have : ∀ (l : List (Option Bool)) (r : Option Bool), l.foldl (fun ret r => if r.isSome then r else ret) r = ((l.filterMap id).getLast?).or r := by
    intro l
    induction l with
    | nil => intro r; rfl
    | cons a t ih =>
      intro r
      rw [List.foldl_cons, ih]
      cases a with
      | none => simp
      | some b =>
        simp only [Option.isSome_some, if_true, List.filterMap_cons, id]
        rw [List.getLast?_cons]
        cases (t.filterMap id).getLast? <;> simp
  rw [scipyCallback, this]
  simp

example : scipyCallback [some true, none, some false, none] = some false := rfl

/-- C89 (partial). The SciPy wrapper passes vector and value on, and tells the manager, if there is one, exactly once that it has ended.

Missing: the success, see `C89_success_refuted`. -/
theorem C89_scipy_result_partial (managed : Bool) (x : Vec) (fx : PyF) (s : Bool) :
    (scipyResult managed (x, fx, s)).1.1 = x ∧ (scipyResult managed (x, fx, s)).1.2.1 = fx ∧
    (scipyResult managed (x, fx, s)).2 = if managed then 1 else 0 := ⟨rfl, rfl, rfl⟩

/-- C89, refuted part: a success of SciPy is never reported. -/
theorem C89_success_refuted (managed : Bool) (x : Vec) (fx : PyF) : (scipyResult managed (x, fx, true)).1.2.2 = false := rfl

end Glompo.Props
