import Verif.Props.Logger

/-!
# C01: whom the best record is of
-/

namespace Glompo.Props

open Glompo Glompo.Spec Glompo.Logger

theorem BestIter.absent (traj : Bool) (ops : List Op) (i : Nat) (h0 : i ≠ 0) (h : i ∉ added ops) :
    dictGet ((init traj).run ops).bestIters i = none := by
  induction ops using snoc_induction with
  | h0 => simp [run, init, dictGet, Ne.symm h0]
  | hs l op ih =>
    have ih := ih fun hh => h (by rw [added_append]; exact List.mem_append_left _ hh)
    rw [run_snoc]
    generalize (init traj).run l = s at ih ⊢
    cases op with
    | add j t =>
      have hij : i ≠ j := by rintro rfl; exact h (by simp [added])
      simp only [step, addOptimizer]
      rw [dictGet_set_ne _ _ hij]; exact ih
    | put r =>
      simp only [step]
      cases hb : dictGet s.bestIters r.optId with
      | none => simp only [putIteration, hb]; exact ih
      | some b =>
        rw [(putIteration_best s r b hb).2.1]
        have hij : i ≠ r.optId := by rintro rfl; rw [ih] at hb; cases hb
        have : dictGet (s.putBest r b).bestIters i = dictGet s.bestIters i := by
          simp only [putBest]
          split <;> split <;> simp [dictGet_set_ne _ _ hij]
        rw [this]; exact ih
    | addHist j hs => simp only [step, addIterHistory]; split <;> exact ih
    | clear j => simp only [step, clearCache]; split <;> exact ih
    | putMeta j k v => simp only [step, putMetadata]; split <;> exact ih
    | putMsg j m => simp only [step, putMessage]; split <;> exact ih

/-- **C01, whom.** Asked for optimizer 0, which is nobody, the log answers with the best of all; asked for anybody else who was never registered, it
raises a `KeyError`. -/
theorem C01_others (traj : Bool) (ops : List Op) (hwf : WellFormed ops) :
    (NoneQualifies (fun _ => True) (evals ops) →
      ((init traj).run ops).getBestIter (some 0) = .ok { optId := 0, x := [], fx := .pinf, type := "", callId := 0 }) ∧
    (∀ k r t, EarliestMin (fun _ => True) (evals ops) k → (evals ops)[k]? = some r → Op.add r.optId t ∈ ops →
      ((init traj).run ops).getBestIter (some 0) = .ok { optId := r.optId, x := r.x, fx := r.fx, type := t, callId := k + 1 }) ∧
    ∀ i, i ≠ 0 → (∀ t, Op.add i t ∉ ops) → ((init traj).run ops).getBestIter (some i) = .error .keyError := by
  obtain ⟨h1, h2, -⟩ := C01_best_is_earliest_min traj ops hwf
  refine ⟨h1, h2, fun i h0 hi => ?_⟩
  have := BestIter.absent traj ops i h0 fun hm => by
    obtain ⟨t, ht⟩ := mem_added.mp hm
    exact hi t ht
  cases i with
  | zero => exact absurd rfl h0
  | succ n => simp only [getBestIter, this]

example : WellFormed sampleOps ∧ (∀ t, Op.add 7 t ∉ sampleOps) ∧
    (((init false).run sampleOps).getBestIter (some 0)).toOption = some ⟨2, [3], .fin 3, "Random", 3⟩ ∧
    (((init false).run sampleOps).getBestIter (some 7)).toOption = none :=
  ⟨wellFormed_of_wfB (by decide), by simp [sampleOps], by decide +kernel, by decide +kernel⟩

end Glompo.Props
