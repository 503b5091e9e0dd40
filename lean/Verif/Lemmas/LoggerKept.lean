import Verif.Lemmas.LoggerStore

/-! What the in-memory log holds of an optimizer which still has a history in it. -/

namespace Glompo.Logger

open Glompo.Spec

/-- Nothing was reported by an optimizer whose history was not opened. -/
theorem evalsOf_unopened {ops : List Op} (h : WellFormed ops) {i : Nat} (ho : i ∉ opened ops) : evalsOf (evals ops) i = [] := by
  induction ops using snoc_induction with
  | h0 => rfl
  | hs l op ih =>
    have ho' : i ∉ opened l := fun hh => ho (by simp only [opened, List.filterMap_append] at hh ⊢; exact List.mem_append_left _ hh)
    have ih := ih h.init ho'
    have hl := h.last
    by_cases hp : ∃ r, op = .put r
    · obtain ⟨r, rfl⟩ := hp
      simp only [OpOk] at hl
      have e : evals (l ++ [Op.put r]) = evals l ++ [r] := by simp [evals]
      rw [e, evalsOf_snoc, ih]
      by_cases hij : r.optId = i
      · exact absurd (hij ▸ hl.2) ho'
      · simp [hij]
    · have e : evals (l ++ [op]) = evals l := by
        cases op <;> simp [evals]; exact absurd ⟨_, rfl⟩ hp
      rw [e, ih]

/-- The columns stored for an opened history are those of all evaluations of the optimizer. -/
theorem kept_run (traj : Bool) (ops : List Op) (i : Nat) (h : WellFormed ops) (st : Store)
    (hst : dictGet ((init traj).run ops).storage i = some st) (ho : i ∈ opened ops) :
    Cols3 st.cols ((callIds (evals ops) i).map Cell.nat) ((evalsOf (evals ops) i).map fun r => Cell.vec r.x)
      ((evalsOf (evals ops) i).map fun r => Cell.num r.fx) := by
  induction ops using snoc_induction generalizing st with
  | h0 => simp [opened] at ho
  | hs l op ih =>
    have ih := ih h.init
    have hl := h.last
    have hbest := bestInv_run traj l h.init
    have hstore := storeInv_run traj l h.init
    rw [run_snoc] at hst
    generalize hs : (init traj).run l = s at ih hbest hst hstore
    cases op with
    | add j t =>
      simp only [OpOk] at hl
      have he : evals (l ++ [Op.add j t]) = evals l := by simp [evals]
      have ho' : i ∈ opened l := by simpa [opened] using ho
      rw [he]
      by_cases hij : i = j
      · subst hij; exact absurd (opened_sub_added h.init _ ho') hl.2
      · simp only [step, addOptimizer] at hst
        rw [dictGet_set_ne _ _ hij] at hst
        exact ih st hst ho'
    | addHist j hs' =>
      simp only [OpOk] at hl
      have he : evals (l ++ [Op.addHist j hs']) = evals l := by simp [evals]
      rw [he]
      by_cases hij : i = j
      · subst hij
        have hnil := evalsOf_unopened h.init hl.2
        rw [hnil, callIds_nil_of_evalsOf hnil]
        simp only [step, addIterHistory] at hst
        split at hst
        · rename_i e; rw [e] at hst; cases hst
        · rename_i st0 e
          rw [dictGet_set_self] at hst
          cases hst
          have := (hstore i st0 e).2.2 hl.2
          simp only [this]
          exact setHeaders_nil hs'
      · have ho' : i ∈ opened l := by simpa [opened, hij] using ho
        simp only [step, addIterHistory] at hst
        split at hst
        · exact ih st hst ho'
        · rw [dictGet_set_ne _ _ hij] at hst
          exact ih st hst ho'
    | put r =>
      simp only [OpOk] at hl
      have he : evals (l ++ [Op.put r]) = evals l ++ [r] := by simp [evals]
      have ho' : i ∈ opened l := by simpa [opened] using ho
      rw [he, callIds_snoc, evalsOf_snoc]
      by_cases hij : i = r.optId
      · subst hij
        obtain ⟨t0, ht0⟩ := mem_added.mp hl.1
        obtain ⟨b, hb, -⟩ := hbest.known _ _ ht0
        cases e : dictGet s.storage r.optId with
        | none =>
          simp only [step, putIteration, hb, putBest_storage, e] at hst
          cases hst
        | some st0 =>
          simp only [step] at hst
          rw [(put_storage_self s r b st0 hb e).1, dictGet_set_self] at hst
          cases hst
          rw [← hbest.count]
          simpa using appendRow_cols3 (ih st0 e ho') _ _ _ _
      · simp only [step] at hst
        rw [put_storage_ne s r i hij] at hst
        simpa [Ne.symm hij] using ih st hst ho'
    | clear j =>
      have he : evals (l ++ [Op.clear j]) = evals l := by simp [evals]
      have ho' : i ∈ opened l := by simpa [opened] using ho
      rw [he]
      simp only [step, clearCache] at hst
      split at hst
      · exact ih st hst ho'
      · exact ih st (delKeys_sub _ _ _ _ hst) ho'
    | putMeta j k v =>
      have he : evals (l ++ [Op.putMeta j k v]) = evals l := by simp [evals]
      have ho' : i ∈ opened l := by simpa [opened] using ho
      rw [he]
      simp only [step, putMetadata] at hst
      split at hst
      · exact ih st hst ho'
      · rename_i st0 e
        simp only [dictGet_set] at hst
        split at hst
        · rename_i e2; subst e2; cases hst; exact ih st0 e ho'
        · exact ih st hst ho'
    | putMsg j m =>
      have he : evals (l ++ [Op.putMsg j m]) = evals l := by simp [evals]
      have ho' : i ∈ opened l := by simpa [opened] using ho
      rw [he]
      simp only [step, putMessage] at hst
      split at hst
      · exact ih st hst ho'
      · rename_i st0 e
        simp only [dictGet_set] at hst
        split at hst
        · rename_i e2; subst e2; cases hst; exact ih st0 e ho'
        · exact ih st hst ho'

/-- Whoever has a history in the log has all of it there. -/
theorem history_of_has (traj : Bool) {ops : List Op} {i : Nat} (h : WellFormed ops)
    (hi : ((init traj).run ops).hasIterHistory i = true) :
    ((init traj).run ops).getHistory i "fx" = .ok ((evalsOf (evals ops) i).map fun r => Cell.num r.fx) ∧
    ((init traj).run ops).getHistory i "x" = .ok ((evalsOf (evals ops) i).map fun r => Cell.vec r.x) ∧
    ((init traj).run ops).getHistory i "call_id" = .ok ((callIds (evals ops) i).map Cell.nat) ∧
    ((init traj).run ops).lenOpt i = (evalsOf (evals ops) i).length := by
  obtain ⟨-, h2, st, h3⟩ := hasIterHistory_opened (storeInv_run traj ops h) hi
  obtain ⟨g1, g2, g3, g4⟩ := getHistory_cols3 h3 (kept_run traj ops i h st h3 h2)
  exact ⟨g3, g2, g1, by simpa using g4⟩

end Glompo.Logger
