import Verif.Lemmas.ManagerTrace

/-! Where the class of an optimizer in the log comes from. -/

namespace Glompo

open Spec

namespace Logger

/-- Whatever is stored for an optimizer has the class with which it was registered. -/
theorem class_run (traj : Bool) (ops : List Op) (hm : ∀ i v, Op.putMeta i "opt_type" v ∉ ops) (i : Nat) (st : Store)
    (hst : dictGet ((init traj).run ops).storage i = some st) :
    ∃ t, dictGet st.metadata "opt_type" = some t ∧ Op.add i t ∈ ops := by
  induction ops using snoc_induction generalizing i st with
  | h0 => simp [run, init] at hst
  | hs l op ih =>
    have ih := ih fun i v h => hm i v (List.mem_append_left _ h)
    rw [run_snoc] at hst
    generalize (init traj).run l = s at ih hst
    have old : ∀ st', dictGet s.storage i = some st' → st'.metadata = st.metadata →
        ∃ t, dictGet st.metadata "opt_type" = some t ∧ Op.add i t ∈ l ++ [op] := by
      intro st' h1 h2
      obtain ⟨t, g1, g2⟩ := ih i st' h1
      exact ⟨t, by rw [← h2]; exact g1, List.mem_append_left _ g2⟩
    cases op with
    | add j t =>
      simp only [step, addOptimizer, dictGet_set] at hst
      split at hst
      · rename_i e; subst e; cases hst; exact ⟨t, rfl, by simp⟩
      · exact old st hst rfl
    | addHist j hs =>
      simp only [step, addIterHistory] at hst
      split at hst
      · exact old st hst rfl
      · rename_i st0 e
        simp only [dictGet_set] at hst
        split at hst
        · rename_i e2; subst e2; cases hst; exact old st0 e rfl
        · exact old st hst rfl
    | put r =>
      by_cases hij : i = r.optId
      · subst hij
        simp only [step, putIteration] at hst
        split at hst
        · exact old st hst rfl
        · split at hst
          · rename_i hb2
            rw [putBest_storage] at hb2 hst
            rw [hst] at hb2; cases hb2
          · rename_i st0 hb2
            rw [putBest_storage] at hb2
            simp only [dictGet_set_self] at hst
            cases hst
            exact old st0 hb2 rfl
      · rw [show (s.step (Op.put r)).1 = (s.putIteration r).1 from rfl, put_storage_ne _ _ _ hij] at hst
        exact old st hst rfl
    | clear j =>
      simp only [step, clearCache] at hst
      split at hst
      · exact old st hst rfl
      · exact old st (delKeys_sub _ _ _ _ hst) rfl
    | putMeta j k v =>
      simp only [step, putMetadata] at hst
      split at hst
      · exact old st hst rfl
      · rename_i st0 e
        simp only [dictGet_set] at hst
        split at hst
        · rename_i e2; subst e2; cases hst
          have hk : "opt_type" ≠ k := by rintro rfl; exact hm i v (by simp)
          obtain ⟨t, g1, g2⟩ := ih i st0 e
          exact ⟨t, by rw [dictGet_set_ne _ _ hk]; exact g1, List.mem_append_left _ g2⟩
        · exact old st hst rfl
    | putMsg j m =>
      simp only [step, putMessage] at hst
      split at hst
      · exact old st hst rfl
      · rename_i st0 e
        simp only [dictGet_set] at hst
        split at hst
        · rename_i e2; subst e2; cases hst; exact old st0 e rfl
        · exact old st hst rfl

end Logger

namespace Manager

/-- The class in the log is the one the selector named. -/
theorem Inv.metadata {cfg : Cfg} {s : State} (inv : Inv cfg s) {i : Nat} {t : String} (h : s.log.getMetadata i "opt_type" = .ok t) :
    ChosenAs s.ev i t := by
  simp only [Logger.getMetadata] at h
  split at h
  · cases h
  · rename_i st hst
    rw [inv.log] at hst
    obtain ⟨t', h1, h2⟩ := Logger.class_run _ _ inv.cls.2.2 i st hst
    rw [h1] at h
    cases h
    exact inv.cls.1 i _ h2

/-- The class of an optimizer which has a history in the log is there. -/
theorem Inv.classed {cfg : Cfg} {s : State} (inv : Inv cfg s) {i : Nat} (h : s.log.hasIterHistory i = true) :
    ∃ t, s.log.getMetadata i "opt_type" = .ok t ∧ ChosenAs s.ev i t := by
  obtain ⟨-, -, st, hst⟩ := Logger.hasIterHistory_opened inv.store h
  have hst' := hst
  rw [inv.log] at hst'
  obtain ⟨t, h1, h2⟩ := Logger.class_run _ _ inv.cls.2.2 i st hst'
  exact ⟨t, by simp only [Logger.getMetadata, hst, h1], inv.cls.1 i t h2⟩

end Manager
end Glompo
