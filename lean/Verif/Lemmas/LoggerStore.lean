import Verif.Lemmas.LoggerHist

/-! Which optimizers are kept in the in-memory log, and when its operations fail. -/

namespace Glompo.Logger

open Glompo.Spec

theorem opened_sub_added {ops : List Op} (h : WellFormed ops) : ∀ i ∈ opened ops, i ∈ added ops := by
  intro i hh
  simp only [opened, List.mem_filterMap] at hh
  obtain ⟨o, h1, h2⟩ := hh
  cases o <;> simp at h2
  subst h2
  obtain ⟨pre, post, e⟩ := List.append_of_mem h1
  have := h pre _ post e
  simp only [OpOk] at this
  rw [e, added_append]; exact List.mem_append_left _ this.1

theorem setHeaders_fx (hs : List String) : ∀ cols, (dictGet cols "fx").isSome = true →
    (dictGet (setHeaders cols hs) "fx").isSome = true := by
  induction hs with
  | nil => intro cols h; exact h
  | cons k t ih =>
    intro cols h
    refine ih _ ?_
    rw [dictGet_set]
    split
    · rfl
    · exact h

theorem appendRow_keys (cols : List (String × List Cell)) : ∀ vs,
    (appendRow cols vs).map (·.1) = cols.map (·.1) := by
  induction cols with
  | nil => intro vs; simp [appendRow]
  | cons p t ih => intro vs; cases vs <;> simp [appendRow, ih]

theorem dictGet_isSome_keys {α : Type} (l : List (String × α)) (k : String) :
    (dictGet l k).isSome = (l.map (·.1)).contains k := by
  induction l with
  | nil => rfl
  | cons p t ih =>
    obtain ⟨a, b⟩ := p
    simp only [dictGet, List.map_cons, List.contains_cons]
    by_cases e : a = k
    · subst e; simp
    · have e' : (k == a) = false := by simpa using fun h => e h.symm
      simp [e, e', ih]

theorem delKeys_sub (st : List (Nat × Store)) (ks : List Nat) (i : Nat) (x : Store)
    (h : dictGet (delKeys st ks).1 i = some x) : dictGet st i = some x := by
  induction ks generalizing st with
  | nil => simpa [delKeys] using h
  | cons k t ih =>
    simp only [delKeys] at h
    split at h
    · have := ih _ h
      by_cases hk : i = k
      · subst hk; simp at this
      · rwa [dictGet_del_ne _ hk] at this
    · exact h

/-- What is stored: registered optimizers, with history columns exactly if their history was opened. -/
def StoreInv (ops : List Op) (s : Logger) : Prop :=
  ∀ i st, dictGet s.storage i = some st → i ∈ added ops ∧
    (i ∈ opened ops → (dictGet st.cols "fx").isSome = true) ∧ (i ∉ opened ops → st.cols = [])

theorem storeInv_run (traj : Bool) (ops : List Op) (h : WellFormed ops) : StoreInv ops ((init traj).run ops) := by
  induction ops using snoc_induction with
  | h0 => intro i st hh; simp [run, init] at hh
  | hs l op ih =>
    have ih := ih h.init
    have hl := h.last
    rw [run_snoc]
    generalize hs : (init traj).run l = s at ih ⊢
    intro i st hst
    cases op with
    | add j t =>
      simp only [OpOk] at hl
      have ho : opened (l ++ [Op.add j t]) = opened l := by simp [opened]
      simp only [step, addOptimizer, dictGet_set] at hst
      rw [ho]
      split at hst
      · rename_i e
        subst e
        cases hst
        refine ⟨by simp [added], fun hh => absurd (opened_sub_added h.init _ hh) hl.2, fun _ => rfl⟩
      · obtain ⟨h1, h2⟩ := ih i st hst
        exact ⟨by rw [added_append]; exact List.mem_append_left _ h1, h2⟩
    | addHist j hs' =>
      simp only [OpOk] at hl
      have ha : added (l ++ [Op.addHist j hs']) = added l := by simp [added]
      have ho : ∀ i, i ∈ opened (l ++ [Op.addHist j hs']) ↔ i ∈ opened l ∨ i = j := by simp [opened]
      rw [ha, ho]
      simp only [step, addIterHistory] at hst
      split at hst
      · rename_i e
        obtain ⟨h1, h2, h3⟩ := ih i st hst
        refine ⟨h1, fun hh => ?_, fun hh => h3 (fun h => hh (Or.inl h))⟩
        rcases hh with hh | hh
        · exact h2 hh
        · subst hh; rw [e] at hst; cases hst
      · rename_i st0 e
        simp only [dictGet_set] at hst
        split at hst
        · rename_i e2
          subst e2
          cases hst
          refine ⟨hl.1, fun _ => ?_, fun hh => absurd (Or.inr rfl) hh⟩
          obtain ⟨h1, h2, h3⟩ := ih i st0 e
          rw [h3 hl.2]
          obtain ⟨rest, hr⟩ := setHeaders_nil hs'
          rw [hr]; simp [dictGet]
        · rename_i e2
          obtain ⟨h1, h2, h3⟩ := ih i st hst
          refine ⟨h1, fun hh => ?_, fun hh => h3 (fun h => hh (Or.inl h))⟩
          rcases hh with hh | hh
          · exact h2 hh
          · exact absurd hh e2
    | put r =>
      have ha : added (l ++ [Op.put r]) = added l := by simp [added]
      have ho : opened (l ++ [Op.put r]) = opened l := by simp [opened]
      rw [ha, ho]
      by_cases hij : i = r.optId
      · subst hij
        simp only [OpOk] at hl
        simp only [step, putIteration] at hst
        split at hst
        · exact ih _ _ hst
        · rename_i b hb
          split at hst
          · rename_i hb2
            rw [putBest_storage] at hb2 hst
            rw [hst] at hb2; cases hb2
          · rename_i st0 hb2
            rw [putBest_storage] at hb2
            simp only [dictGet_set_self] at hst
            cases hst
            obtain ⟨h1, h2, h3⟩ := ih _ _ hb2
            refine ⟨h1, fun hh => ?_, fun hh => absurd hl.2 hh⟩
            rw [dictGet_isSome_iff, appendRow_keys, ← dictGet_isSome_iff]
            exact h2 hh
      · rw [show (s.step (Op.put r)).1 = (s.putIteration r).1 from rfl, put_storage_ne _ _ _ hij] at hst
        exact ih i st hst
    | clear j =>
      have ha : added (l ++ [Op.clear j]) = added l := by simp [added]
      have ho : opened (l ++ [Op.clear j]) = opened l := by simp [opened]
      rw [ha, ho]
      simp only [step, clearCache] at hst
      split at hst
      · exact ih i st hst
      · exact ih i st (delKeys_sub _ _ _ _ hst)
    | putMeta j k v =>
      have ha : added (l ++ [Op.putMeta j k v]) = added l := by simp [added]
      have ho : opened (l ++ [Op.putMeta j k v]) = opened l := by simp [opened]
      rw [ha, ho]
      simp only [step, putMetadata] at hst
      split at hst
      · exact ih i st hst
      · rename_i st0 e
        simp only [dictGet_set] at hst
        split at hst
        · rename_i e2; subst e2; cases hst; exact ih i st0 e
        · exact ih i st hst
    | putMsg j m =>
      have ha : added (l ++ [Op.putMsg j m]) = added l := by simp [added]
      have ho : opened (l ++ [Op.putMsg j m]) = opened l := by simp [opened]
      rw [ha, ho]
      simp only [step, putMessage] at hst
      split at hst
      · exact ih i st hst
      · rename_i st0 e
        simp only [dictGet_set] at hst
        split at hst
        · rename_i e2; subst e2; cases hst; exact ih i st0 e
        · exact ih i st hst

theorem hasIterHistory_opened {ops : List Op} {s : Logger} (h : StoreInv ops s) {i : Nat}
    (hi : s.hasIterHistory i = true) : i ∈ added ops ∧ i ∈ opened ops ∧ ∃ st, dictGet s.storage i = some st := by
  simp only [hasIterHistory] at hi
  split at hi
  · cases hi
  · rename_i st e
    obtain ⟨h1, h2, h3⟩ := h i st e
    refine ⟨h1, ?_, st, e⟩
    by_cases ho : i ∈ opened ops
    · exact ho
    · rw [h3 ho] at hi; simp at hi

theorem not_opened_of_noHistory {ops : List Op} {s : Logger} (h : StoreInv ops s) {i : Nat} {st : Store}
    (hi : s.hasIterHistory i = false) (hst : dictGet s.storage i = some st) : i ∈ added ops ∧ i ∉ opened ops := by
  obtain ⟨h1, h2, h3⟩ := h i st hst
  refine ⟨h1, fun ho => ?_⟩
  have := h2 ho
  simp only [hasIterHistory, hst] at hi
  rw [this] at hi; cases hi

theorem addHist_ok {s : Logger} {i : Nat} {hs : List String} (h : (s.step (.addHist i hs)).2 = none) :
    ∃ st, dictGet s.storage i = some st := by
  simp only [step, addIterHistory] at h
  split at h
  · cases h
  · rename_i st e; exact ⟨st, e⟩

theorem put_ok (traj : Bool) {ops : List Op} (h : WellFormed ops) {r : IterRes} {st : Store}
    (hst : dictGet ((init traj).run ops).storage r.optId = some st) :
    (((init traj).run ops).step (.put r)).2 = none := by
  have hi := (storeInv_run traj ops h) _ _ hst
  obtain ⟨t0, ht0⟩ := mem_added.mp hi.1
  obtain ⟨b, hb, -⟩ := (bestInv_run traj ops h).known _ _ ht0
  exact (put_storage_self _ r b st hb hst).2

/-- A history is lost only by a release of its memory or by registering its optimizer again. -/
theorem keeps_history (s : Logger) (op : Op) (i : Nat) (h : s.hasIterHistory i = true) (ha : ∀ t, op ≠ .add i t)
    (hc : ∀ o, op = .clear o → ∃ j, o = some (j + 1) ∧ j + 1 ≠ i) : (s.step op).1.hasIterHistory i = true := by
  simp only [hasIterHistory] at h
  split at h
  · cases h
  rename_i st hst
  have keep : ∀ s' : Logger, dictGet s'.storage i = dictGet s.storage i → s'.hasIterHistory i = true := by
    intro s' e; simp [hasIterHistory, e, hst, h]
  have upd : ∀ (s' : Logger) st', dictGet s'.storage i = some st' → (dictGet st'.cols "fx").isSome = true →
      s'.hasIterHistory i = true := by
    intro s' st' e e'; simp [hasIterHistory, e, e']
  cases op with
  | add j t =>
    have hij : i ≠ j := by rintro rfl; exact ha t rfl
    exact keep _ (by simp only [step, addOptimizer]; rw [dictGet_set_ne _ _ hij])
  | addHist j hs =>
    by_cases hij : i = j
    · subst hij
      simp only [step, addIterHistory, hst]
      exact upd _ _ (dictGet_set_self _ _ _) (setHeaders_fx _ _ h)
    · refine keep _ ?_
      simp only [step, addIterHistory]; split
      · rfl
      · simp only []; rw [dictGet_set_ne _ _ hij]
  | put r =>
    by_cases hij : i = r.optId
    · subst hij
      simp only [step, putIteration]
      split
      · exact keep _ rfl
      · rename_i b hb
        simp only [putBest_storage, hst]
        refine upd _ _ (dictGet_set_self _ _ _) ?_
        show (dictGet (appendRow st.cols _) "fx").isSome = true
        rw [dictGet_isSome_keys, appendRow_keys, ← dictGet_isSome_keys]; exact h
    · exact keep _ (put_storage_ne s r i hij)
  | clear o =>
    obtain ⟨j, rfl, hj⟩ := hc o rfl
    refine keep _ ?_
    simp only [step, clearCache]
    split
    · rfl
    · simp only []
      rw [delKeys_ne]
      simpa using Ne.symm hj
  | putMeta j k v =>
    by_cases hij : i = j
    · subst hij
      simp only [step, putMetadata, hst]
      exact upd _ _ (dictGet_set_self _ _ _) h
    · refine keep _ ?_
      simp only [step, putMetadata]; split
      · rfl
      · simp only []; rw [dictGet_set_ne _ _ hij]
  | putMsg j m =>
    by_cases hij : i = j
    · subst hij
      simp only [step, putMessage, hst]
      exact upd _ _ (dictGet_set_self _ _ _) h
    · refine keep _ ?_
      simp only [step, putMessage]; split
      · rfl
      · simp only []; rw [dictGet_set_ne _ _ hij]

theorem addHist_has {s : Logger} {i : Nat} {hs : List String} (h : (s.step (.addHist i hs)).2 = none) :
    (s.step (.addHist i hs)).1.hasIterHistory i = true := by
  obtain ⟨st, hst⟩ := addHist_ok h
  simp only [step, addIterHistory, hst, hasIterHistory, dictGet_set_self]
  have e : setHeaders st.cols (["call_id", "x", "fx"] ++ hs) =
      setHeaders (dictSet (dictSet (dictSet st.cols "call_id" []) "x" []) "fx" []) hs := rfl
  rw [e]
  exact setHeaders_fx _ _ (by rw [dictGet_set_self]; rfl)

/-- The overall best record. -/
theorem best_run (traj : Bool) {ops : List Op} (h : WellFormed ops) :
    (NoneQualifies (fun _ => True) (evals ops) ∧ ((init traj).run ops).best = BestIter.empty 0 "") ∨
    ∃ k r t, EarliestMin (fun _ => True) (evals ops) k ∧ (evals ops)[k]? = some r ∧ Op.add r.optId t ∈ ops ∧
      ((init traj).run ops).best = ⟨r.optId, r.x, r.fx, t, k + 1⟩ := by
  have hb := bestInv_run traj ops h
  rcases hb.glob with ⟨h1, h2⟩ | ⟨i, t, b, k, r, h1, h2, h3, h4, h5, h6, h7, h8, h9⟩
  · left; exact ⟨h2, by simp [best, h1]⟩
  · right
    obtain ⟨b', hb1, hb2, hb3, -⟩ := hb.known i t h1
    rw [h3] at hb1; cases hb1
    refine ⟨k, r, t, h4, h5, h6 ▸ h1, ?_⟩
    simp only [best, h2, h3, Option.getD_some]
    cases b; simp_all

end Glompo.Logger
