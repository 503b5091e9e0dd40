import Verif.Spec.Hunters
import Verif.Props.Logger

/-!
# C16, C17: hunting criteria
-/

namespace Glompo.Props

open Glompo Glompo.Spec Glompo.Logger

theorem fxHist_exact (traj : Bool) (ops : List Op) (i : Nat) (hwf : WellFormed ops)
    (hc : traj = true ∨ ¬ Cleared ops i) :
    fxHist ((init traj).run ops) i = .ok (valuesOf (evals ops) i) ∧
    ((init traj).run ops).lenOpt i = (valuesOf (evals ops) i).length := by
  obtain ⟨h1, _, _, h4, _⟩ := C02_history_exact traj ops i hwf hc
  refine ⟨?_, by rw [h4]; simp [valuesOf]⟩
  simp only [fxHist, h1, valuesOf, List.map_map]
  rfl

theorem minList_least (m : PyF) (l : List PyF) (hm : m ≠ .nan) (h : ∀ a ∈ l, a ≠ .nan) :
    IsLeast (PyF.minList m l) (m :: l) := by
  induction l generalizing m with
  | nil => exact ⟨by simp [PyF.minList], by simpa [PyF.minList] using PyF.le_refl hm⟩
  | cons a t ih =>
    simp only [PyF.minList]
    have ha := h a (by simp)
    have ht : ∀ b ∈ t, b ≠ .nan := fun b hb => h b (by simp [hb])
    by_cases hlt : PyF.lt a m = true
    · rw [if_pos hlt]
      obtain ⟨h1, h2⟩ := ih a ha ht
      refine ⟨List.mem_cons_of_mem _ h1, ?_⟩
      intro b hb
      rcases List.mem_cons.mp hb with rfl | hb
      · exact PyF.le_trans (h2 a (by simp)) (PyF.le_of_lt hlt)
      · exact h2 b hb
    · rw [if_neg hlt]
      obtain ⟨h1, h2⟩ := ih m hm ht
      refine ⟨?_, ?_⟩
      · rcases List.mem_cons.mp h1 with h1 | h1
        · rw [h1]; simp
        · simp [h1]
      · intro b hb
        rcases List.mem_cons.mp hb with rfl | hb
        · exact h2 b (by simp)
        · rcases List.mem_cons.mp hb with rfl | hb
          · exact PyF.le_trans (h2 m (by simp)) (PyF.le_of_not_lt hm ha (by simpa using hlt))
          · exact h2 b (by simp [hb])

theorem le_antisymm {a b : PyF} (h : PyF.le a b = true) (h' : PyF.le b a = true) : a = b := by
  cases a <;> cases b <;> simp_all [PyF.le]
  exact Rat.le_antisymm h h'

theorem pyMin_least (l : List PyF) (hne : l ≠ []) (h : ∀ a ∈ l, a ≠ .nan) (m : PyF) (hm : IsLeast m l) :
    pyMin l = .ok m := by
  cases l with
  | nil => exact absurd rfl hne
  | cons a t =>
    have := minList_least a t (h a (by simp)) fun b hb => h b (by simp [hb])
    simp only [pyMin]
    congr 1
    exact le_antisymm (this.2 m hm.1) (hm.2 _ this.1)

/-- **C16, minimum evaluations.** True exactly when the victim logged at least the configured number. -/
theorem C16_min_func_calls (traj : Bool) (ops : List Op) (victim minPts : Nat) (hwf : WellFormed ops)
    (hc : traj = true ∨ ¬ Cleared ops victim) :
    minFuncCalls minPts ((init traj).run ops) victim = true ↔ minPts ≤ (evalsOf (evals ops) victim).length := by
  have := (C02_history_exact traj ops victim hwf hc).2.2.2.1
  simp [minFuncCalls, this]

/-- **C16, stagnation.** With a window of at least one evaluation and no `nan` reported: the answer is `True` exactly
when the victim reported more evaluations than the window and its best value before the window differs from its best
value by no more than the tolerated fraction. -/
theorem C16_best_unmoving (traj : Bool) (ops : List Op) (victim calls : Nat) (tol before now : PyF)
    (hwf : WellFormed ops) (hc : traj = true ∨ ¬ Cleared ops victim) (hcalls : 0 < calls)
    (hnan : ∀ f ∈ valuesOf (evals ops) victim, f ≠ .nan)
    (hnow : IsLeast now (valuesOf (evals ops) victim))
    (hbefore : calls < (valuesOf (evals ops) victim).length →
      IsLeast before ((valuesOf (evals ops) victim).take ((valuesOf (evals ops) victim).length - calls))) :
    bestUnmoving calls tol ((init traj).run ops) victim =
      .ok (decide (calls < (valuesOf (evals ops) victim).length) &&
        PyF.le (PyF.abs (now.sub before)) (PyF.abs (before.mul tol))) := by
  obtain ⟨h1, h2⟩ := fxHist_exact traj ops victim hwf hc
  simp only [bestUnmoving, h1, h2]
  generalize valuesOf (evals ops) victim = vals at *
  by_cases h : vals.length ≤ calls
  · simp [h, Nat.not_lt.mpr h]
  · have hlt : calls < vals.length := by omega
    simp only [h, if_false, hlt, decide_true, Bool.true_and]
    have e1 : dropLastN vals calls = vals.take (vals.length - calls) := by
      simp [dropLastN, Nat.ne_of_gt hcalls]
    have p1 : pyMin (dropLastN vals calls) = .ok before := by
      rw [e1]
      refine pyMin_least _ ?_ (fun a ha => hnan a (List.mem_of_mem_take ha)) before (hbefore hlt)
      intro hnil
      have := congrArg List.length hnil
      simp at this
      omega
    have p2 : pyMin vals = .ok now :=
      pyMin_least _ (by intro hnil; rw [hnil] at hlt; simp at hlt) hnan now hnow
    rw [p1, p2]

/-- The operations of a short run: optimizer 1 reports 5, 3, 3, 3 and optimizer 2 reports 9, `nan`, `inf`. -/
def huntOps : List Op :=
  [.add 1 "A", .add 2 "B", .addHist 1 [], .addHist 2 [], .put ⟨1, [0], .fin 5, []⟩, .put ⟨2, [0], .fin 9, []⟩,
   .put ⟨1, [0], .fin 3, []⟩, .put ⟨2, [0], .nan, []⟩, .put ⟨1, [0], .fin 3, []⟩, .put ⟨2, [0], .pinf, []⟩,
   .put ⟨1, [0], .fin 3, []⟩]

example : WellFormed huntOps := wellFormed_of_wfB (by decide +kernel)
example : (bestUnmoving 2 (.fin 0) ((init false).run huntOps) 1).toOption = some true ∧
    (bestUnmoving 3 (.fin 0) ((init false).run huntOps) 1).toOption = some false := by decide +kernel
example : IsLeast (.fin 3) (valuesOf (evals huntOps) 1) ∧
    IsLeast (.fin 3) ((valuesOf (evals huntOps) 1).take ((valuesOf (evals huntOps) 1).length - 2)) := by
  unfold IsLeast; decide +kernel

/-- **C16, stagnation with an empty window.** `BestUnmoving(calls=0)` can be constructed, but raises `ValueError` for
every victim with an evaluation. -/
theorem C16_zero_window_refuted (traj : Bool) (ops : List Op) (victim : Nat) (tol : PyF) (hwf : WellFormed ops)
    (hc : traj = true ∨ ¬ Cleared ops victim) (hne : evalsOf (evals ops) victim ≠ []) :
    bestUnmoving 0 tol ((init traj).run ops) victim = .error .valueError := by
  obtain ⟨h1, h2⟩ := fxHist_exact traj ops victim hwf hc
  have : ¬ (valuesOf (evals ops) victim).length ≤ 0 := by
    simp [valuesOf]; exact hne
  simp only [bestUnmoving, h1, h2, this, if_false, dropLastN, if_true, pyMin]

/-- **C16, invalid points.** With a window of at least one evaluation: `True` exactly when that many evaluations exist
and the last that many are all non-finite. -/
theorem C16_last_points_invalid (traj : Bool) (ops : List Op) (victim n : Nat) (hwf : WellFormed ops)
    (hc : traj = true ∨ ¬ Cleared ops victim) (hn : 0 < n) :
    lastPointsInvalid n ((init traj).run ops) victim = .ok true ↔
      n ≤ (valuesOf (evals ops) victim).length ∧
      ∀ k f, (valuesOf (evals ops) victim).length - n ≤ k → (valuesOf (evals ops) victim)[k]? = some f →
        f = .nan ∨ f = .pinf ∨ f = .ninf := by
  obtain ⟨h1, h2⟩ := fxHist_exact traj ops victim hwf hc
  simp only [lastPointsInvalid, h1]
  generalize valuesOf (evals ops) victim = vals at *
  simp only [lastN, Nat.ne_of_gt hn, if_false, Except.ok.injEq, Bool.and_eq_true, decide_eq_true_eq,
    Bool.not_eq_true', List.any_eq_false, List.length_drop]
  constructor
  · rintro ⟨hl, hall⟩
    refine ⟨by omega, fun k f hk hf => ?_⟩
    have : f ∈ vals.drop (vals.length - n) := by
      apply List.mem_of_getElem? (i := k - (vals.length - n))
      rw [List.getElem?_drop, ← hf]; congr 1; omega
    have := hall f this
    cases f <;> simp_all [PyF.isFinite]
  · rintro ⟨hl, hall⟩
    refine ⟨by omega, fun f hf => ?_⟩
    obtain ⟨k, hk⟩ := List.mem_iff_getElem?.mp hf
    rw [List.getElem?_drop] at hk
    rcases hall _ f (by omega) hk with rfl | rfl | rfl <;> simp [PyF.isFinite]

example : (lastPointsInvalid 2 ((init false).run huntOps) 2).toOption = some true ∧
    (lastPointsInvalid 3 ((init false).run huntOps) 2).toOption = some false := by decide +kernel

theorem fromAdd_snoc_old {l : List Op} {i : Nat} (op : Op) (h : i ∈ added l) :
    fromAdd (l ++ [op]) i = fromAdd l i ++ [op] := by
  obtain ⟨t, ht⟩ := mem_added.mp h
  simp only [fromAdd]
  induction l with
  | nil => simp at ht
  | cons o l ih =>
    rw [List.cons_append, List.dropWhile_cons, List.dropWhile_cons]
    cases o with
    | add j t' =>
      by_cases hj : j = i
      · simp [hj]
      · have ht' : Op.add i t ∈ l := by
          rcases List.mem_cons.mp ht with h' | h'
          · cases h'; exact absurd rfl hj
          · exact h'
        simp only [ne_eq, hj, not_false_eq_true, decide_true, if_true]
        exact ih (mem_added.mpr ⟨t, ht'⟩) ht'
    | _ =>
      have ht' : Op.add i t ∈ l := by
        rcases List.mem_cons.mp ht with h' | h'
        · cases h'
        · exact h'
      exact ih (mem_added.mpr ⟨t, ht'⟩) ht'

theorem fromAdd_none {l : List Op} {i : Nat} (h : i ∉ added l) : fromAdd l i = [] := by
  simp only [fromAdd]
  induction l with
  | nil => rfl
  | cons o l ih =>
    rw [List.dropWhile_cons]
    cases o with
    | add j t =>
      simp only [added, List.filterMap_cons, List.mem_cons, not_or] at h
      have : j ≠ i := fun e => h.1 e.symm
      simp only [this, ne_eq, not_false_eq_true, decide_true, if_true]
      exact ih h.2
    | _ => exact ih h

theorem fromAdd_snoc_new {l : List Op} {i : Nat} (t : String) (h : i ∉ added l) :
    fromAdd (l ++ [.add i t]) i = [.add i t] := by
  have := fromAdd_none h
  simp only [fromAdd] at this ⊢
  rw [List.dropWhile_append, this]
  simp

/-- Metadata and messages of a registered optimizer whose memory was not released: the last value written for a key, and
all messages in order. -/
theorem meta_run (traj : Bool) (ops : List Op) (i : Nat) (hwf : WellFormed ops) (hc : traj = true ∨ ¬ Cleared ops i)
    (hadd : i ∈ added ops) :
    ∃ st, dictGet ((init traj).run ops).storage i = some st ∧
      (∀ key, dictGet st.metadata key = (metaWrites ops i key).getLast?) ∧ st.messages = msgWrites ops i := by
  induction ops using snoc_induction with
  | h0 => simp [added] at hadd
  | hs l op ih =>
    have hwl := hwf.init
    have hlast := hwf.last
    have hcl : traj = true ∨ ¬ Cleared l i := hc.imp id Cleared_snoc
    rw [run_snoc]
    have htraj : ((init traj).run l).buildTrajPlot = traj := by rw [run_traj]; rfl
    -- an operation on `i` which is not its registration comes after it
    have hold : (∀ t, op ≠ .add i t) → i ∈ added l := by
      intro hne
      simp only [added_append, List.mem_append] at hadd
      rcases hadd with h | h
      · exact h
      · obtain ⟨t, ht⟩ := mem_added.mp h
        simp only [List.mem_singleton] at ht
        exact absurd ht.symm (hne t)
    have ihl := fun h => ih hwl hcl h
    have keep : (∀ t, op ≠ .add i t) → (∀ k v, op ≠ .putMeta i k v) → (∀ m, op ≠ .putMsg i m) →
        (∀ key, metaWrites (l ++ [op]) i key = metaWrites l i key) ∧ msgWrites (l ++ [op]) i = msgWrites l i := by
      intro h1 h2 h3
      simp only [metaWrites, msgWrites, fromAdd_snoc_old op (hold h1)]
      cases op with
      | add j t =>
        have : j ≠ i := by rintro rfl; exact h1 t rfl
        simp [this]
      | putMeta j k v =>
        have : j ≠ i := by rintro rfl; exact h2 k v rfl
        simp [this]
      | putMsg j m =>
        have : j ≠ i := by rintro rfl; exact h3 m rfl
        simp [this]
      | _ => simp
    generalize (init traj).run l = s at ihl htraj ⊢
    cases op with
    | add j t =>
      by_cases hij : j = i
      · subst hij
        have hn : j ∉ added l := hlast.2
        refine ⟨_, by simp only [step, addOptimizer]; exact dictGet_set_self _ _ _, ?_, ?_⟩
        · intro key
          simp only [metaWrites, fromAdd_snoc_new t hn, List.filterMap_cons, List.filterMap_nil, true_and, dictGet]
          by_cases hk : "opt_type" = key
          · simp [hk]
          · have : ¬ key = "opt_type" := fun e => hk e.symm
            simp [hk, this]
        · simp only [msgWrites, fromAdd_snoc_new t hn, List.filterMap_cons, List.filterMap_nil]
      · have hne : ∀ t', Op.add j t ≠ .add i t' := by intro t' h; cases h; exact hij rfl
        obtain ⟨st, h1, h2, h3⟩ := ihl (hold hne)
        obtain ⟨k1, k2⟩ := keep hne (by simp) (by simp)
        refine ⟨st, ?_, fun key => by rw [k1]; exact h2 key, by rw [k2]; exact h3⟩
        simp only [step, addOptimizer]
        rw [dictGet_set_ne _ _ (fun e => hij e.symm)]; exact h1
    | addHist j hs =>
      obtain ⟨st, h1, h2, h3⟩ := ihl (hold (by simp))
      obtain ⟨k1, k2⟩ := keep (by simp) (by simp) (by simp)
      simp only [step, addIterHistory]
      by_cases hij : j = i
      · subst hij
        rw [h1]
        exact ⟨_, dictGet_set_self _ _ _, fun key => by rw [k1]; exact h2 key, by rw [k2]; exact h3⟩
      · refine ⟨st, ?_, fun key => by rw [k1]; exact h2 key, by rw [k2]; exact h3⟩
        split
        · exact h1
        · simp only; rw [dictGet_set_ne _ _ (fun e => hij e.symm)]; exact h1
    | put r =>
      obtain ⟨st, h1, h2, h3⟩ := ihl (hold (by simp))
      obtain ⟨k1, k2⟩ := keep (by simp) (by simp) (by simp)
      by_cases hij : i = r.optId
      · simp only [step, putIteration]
        split
        · exact ⟨st, h1, fun key => by rw [k1]; exact h2 key, by rw [k2]; exact h3⟩
        · rename_i b hb
          have hs : (s.putBest r b).storage = s.storage := putBest_storage s r b
          rw [hs, ← hij, h1]
          exact ⟨_, dictGet_set_self _ _ _, fun key => by rw [k1]; exact h2 key, by rw [k2]; exact h3⟩
      · refine ⟨st, ?_, fun key => by rw [k1]; exact h2 key, by rw [k2]; exact h3⟩
        simp only [step]; rw [put_storage_ne s r i hij]; exact h1
    | clear j =>
      obtain ⟨st, h1, h2, h3⟩ := ihl (hold (by simp))
      obtain ⟨k1, k2⟩ := keep (by simp) (by simp) (by simp)
      refine ⟨st, ?_, fun key => by rw [k1]; exact h2 key, by rw [k2]; exact h3⟩
      simp only [step, clearCache]
      split
      · exact h1
      · rename_i hb
        have hcl : ¬ Cleared (l ++ [Op.clear j]) i := by
          rcases hc with h | h
          · rw [htraj, h] at hb; exact absurd rfl hb
          · exact h
        simp only [Cleared, List.mem_append, List.mem_singleton, Op.clear.injEq, not_or] at hcl
        cases j with
        | none => exact absurd rfl hcl.1.2
        | some j =>
          cases j with
          | zero => exact absurd rfl hcl.2.1.2
          | succ j =>
            simp only
            rw [delKeys_ne]
            · exact h1
            · simp only [List.mem_singleton]; intro e; exact hcl.2.2.2 (by rw [e])
    | putMeta j k v =>
      obtain ⟨st, h1, h2, h3⟩ := ihl (hold (by simp))
      have hadd' := hold (by simp)
      by_cases hij : j = i
      · subst hij
        simp only [step, putMetadata, h1]
        refine ⟨_, dictGet_set_self _ _ _, fun key => ?_, ?_⟩
        · simp only [metaWrites, fromAdd_snoc_old _ hadd', List.filterMap_append, List.filterMap_cons,
            List.filterMap_nil, true_and]
          rw [dictGet_set]
          by_cases hk : key = k
          · simp [hk]
          · have : ¬ k = key := fun e => hk e.symm
            simp only [hk, this, if_false, List.append_nil]
            exact h2 key
        · simp only [msgWrites, fromAdd_snoc_old _ hadd', List.filterMap_append, List.filterMap_cons,
            List.filterMap_nil, List.append_nil]
          exact h3
      · obtain ⟨k1, k2⟩ := keep (by simp) (by intro k v h; cases h; exact hij rfl) (by simp)
        refine ⟨st, ?_, fun key => by rw [k1]; exact h2 key, by rw [k2]; exact h3⟩
        simp only [step, putMetadata]
        split
        · exact h1
        · simp only; rw [dictGet_set_ne _ _ (fun e => hij e.symm)]; exact h1
    | putMsg j m =>
      obtain ⟨st, h1, h2, h3⟩ := ihl (hold (by simp))
      have hadd' := hold (by simp)
      by_cases hij : j = i
      · subst hij
        simp only [step, putMessage, h1]
        refine ⟨_, dictGet_set_self _ _ _, fun key => ?_, ?_⟩
        · simp only [metaWrites, fromAdd_snoc_old _ hadd', List.filterMap_append, List.filterMap_cons,
            List.filterMap_nil, List.append_nil]
          exact h2 key
        · simp only [msgWrites, fromAdd_snoc_old _ hadd', List.filterMap_append, List.filterMap_cons,
            List.filterMap_nil, if_true]
          rw [h3]; rfl
      · obtain ⟨k1, k2⟩ := keep (by simp) (by simp) (by intro m h; cases h; exact hij rfl)
        refine ⟨st, ?_, fun key => by rw [k1]; exact h2 key, by rw [k2]; exact h3⟩
        simp only [step, putMessage]
        split
        · exact h1
        · simp only; rw [dictGet_set_ne _ _ (fun e => hij e.symm)]; exact h1

/-- **C60.** Reading a metadata entry of an optimizer which was not released gives the value written last (`KeyError` if
it was never written). -/
theorem C60_metadata (traj : Bool) (ops : List Op) (i : Nat) (key : String) (hwf : WellFormed ops)
    (hc : traj = true ∨ ¬ Cleared ops i) (hadd : i ∈ added ops) :
    ((init traj).run ops).getMetadata i key =
      match (metaWrites ops i key).getLast? with
      | some v => .ok v
      | none => .error .keyError := by
  obtain ⟨st, h1, h2, _⟩ := meta_run traj ops i hwf hc hadd
  simp only [getMetadata, h1, h2]
  cases (metaWrites ops i key).getLast? <;> rfl

/-- **C60, messages.** The messages of an optimizer which was not released are those stored for it, in order. -/
theorem C60_messages (traj : Bool) (ops : List Op) (i : Nat) (hwf : WellFormed ops)
    (hc : traj = true ∨ ¬ Cleared ops i) (hadd : i ∈ added ops) :
    (dictGet ((init traj).run ops).storage i).map (·.messages) = some (msgWrites ops i) := by
  obtain ⟨st, h1, _, h3⟩ := meta_run traj ops i hwf hc hadd
  simp [h1, h3]

/-- **C16, type.** True exactly when the victim was registered with the targeted class, provided nobody overwrote its
`opt_type` entry. -/
theorem C16_type_hunter (traj : Bool) (ops : List Op) (victim : Nat) (cls t : String) (hwf : WellFormed ops)
    (hc : traj = true ∨ ¬ Cleared ops victim) (hadd : Op.add victim t ∈ ops)
    (hmeta : ∀ v, Op.putMeta victim "opt_type" v ∉ ops) :
    typeHunter cls ((init traj).run ops) victim = .ok (decide (cls = t)) := by
  have hmem : victim ∈ added ops := mem_added.mpr ⟨t, hadd⟩
  have hm := C60_metadata traj ops victim "opt_type" hwf hc hmem
  -- every write to the key is the registration
  have hone : ∀ v ∈ metaWrites ops victim "opt_type", Op.add victim v ∈ ops := by
    intro v hv
    simp only [metaWrites, List.mem_filterMap] at hv
    obtain ⟨op, hop, hv⟩ := hv
    have hop' : op ∈ ops := by
      simp only [fromAdd] at hop
      exact (List.dropWhile_sublist _).subset hop
    cases op with
    | add j t' =>
      simp only [and_true] at hv
      split at hv
      · rename_i hj; subst hj; cases hv; exact hop'
      · cases hv
    | putMeta j k v' =>
      simp only at hv
      split at hv
      · rename_i hj; obtain ⟨rfl, rfl⟩ := hj; exact absurd hop' (hmeta v')
      · cases hv
    | _ => cases hv
  -- there is exactly one registration
  have huniq : ∀ t', Op.add victim t' ∈ ops → t' = t := by
    intro t' h'
    obtain ⟨pre, post, he⟩ := List.append_of_mem hadd
    have hok := hwf pre (.add victim t) post he
    have hpre : ∀ t'', Op.add victim t'' ∉ pre := fun t'' hm => hok.2 (mem_added.mpr ⟨t'', hm⟩)
    rw [he] at h'
    simp only [List.mem_append, List.mem_cons] at h'
    rcases h' with h' | h' | h'
    · exact absurd h' (hpre t')
    · cases h'; rfl
    · obtain ⟨p, q, hpq⟩ := List.append_of_mem h'
      have hok' := hwf (pre ++ .add victim t :: p) (.add victim t') q (by rw [he, hpq]; simp)
      exact absurd (mem_added.mpr ⟨t, by simp⟩) hok'.2
  have hne : metaWrites ops victim "opt_type" ≠ [] := by
    intro hnil
    simp only [metaWrites, List.filterMap_eq_nil_iff] at hnil
    have hin : Op.add victim t ∈ fromAdd ops victim := by
      obtain ⟨pre, post, he⟩ := List.append_of_mem hadd
      have hok := hwf pre (.add victim t) post he
      rw [he, fromAdd, List.dropWhile_append]
      have := fromAdd_none hok.2
      simp only [fromAdd] at this
      rw [this]
      simp
    have := hnil _ hin
    simp at this
  cases hl : (metaWrites ops victim "opt_type").getLast? with
  | none => exact absurd (List.getLast?_eq_none_iff.mp hl) hne
  | some v =>
    rw [hl] at hm
    have : v = t := huniq v (hone v (List.mem_of_getLast? hl))
    subst this
    simp only [typeHunter, hm]
    congr 1

example : (typeHunter "B" ((init false).run huntOps) 2).toOption = some true ∧
    (typeHunter "B" ((init false).run huntOps) 1).toOption = some false := by decide +kernel

/-- **C17, time annealing.** Once the hunter's evaluations divided by the victim's reach the critical ratio, the victim
survives whatever the random number; below it, it is condemned exactly for draws above ratio over critical ratio. -/
theorem C17_time_annealing (traj : Bool) (ops : List Op) (hunter victim : Nat) (crit u : Rat) (hwf : WellFormed ops)
    (hch : traj = true ∨ ¬ Cleared ops hunter) (hcv : traj = true ∨ ¬ Cleared ops victim) (hcrit : 0 < crit)
    (hu : 0 ≤ u ∧ u ≤ 1) (hv : evalsOf (evals ops) victim ≠ []) :
    let nh : Rat := (evalsOf (evals ops) hunter).length
    let nv : Rat := (evalsOf (evals ops) victim).length
    (crit ≤ nh / nv → timeAnnealing crit u ((init traj).run ops) hunter victim = .ok false) ∧
    (timeAnnealing crit u ((init traj).run ops) hunter victim = .ok (decide (nh < u * crit * nv))) := by
  intro nh nv
  have e1 := (C02_history_exact traj ops hunter hwf hch).2.2.2.1
  have e2 := (C02_history_exact traj ops victim hwf hcv).2.2.2.1
  have hpos : 0 < (evalsOf (evals ops) victim).length := List.length_pos_iff.mpr hv
  have hnv : (0 : Rat) < nv := by
    show (0 : Rat) < ((evalsOf (evals ops) victim).length : Rat)
    exact_mod_cast hpos
  have hne : ¬ (evalsOf (evals ops) victim).length = 0 := by omega
  have hans : timeAnnealing crit u ((init traj).run ops) hunter victim = .ok (decide (0 + (crit - 0) * u > nh / nv)) := by
    simp only [timeAnnealing, e1, e2, hne, if_false]
    rfl
  have hiff : 0 + (crit - 0) * u > nh / nv ↔ nh < u * crit * nv := by
    have : 0 + (crit - 0) * u = u * crit := by grind
    rw [this]
    constructor
    · intro h; exact (Rat.div_lt_iff hnv).mp h
    · intro h; exact (Rat.div_lt_iff hnv).mpr h
  refine ⟨fun h => ?_, ?_⟩
  · rw [hans]
    have : ¬ (0 + (crit - 0) * u > nh / nv) := by
      have h1 : crit * u ≤ crit * 1 := Rat.mul_le_mul_of_nonneg_left hu.2 (Rat.le_of_lt hcrit)
      grind
    simp [this]
  · rw [hans]
    simp only [hiff]

example : (timeAnnealing 1 (1/2) ((init false).run huntOps) 1 2).toOption = some false ∧
    (timeAnnealing 2 (9/10) ((init false).run huntOps) 1 2).toOption = some true := by decide +kernel

/-- **C16 (settings).** `MinFuncCalls` and `TimeAnnealing` can be made of positive numbers, which they keep; all others are refused with `ValueError`. -/
theorem C16_settings (n : Int) (q : Rat) :
    (0 < n → ∃ k, minFuncCallsInit n = .ok k ∧ (k : Int) = n) ∧ (n ≤ 0 → minFuncCallsInit n = .error .valueError) ∧
    (0 < q → timeAnnealingInit q = .ok q) ∧ (q ≤ 0 → timeAnnealingInit q = .error .valueError) := by
  refine ⟨fun h => ⟨n.toNat, by simp [minFuncCallsInit, h], by omega⟩, fun h => ?_, fun h => by simp [timeAnnealingInit, h], fun h => ?_⟩
  · simp only [minFuncCallsInit]; rw [if_neg (by omega)]
  · simp only [timeAnnealingInit]; rw [if_neg (Rat.not_lt.mpr h)]

end Glompo.Props
