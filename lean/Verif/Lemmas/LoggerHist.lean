import Verif.Lemmas.Logger

namespace Glompo

open Spec Logger

namespace Spec

theorem callIds_snoc (es : List IterRes) (r : IterRes) (i : Nat) :
    callIds (es ++ [r]) i = callIds es i ++ if r.optId = i then [es.length + 1] else [] := by
  simp only [callIds, List.zipIdx_append, List.filter_append, List.map_append]
  by_cases h : r.optId = i <;> simp [h, Nat.add_comm]

theorem evalsOf_snoc (es : List IterRes) (r : IterRes) (i : Nat) :
    evalsOf (es ++ [r]) i = evalsOf es i ++ if r.optId = i then [r] else [] := by
  simp only [evalsOf, List.filter_append]
  by_cases h : r.optId = i <;> simp [h]

theorem callIds_le (es : List IterRes) (i : Nat) : ∀ c ∈ callIds es i, 1 ≤ c ∧ c ≤ es.length := by
  induction es using snoc_induction with
  | h0 => simp [callIds]
  | hs l a ih =>
    intro c hc
    rw [callIds_snoc, List.mem_append] at hc
    rcases hc with hc | hc
    · have := ih c hc; simp; omega
    · by_cases h : a.optId = i
      · simp [h] at hc; simp; omega
      · simp [h] at hc

theorem callIds_pairwise (es : List IterRes) (i : Nat) : (callIds es i).Pairwise (· < ·) := by
  induction es using snoc_induction with
  | h0 => simp [callIds]
  | hs l a ih =>
    rw [callIds_snoc, List.pairwise_append]
    refine ⟨ih, ?_, ?_⟩
    · split <;> simp
    · intro c hc d hd
      have := callIds_le l i c hc
      by_cases h : a.optId = i
      · simp [h] at hd; omega
      · simp [h] at hd

/-- Number `c` belongs to optimizer `i` exactly when the `c`-th evaluation is one of `i`. -/
theorem mem_callIds (es : List IterRes) (i c : Nat) :
    c ∈ callIds es i ↔ ∃ r, 1 ≤ c ∧ es[c - 1]? = some r ∧ r.optId = i := by
  induction es using snoc_induction with
  | h0 => simp [callIds]
  | hs l a ih =>
    rw [callIds_snoc, List.mem_append, ih]
    constructor
    · rintro (⟨r, h1, h2, h3⟩ | h)
      · refine ⟨r, h1, ?_, h3⟩
        have : c - 1 < l.length := by
          rcases Nat.lt_or_ge (c - 1) l.length with h | h
          · exact h
          · simp [List.getElem?_eq_none h] at h2
        rw [List.getElem?_append_left this]; exact h2
      · by_cases ha : a.optId = i
        · simp [ha] at h; subst h; exact ⟨a, by omega, by simp, ha⟩
        · simp [ha] at h
    · rintro ⟨r, h1, h2, h3⟩
      rcases Nat.lt_trichotomy (c - 1) l.length with h | h | h
      · left; rw [List.getElem?_append_left h] at h2; exact ⟨r, h1, h2, h3⟩
      · right
        rw [h] at h2; simp at h2; subst h2
        simp [h3]; omega
      · rw [List.getElem?_eq_none (by simp; omega)] at h2; cases h2

end Spec

namespace Logger

/-- The three leading history columns. -/
def Cols3 (cols : List (String × List Cell)) (a b c : List Cell) : Prop :=
  ∃ rest, cols = ("call_id", a) :: ("x", b) :: ("fx", c) :: rest

theorem setHeaders_cols3 (hs : List String) : ∀ cols, Cols3 cols [] [] [] → Cols3 (setHeaders cols hs) [] [] [] := by
  induction hs with
  | nil => intro cols h; exact h
  | cons k t ih =>
    rintro cols ⟨rest, rfl⟩
    refine ih _ ?_
    by_cases h1 : "call_id" = k
    · subst h1; exact ⟨rest, by simp [dictSet]⟩
    · by_cases h2 : "x" = k
      · subst h2; exact ⟨rest, by simp [dictSet]⟩
      · by_cases h3 : "fx" = k
        · subst h3; exact ⟨rest, by simp [dictSet]⟩
        · exact ⟨dictSet rest k [], by simp [dictSet, h1, h2, h3]⟩

theorem setHeaders_nil (hs : List String) : Cols3 (setHeaders [] (["call_id", "x", "fx"] ++ hs)) [] [] [] := by
  have : setHeaders [] (["call_id", "x", "fx"] ++ hs) =
      setHeaders [("call_id", []), ("x", []), ("fx", [])] hs := by
    simp [setHeaders, dictSet]
  rw [this]
  exact setHeaders_cols3 hs _ ⟨[], rfl⟩

theorem appendRow_cols3 {cols : List (String × List Cell)} {a b c : List Cell} (h : Cols3 cols a b c)
    (x y z : Cell) (vs : List Cell) :
    Cols3 (appendRow cols (x :: y :: z :: vs)) (a ++ [x]) (b ++ [y]) (c ++ [z]) := by
  obtain ⟨rest, rfl⟩ := h
  exact ⟨appendRow rest vs, by simp [appendRow]⟩

/-- What is stored for optimizer `i` while its memory has not been released. -/
structure HistInv (ops : List Op) (s : Logger) (i : Nat) : Prop where
  absent : i ∉ added ops → dictGet s.storage i = none ∧ evalsOf (evals ops) i = []
  fresh : i ∈ added ops → i ∉ opened ops →
    ∃ st, dictGet s.storage i = some st ∧ st.cols = [] ∧ evalsOf (evals ops) i = []
  filled : i ∈ added ops → i ∈ opened ops →
    ∃ st, dictGet s.storage i = some st ∧
      Cols3 st.cols ((callIds (evals ops) i).map Cell.nat)
        ((evalsOf (evals ops) i).map fun r => Cell.vec r.x)
        ((evalsOf (evals ops) i).map fun r => Cell.num r.fx)

theorem callIds_nil_of_evalsOf {es : List IterRes} {i : Nat} (h : evalsOf es i = []) : callIds es i = [] := by
  induction es using snoc_induction with
  | h0 => simp [callIds]
  | hs l a ih =>
    rw [evalsOf_snoc] at h
    have h1 := List.append_eq_nil_iff.mp h
    rw [callIds_snoc, ih h1.1]
    by_cases ha : a.optId = i
    · simp [ha] at h1
    · simp [ha]

/-- Operations which do not concern optimizer `i` keep what is stored for it. -/
theorem HistInv.keep {ops : List Op} {s : Logger} {i : Nat} (h : HistInv ops s i) (op : Op) (s' : Logger)
    (hst : dictGet s'.storage i = dictGet s.storage i)
    (ha : i ∈ added (ops ++ [op]) ↔ i ∈ added ops) (ho : i ∈ opened (ops ++ [op]) ↔ i ∈ opened ops)
    (he : evalsOf (evals (ops ++ [op])) i = evalsOf (evals ops) i)
    (hc : callIds (evals (ops ++ [op])) i = callIds (evals ops) i) : HistInv (ops ++ [op]) s' i := by
  refine ⟨fun h1 => ?_, fun h1 h2 => ?_, fun h1 h2 => ?_⟩
  · rw [hst, he]; exact h.absent (fun hh => h1 (ha.mpr hh))
  · rw [hst, he]; exact h.fresh (ha.mp h1) (fun hh => h2 (ho.mpr hh))
  · rw [hst, he, hc]; exact h.filled (ha.mp h1) (ho.mp h2)

theorem Cleared_snoc {ops : List Op} {op : Op} {i : Nat} (h : ¬ Cleared (ops ++ [op]) i) : ¬ Cleared ops i := by
  intro hh; apply h
  rcases hh with h | h | h
  · exact Or.inl (List.mem_append_left _ h)
  · exact Or.inr (Or.inl (List.mem_append_left _ h))
  · exact Or.inr (Or.inr (List.mem_append_left _ h))

theorem step_traj (s : Logger) (op : Op) : (s.step op).1.buildTrajPlot = s.buildTrajPlot := by
  cases op with
  | add i t => rfl
  | addHist i hs => simp only [step, addIterHistory]; split <;> simp
  | clear i => simp only [step, clearCache]; split <;> simp
  | putMeta i k v => simp only [step, putMetadata]; split <;> simp
  | putMsg i m => simp only [step, putMessage]; split <;> simp
  | put r =>
    simp only [step, putIteration]
    split
    · simp
    · split <;> simp [putBest_traj]

theorem run_traj (s : Logger) (ops : List Op) : (s.run ops).buildTrajPlot = s.buildTrajPlot := by
  induction ops using snoc_induction with
  | h0 => simp [run]
  | hs l op ih => rw [run_snoc, step_traj, ih]

theorem put_storage_self (s : Logger) (r : IterRes) (b : BestIter) (st : Store)
    (hb : dictGet s.bestIters r.optId = some b) (hs : dictGet s.storage r.optId = some st) :
    (s.putIteration r).1.storage = dictSet s.storage r.optId
      (Store.mk st.metadata st.messages (appendRow st.cols
        (Cell.nat (s.fCounter + 1) :: Cell.vec r.x :: Cell.num r.fx :: r.extras.map Cell.num))) ∧
    (s.putIteration r).2 = none := by
  have h : dictGet (s.putBest r b).storage r.optId = some st := by rw [putBest_storage]; exact hs
  simp only [putIteration, hb, h]
  simp [putBest_storage, putBest_fCounter]

theorem put_storage_ne (s : Logger) (r : IterRes) (i : Nat) (h : i ≠ r.optId) :
    dictGet (s.putIteration r).1.storage i = dictGet s.storage i := by
  simp only [putIteration]
  split
  · simp
  · split
    · simp [putBest_storage]
    · simp only [putBest_storage]; rw [dictGet_set_ne _ _ h]

theorem delKeys_ne (st : List (Nat × Store)) (ks : List Nat) (i : Nat) (h : i ∉ ks) :
    dictGet (delKeys st ks).1 i = dictGet st i := by
  induction ks generalizing st with
  | nil => simp [delKeys]
  | cons k t ih =>
    simp only [List.mem_cons, not_or] at h
    simp only [delKeys]
    split
    · rw [ih _ h.2, dictGet_del_ne _ h.1]
    · rfl

theorem histInv_run (traj : Bool) (ops : List Op) (i : Nat) (h : WellFormed ops)
    (hc : traj = true ∨ ¬ Cleared ops i) : HistInv ops ((init traj).run ops) i := by
  induction ops using snoc_induction with
  | h0 => refine ⟨fun _ => ⟨by simp [run, init], by simp [evalsOf, evals]⟩, ?_, ?_⟩ <;> simp [added]
  | hs l op ih =>
    have ih := ih h.init (hc.imp id Cleared_snoc)
    have hl := h.last
    have hbest := bestInv_run traj l h.init
    have htraj : ((init traj).run l).buildTrajPlot = traj := by rw [run_traj]; rfl
    rw [run_snoc]
    generalize hs : (init traj).run l = s at ih hbest htraj ⊢
    cases op with
    | add j t =>
      simp only [OpOk] at hl
      have he : evals (l ++ [Op.add j t]) = evals l := by simp [evals]
      have ho : opened (l ++ [Op.add j t]) = opened l := by simp [opened]
      have ha : ∀ i, i ∈ added (l ++ [Op.add j t]) ↔ i ∈ added l ∨ i = j := by simp [added]
      by_cases hij : i = j
      · subst hij
        have hab := ih.absent hl.2
        have hop : i ∉ opened l := by
          intro hh
          simp only [opened, List.mem_filterMap] at hh
          obtain ⟨o, h1, h2⟩ := hh
          cases o <;> simp at h2
          subst h2
          obtain ⟨pre, post, e⟩ := List.append_of_mem h1
          have := h.init pre _ post e
          simp only [OpOk] at this
          apply hl.2; rw [e, added_append]; exact List.mem_append_left _ this.1
        refine ⟨fun h1 => absurd ((ha i).mpr (Or.inr rfl)) h1, fun _ _ => ?_, fun _ h2 => ?_⟩
        · exact ⟨_, by simp only [step, addOptimizer]; exact dictGet_set_self _ _ _, rfl, by rw [he]; exact hab.2⟩
        · rw [ho] at h2; exact absurd h2 hop
      · refine ih.keep _ _ ?_ ?_ (by rw [ho]) (by rw [he]) (by rw [he])
        · simp only [step, addOptimizer]; rw [dictGet_set_ne _ _ hij]
        · rw [ha]; simp [hij]
    | addHist j hs' =>
      simp only [OpOk] at hl
      have he : evals (l ++ [Op.addHist j hs']) = evals l := by simp [evals]
      have ha : added (l ++ [Op.addHist j hs']) = added l := by simp [added]
      have ho : ∀ i, i ∈ opened (l ++ [Op.addHist j hs']) ↔ i ∈ opened l ∨ i = j := by simp [opened]
      by_cases hij : i = j
      · subst hij
        obtain ⟨st, h1, h2, h3⟩ := ih.fresh hl.1 hl.2
        refine ⟨fun hh => absurd hl.1 (by rw [ha] at hh; exact hh),
          fun _ hh => absurd ((ho i).mpr (Or.inr rfl)) hh, fun _ _ => ?_⟩
        rw [he, h3, callIds_nil_of_evalsOf h3]
        refine ⟨_, by simp only [step, addIterHistory, h1]; exact dictGet_set_self _ _ _, ?_⟩
        simp only [h2]
        exact setHeaders_nil hs'
      · refine ih.keep _ _ ?_ (by rw [ha]) ?_ (by rw [he]) (by rw [he])
        · simp only [step, addIterHistory]; split
          · rfl
          · simp only []; rw [dictGet_set_ne _ _ hij]
        · rw [ho]; simp [hij]
    | put r =>
      simp only [OpOk] at hl
      have he : evals (l ++ [Op.put r]) = evals l ++ [r] := by simp [evals]
      have ha : added (l ++ [Op.put r]) = added l := by simp [added]
      have ho : opened (l ++ [Op.put r]) = opened l := by simp [opened]
      by_cases hij : i = r.optId
      · subst hij
        obtain ⟨t0, ht0⟩ := mem_added.mp hl.1
        obtain ⟨b, hb, -⟩ := hbest.known _ _ ht0
        obtain ⟨st, h1, h2⟩ := ih.filled hl.1 hl.2
        refine ⟨fun hh => absurd hl.1 (by rw [ha] at hh; exact hh), fun _ hh => absurd hl.2 (by rw [ho] at hh; exact hh),
          fun _ _ => ?_⟩
        simp only [step]
        rw [(put_storage_self s r b st hb h1).1]
        refine ⟨_, dictGet_set_self _ _ _, ?_⟩
        rw [he, callIds_snoc, evalsOf_snoc, hbest.count]
        simpa using appendRow_cols3 h2 _ _ _ _
      · refine ih.keep _ _ ?_ (by rw [ha]) (by rw [ho]) ?_ ?_
        · simp only [step]; exact put_storage_ne s r i hij
        · rw [he, evalsOf_snoc]; simp [Ne.symm hij]
        · rw [he, callIds_snoc]; simp [Ne.symm hij]
    | clear j =>
      refine ih.keep _ _ ?_ (by simp [added]) (by simp [opened]) (by simp [evals]) (by simp [evals])
      rcases hc with hc | hc
      · subst hc; simp [step, clearCache, htraj]
      · simp only [step, clearCache]
        split
        · rfl
        · simp only [Cleared, List.mem_append, List.mem_singleton, not_or] at hc
          match j, hc with
          | none, hc => exact absurd rfl hc.1.2
          | some 0, hc => exact absurd rfl hc.2.1.2
          | some (n + 1), hc =>
            simp only []
            rw [delKeys_ne]
            simp only [List.mem_singleton]
            intro e; exact hc.2.2.2 (by rw [e])
    | putMeta j k v =>
      by_cases hij : i = j
      · subst hij
        have e1 : evals (l ++ [Op.putMeta i k v]) = evals l := by simp [evals]
        have e2 : added (l ++ [Op.putMeta i k v]) = added l := by simp [added]
        have e3 : opened (l ++ [Op.putMeta i k v]) = opened l := by simp [opened]
        refine ⟨?_, ?_, ?_⟩ <;> rw [e1, e2]
        · intro h1; have := ih.absent h1
          simp only [step, putMetadata, this.1]; exact ⟨trivial, this.2⟩
        · rw [e3]; intro h1 h2; obtain ⟨st, h3, h4⟩ := ih.fresh h1 h2
          simp only [step, putMetadata, h3]; exact ⟨_, dictGet_set_self _ _ _, h4⟩
        · rw [e3]; intro h1 h2; obtain ⟨st, h3, h4⟩ := ih.filled h1 h2
          simp only [step, putMetadata, h3]; exact ⟨_, dictGet_set_self _ _ _, h4⟩
      · refine ih.keep _ _ ?_ (by simp [added]) (by simp [opened]) (by simp [evals]) (by simp [evals])
        simp only [step, putMetadata]; split
        · rfl
        · simp only []; rw [dictGet_set_ne _ _ hij]
    | putMsg j m =>
      by_cases hij : i = j
      · subst hij
        have e1 : evals (l ++ [Op.putMsg i m]) = evals l := by simp [evals]
        have e2 : added (l ++ [Op.putMsg i m]) = added l := by simp [added]
        have e3 : opened (l ++ [Op.putMsg i m]) = opened l := by simp [opened]
        refine ⟨?_, ?_, ?_⟩ <;> rw [e1, e2]
        · intro h1; have := ih.absent h1
          simp only [step, putMessage, this.1]; exact ⟨trivial, this.2⟩
        · rw [e3]; intro h1 h2; obtain ⟨st, h3, h4⟩ := ih.fresh h1 h2
          simp only [step, putMessage, h3]; exact ⟨_, dictGet_set_self _ _ _, h4⟩
        · rw [e3]; intro h1 h2; obtain ⟨st, h3, h4⟩ := ih.filled h1 h2
          simp only [step, putMessage, h3]; exact ⟨_, dictGet_set_self _ _ _, h4⟩
      · refine ih.keep _ _ ?_ (by simp [added]) (by simp [opened]) (by simp [evals]) (by simp [evals])
        simp only [step, putMessage]; split
        · rfl
        · simp only []; rw [dictGet_set_ne _ _ hij]

/-- Reading a column of the three leading ones. -/
theorem getHistory_cols3 {s : Logger} {i : Nat} {st : Store} {a b c : List Cell}
    (hst : dictGet s.storage i = some st) (h : Cols3 st.cols a b c) :
    s.getHistory i "call_id" = .ok a ∧ s.getHistory i "x" = .ok b ∧ s.getHistory i "fx" = .ok c ∧
    s.lenOpt i = c.length := by
  obtain ⟨rest, hr⟩ := h
  have hh : s.hasIterHistory i = true := by simp [hasIterHistory, hst, hr, dictGet]
  refine ⟨?_, ?_, ?_, ?_⟩ <;> simp [getHistory, lenOpt, hh, hst, hr, dictGet]

end Logger
end Glompo

namespace Glompo.Spec
open Glompo.Logger (Op)

/-- Executable check of `OpOk`, used to show that concrete histories are well formed. -/
def opOkB (pre : List Op) : Op → Bool
  | .add i _ => decide (i ≠ 0) && !(added pre).contains i
  | .addHist i _ => (added pre).contains i && !(opened pre).contains i
  | .put r => (added pre).contains r.optId && (opened pre).contains r.optId
  | _ => true

/-- Executable check of `WellFormed`. -/
def wfB (pre : List Op) : List Op → Bool
  | [] => true
  | op :: t => opOkB pre op && wfB (pre ++ [op]) t

theorem opOk_of_opOkB {pre : List Op} {op : Op} (h : opOkB pre op = true) : OpOk pre op := by
  cases op <;> simp_all [opOkB, OpOk]

theorem wf_of_wfB_aux (ops : List Op) : ∀ pre0, wfB pre0 ops = true →
    ∀ pre op post, ops = pre ++ op :: post → OpOk (pre0 ++ pre) op := by
  induction ops with
  | nil => intro _ _ pre op post e; simp at e
  | cons o t ih =>
    intro pre0 h pre op post e
    simp only [wfB, Bool.and_eq_true] at h
    cases pre with
    | nil => simp at e; obtain ⟨rfl, rfl⟩ := e; simpa using opOk_of_opOkB h.1
    | cons p pre' =>
      simp at e; obtain ⟨rfl, rfl⟩ := e
      have := ih _ h.2 pre' op post rfl
      simpa using this

theorem wellFormed_of_wfB {ops : List Op} (h : wfB [] ops = true) : WellFormed ops := by
  intro pre op post e; simpa using wf_of_wfB_aux ops [] h pre op post e

end Glompo.Spec

namespace Glompo.Logger
open Spec

theorem putBest_maxEval (s : Logger) (r : IterRes) (b : BestIter) :
    (s.putBest r b).maxEval = if PyF.lt s.maxEval r.fx && r.fx.isFinite then r.fx else s.maxEval := by
  simp only [putBest]
  split <;> split <;> simp

theorem maxEval_run (traj : Bool) (ops : List Op) (h : WellFormed ops) :
    (((init traj).run ops).maxEval = .ninf ∧ ∀ r ∈ evals ops, r.fx.isFinite = false) ∨
    (∃ q r, ((init traj).run ops).maxEval = .fin q ∧ r ∈ evals ops ∧ r.fx = .fin q ∧
      ∀ r' ∈ evals ops, ∀ q', r'.fx = .fin q' → q' ≤ q) := by
  induction ops using snoc_induction with
  | h0 => left; simp [run, init, evals]
  | hs l op ih =>
    have ih := ih h.init
    have hl := h.last
    have hbest := bestInv_run traj l h.init
    rw [run_snoc]
    generalize (init traj).run l = s at ih hbest
    by_cases hp : ∃ r, op = .put r
    · obtain ⟨r, rfl⟩ := hp
      simp only [OpOk] at hl
      obtain ⟨t0, ht0⟩ := mem_added.mp hl.1
      obtain ⟨b, hb, -⟩ := hbest.known _ _ ht0
      have e := (putIteration_best s r b hb).2.2.2
      rw [putBest_maxEval] at e
      simp only [step, e, evals_append]
      have hev : evals [Op.put r] = [r] := by simp [evals]
      rw [hev]
      rcases ih with ⟨h1, h2⟩ | ⟨q, r0, h1, h2, h3, h4⟩
      · cases hr : r.fx with
        | fin q =>
          right; refine ⟨q, r, by simp [h1, PyF.lt, PyF.isFinite], by simp, hr, ?_⟩
          intro r' hr' q' hq'
          simp only [List.mem_append, List.mem_singleton] at hr'
          rcases hr' with hr' | rfl
          · have := h2 r' hr'; rw [hq'] at this; simp [PyF.isFinite] at this
          · rw [hr] at hq'; cases hq'; exact Rat.le_refl
        | pinf =>
          left; refine ⟨by simp [h1, PyF.isFinite], ?_⟩
          intro r' hr'; simp only [List.mem_append, List.mem_singleton] at hr'
          rcases hr' with hr' | rfl
          · exact h2 _ hr'
          · simp [hr, PyF.isFinite]
        | ninf =>
          left; refine ⟨by simp [h1, PyF.isFinite], ?_⟩
          intro r' hr'; simp only [List.mem_append, List.mem_singleton] at hr'
          rcases hr' with hr' | rfl
          · exact h2 _ hr'
          · simp [hr, PyF.isFinite]
        | nan =>
          left; refine ⟨by simp [h1, PyF.isFinite], ?_⟩
          intro r' hr'; simp only [List.mem_append, List.mem_singleton] at hr'
          rcases hr' with hr' | rfl
          · exact h2 _ hr'
          · simp [hr, PyF.isFinite]
      · right
        cases hc : PyF.lt s.maxEval r.fx && r.fx.isFinite
        · refine ⟨q, r0, by simp [h1], List.mem_append_left _ h2, h3, ?_⟩
          intro r' hr' q' hq'
          simp only [List.mem_append, List.mem_singleton] at hr'
          rcases hr' with hr' | rfl
          · exact h4 r' hr' q' hq'
          · rw [h1, hq'] at hc; simp [PyF.lt, PyF.isFinite] at hc; grind
        · simp only [Bool.and_eq_true] at hc
          cases hr : r.fx with
          | fin q1 =>
            refine ⟨q1, r, by simp, by simp, hr, ?_⟩
            intro r' hr' q' hq'
            simp only [List.mem_append, List.mem_singleton] at hr'
            rw [h1, hr] at hc; simp [PyF.lt, PyF.isFinite] at hc
            rcases hr' with hr' | rfl
            · have := h4 r' hr' q' hq'; grind
            · rw [hr] at hq'; cases hq'; exact Rat.le_refl
          | pinf => rw [hr] at hc; simp [PyF.isFinite] at hc
          | ninf => rw [hr] at hc; simp [PyF.isFinite] at hc
          | nan => rw [hr] at hc; simp [PyF.isFinite] at hc
    · have h2 : ∀ r, op ≠ .put r := fun r e => hp ⟨r, e⟩
      have hev : evals (l ++ [op]) = evals l := by
        cases op <;> simp [evals]; exact absurd rfl (h2 _)
      have : (s.step op).1.maxEval = s.maxEval := by
        by_cases ha : ∃ i t, op = .add i t
        · obtain ⟨i, t, rfl⟩ := ha; rfl
        · exact (s.step_other op (fun i t e => ha ⟨i, t, e⟩) h2).2.2.2
      rw [hev, this]; exact ih

end Glompo.Logger
