import Verif.Lemmas.Basic
import Verif.Spec.Logger

namespace Glompo

open Spec Logger

namespace Spec

theorem evals_append (a b : List Op) : evals (a ++ b) = evals a ++ evals b := by simp [evals]
theorem added_append (a b : List Op) : added (a ++ b) = added a ++ added b := by simp [added]
theorem opened_append (a b : List Op) : opened (a ++ b) = opened a ++ opened b := by simp [opened]

theorem mem_added {ops : List Op} {i : Nat} : i ∈ added ops ↔ ∃ t, Op.add i t ∈ ops := by
  simp only [added, List.mem_filterMap]
  constructor
  · rintro ⟨op, h, he⟩
    cases op <;> simp at he
    subst he; exact ⟨_, h⟩
  · rintro ⟨t, h⟩; exact ⟨_, h, by simp⟩

theorem WellFormed.init {ops : List Op} {op : Op} (h : WellFormed (ops ++ [op])) : WellFormed ops := by
  intro pre o post e
  exact h pre o (post ++ [op]) (by simp [e])

theorem WellFormed.last {ops : List Op} {op : Op} (h : WellFormed (ops ++ [op])) : OpOk ops op := h ops op [] (by simp)

theorem noneQualifies_snoc {P : IterRes → Prop} {es : List IterRes} {r : IterRes} :
    NoneQualifies P (es ++ [r]) ↔ NoneQualifies P es ∧ (P r → PyF.lt r.fx .pinf = false) := by
  simp only [NoneQualifies, List.mem_append, List.mem_singleton]
  constructor
  · intro h; exact ⟨fun r hr => h r (Or.inl hr), h r (Or.inr rfl)⟩
  · rintro ⟨h1, h2⟩ a (h | h)
    · exact h1 a h
    · subst h; exact h2

/-- A new evaluation that does not beat the old minimum leaves it in place. -/
theorem EarliestMin.snoc_old {P : IterRes → Prop} {es : List IterRes} {k : Nat} {r0 r : IterRes}
    (h : EarliestMin P es k) (hk : es[k]? = some r0) (hn : P r → PyF.lt r.fx r0.fx = false) :
    EarliestMin P (es ++ [r]) k := by
  obtain ⟨r1, h1, h2, h3, h4⟩ := h
  rw [hk] at h1; cases h1
  have hkl : k < es.length := by
    rcases Nat.lt_or_ge k es.length with h | h
    · exact h
    · simp [List.getElem?_eq_none h] at hk
  refine ⟨r0, by rw [List.getElem?_append_left hkl]; exact hk, h2, h3, ?_⟩
  intro j r' hj hP
  rcases Nat.lt_trichotomy j es.length with hlt | heq | hgt
  · rw [List.getElem?_append_left hlt] at hj; exact h4 j r' hj hP
  · subst heq
    simp at hj; subst hj
    exact ⟨hn hP, fun h => absurd h (by omega)⟩
  · rw [List.getElem?_eq_none (by simp; omega)] at hj; cases hj

/-- A new evaluation that beats the old minimum becomes the minimum. -/
theorem EarliestMin.snoc_new {P : IterRes → Prop} {es : List IterRes} {k : Nat} {r0 r : IterRes}
    (h : EarliestMin P es k) (hk : es[k]? = some r0) (hP : P r) (hn : PyF.lt r.fx r0.fx = true) :
    EarliestMin P (es ++ [r]) es.length := by
  obtain ⟨r1, h1, h2, h3, h4⟩ := h
  rw [hk] at h1; cases h1
  refine ⟨r, by simp, hP, PyF.lt_pinf_of_lt hn, ?_⟩
  intro j r' hj hP'
  rcases Nat.lt_trichotomy j es.length with hlt | heq | hgt
  · rw [List.getElem?_append_left hlt] at hj
    have h5 := (h4 j r' hj hP').1
    have h6 : PyF.le r'.fx r.fx = false := by
      cases h : PyF.le r'.fx r.fx
      · rfl
      · exact absurd (PyF.lt_of_le_of_lt h hn) (by simp [h5])
    refine ⟨?_, fun _ => h6⟩
    cases h : PyF.lt r'.fx r.fx
    · rfl
    · rw [PyF.le_of_lt h] at h6; cases h6
  · subst heq
    simp at hj; subst hj
    exact ⟨PyF.lt_irrefl _, fun h => absurd h (by omega)⟩
  · rw [List.getElem?_eq_none (by simp; omega)] at hj; cases hj

theorem EarliestMin.first {P : IterRes → Prop} {es : List IterRes} {r : IterRes}
    (h : NoneQualifies P es) (hP : P r) (hn : PyF.lt r.fx .pinf = true) :
    EarliestMin P (es ++ [r]) es.length := by
  refine ⟨r, by simp, hP, hn, ?_⟩
  intro j r' hj hP'
  rcases Nat.lt_trichotomy j es.length with hlt | heq | hgt
  · rw [List.getElem?_append_left hlt] at hj
    have h5 := h r' (List.mem_of_getElem? hj) hP'
    have h6 : PyF.lt r'.fx r.fx = false := PyF.not_lt_of_not_lt_pinf h5
    refine ⟨h6, fun _ => ?_⟩
    cases h : PyF.le r'.fx r.fx
    · rfl
    · rw [PyF.lt_of_le_of_lt h hn] at h5; cases h5
  · subst heq
    simp at hj; subst hj
    exact ⟨PyF.lt_irrefl _, fun h => absurd h (by omega)⟩
  · rw [List.getElem?_eq_none (by simp; omega)] at hj; cases hj

/-- The specification determines the position. -/
theorem EarliestMin.unique {P : IterRes → Prop} {es : List IterRes} {k k' : Nat}
    (h : EarliestMin P es k) (h' : EarliestMin P es k') : k = k' := by
  obtain ⟨r, h1, h2, h3, h4⟩ := h
  obtain ⟨r', h1', h2', h3', h4'⟩ := h'
  have key : ∀ {a b : PyF}, PyF.lt a .pinf = true → PyF.lt b .pinf = true →
      PyF.lt a b = false → PyF.lt b a = false → PyF.le a b = true := by
    intro a b ha hb _ hba
    exact PyF.le_of_not_lt (PyF.ne_nan_of_lt_left ha) (PyF.ne_nan_of_lt_left hb) hba
  rcases Nat.lt_trichotomy k k' with hlt | heq | hgt
  · have := (h4' k r h1 h2).2 hlt
    rw [key h3 h3' (h4' k r h1 h2).1 (h4 k' r' h1' h2').1] at this; cases this
  · exact heq
  · have := (h4 k' r' h1' h2').2 hgt
    rw [key h3' h3 (h4 k' r' h1' h2').1 (h4' k r h1 h2).1] at this; cases this

/-- Either nothing qualifies or there is an earliest minimum. -/
theorem earliestMin_or_none (P : IterRes → Prop) (es : List IterRes) :
    NoneQualifies P es ∨ ∃ k, EarliestMin P es k := by
  induction es using snoc_induction with
  | h0 => left; intro r hr; simp at hr
  | hs l a ih =>
    by_cases hP : P a
    · rcases ih with h | ⟨k, h⟩
      · cases hq : PyF.lt a.fx .pinf
        · left; rw [noneQualifies_snoc]; exact ⟨h, fun _ => hq⟩
        · right; exact ⟨_, EarliestMin.first h hP hq⟩
      · obtain ⟨r0, hk⟩ : ∃ r0, l[k]? = some r0 := ⟨_, h.choose_spec.1⟩
        cases hq : PyF.lt a.fx r0.fx
        · right; exact ⟨_, h.snoc_old hk (fun _ => hq)⟩
        · right; exact ⟨_, h.snoc_new hk hP hq⟩
    · rcases ih with h | ⟨k, h⟩
      · left; rw [noneQualifies_snoc]; exact ⟨h, fun hh => absurd hh hP⟩
      · obtain ⟨r0, hk⟩ : ∃ r0, l[k]? = some r0 := ⟨_, h.choose_spec.1⟩
        right; exact ⟨_, h.snoc_old hk (fun hh => absurd hh hP)⟩

end Spec

namespace Logger

theorem run_append (s : Logger) (a b : List Op) : s.run (a ++ b) = (s.run a).run b := by simp [run]
theorem run_snoc (s : Logger) (a : List Op) (op : Op) : s.run (a ++ [op]) = ((s.run a).step op).1 := by
  simp [run]

/-- Operations other than `add` and `put` do not touch counters and best records. -/
theorem step_other (s : Logger) (op : Op) (h1 : ∀ i t, op ≠ .add i t) (h2 : ∀ r, op ≠ .put r) :
    (s.step op).1.fCounter = s.fCounter ∧ (s.step op).1.bestIters = s.bestIters ∧
    (s.step op).1.bestRef = s.bestRef ∧ (s.step op).1.maxEval = s.maxEval := by
  cases op with
  | add i t => exact absurd rfl (h1 i t)
  | put r => exact absurd rfl (h2 r)
  | addHist i hs => simp only [step, addIterHistory]; split <;> simp
  | clear i => simp only [step, clearCache]; split <;> simp
  | putMeta i k v => simp only [step, putMetadata]; split <;> simp
  | putMsg i m => simp only [step, putMessage]; split <;> simp

/-- The record `b` describes the earliest minimum of `es` among `P`. -/
def RecOk (P : IterRes → Prop) (es : List IterRes) (b : BestIter) : Prop :=
  (NoneQualifies P es ∧ b.x = [] ∧ b.fx = .pinf ∧ b.callId = 0) ∨
  (∃ k r, EarliestMin P es k ∧ es[k]? = some r ∧ b.x = r.x ∧ b.fx = r.fx ∧ b.callId = k + 1)

structure BestInv (ops : List Op) (s : Logger) : Prop where
  count : s.fCounter = (evals ops).length
  known : ∀ i t, Op.add i t ∈ ops → ∃ b, dictGet s.bestIters i = some b ∧ b.optId = i ∧ b.type = t ∧
    RecOk (fun r => r.optId = i) (evals ops) b
  glob : (s.bestRef = none ∧ NoneQualifies (fun _ => True) (evals ops)) ∨
    (∃ i t b k r, Op.add i t ∈ ops ∧ s.bestRef = some i ∧ dictGet s.bestIters i = some b ∧
      EarliestMin (fun _ => True) (evals ops) k ∧ (evals ops)[k]? = some r ∧ r.optId = i ∧
      b.x = r.x ∧ b.fx = r.fx ∧ b.callId = k + 1)

theorem putIteration_best (s : Logger) (r : IterRes) (b : BestIter) (hb : dictGet s.bestIters r.optId = some b) :
    (s.putIteration r).1.fCounter = (s.putBest r b).fCounter ∧
    (s.putIteration r).1.bestIters = (s.putBest r b).bestIters ∧
    (s.putIteration r).1.bestRef = (s.putBest r b).bestRef ∧
    (s.putIteration r).1.maxEval = (s.putBest r b).maxEval := by
  simp only [putIteration, hb]
  split <;> simp

theorem putBest_fCounter (s : Logger) (r : IterRes) (b : BestIter) :
    (s.putBest r b).fCounter = s.fCounter + 1 := by
  simp only [putBest]
  split <;> split <;> simp

theorem putBest_bestIters (s : Logger) (r : IterRes) (b : BestIter) :
    (s.putBest r b).bestIters = if PyF.lt r.fx b.fx then
      dictSet s.bestIters r.optId { b with x := r.x, fx := r.fx, callId := s.fCounter + 1 } else s.bestIters := by
  simp only [putBest]
  split <;> split <;> simp

theorem putBest_bestRef (s : Logger) (r : IterRes) (b : BestIter) :
    (s.putBest r b).bestRef = if PyF.lt r.fx b.fx then
      (if PyF.lt r.fx (if s.bestRef = some r.optId then r.fx else s.best.fx) then some r.optId else s.bestRef)
      else s.bestRef := by
  simp only [putBest]
  split <;> split <;> simp

theorem putBest_storage (s : Logger) (r : IterRes) (b : BestIter) :
    (s.putBest r b).storage = s.storage := by
  simp only [putBest]
  split <;> split <;> simp

theorem putBest_traj (s : Logger) (r : IterRes) (b : BestIter) :
    (s.putBest r b).buildTrajPlot = s.buildTrajPlot := by
  simp only [putBest]
  split <;> split <;> simp

theorem RecOk.other {P : IterRes → Prop} {es : List IterRes} {r : IterRes} {b : BestIter}
    (h : RecOk P es b) (hr : P r → PyF.lt r.fx b.fx = false) : RecOk P (es ++ [r]) b := by
  rcases h with ⟨h1, h2, h3, h4⟩ | ⟨k, r0, h1, h2, h3, h4, h5⟩
  · left
    refine ⟨noneQualifies_snoc.mpr ⟨h1, fun hP => ?_⟩, h2, h3, h4⟩
    have := hr hP; rwa [h3] at this
  · right
    have hkl : k < es.length := by
      rcases Nat.lt_or_ge k es.length with h | h
      · exact h
      · simp [List.getElem?_eq_none h] at h2
    refine ⟨k, r0, h1.snoc_old h2 (fun hP => ?_), by rw [List.getElem?_append_left hkl]; exact h2, h3, h4, h5⟩
    have := hr hP; rwa [h4] at this

theorem RecOk.better {P : IterRes → Prop} {es : List IterRes} {r : IterRes} {b : BestIter}
    (h : RecOk P es b) (hP : P r) (hr : PyF.lt r.fx b.fx = true) :
    EarliestMin P (es ++ [r]) es.length := by
  rcases h with ⟨h1, h2, h3, h4⟩ | ⟨k, r0, h1, h2, h3, h4, h5⟩
  · rw [h3] at hr; exact EarliestMin.first h1 hP hr
  · rw [h4] at hr; exact h1.snoc_new h2 hP hr

theorem bestInv_run (traj : Bool) (ops : List Op) (h : WellFormed ops) : BestInv ops ((init traj).run ops) := by
  induction ops using snoc_induction with
  | h0 =>
    refine ⟨by simp [run, init, evals], by simp, Or.inl ⟨by simp [run, init], ?_⟩⟩
    intro r hr; simp [evals] at hr
  | hs l op ih =>
    have ih := ih h.init
    have hl := h.last
    rw [run_snoc]
    generalize hs : (init traj).run l = s at ih ⊢
    by_cases ha : ∃ i t, op = .add i t
    · obtain ⟨i, t, rfl⟩ := ha
      simp only [OpOk] at hl
      have hev : evals (l ++ [Op.add i t]) = evals l := by simp [evals]
      have hni : ∀ t', Op.add i t' ∉ l := fun t' hm => hl.2 (mem_added.mpr ⟨t', hm⟩)
      -- the new optimizer has no evaluation yet
      have hnone : ∀ r ∈ evals l, r.optId ≠ i := by
        intro r hr e
        simp only [evals, List.mem_filterMap] at hr
        obtain ⟨o, ho, he⟩ := hr
        cases o <;> simp at he
        subst he
        obtain ⟨pre, post, e2⟩ := List.append_of_mem ho
        have := h.init pre _ post e2
        simp only [OpOk] at this
        refine hl.2 ?_
        rw [e2, added_append]
        exact List.mem_append_left _ (e ▸ this.1)
      refine ⟨?_, ?_, ?_⟩
      · simp only [step, addOptimizer, hev]; exact ih.count
      · intro j t' hj
        rw [List.mem_append, List.mem_singleton] at hj
        rw [hev]
        by_cases hji : j = i
        · subst hji
          have ht : t' = t := by
            rcases hj with hj | hj
            · exact absurd hj (hni t')
            · cases hj; rfl
          subst ht
          refine ⟨BestIter.empty j t', by simp [step, addOptimizer], rfl, rfl, Or.inl ⟨?_, rfl, rfl, rfl⟩⟩
          intro r hr e; exact absurd e (hnone r hr)
        · have hjl : Op.add j t' ∈ l := by
            rcases hj with hj | hj
            · exact hj
            · cases hj; exact absurd rfl hji
          obtain ⟨b, h1, h2⟩ := ih.known j t' hjl
          exact ⟨b, by simp only [step, addOptimizer]; rw [dictGet_set_ne _ _ hji]; exact h1, h2⟩
      · rw [hev]
        rcases ih.glob with ⟨h1, h2⟩ | ⟨j, t', b, k, r, h1, h2, h3, h4⟩
        · left; exact ⟨by simp [step, addOptimizer, h1], h2⟩
        · right
          have hji : j ≠ i := fun e => hni t' (e ▸ h1)
          exact ⟨j, t', b, k, r, List.mem_append_left _ h1, by simp [step, addOptimizer, h2],
            by simp only [step, addOptimizer]; rw [dictGet_set_ne _ _ hji]; exact h3, h4⟩
    · by_cases hp : ∃ r, op = .put r
      · obtain ⟨r, rfl⟩ := hp
        simp only [OpOk] at hl
        have hev : evals (l ++ [Op.put r]) = evals l ++ [r] := by simp [evals]
        have hmem : ∀ j t', Op.add j t' ∈ l ++ [Op.put r] ↔ Op.add j t' ∈ l := by simp
        obtain ⟨t0, ht0⟩ := mem_added.mp hl.1
        obtain ⟨b, hb, hbid, hbt, hbok⟩ := ih.known _ _ ht0
        obtain ⟨e1, e2, e3, -⟩ := putIteration_best s r b hb
        rw [putBest_fCounter] at e1
        rw [putBest_bestIters] at e2
        rw [putBest_bestRef] at e3
        simp only [step]
        generalize (s.putIteration r).1 = s' at e1 e2 e3
        have hlen : ∀ k, k = (evals l).length → (evals l ++ [r])[k]? = some r := by
          intro k hk; subst hk; simp
        refine ⟨by rw [e1, hev, ih.count]; simp, ?_, ?_⟩
        · intro j t' hj
          rw [hmem] at hj
          obtain ⟨bj, hbj, hjid, hjt, hjok⟩ := ih.known j t' hj
          rw [e2, hev]
          by_cases hji : r.optId = j
          · subst hji
            rw [hb] at hbj; cases hbj
            cases hlt : PyF.lt r.fx b.fx
            · simp only [Bool.false_eq_true, if_false]
              exact ⟨b, hb, hjid, hjt, hjok.other (fun _ => hlt)⟩
            · simp only [if_true]
              refine ⟨_, dictGet_set_self _ _ _, hjid, hjt, Or.inr ⟨(evals l).length, r, ?_, ?_, rfl, rfl, ?_⟩⟩
              · exact hjok.better rfl hlt
              · simp
              · simp [ih.count]
          · have : dictGet (if PyF.lt r.fx b.fx then dictSet s.bestIters r.optId
                { b with x := r.x, fx := r.fx, callId := s.fCounter + 1 } else s.bestIters) j = some bj := by
              split
              · rw [dictGet_set_ne _ _ (fun e => hji e.symm)]; exact hbj
              · exact hbj
            exact ⟨bj, this, hjid, hjt, hjok.other (fun e => absurd e hji)⟩
        · rw [hev, e2, e3]
          -- the global record as a `RecOk`
          have hglobOk : RecOk (fun _ => True) (evals l) s.best := by
            rcases ih.glob with ⟨h1, h2⟩ | ⟨j, t', bj, k, r0, h1, h2, h3, h4, h5, h6, h7, h8, h9⟩
            · left; simp [best, h1, BestIter.empty, h2]
            · right; refine ⟨k, r0, h4, h5, ?_⟩; simp [best, h2, h3, h7, h8, h9]
          cases hlt : PyF.lt r.fx b.fx
          · simp only [Bool.false_eq_true, if_false]
            rcases ih.glob with ⟨h1, h2⟩ | ⟨j, t', bj, k, r0, h1, h2, h3, h4, h5, h6, h7, h8, h9⟩
            · left
              refine ⟨h1, noneQualifies_snoc.mpr ⟨h2, fun _ => ?_⟩⟩
              rcases hbok with ⟨_, _, hfx, _⟩ | ⟨k, r0, hE, hk, _, hfx, _⟩
              · rwa [hfx] at hlt
              · have := h2 r0 (List.mem_of_getElem? hk) trivial
                obtain ⟨_, q1, _, q3, _⟩ := hE
                rw [hk] at q1; cases q1; rw [this] at q3; cases q3
            · right
              have hkl : k < (evals l).length := by
                rcases Nat.lt_or_ge k (evals l).length with h | h
                · exact h
                · simp [List.getElem?_eq_none h] at h5
              refine ⟨j, t', bj, k, r0, (hmem _ _).mpr h1, h2, h3, h4.snoc_old h5 (fun _ => ?_),
                by rw [List.getElem?_append_left hkl]; exact h5, h6, h7, h8, h9⟩
              -- r is not better than its optimizer's best, which is not better than the global best
              rcases hbok with ⟨_, _, hfx, _⟩ | ⟨k', r1, hE, hk, _, hfx, _⟩
              · rw [hfx] at hlt; exact PyF.not_lt_of_not_lt_pinf hlt
              · obtain ⟨r2, q1, _, q3, q4⟩ := h4
                rw [h5] at q1; cases q1
                have := (q4 k' r1 hk trivial).1
                cases hh : PyF.lt r.fx r0.fx
                · rfl
                · rw [hfx] at hlt
                  obtain ⟨_, p1, _, p3, _⟩ := hE
                  rw [hk] at p1; cases p1
                  have hle : PyF.le r0.fx r1.fx = true :=
                    PyF.le_of_not_lt (PyF.ne_nan_of_lt_left q3) (PyF.ne_nan_of_lt_left p3) this
                  rw [PyF.lt_of_lt_of_le hh hle] at hlt; cases hlt
          · simp only [if_true]
            right
            by_cases href : s.bestRef = some r.optId
            · rcases ih.glob with ⟨h1, h2⟩ | ⟨j, t', bj, k, r0, h1, h2, h3, h4, h5, h6, h7, h8, h9⟩
              · rw [h1] at href; cases href
              · rw [h2] at href; cases href
                rw [hb] at h3; cases h3
                refine ⟨r.optId, t0, _, (evals l).length, r, (hmem _ _).mpr ht0, ?_, dictGet_set_self _ _ _, ?_,
                  by simp, rfl, rfl, rfl, by simp [ih.count]⟩
                · simp [h2, PyF.lt_irrefl]
                · exact h4.snoc_new h5 trivial (by rw [← h8]; exact hlt)
            · simp only [href, if_false]
              cases hg : PyF.lt r.fx s.best.fx
              · simp only [Bool.false_eq_true, if_false]
                rcases ih.glob with ⟨h1, h2⟩ | ⟨j, t', bj, k, r0, h1, h2, h3, h4, h5, h6, h7, h8, h9⟩
                · -- impossible: r is below +inf while the placeholder is +inf
                  simp [best, h1, BestIter.empty] at hg
                  rw [PyF.lt_pinf_of_lt hlt] at hg; cases hg
                · have hkl : k < (evals l).length := by
                    rcases Nat.lt_or_ge k (evals l).length with h | h
                    · exact h
                    · simp [List.getElem?_eq_none h] at h5
                  have hj : j ≠ r.optId := fun e => href (e ▸ h2)
                  refine ⟨j, t', bj, k, r0, (hmem _ _).mpr h1, h2, by rw [dictGet_set_ne _ _ hj]; exact h3,
                    h4.snoc_old h5 (fun _ => ?_), by rw [List.getElem?_append_left hkl]; exact h5, h6, h7, h8, h9⟩
                  simp [best, h2, h3] at hg; rw [← h8]; exact hg
              · simp only [if_true]
                exact ⟨r.optId, t0, _, (evals l).length, r, (hmem _ _).mpr ht0, rfl, dictGet_set_self _ _ _,
                  hglobOk.better trivial hg, by simp, rfl, rfl, rfl, by simp [ih.count]⟩
      · have h1 : ∀ i t, op ≠ .add i t := fun i t e => ha ⟨i, t, e⟩
        have h2 : ∀ r, op ≠ .put r := fun r e => hp ⟨r, e⟩
        obtain ⟨e1, e2, e3, -⟩ := s.step_other op h1 h2
        have hev : evals (l ++ [op]) = evals l := by
          cases op <;> simp [evals]; exact absurd rfl (h2 _)
        have hmem : ∀ j t', Op.add j t' ∈ l ++ [op] ↔ Op.add j t' ∈ l := by
          intro j t'; rw [List.mem_append, List.mem_singleton]
          exact ⟨fun h => h.resolve_right (fun e => h1 _ _ e.symm), Or.inl⟩
        refine ⟨by rw [e1, hev]; exact ih.count, ?_, ?_⟩
        · intro i t hi; rw [hmem] at hi; rw [e2, hev]; exact ih.known i t hi
        · rw [hev, e2, e3]
          rcases ih.glob with h | ⟨i, t, b, k, r, h3, h4⟩
          · exact Or.inl h
          · exact Or.inr ⟨i, t, b, k, r, (hmem _ _).mpr h3, h4⟩

end Logger
end Glompo
