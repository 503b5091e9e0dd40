import Verif.Spec.Plot
import Verif.Props.Logger
import Verif.Props.Hunters
import Verif.Lemmas.Checkpoint

/-! C92: the plot of trajectories. -/

namespace Glompo.Props
open Glompo.Plot Glompo.Spec Glompo.Spec.Plot Glompo.Logger

namespace PlotL

theorem within_append_left (p s t : List Char) (h : within p s = true) : within p (s ++ t) = true := by
  induction s with
  | nil =>
    simp only [within, List.isEmpty_iff] at h
    subst h
    cases t <;> simp [within]
  | cons c s ih =>
    simp only [within, Bool.or_eq_true, List.isPrefixOf_iff_prefix] at h
    simp only [List.cons_append, within, Bool.or_eq_true, List.isPrefixOf_iff_prefix]
    rcases h with h | h
    · exact Or.inl (List.IsPrefix.trans h (by rw [← List.cons_append]; exact List.prefix_append _ _))
    · exact Or.inr (ih h)

theorem within_self (p t : List Char) : within p (p ++ t) = true := by
  cases p with
  | nil => cases t <;> simp [within]
  | cons c p => simp [within, List.isPrefixOf_iff_prefix]

/-- A text without the first character of the part does not contain the part. -/
theorem within_none (c : Char) (p s : List Char) (h : c ∉ s) : within (c :: p) s = false := by
  induction s with
  | nil => rfl
  | cons d s ih =>
    simp only [List.mem_cons, not_or] at h
    simp only [within, ih h.2, Bool.or_false]
    cases hb : (c :: p).isPrefixOf (d :: s) with
    | false => rfl
    | true =>
      rw [List.isPrefixOf_iff_prefix] at hb
      obtain ⟨t, ht⟩ := hb
      simp only [List.cons_append, List.cons.injEq] at ht
      exact absurd ht.1 h.1

theorem storage_keys (ops : List Op) (hwf : WellFormed ops) :
    ((init true).run ops).storage.map (·.1) = added ops ∧ ((init true).run ops).buildTrajPlot = true := by
  induction ops using snoc_induction with
  | h0 => exact ⟨rfl, rfl⟩
  | hs ops op ih =>
    obtain ⟨h1, h2⟩ := ih hwf.init
    have hok := hwf.last
    rw [run_snoc, added_append]
    generalize (init true).run ops = s at h1 h2
    have hmem : ∀ i st, dictGet s.storage i = some st → i ∈ added ops := by
      intro i st h
      rw [← h1, ← dictGet_isSome_iff, h]; rfl
    cases op with
    | add i t =>
      have hi : i ∉ s.storage.map (·.1) := by rw [h1]; exact hok.2
      refine ⟨?_, h2⟩
      simp only [step, addOptimizer]
      rw [dictSet_keys, if_neg hi, h1]
      simp [added]
    | addHist i hs =>
      simp only [step, addIterHistory]
      cases hg : dictGet s.storage i with
      | none => exact ⟨by simpa [added] using h1, h2⟩
      | some st =>
        refine ⟨?_, h2⟩
        simp only
        rw [dictSet_keys, if_pos (by rw [h1]; exact hmem i st hg), h1]
        simp [added]
    | put r =>
      simp only [step, putIteration]
      cases hb : dictGet s.bestIters r.optId with
      | none => exact ⟨by simpa [added] using h1, h2⟩
      | some b =>
        simp only [putBest_storage]
        cases hg : dictGet s.storage r.optId with
        | none => exact ⟨by simpa [added, putBest_storage] using h1, by simpa [putBest_traj] using h2⟩
        | some st =>
          refine ⟨?_, by simpa [putBest_traj] using h2⟩
          simp only
          rw [dictSet_keys, if_pos (by rw [h1]; exact hmem _ st hg), h1]
          simp [added]
    | clear i =>
      simp only [step, clearCache, h2, if_true]
      exact ⟨by simpa [added] using h1, trivial⟩
    | putMeta i k v =>
      simp only [step, putMetadata]
      cases hg : dictGet s.storage i with
      | none => exact ⟨by simpa [added] using h1, h2⟩
      | some st =>
        refine ⟨?_, h2⟩
        simp only
        rw [dictSet_keys, if_pos (by rw [h1]; exact hmem i st hg), h1]
        simp [added]
    | putMsg i m =>
      simp only [step, putMessage]
      cases hg : dictGet s.storage i with
      | none => exact ⟨by simpa [added] using h1, h2⟩
      | some st =>
        refine ⟨?_, h2⟩
        simp only
        rw [dictSet_keys, if_pos (by rw [h1]; exact hmem i st hg), h1]
        simp [added]

theorem points_zip (es : List IterRes) (i : Nat) :
    ((callIds es i).map Cell.nat).zip ((evalsOf es i).map fun r => Cell.num r.fx) = pointsOf es i := by
  simp only [callIds, evalsOf, pointsOf]
  generalize 1 = k
  induction es generalizing k with
  | nil => rfl
  | cons r t ih =>
    simp only [List.zipIdx_cons, List.filter_cons]
    cases h : r.optId == i
    · simpa [h] using ih (k + 1)
    · simpa [h] using ih (k + 1)

theorem callIds_length (es : List IterRes) (i : Nat) : (callIds es i).length = (evalsOf es i).length := by
  simp only [callIds, evalsOf, List.length_map]
  generalize 1 = k
  induction es generalizing k with
  | nil => rfl
  | cons r t ih =>
    simp only [List.zipIdx_cons, List.filter_cons]
    cases h : r.optId == i <;> simpa [h] using ih (k + 1)

theorem curvesFrom_ok (s : Logger) (n k : Nat) (f : Nat → Curve) (h : ∀ i, k ≤ i → i < k + n → curve s i = .ok (f i)) :
    curvesFrom s n k = .ok ((List.range' k n).map f) := by
  induction n generalizing k with
  | zero => rfl
  | succ n ih =>
    simp only [curvesFrom, h k (Nat.le_refl _) (by omega), ih (k + 1) (fun i h1 h2 => h i (by omega) (by omega)),
      List.range'_succ, List.map_cons]

theorem marker_eq (s : List Char) (a b c d e : Bool) (h1 : within "GloMPO Termination".toList s = a)
    (h2 : within "Optimizer convergence".toList s = b) (h3 : within "Normal termination".toList s = c)
    (h4 : within "Error termination".toList s = d) (h5 : within "Traceback".toList s = e) :
    marker s = if a then .killed else if b || c then .converged else if d || e then .crashed else .blank := by
  subst h1 h2 h3 h4 h5
  rfl

theorem mark_killed (s : List Char) (h : within "GloMPO Termination".toList s = true) : marker s = .killed := by
  rw [marker_eq s _ _ _ _ _ h rfl rfl rfl rfl, if_pos rfl]

theorem mark_converged (s : List Char) (h : within "GloMPO Termination".toList s = false)
    (h' : within "Optimizer convergence".toList s = true) : marker s = .converged := by
  rw [marker_eq s _ _ _ _ _ h h' rfl rfl rfl]; simp

theorem mark_crashed (s : List Char) (h1 : within "GloMPO Termination".toList s = false)
    (h2 : within "Optimizer convergence".toList s = false) (h3 : within "Normal termination".toList s = false)
    (h4 : within "Error termination".toList s = true) : marker s = .crashed := by
  rw [marker_eq s _ _ _ _ _ h1 h2 h3 h4 rfl]; simp

theorem text_failed (n : Nat) : text (.failed n) =
    "Error termination (exitcode ".toList ++ Checkpoint.dec n ++ ").".toList := rfl

theorem text_killed (d : List Char) : text (.killed d) = "GloMPO Termination\nHunter: ".toList ++ d := rfl

theorem failed_no (n : Nat) (c : Char) (hc : Checkpoint.isDigit c = false) (h1 : c ∉ "Error termination (exitcode ".toList)
    (h2 : c ∉ ").".toList) : c ∉ text (.failed n) := by
  intro hm
  have hdig := (Checkpoint.decAux_spec (n + 1) n (Nat.lt_succ_self n)).1
  rw [text_failed, List.mem_append, List.mem_append] at hm
  rcases hm with (hm | hm) | hm
  · exact h1 hm
  · rw [hdig c hm] at hc; cases hc
  · exact h2 hm

theorem within_none' (c : Char) (q p s : List Char) (hq : q = c :: p) (h : c ∉ s) : within q s = false := by
  subst hq; exact within_none c p s h

theorem ends_spec (e : Ending) (hd : ∀ d, e = .converged d → within "GloMPO Termination".toList (text e) = false) :
    marker (text e) = legend e := by
  cases e with
  | converged d => exact mark_converged _ (hd d rfl) (within_self _ _)
  | silent => decide +kernel
  | failed n =>
    refine mark_crashed _ ?_ ?_ ?_ ?_
    · exact within_none' 'G' _ "loMPO Termination".toList _ (by decide +kernel)
        (failed_no n 'G' (by decide +kernel) (by decide +kernel) (by decide +kernel))
    · exact within_none' 'O' _ "ptimizer convergence".toList _ (by decide +kernel)
        (failed_no n 'O' (by decide +kernel) (by decide +kernel) (by decide +kernel))
    · exact within_none' 'N' _ "ormal termination".toList _ (by decide +kernel)
        (failed_no n 'N' (by decide +kernel) (by decide +kernel) (by decide +kernel))
    · rw [text_failed, List.append_assoc]
      exact within_append_left _ _ _ (by decide +kernel)
  | killed d =>
    refine mark_killed _ ?_
    rw [text_killed]
    exact within_append_left _ _ _ (by decide +kernel)
  | forced => decide +kernel
  | running => decide +kernel

end PlotL
open PlotL

/-- **C92** (curves). With the settings for which the plot is made (the log keeps the trajectories) there is one curve for each optimizer
started, and its points are exactly this optimizer's evaluations, each at its number in the whole optimization. The marker is
that of the last recorded ending; without an ending or without evaluations there is none. Optimizers are numbered from 1 (C19). -/
theorem C92_curves (ops : List Op) (n : Nat) (hwf : WellFormed ops) (hn : added ops = List.range' 1 n) :
    ∃ names : Nat → String, curves ((init true).run ops) = .ok ((List.range' 1 n).map fun i =>
      { opt := i
        points := pointsOf (evals ops) i
        type := names i
        mark := match (metaWrites ops i "end_cond").getLast? with
          | some v => if evalsOf (evals ops) i = [] then none else some (marker v.toList)
          | none => none }) ∧
      ∀ i ∈ added ops, ((init true).run ops).getMetadata i "opt_type" = .ok (names i) := by
  obtain ⟨hk, -⟩ := storage_keys ops hwf
  have hlen : ((init true).run ops).nOptimizers = n := by
    have := congrArg List.length hk
    rw [hn] at this
    simpa [nOptimizers] using this
  have htype : ∀ i ∈ added ops, ∃ t, ((init true).run ops).getMetadata i "opt_type" = .ok t := by
    intro i hi
    rw [C60_metadata true ops i "opt_type" hwf (Or.inl rfl) hi]
    cases hg : (metaWrites ops i "opt_type").getLast? with
    | some v => exact ⟨v, rfl⟩
    | none =>
      exfalso
      obtain ⟨t, ht⟩ := mem_added.mp hi
      rw [List.getLast?_eq_none_iff] at hg
      have : t ∈ metaWrites ops i "opt_type" := by
        simp only [metaWrites, List.mem_filterMap]
        refine ⟨.add i t, ?_, by simp⟩
        obtain ⟨pre, post, rfl⟩ := List.append_of_mem ht
        have hnot : ∀ op ∈ pre, ¬ ∃ u, op = Op.add i u := by
          rintro op hop ⟨u, rfl⟩
          exact (hwf pre (.add i t) post rfl).2 (mem_added.mpr ⟨u, hop⟩)
        simp only [fromAdd]
        rw [List.dropWhile_append]
        split
        · simp
        · simp
      rw [hg] at this; cases this
  classical
  have hch : ∃ names : Nat → String, ∀ i ∈ added ops, ((init true).run ops).getMetadata i "opt_type" = .ok (names i) :=
    ⟨fun i => if h : i ∈ added ops then (htype i h).choose else "", fun i hi => by
      simp only [dif_pos hi]; exact (htype i hi).choose_spec⟩
  obtain ⟨names, hnames⟩ := hch
  refine ⟨names, ?_, hnames⟩
  rw [curves, hlen]
  refine curvesFrom_ok _ n 1 _ fun i h1 h2 => ?_
  have hi : i ∈ added ops := by rw [hn]; simp; omega
  obtain ⟨g1, -, g3, -, -⟩ := C02_history_exact true ops i hwf (Or.inl rfl)
  have gz := points_zip (evals ops) i
  have gl : (List.map Cell.nat (callIds (evals ops) i)).length =
    (List.map (fun r => Cell.num r.fx) (evalsOf (evals ops) i)).length := by simp [callIds_length]
  rw [curve, g3, g1]
  simp only [gl, ne_eq, not_true_eq_false, if_false, gz]
  rw [hnames i hi, C60_metadata true ops i "end_cond" hwf (Or.inl rfl) hi]
  cases (metaWrites ops i "end_cond").getLast? with
  | none => rfl
  | some v => simp

/-- **C92** (markers). The marker is what the legend says for each of the ways an optimizer can end, whatever details are recorded; only
a detail of a convergence message could be mistaken.

Missing (hence partial): Nevergrad's own message (`C92_nevergrad_refuted`). -/
theorem C92_markers_partial (e : Ending) (hd : ∀ d, e = .converged d → within "GloMPO Termination".toList (text e) = false) :
    marker (text e) = legend e := ends_spec e hd

/-- The convergence message of CMA. -/
example : within "GloMPO Termination".toList (text (.converged " {'tolfun': 1e-11}".toList)) = false := by decide +kernel

/-- An optimization with two optimizers, one of them killed. -/
example : curves ((init true).run [.add 1 "A", .add 2 "B", .addHist 1 [], .addHist 2 [], .put ⟨1, [0], .fin 5, []⟩,
      .put ⟨2, [1], .fin 3, []⟩, .put ⟨1, [2], .fin 4, []⟩, .putMeta 1 "end_cond" "GloMPO Termination\nHunter: 2"]) =
    .ok [⟨1, [(.nat 1, .num (.fin 5)), (.nat 3, .num (.fin 4))], "A", some .killed⟩,
      ⟨2, [(.nat 2, .num (.fin 3))], "B", none⟩] := by rfl

/-- Nevergrad says that it converged with a text (nevergrad.py:135) which the plot does not know: no marker. -/
theorem C92_nevergrad_refuted (rest : List Char) (h : ∀ c ∈ rest, c ≠ 'G' ∧ c ≠ 'O' ∧ c ≠ 'E' ∧ c ≠ 'T' ∧ c ≠ 'N') :
    marker ("Nevergrad termination conditions:\n".toList ++ rest) = .blank := by
  have hno : ∀ c : Char, (c = 'G' ∨ c = 'O' ∨ c = 'E' ∨ c = 'T') →
      c ∉ "Nevergrad termination conditions:\n".toList ++ rest := by
    intro c hc hm
    rcases List.mem_append.mp hm with hm | hm
    · rcases hc with rfl | rfl | rfl | rfl <;> exact absurd hm (by decide +kernel)
    · obtain ⟨h1, h2, h3, h4, -⟩ := h c hm
      rcases hc with rfl | rfl | rfl | rfl
      · exact h1 rfl
      · exact h2 rfl
      · exact h3 rfl
      · exact h4 rfl
  have hr : 'N' ∉ "evergrad termination conditions:\n".toList ++ rest := by
    intro hm
    rcases List.mem_append.mp hm with hm | hm
    · exact absurd hm (by decide +kernel)
    · exact (h _ hm).2.2.2.2 rfl
  have g3 : within "Normal termination".toList ("Nevergrad termination conditions:\n".toList ++ rest) = false := by
    have e : "Nevergrad termination conditions:\n".toList = 'N' :: 'e' :: "vergrad termination conditions:\n".toList := by
      decide +kernel
    have e2 : "evergrad termination conditions:\n".toList = 'e' :: "vergrad termination conditions:\n".toList := by
      decide +kernel
    have e' : "Normal termination".toList = 'N' :: 'o' :: "rmal termination".toList := by decide +kernel
    rw [e2] at hr
    rw [e, e', List.cons_append, within, Bool.or_eq_false_iff]
    exact ⟨by simp [List.isPrefixOf], within_none _ _ _ hr⟩
  rw [marker_eq _ false false false false false
    (within_none' 'G' _ "loMPO Termination".toList _ (by decide +kernel) (hno 'G' (by simp)))
    (within_none' 'O' _ "ptimizer convergence".toList _ (by decide +kernel) (hno 'O' (by simp))) g3
    (within_none' 'E' _ "rror termination".toList _ (by decide +kernel) (hno 'E' (by simp)))
    (within_none' 'T' _ "raceback".toList _ (by decide +kernel) (hno 'T' (by simp)))]
  rfl

example : marker "Nevergrad termination conditions:\nmax_evals".toList = .blank := by decide +kernel

end Glompo.Props
