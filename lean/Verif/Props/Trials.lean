import Verif.Spec.Trials
import Verif.Props.Plot
import Verif.Props.Helpers

/-! C126: the pictures of parameter values; C92 with best values. -/

namespace Glompo.Props
open Glompo.Plot Glompo.Spec Glompo.Spec.Plot Glompo.Logger

namespace TrialsL
open PlotL

theorem fileOf_inj {i j : Nat} (h : fileOf i = fileOf j) : i = j := by
  unfold fileOf at h
  have h' := List.append_cancel_right h
  have h'' := List.append_cancel_left h'
  have a := (Checkpoint.decAux_spec (i + 1) i (Nat.lt_succ_self i)).2.1
  have b := (Checkpoint.decAux_spec (j + 1) j (Nat.lt_succ_self j)).2.1
  simp only [Checkpoint.dec] at h''
  rw [← a, ← b, h'']

theorem vecs_map (l : List IterRes) : vecs (l.map fun r => Cell.vec r.x) = l.map (·.x) := by
  induction l with
  | nil => rfl
  | cons r t ih => simp [vecs, ih]

theorem nums_map (l : List IterRes) : nums (l.map fun r => Cell.num r.fx) = .ok (l.map (·.fx)) := by
  induction l with
  | nil => rfl
  | cons r t ih => simp [nums, ih]

theorem draw_shows (xs : List Vec) (d : Nat) (h : ∀ x ∈ xs, x.length = d) :
    ∃ pic, draw xs = .ok pic ∧ Shows pic (if xs = [] then 0 else d) xs := by
  cases xs with
  | nil => exact ⟨[], rfl, rfl, by simp⟩
  | cons r rows =>
    have hr : r.length = d := h r (by simp)
    refine ⟨_, by rw [draw, if_pos]; rw [List.all_eq_true]; intro q hq; rw [hr, h q (by simp [hq])]; simp, ?_, ?_⟩
    · simp [hr]
    · intro j col hj
      rw [List.getElem?_map] at hj
      cases hrange : (List.range r.length)[j]? with
      | none => rw [hrange] at hj; cases hj
      | some j' =>
        rw [hrange] at hj
        obtain ⟨h1, h2⟩ := List.getElem?_eq_some_iff.mp hrange
        simp only [List.getElem_range] at h2
        subst h2
        simp only [List.length_range] at h1
        cases hj
        refine ⟨by simp, fun k x hk => ?_⟩
        rw [List.getElem?_map, hk]
        have hx : x.length = d := h x (List.mem_of_getElem? hk)
        have hlt : j < x.length := by omega
        simp [List.getD_eq_getElem?_getD, List.getElem?_eq_getElem hlt]

theorem trialsLoop_ok (s : Logger) (f : Nat → Picture) : ∀ (ids : List Nat) (files : List (List Char × Picture)),
    (∀ i ∈ ids, ∃ cells, s.getHistory i "x" = .ok cells ∧ draw (vecs cells) = .ok (f i)) →
    (trialsLoop s ids files).2 = none ∧
    (∀ i ∈ ids, dictGet (trialsLoop s ids files).1 (fileOf i) = some (f i)) ∧
    ∀ name, (∀ i ∈ ids, name ≠ fileOf i) → dictGet (trialsLoop s ids files).1 name = dictGet files name := by
  intro ids
  induction ids with
  | nil => intro files _; exact ⟨rfl, by simp, fun _ _ => rfl⟩
  | cons i rest ih =>
    intro files h
    obtain ⟨cells, h1, h2⟩ := h i (by simp)
    have he : trialsLoop s (i :: rest) files = trialsLoop s rest (dictSet files (fileOf i) (f i)) := by
      rw [trialsLoop, h1]; simp only; rw [h2]
    rw [he]
    obtain ⟨g1, g2, g3⟩ := ih (dictSet files (fileOf i) (f i)) fun k hk => h k (by simp [hk])
    refine ⟨g1, fun k hk => ?_, fun name hname => ?_⟩
    · by_cases hm : k ∈ rest
      · exact g2 k hm
      · have hki : k = i := by simpa [hm] using hk
        subst hki
        rw [g3 _ fun j hj e => hm (by rw [fileOf_inj e]; exact hj), dictGet_set_self]
    · rw [g3 name fun j hj => hname j (by simp [hj]), dictGet_set_ne _ _ (hname i (by simp))]

theorem bestCurvesFrom_ok (s : Logger) (n k : Nat) (f : Nat → Curve)
    (h : ∀ i, k ≤ i → i < k + n → bestCurve s i = .ok (f i)) :
    bestCurvesFrom s n k = .ok ((List.range' k n).map f) := by
  induction n generalizing k with
  | zero => rfl
  | succ n ih =>
    simp only [bestCurvesFrom, h k (Nat.le_refl _) (by omega), ih (k + 1) (fun i h1 h2 => h i (by omega) (by omega)),
      List.range'_succ, List.map_cons]

theorem run_count (ops : List Op) (n : Nat) (hwf : WellFormed ops) (hn : added ops = List.range' 1 n) :
    ((init true).run ops).nOptimizers = n := by
  obtain ⟨hk, -⟩ := storage_keys ops hwf
  have := congrArg List.length hk
  rw [hn] at this
  simpa [nOptimizers] using this

end TrialsL
open TrialsL PlotL

/-- **C126** (all optimizers). If the log keeps the trajectories and all evaluations have `d` parameters, `plot_optimizer_trials` makes one
picture for each optimizer started, which shows exactly its points, in order; no other file is touched. -/
theorem C126_all_partial (ops : List Op) (n d : Nat) (files : List (List Char × Picture)) (hwf : WellFormed ops)
    (hn : added ops = List.range' 1 n) (hd : ∀ r ∈ evals ops, r.x.length = d) :
    (trials ((init true).run ops) none files).2 = none ∧
    (∀ i ∈ added ops, ∃ pic, dictGet (trials ((init true).run ops) none files).1 (fileOf i) = some pic ∧
      Shows pic (if evalsOf (evals ops) i = [] then 0 else d) ((evalsOf (evals ops) i).map (·.x))) ∧
    ∀ name, (∀ i ∈ added ops, name ≠ fileOf i) →
      dictGet (trials ((init true).run ops) none files).1 name = dictGet files name := by
  have hdraw : ∀ i, ∃ pic, draw ((evalsOf (evals ops) i).map (·.x)) = .ok pic ∧
      Shows pic (if evalsOf (evals ops) i = [] then 0 else d) ((evalsOf (evals ops) i).map (·.x)) := by
    intro i
    obtain ⟨pic, h1, h2⟩ := draw_shows ((evalsOf (evals ops) i).map (·.x)) d (by
      intro x hx
      obtain ⟨r, hr, rfl⟩ := List.mem_map.mp hx
      exact hd r (List.mem_of_mem_filter hr))
    exact ⟨pic, h1, by simpa using h2⟩
  choose f hf1 hf2 using hdraw
  have hids : trialIds ((init true).run ops) none = added ops := by rw [trialIds, run_count ops n hwf hn, hn]
  rw [trials, hids]
  obtain ⟨g1, g2, g3⟩ := trialsLoop_ok ((init true).run ops) f (added ops) files fun i _ =>
    ⟨_, (C02_history_exact true ops i hwf (Or.inl rfl)).2.1, by rw [vecs_map]; exact hf1 i⟩
  exact ⟨g1, fun i hi => ⟨f i, g2 i hi, hf2 i⟩, g3⟩

/-- **C126** (one optimizer). Asked for one optimizer whose memory was not released, it makes the picture of this optimizer and touches no
other file. This needs no trajectories of the others. -/
theorem C126_one (traj : Bool) (ops : List Op) (i d : Nat) (files : List (List Char × Picture)) (hwf : WellFormed ops) (hi : i ≠ 0)
    (hc : traj = true ∨ ¬ Cleared ops i) (hd : ∀ r ∈ evalsOf (evals ops) i, r.x.length = d) :
    (trials ((init traj).run ops) (some i) files).2 = none ∧
    (∃ pic, dictGet (trials ((init traj).run ops) (some i) files).1 (fileOf i) = some pic ∧
      Shows pic (if evalsOf (evals ops) i = [] then 0 else d) ((evalsOf (evals ops) i).map (·.x))) ∧
    ∀ name, name ≠ fileOf i → dictGet (trials ((init traj).run ops) (some i) files).1 name = dictGet files name := by
  obtain ⟨pic, h1, h2⟩ := draw_shows ((evalsOf (evals ops) i).map (·.x)) d (by
    intro x hx
    obtain ⟨r, hr, rfl⟩ := List.mem_map.mp hx
    exact hd r hr)
  have hids : trialIds ((init traj).run ops) (some i) = [i] := by
    cases i with
    | zero => exact absurd rfl hi
    | succ k => rfl
  rw [trials, hids]
  obtain ⟨g1, g2, g3⟩ := trialsLoop_ok ((init traj).run ops) (fun _ => pic) [i] files fun j hj => by
    obtain rfl : j = i := by simpa using hj
    exact ⟨_, (C02_history_exact traj ops j hwf hc).2.1, by rw [vecs_map]; exact h1⟩
  exact ⟨g1, ⟨pic, g2 i (by simp), by simpa using h2⟩, fun name hname => g3 name (by simpa using hname)⟩

/-- **C126** (points of different lengths). The first optimizer asked for whose points do not all have the same number of parameters ends the
call with an exception. -/
theorem C126_ragged (traj : Bool) (ops : List Op) (i : Nat) (files : List (List Char × Picture)) (hwf : WellFormed ops) (hi : i ≠ 0)
    (hc : traj = true ∨ ¬ Cleared ops i) (a b : IterRes) (ha : a ∈ evalsOf (evals ops) i) (hb : b ∈ evalsOf (evals ops) i)
    (hne : a.x.length ≠ b.x.length) :
    trials ((init traj).run ops) (some i) files = (files, some .valueError) := by
  have hids : trialIds ((init traj).run ops) (some i) = [i] := by
    cases i with
    | zero => exact absurd rfl hi
    | succ k => rfl
  have hdraw : draw ((evalsOf (evals ops) i).map (·.x)) = .error .valueError := by
    generalize evalsOf (evals ops) i = l at ha hb
    cases l with
    | nil => cases ha
    | cons r rows =>
      simp only [List.map_cons, draw]
      rw [if_neg]
      intro hall
      rw [List.all_eq_true] at hall
      have key : ∀ c ∈ r :: rows, c.x.length = r.x.length := by
        intro c hc
        rcases List.mem_cons.mp hc with rfl | hc
        · rfl
        · simpa using hall c.x (List.mem_map_of_mem hc)
      exact hne (by rw [key a ha, key b hb])
  rw [trials, hids, trialsLoop, (C02_history_exact traj ops i hwf hc).2.1]
  simp only [vecs_map, hdraw]

/-- A sequence with three optimizers. -/
def trialOps : List Op :=
  [.add 1 "A", .add 2 "B", .add 3 "C", .addHist 1 [], .addHist 2 [], .addHist 3 [], .put ⟨1, [0, 7], .fin 5, []⟩,
    .put ⟨2, [1, 8], .fin 3, []⟩, .put ⟨3, [3, 9], .fin 2, []⟩, .put ⟨1, [2, 6], .fin 4, []⟩]

example : trials ((init true).run trialOps) none [] =
    ([("opt1_parms.png".toList, [[0, 2], [7, 6]]), ("opt2_parms.png".toList, [[1], [8]]), ("opt3_parms.png".toList, [[3], [9]])], none) := by
  decide +kernel

example : added trialOps = List.range' 1 3 ∧ ∀ r ∈ evals trialOps, r.x.length = 2 := by decide +kernel

/-- Without trajectories to keep, the memory of an optimizer is released when it has ended (manager.py:1484). The pictures
are then made for as many optimizers as are left, counted from 1: the one released has an empty picture, the last has none
although its points are in memory, and there is no exception. -/
theorem C126_released_refuted :
    trials ((init false).run (trialOps ++ [.clear (some 1)])) none [] =
      ([("opt1_parms.png".toList, []), ("opt2_parms.png".toList, [[1], [8]])], none) ∧
    ((init false).run (trialOps ++ [.clear (some 1)])).getHistory 3 "x" = .ok [.vec [3, 9]] := by
  decide +kernel

/-- **C92** (best values). `plot_trajectory(best_fx=True)` of values among which there is no NaN: one curve per optimizer started, which
shows at the number of each evaluation the smallest value of the optimizer so far; name and marker are those of the plot without
`best_fx`. -/
theorem C92_best_partial (ops : List Op) (n : Nat) (hwf : WellFormed ops) (hn : added ops = List.range' 1 n)
    (hnan : ∀ r ∈ evals ops, r.fx ≠ .nan) :
    ∃ plain best, curves ((init true).run ops) = .ok plain ∧ bestCurves ((init true).run ops) = .ok best ∧
      plain.length = n ∧ best.length = n ∧
      ∀ (k : Nat) (c b : Curve), plain[k]? = some c → best[k]? = some b →
        b.opt = k + 1 ∧ b.type = c.type ∧ b.mark = c.mark ∧ ShowsBest b.points (evals ops) (k + 1) := by
  obtain ⟨names, hp, hnames⟩ := C92_curves ops n hwf hn
  have hroll : ∀ i, ∃ y, Helpers.rollingMin ((evalsOf (evals ops) i).map (·.fx)) = .ok y ∧
      y.length = ((evalsOf (evals ops) i).map (·.fx)).length ∧
      ∀ (k : Nat) m, y[k]? = some m → Glompo.Spec.IsLeast m (((evalsOf (evals ops) i).map (·.fx)).take (k + 1)) := by
    intro i
    refine (C47_rolling_min _).1 fun a ha => ?_
    obtain ⟨r, hr, rfl⟩ := List.mem_map.mp ha
    exact hnan r (List.mem_of_mem_filter hr)
  choose y hy1 hy2 hy3 using hroll
  have hbest : bestCurves ((init true).run ops) = .ok ((List.range' 1 n).map fun i =>
      { opt := i
        points := ((callIds (evals ops) i).map Cell.nat).zip ((y i).map Cell.num)
        type := names i
        mark := match (metaWrites ops i "end_cond").getLast? with
          | some v => if evalsOf (evals ops) i = [] then none else some (marker v.toList)
          | none => none }) := by
    rw [bestCurves, run_count ops n hwf hn]
    refine bestCurvesFrom_ok _ n 1 _ fun i h1 h2 => ?_
    have hi : i ∈ added ops := by rw [hn]; simp; omega
    obtain ⟨g1, -, g3, -, -⟩ := C02_history_exact true ops i hwf (Or.inl rfl)
    have hl : (y i).length = (evalsOf (evals ops) i).length := by simpa using hy2 i
    have he : y i = [] ↔ evalsOf (evals ops) i = [] := by
      rw [← List.length_eq_zero_iff, hl, List.length_eq_zero_iff]
    rw [bestCurve, g3, g1]
    simp only [nums_map, hy1 i, hl, List.length_map, callIds_length, ne_eq, not_true_eq_false, if_false]
    rw [hnames i hi, C60_metadata true ops i "end_cond" hwf (Or.inl rfl) hi]
    cases (metaWrites ops i "end_cond").getLast? with
    | none => rfl
    | some v => simp [he]
  refine ⟨_, _, hp, hbest, by simp, by simp, ?_⟩
  intro k c b hc hb
  rw [List.getElem?_map] at hc hb
  cases hr : (List.range' 1 n)[k]? with
  | none => rw [hr] at hc; cases hc
  | some i =>
    rw [hr] at hc hb
    obtain ⟨h1, h2⟩ := List.getElem?_eq_some_iff.mp hr
    simp only [List.getElem_range'] at h2
    obtain rfl : i = k + 1 := by omega
    cases hc
    cases hb
    refine ⟨rfl, rfl, rfl, ?_, ?_⟩
    · have hl : ((callIds (evals ops) (k + 1)).map Cell.nat).length = ((y (k + 1)).map Cell.num).length := by
        simp [callIds_length, hy2]
      have gl : (List.map Cell.nat (callIds (evals ops) (k + 1))).length =
        (List.map (fun r => Cell.num r.fx) (evalsOf (evals ops) (k + 1))).length := by simp [callIds_length]
      rw [← points_zip, List.map_fst_zip (Nat.le_of_eq hl), List.map_fst_zip (Nat.le_of_eq gl)]
    · intro q c v hq
      have hz := List.getElem?_zip_eq_some.mp hq
      obtain ⟨-, hv⟩ := hz
      rw [List.getElem?_map] at hv
      cases hm : (y (k + 1))[q]? with
      | none => rw [hm] at hv; cases hv
      | some m =>
        rw [hm] at hv
        cases hv
        exact ⟨m, rfl, hy3 (k + 1) q m hm⟩

example : bestCurves ((init true).run [.add 1 "A", .add 2 "B", .addHist 1 [], .addHist 2 [], .put ⟨1, [0], .fin 5, []⟩,
      .put ⟨2, [1], .fin 3, []⟩, .put ⟨1, [2], .fin 7, []⟩, .putMeta 1 "end_cond" "GloMPO Termination\nHunter: 2"]) =
    .ok [⟨1, [(.nat 1, .num (.fin 5)), (.nat 3, .num (.fin 5))], "A", some .killed⟩,
      ⟨2, [(.nat 2, .num (.fin 3))], "B", none⟩] := by rfl

/-- One NaN of one optimizer and there is no plot of best values at all, although the plot of values is made. -/
theorem C92_best_nan_refuted (ops : List Op) (n : Nat) (hwf : WellFormed ops) (hn : added ops = List.range' 1 n)
    (r : IterRes) (hr : r ∈ evals ops) (hnan : r.fx = .nan) (hi : r.optId ∈ added ops) :
    (∃ plain, curves ((init true).run ops) = .ok plain) ∧ ∃ e, bestCurves ((init true).run ops) = .error e := by
  refine ⟨(C92_curves ops n hwf hn).imp' _ fun _ h => h.1, ?_⟩
  have herr : bestCurve ((init true).run ops) r.optId = .error .assertionError := by
    obtain ⟨g1, -, g3, -, -⟩ := C02_history_exact true ops r.optId hwf (Or.inl rfl)
    rw [bestCurve, g3, g1]
    simp only [nums_map]
    rw [(C47_rolling_min _).2]
    exact List.mem_map.mpr ⟨r, by simp [evalsOf, hr], hnan⟩
  have key : ∀ (s : Logger) (m k i : Nat) (e : Err), k ≤ i → i < k + m → bestCurve s i = .error e →
      ∃ e, bestCurvesFrom s m k = .error e := by
    intro s m
    induction m with
    | zero => intro k i e h1 h2; omega
    | succ m ih =>
      intro k i e h1 h2 h
      rw [bestCurvesFrom]
      cases hk : bestCurve s k with
      | error e' => exact ⟨e', rfl⟩
      | ok c =>
        have hne : k ≠ i := by rintro rfl; rw [hk] at h; cases h
        obtain ⟨e'', he⟩ := ih (k + 1) i e (by omega) (by omega) h
        exact ⟨e'', by simp only [he]⟩
  rw [bestCurves, run_count ops n hwf hn]
  rw [hn] at hi
  simp only [List.mem_range'_1] at hi
  exact key _ n 1 r.optId _ hi.1 hi.2 herr

example : bestCurves ((init true).run [.add 1 "A", .add 2 "B", .addHist 1 [], .addHist 2 [], .put ⟨1, [0], .fin 5, []⟩,
      .put ⟨2, [1], .nan, []⟩]) = .error .assertionError := by rfl

end Glompo.Props
