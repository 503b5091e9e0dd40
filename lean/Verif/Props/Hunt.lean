import Verif.Lemmas.LoggerKept
import Verif.Lemmas.ManagerClass
import Verif.Spec.Hunt
import Verif.Props.HuntersReal
import Verif.Props.Combi
import Verif.Props.Criterion
import Verif.Props.ParamsWrap

/-! # C121: an optimizer is hunted down only if its true evaluations call for it -/

namespace Glompo.Props

open Glompo.Spec Glompo.Manager Glompo.Props.Runs EndToEnd

namespace Hunt

/-- Every collection of evaluations of proper optimizers has well-formed operations behind it. -/
theorem ops_of (es : List IterRes) (ids : List Nat) (h0 : ∀ i ∈ ids, i ≠ 0) (hn : ids.Nodup) (he : ∀ r ∈ es, r.optId ∈ ids) :
    ∃ ops : List Logger.Op, WellFormed ops ∧ evals ops = es ∧ ∀ i ∈ ids, Logger.Op.add i "" ∈ ops := by
  have h1 : ∀ ids : List Nat, (∀ i ∈ ids, i ≠ 0) → ids.Nodup →
      let ops := ids.map fun i => Logger.Op.add i ""
      WellFormed ops ∧ evals ops = [] ∧ added ops = ids ∧ opened ops = [] := by
    refine snoc_induction ?_ fun l i ih => ?_
    · intro _ _; exact ⟨fun pre o post e => by simp at e, rfl, rfl, rfl⟩
    · intro h0 hn
      obtain ⟨a, b, c, d⟩ := ih (fun j hj => h0 j (by simp [hj])) (List.nodup_append.mp hn).1
      simp only [List.map_append, List.map_cons, List.map_nil]
      refine ⟨wellFormed_snoc a ⟨h0 i (by simp), ?_⟩, by simp [evals] at b ⊢, by simp [added] at c ⊢, by simp [opened] at d ⊢⟩
      rw [c]
      intro hm
      exact (List.nodup_append.mp hn).2.2 i hm i (by simp) rfl
  obtain ⟨a, b, c, d⟩ := h1 ids h0 hn
  have h2 : ∀ js : List Nat, (∀ i ∈ js, i ∈ ids) → js.Nodup →
      let ops := (ids.map fun i => Logger.Op.add i "") ++ js.map fun i => Logger.Op.addHist i []
      WellFormed ops ∧ evals ops = [] ∧ added ops = ids ∧ opened ops = js := by
    refine snoc_induction ?_ fun l i ih => ?_
    · intro _ _; simpa using ⟨a, b, c, d⟩
    · intro hi hn
      obtain ⟨a, b, c, d⟩ := ih (fun j hj => hi j (by simp [hj])) (List.nodup_append.mp hn).1
      simp only [List.map_append, List.map_cons, List.map_nil, ← List.append_assoc]
      refine ⟨wellFormed_snoc a ⟨by rw [c]; exact hi i (by simp), ?_⟩, ?_, ?_, ?_⟩
      · rw [d]; intro hm
        exact (List.nodup_append.mp hn).2.2 i hm i (by simp) rfl
      · rw [evals_append, b]; rfl
      · rw [added_append, c]; simp [added]
      · rw [show ∀ a b : List Logger.Op, opened (a ++ b) = opened a ++ opened b from fun a b => List.filterMap_append, d]; rfl
  obtain ⟨a, b, c, d⟩ := h2 ids (fun i h => h) hn
  have h3 : ∀ es : List IterRes, (∀ r ∈ es, r.optId ∈ ids) →
      let ops := ((ids.map fun i => Logger.Op.add i "") ++ ids.map fun i => Logger.Op.addHist i []) ++ es.map Logger.Op.put
      WellFormed ops ∧ evals ops = es ∧ added ops = ids ∧ opened ops = ids := by
    refine snoc_induction ?_ fun l r ih => ?_
    · intro _; simpa using ⟨a, b, c, d⟩
    · intro hr
      obtain ⟨a, b, c, d⟩ := ih (fun r hj => hr r (by simp [hj]))
      simp only [List.map_append, List.map_cons, List.map_nil, ← List.append_assoc] at a b c d ⊢
      refine ⟨wellFormed_snoc a ⟨by rw [c]; exact hr r (by simp), by rw [d]; exact hr r (by simp)⟩, ?_, ?_, ?_⟩
      · rw [evals_append, b]; rfl
      · rw [added_append, c]; simp [added]
      · rw [show ∀ a b : List Logger.Op, opened (a ++ b) = opened a ++ opened b from fun a b => List.filterMap_append, d]; simp [opened]
  obtain ⟨a, b, c, d⟩ := h3 es he
  exact ⟨_, a, b, fun i hi => by simp [hi]⟩

theorem Tells.fx {es : List IterRes} {cl : Nat → String → Prop} {i : Nat} {log : Logger} (h : Tells es cl i log) : fxHist log i = .ok (valuesOf es i) := by
  simp only [fxHist, h.values, valuesOf, List.map_map]; rfl

theorem Tells.x {es : List IterRes} {cl : Nat → String → Prop} {i : Nat} {log : Logger} (h : Tells es cl i log) : xHist log i = .ok (pointsOf es i) := by
  simp only [xHist, h.points, pointsOf, List.map_map]; rfl

/-- A comparison which condemns has found a point close by. -/
theorem loop_sound {es : List IterRes} {v : Nat} {log : Logger} {trans : ℝ} {rel : Rat} (ho : Honest es log) (hv : xHist log v = .ok (pointsOf es v)) :
    ∀ js, paramDistLoop trans rel log v js = .ok true → ∃ j ∈ js, j ≠ v ∧ ∃ a b, lastPoint es j = some a ∧ lastPoint es v = some b ∧
      distance a b / trans ≤ rel := by
  intro js
  induction js with
  | nil => intro h; simp [paramDistLoop] at h
  | cons j js ih =>
    intro h
    have go : paramDistLoop trans rel log v js = .ok true → ∃ i ∈ j :: js, i ≠ v ∧ ∃ a b, lastPoint es i = some a ∧ lastPoint es v = some b ∧
        distance a b / trans ≤ rel := by
      intro h
      obtain ⟨i, hi, r⟩ := ih h
      exact ⟨i, by simp [hi], r⟩
    simp only [paramDistLoop] at h
    split at h
    · exact go h
    · rename_i hjv
      have hx : xHist log j = .ok (pointsOf es j) ∨ xHist log j = .ok [] := by
        refine (ho j).imp (fun e => ?_) fun e => ?_
        · simp only [xHist, e, pointsOf, List.map_map]; rfl
        · simp only [xHist, e]; rfl
      rcases hx with hx | hx
      · rw [hx] at h
        cases hl : (pointsOf es j).getLast? with
        | none => simp only [hl] at h; exact go h
        | some a =>
          simp only [hl, hv] at h
          cases hb : (pointsOf es v).getLast? with
          | none => simp only [hb] at h; cases h
          | some b =>
            simp only [hb] at h
            split at h
            · rename_i hd
              exact ⟨j, by simp, hjv, a, b, hl, hb, (rle_eq _ _).mp hd⟩
            · exact go h
      · rw [hx] at h
        exact go h

/-- The answer of one condition. -/
theorem ask_deserves {es : List IterRes} {cl : Nat → String → Prop} {h v : Nat} {log : Logger} {u : Rat} {k : Hunter} (hk : Judging k)
    (tv : Tells es cl v log) (th : Tells es cl h log) (ho : Honest es log) (hu : 0 ≤ u ∧ u ≤ 1) (hne : v ≠ h) (h0 : v ≠ 0 ∧ h ≠ 0)
    (hz : ∀ r ∈ es, r.optId ≠ 0) (hans : k.ask log h v u = .ok true) : Deserves es cl h v k := by
  obtain ⟨ops, hwf, rfl, hadd⟩ := ops_of es ((v :: h :: es.map (·.optId)).dedup) (by
      intro i hi
      simp only [List.mem_dedup, List.mem_cons, List.mem_map] at hi
      rcases hi with rfl | rfl | ⟨r, hr, rfl⟩
      · exact h0.1
      · exact h0.2
      · exact hz r hr)
    (List.nodup_dedup _) (fun r hr => by simp only [List.mem_dedup, List.mem_cons, List.mem_map]; exact .inr (.inr ⟨r, hr, rfl⟩))
  have fxv := fxHist_exact true ops v hwf (.inl rfl)
  have xv := xHist_exact true ops v hwf (.inl rfl)
  have xh := xHist_exact true ops h hwf (.inl rfl)
  have nv := (C02_history_exact true ops v hwf (.inl rfl)).2.2.2.1
  have nh := (C02_history_exact true ops h hwf (.inl rfl)).2.2.2.1
  cases k with
  | minFuncCalls n =>
    simp only [Hunter.ask, minFuncCalls, tv.count, Except.ok.injEq, decide_eq_true_eq] at hans
    exact hans
  | bestUnmoving calls tol =>
    have e : bestUnmoving calls tol log v = bestUnmoving calls tol ((Logger.init true).run ops) v := by
      simp only [bestUnmoving, Tells.fx tv, fxv.1, tv.count, nv]
    simp only [Hunter.ask, e] at hans
    have hc : calls < (valuesOf (evals ops) v).length := by
      by_contra hc
      simp only [bestUnmoving, fxv.1, fxv.2, if_pos (Nat.not_lt.mp hc)] at hans
      cases hans
    have hpos : 0 < calls := by
      rcases Nat.eq_zero_or_pos calls with rfl | hp
      · rw [C16_zero_window_refuted true ops v tol hwf (.inl rfl) (by rintro e; simp [valuesOf, e] at hc)] at hans
        cases hans
      · exact hp
    refine ⟨hc, fun before now hnan hb hn => ?_⟩
    rw [C16_best_unmoving true ops v calls tol before now hwf (.inl rfl) hpos hnan hn fun _ => hb] at hans
    simp only [Except.ok.injEq, Bool.and_eq_true] at hans
    exact hans.2
  | lastPointsInvalid n =>
    have e : lastPointsInvalid n log v = lastPointsInvalid n ((Logger.init true).run ops) v := by
      simp only [lastPointsInvalid, Tells.fx tv, fxv.1]
    simp only [Hunter.ask, e] at hans
    obtain ⟨h1, h2⟩ := (C16_last_points_invalid true ops v n hwf (.inl rfl) hk).mp hans
    refine ⟨h1, fun f hf => ?_⟩
    obtain ⟨j, hj⟩ := List.getElem?_of_mem hf
    rw [List.getElem?_drop] at hj
    exact h2 _ f (by omega) hj
  | evaluationsUnmoving calls tol =>
    have e : evaluationsUnmoving calls tol log v = evaluationsUnmoving calls tol ((Logger.init true).run ops) v := by
      simp only [evaluationsUnmoving, Tells.fx tv, fxv.1, tv.count, nv]
    simp only [Hunter.ask, e] at hans
    obtain ⟨h1, h2, h3⟩ := C62_evaluations_unmoving true ops v calls tol hwf (.inl rfl) hk
    have hlen : calls ≤ (valuesOf (evals ops) v).length := by
      by_contra hc
      rw [h1 (by omega)] at hans; cases hans
    refine ⟨hlen, ?_⟩
    cases ha : allFin ((valuesOf (evals ops) v).drop ((valuesOf (evals ops) v).length - calls)) with
    | none =>
      obtain ⟨f, hf, hn⟩ := allFin_none ha
      rw [h2 ⟨f, hf, by cases f <;> simp [PyF.isFinite] at hn ⊢⟩] at hans
      cases hans
    | some w =>
      have hw := (allFin_eq _ w).mp ha
      have hwne : w ≠ [] := by
        rintro rfl
        have := congrArg List.length hw
        simp at this
        have hk' : 0 < calls := hk
        omega
      refine ⟨w, w.getLast hwne, hw, List.getLast?_eq_some_getLast hwne, ?_⟩
      exact (h3 w _ hlen hw (List.getLast?_eq_some_getLast hwne)).2.mp hans
  | stepSize bounds calls tol =>
    have e : stepSize bounds calls tol log v = stepSize bounds calls tol ((Logger.init true).run ops) v := by
      simp only [stepSize, Tells.x tv, xv]
    simp only [Hunter.ask, e] at hans
    exact (C63_step_size true ops v calls bounds tol hwf (.inl rfl) hk).2.mp hans
  | parameterDistance bounds rel testAll =>
    simp only [Hunter.ask, parameterDistance] at hans
    obtain ⟨j, hj, hjv, a, b, h1, h2, h3⟩ := loop_sound ho (Tells.x tv) _ hans
    refine ⟨j, a, b, ?_, h1, h2, h3⟩
    cases testAll with
    | true => exact hjv
    | false => simpa using hj
  | timeAnnealing crit =>
    have e : timeAnnealing crit u log h v = timeAnnealing crit u ((Logger.init true).run ops) h v := by
      simp only [timeAnnealing, tv.count, th.count, nv, nh]
    simp only [Hunter.ask, e] at hans
    by_cases hv : evalsOf (evals ops) v = []
    · simp only [timeAnnealing, nv, hv, List.length_nil, if_true] at hans
      cases hans
    · have hc : (0 : Rat) < crit := hk
      rw [(C17_time_annealing true ops h v crit u hwf (.inl rfl) (.inl rfl) hc hu hv).2] at hans
      simp only [Except.ok.injEq, decide_eq_true_eq] at hans
      refine lt_of_lt_of_le hans ?_
      have : u * crit ≤ 1 * crit := Rat.mul_le_mul_of_nonneg_right hu.2 (le_of_lt hc)
      rw [one_mul] at this
      exact Rat.mul_le_mul_of_nonneg_right this (by positivity)
  | valueAnnealing med =>
    obtain ⟨bv, ev, hbv⟩ := tv.best
    obtain ⟨bh, eh, hbh⟩ := th.best
    refine ⟨bh.fx, bv.fx, hbh, hbv, ?_⟩
    simp only [Hunter.ask, valueAnnealing, eh, ev] at hans
    split at hans
    · cases hans
    · rename_i hc
      simp only [Bool.or_eq_true, not_or, Bool.not_eq_true] at hc
      have hn : ∀ i f, BestValue (evals ops) i f → f ≠ .nan := by
        rintro i f (⟨-, rfl⟩ | ⟨k, r, ⟨r0, h1, -, h2, -⟩, hk, rfl⟩) hf
        · cases hf
        · rw [hk] at h1; cases h1; rw [hf] at h2; cases h2
      have n1 := hn _ _ hbh
      have n2 := hn _ _ hbv
      revert hc n1 n2
      cases bh.fx <;> cases bv.fx <;> simp [PyF.le, PyF.lt, PyF.eq]
  | typeHunter cls =>
    obtain ⟨t, h1, h2⟩ := tv.cls
    simp only [Hunter.ask, typeHunter, h1, Except.ok.injEq, beq_iff_eq] at hans
    exact hans ▸ h2

/-- The answer of a combination. -/
theorem call_deserves {es : List IterRes} {cl : Nat → String → Prop} {h v : Nat} {log : Logger} {rnd : Nat → Rat} {hs : Nat → Hunter} {c : Cond} {st : Cond.Last}
    {n : Nat} (hk : ∀ i ∈ leaves c, Judging (hs i)) (tv : Tells es cl v log) (th : Tells es cl h log) (ho : Honest es log) (hu : ∀ k, 0 ≤ rnd k ∧ rnd k ≤ 1)
    (hne : v ≠ h) (h0 : v ≠ 0 ∧ h ≠ 0) (hz : ∀ r ∈ es, r.optId ≠ 0)
    (hans : (c.call (askHunter hs rnd log h v) st n).ans = .ok true) : DeservesAll hs es cl h v c := by
  induction c generalizing st n with
  | leaf i =>
    refine ask_deserves (hk i (by simp [leaves])) tv th ho (hu n) hne h0 hz ?_
    simp only [Cond.call, askHunter] at hans
    split at hans
    · rename_i b e; rw [e]; exact hans
    · cases hans
  | or i a b iha ihb =>
    simp only [Cond.call] at hans
    simp only [DeservesAll]
    split at hans
    · cases hans
    · rename_i e; exact .inl (iha (fun i hi => hk i (by simp [leaves, hi])) e)
    · split at hans
      · cases hans
      · rename_i e
        cases hans
        exact .inr (ihb (fun i hi => hk i (by simp [leaves, hi])) e)
  | and i a b iha ihb =>
    simp only [Cond.call] at hans
    simp only [DeservesAll]
    split at hans
    · cases hans
    · cases hans
    · rename_i e1
      split at hans
      · cases hans
      · rename_i e
        cases hans
        exact ⟨iha (fun i hi => hk i (by simp [leaves, hi])) e1, ihb (fun i hi => hk i (by simp [leaves, hi])) e⟩

/-- Whoever has a history in the log is told of truly. -/
theorem tells_of_has {cfg : Cfg} {s : State} (inv : Inv cfg s) {i : Nat} (hi : s.log.hasIterHistory i = true) :
    Tells (loggedOf s.ev) (ChosenAs s.ev) i s.log := by
  have ha := (Logger.hasIterHistory_opened inv.store hi).1
  have hcl := inv.classed hi
  rw [inv.log] at hi hcl ⊢
  obtain ⟨h1, h2, -, h4⟩ := Logger.history_of_has s.first.traj inv.wf hi
  rw [← inv.evs]
  obtain ⟨t, ht⟩ := mem_added.mp ha
  obtain ⟨g1, g2⟩ := (C01_best_is_earliest_min s.first.traj s.ops inv.wf).2.2 i t ht
  refine ⟨h1, h2, h4, ?_, hcl⟩
  rcases earliestMin_or_none (fun r => r.optId = i) (evals s.ops) with hn | ⟨k, hk⟩
  · exact ⟨_, g1 hn, .inl ⟨hn, rfl⟩⟩
  · obtain ⟨r, hr, -⟩ := id hk
    exact ⟨_, g2 k r hk hr, .inr ⟨k, r, hk, hr, rfl⟩⟩

theorem newId_pos {cfg : Cfg} {s : State} (inv : Inv cfg s) {pre post : List Ev} (hp : s.ev = pre ++ post) {i : Nat}
    (hi : i ∈ newIdsOf pre) : i ≠ 0 := by
  have hm : i ∈ newIdsOf s.ev := by
    rw [hp]; simp only [newIdsOf, List.filterMap_append] at hi ⊢; exact List.mem_append_left _ hi
  rw [inv.ids, List.mem_range'_1] at hm
  omega

theorem accepted_pos {cfg : Cfg} {s : State} (inv : Inv cfg s) {pre post : List Ev} (hp : s.ev = pre ++ post) {r : IterRes}
    (hr : r ∈ acceptedOf pre) : r.optId ≠ 0 := by
  simp only [acceptedOf, List.mem_filterMap] at hr
  obtain ⟨x, hx, hx'⟩ := hr
  cases x <;> simp at hx'
  subst hx'
  rename_i r
  obtain ⟨a, b, rfl⟩ := List.append_of_mem hx
  have := inv.good a (.accepted r) (b ++ post) (by rw [hp]; simp)
  exact newId_pos inv (pre := a) (post := .accepted r :: b ++ post) (by rw [hp]; simp) this.1

end Hunt

open Hunt

variable {cfg : Cfg} {s : State} (hs : Startable cfg s) (fuel : Nat) {e : Env} {hc : Nat → Hunter} {c : Cond}

include hs in
/-- **C121.** At every moment, so also when the hunting conditions are asked, the log tells of every optimizer which still has a
history in it exactly what it reported, and the class the selector named for it. -/
theorem C121_log_tells (i : Nat) (hi : (moment cfg s fuel e).log.hasIterHistory i = true) :
    Tells (loggedOf (happened cfg s fuel e)) (ChosenAs (happened cfg s fuel e)) i (moment cfg s fuel e).log :=
  tells_of_has (moment_inv hs fuel e) hi

include hs in
/-- **C121.** At every moment the points which the log tells of any optimizer are all it reported, or none. -/
theorem C121_log_honest : Honest (loggedOf (happened cfg s fuel e)) (moment cfg s fuel e).log := by
  have inv := moment_inv hs fuel e
  intro j
  show _ = Except.ok ((evalsOf (loggedOf (moment cfg s fuel e).ev) j).map _) ∨ _
  rw [← inv.evs, inv.log]
  exact (C02_all_or_nothing _ _ j inv.wf).imp (·.2.1) (·.1 "x")

include hs in
/-- **C121.** The memory of the optimizer which leads is never released: at every moment, if nothing was lost on loading a checkpoint, the log
tells of it exactly what it reported. -/
theorem C121_leader_kept (hL : Lossless (happened cfg s fuel e)) (hz : Ev.received (.fin 0) ∉ happened cfg s fuel e) (h : Nat)
    (hl : Leads (acceptedOf (happened cfg s fuel e)) h) :
    (moment cfg s fuel e).log.hasIterHistory h = true ∧
    Tells (acceptedOf (happened cfg s fuel e)) (ChosenAs (happened cfg s fuel e)) h (moment cfg s fuel e).log := by
  have inv := moment_inv hs fuel e
  rw [← logged_of_lossless _ hL] at hl ⊢
  have hh := inv.kept hL hz h hl
  exact ⟨hh, tells_of_has inv hh⟩

include hs in
/-- **C121.** If the answers in hunts are those of a combination of hunting conditions, every optimizer shut down in a hunt of this run deserved it
by what it and the hunter, the leader, had truly reported until then, or by the class the selector had named for it. -/
theorem C121_hunted (hL : Lossless (happened cfg s fuel e)) (hj : ∀ i ∈ leaves c, Judging (hc i))
    (ha : HuntedBy hc c s.ev (thisRun cfg s fuel e)) (pre : List Ev) (v h : Nat) (post : List Ev)
    (hp : thisRun cfg s fuel e = pre ++ .killed v (some h) :: post) :
    Leads (acceptedOf (s.ev ++ pre)) h ∧ v ≠ h ∧ DeservesAll hc (acceptedOf (s.ev ++ pre)) (ChosenAs (s.ev ++ pre)) h v c := by
  have hh : happened cfg s fuel e = (s.ev ++ pre) ++ .killed v (some h) :: post := by
    rw [happened_split hs fuel e, hp, List.append_assoc]
  have hL' : Lossless (s.ev ++ pre) := lossless_prefix (by rw [← hh]; exact hL)
  obtain ⟨log, rnd, st, n, tv, th, ho, hu, hans⟩ := ha pre v h post hp
  rw [logged_of_lossless _ hL'] at tv th ho
  obtain ⟨h1, -, -, -, -, -, h7⟩ := moment_good hs fuel e _ _ _ hh
  obtain ⟨h8, h9, -⟩ := h7 h rfl
  rw [logged_of_lossless _ hL'] at h8
  refine ⟨h8, h9, call_deserves hj tv th ho hu h9 ⟨newId_pos (moment_inv hs fuel e) hh h1, ?_⟩ (fun r hr => accepted_pos (moment_inv hs fuel e) hh hr) hans⟩
  obtain ⟨k, r, -, hr, rfl⟩ := h8
  exact accepted_pos (moment_inv hs fuel e) hh (List.mem_of_getElem? hr)

/-- The conditions `MinFuncCalls(1) & TimeAnnealing(2)`. -/
def hunters2 (i : Nat) : Hunter := if i = 0 then .minFuncCalls 1 else .timeAnnealing 2
def hunt2 : Cond := .and 2 (.leaf 0) (.leaf 1)

/-- The moment at which they are asked about optimizer 1. -/
def asks : Env := start2 ++ [ch [r 1 5, r 2 3, r 1 4], u, u]

theorem Hunt.leads_first {es : List IterRes} {a b : IterRes} (h : es = [a, b]) (h1 : a.fx.lt .pinf = true) (h2 : a.fx.lt a.fx = false)
    (h3 : b.fx.lt a.fx = false) : Leads es a.optId := by
  subst h
  refine ⟨0, a, ⟨a, rfl, trivial, h1, fun j r' hj _ => ?_⟩, rfl, rfl⟩
  match j with
  | 0 => simp at hj; subst hj; exact ⟨h2, by simp⟩
  | 1 => simp at hj; subst hj; exact ⟨h3, by simp⟩
  | n + 2 => simp at hj

theorem Hunt.leads_second {es : List IterRes} {a b : IterRes} (h : es = [a, b]) (h1 : b.fx.lt .pinf = true) (h2 : b.fx.lt b.fx = false)
    (h3 : a.fx.lt b.fx = false) (h4 : a.fx.le b.fx = false) : Leads es b.optId := by
  subst h
  refine ⟨1, b, ⟨b, rfl, trivial, h1, fun j r' hj _ => ?_⟩, rfl, rfl⟩
  match j with
  | 0 => simp at hj; subst hj; exact ⟨h3, fun _ => h4⟩
  | 1 => simp at hj; subst hj; exact ⟨h2, by simp⟩
  | n + 2 => simp at hj

theorem Hunt.spared {es : List IterRes} {cl : Nat → String → Prop} {a b : IterRes} (h : es = [a, b]) (ha : a.optId = 1) (hb : b.optId = 2) :
    ¬ Deserves es cl 1 2 (.timeAnnealing (1 / 2)) := by
  subst h
  simp [Deserves, evalsOf, ha, hb]
  norm_num

theorem Hunt.condemned {log : Logger} (h1 : log.lenOpt 1 = 0) (h2 : log.lenOpt 2 = 1) :
    Hunter.ask log 1 2 (1 / 2) (.timeAnnealing (1 / 2)) = .ok true := by
  simp [Hunter.ask, timeAnnealing, h1, h2]

/-- How many optimizers were shut down. -/
def kills (l : List Ev) : Nat := l.countP fun | .killed _ _ => true | _ => false

theorem Hunt.huntedBy_one {hc : Nat → Hunter} {c : Cond} {old run : List Ev} {v h m : Nat} {log : Logger} {rnd : Nat → Rat}
    {st : Cond.Last} {n : Nat} (hm : run[m]? = some (.killed v (some h))) (hk : kills run = 1)
    (tv : Tells (loggedOf (old ++ run.take m)) (ChosenAs (old ++ run.take m)) v log)
    (th : Tells (loggedOf (old ++ run.take m)) (ChosenAs (old ++ run.take m)) h log)
    (ho : Honest (loggedOf (old ++ run.take m)) log) (hu : ∀ k, 0 ≤ rnd k ∧ rnd k ≤ 1) (ha : (c.call (askHunter hc rnd log h v) st n).ans = .ok true) :
    HuntedBy hc c old run := by
  intro pre v' h' post hp
  have hlen : m < run.length := (List.getElem?_eq_some_iff.mp hm).1
  have hsplit : run = run.take m ++ .killed v (some h) :: run.drop (m + 1) := by
    rw [← (List.getElem?_eq_some_iff.mp hm).2, List.getElem_cons_drop, List.take_append_drop]
  have hpm : pre.length = m := by
    rcases Nat.lt_trichotomy pre.length m with hlt | heq | hgt
    · exfalso
      have : run.take m = pre ++ .killed v' (some h') :: post.take (m - pre.length - 1) := by
        rw [hp, List.take_append, List.take_of_length_le (by omega)]
        congr 1
        obtain ⟨j, hj⟩ : ∃ j, m - pre.length = j + 1 := ⟨m - pre.length - 1, by omega⟩
        rw [hj]; rfl
      rw [hsplit, this] at hk
      simp [kills, List.countP_append, List.countP_cons] at hk
      omega
    · exact heq
    · exfalso
      have : pre = pre.take m ++ .killed v (some h) :: pre.drop (m + 1) := by
        have e : pre[m]? = some (.killed v (some h)) := by
          rw [hp, List.getElem?_append_left hgt] at hm; exact hm
        rw [← (List.getElem?_eq_some_iff.mp e).2, List.getElem_cons_drop, List.take_append_drop]
      rw [hp, this] at hk
      simp [kills, List.countP_append, List.countP_cons] at hk
      omega
  have hpre : pre = run.take m := by rw [hp, ← hpm, List.take_left]
  have hvh : v' = v ∧ h' = h := by
    rw [hp, ← hpm, List.getElem?_append_right (le_refl _)] at hm
    simpa using hm
  obtain ⟨rfl, rfl⟩ := hvh
  rw [hpre]
  exact ⟨log, rnd, st, n, tv, th, ho, hu, ha⟩

theorem Hunt.ans2 {log : Logger} (h1 : log.lenOpt 1 = 1) (h2 : log.lenOpt 2 = 1) :
    (hunt2.call (askHunter hunters2 (fun _ => 1) log 2 1) (fun _ => none) 0).ans = .ok true := by
  simp [hunt2, Cond.call, askHunter, hunters2, Hunter.ask, minFuncCalls, timeAnnealing, h1, h2]

/-- A run in which optimizer 1 is hunted down by these conditions. -/
example : (∀ i ∈ leaves hunt2, Judging (hunters2 i)) ∧ Lossless (happened cfg2 (init cfg2) 20 demo) ∧
    HuntedBy hunters2 hunt2 (init cfg2).ev (thisRun cfg2 (init cfg2) 20 demo) ∧
    (thisRun cfg2 (init cfg2) 20 demo)[17]? = some (.killed 1 (some 2)) ∧
    (moment cfg2 (init cfg2) 20 asks).log.hasIterHistory 1 = true := by
  refine ⟨?_, fresh_lossless cfg2 20 demo, ?_, by decide +kernel, by decide +kernel⟩
  · intro i hi
    simp [hunt2, leaves] at hi
    rcases hi with rfl | rfl
    · exact trivial
    · show (0 : Rat) < 2; norm_num
  · have e : happened cfg2 (init cfg2) 20 asks = (init cfg2).ev ++ (thisRun cfg2 (init cfg2) 20 demo).take 17 := by decide +kernel
    have t1 := C121_log_tells (Startable.fresh cfg2) 20 (e := asks) 1 (by decide +kernel)
    have t2 := C121_log_tells (Startable.fresh cfg2) 20 (e := asks) 2 (by decide +kernel)
    have t3 := C121_log_honest (Startable.fresh cfg2) 20 (e := asks)
    rw [e] at t1 t2 t3
    exact huntedBy_one (by decide +kernel) (by decide +kernel) t1 t2 t3 (fun _ => ⟨by norm_num, le_refl _⟩)
      (ans2 (by decide +kernel) (by decide +kernel))

theorem Hunt.near {log : Logger} (hn : log.nOptimizers = 2) (h1 : xHist log 1 = .ok [[5]]) (h2 : xHist log 2 = .ok [[3]]) :
    ((Cond.leaf 0).call (askHunter (fun _ => .parameterDistance [(0, 10)] 1 true) (fun _ => 0) log 2 1) (fun _ => none) 0).ans = .ok true := by
  have hd : rle (distance [3] [5] / transSpaceDist [(0, 10)]) 1 = true := by
    rw [rle_eq]
    simp only [distance, transSpaceDist, List.map_cons, List.map_nil]
    have e1 : sqDist [3] [5] = 4 := by decide +kernel
    have e2 : sqDist [0] [10] = 100 := by decide +kernel
    rw [e1, e2]
    refine div_le_one_of_le₀ (Real.sqrt_le_sqrt (by norm_num)) (Real.sqrt_nonneg _)
  simp [Cond.call, askHunter, Hunter.ask, parameterDistance, hn, paramDistLoop, h1, h2, List.range', hd]

theorem Hunt.points_of {log : Logger} {i : Nat} {vs : List Vec} (h : (xHist log i).toOption = some vs) : xHist log i = .ok vs := by
  cases hx : xHist log i with
  | error e => rw [hx] at h; cases h
  | ok a => rw [hx] at h; cases h; rfl

/-- The same run with `ParameterDistance([(0, 10)], 1, test_all=True)`. -/
example : Judging (.parameterDistance [(0, 10)] 1 true) ∧
    HuntedBy (fun _ => .parameterDistance [(0, 10)] 1 true) (.leaf 0) (init cfg2).ev (thisRun cfg2 (init cfg2) 20 demo) := by
  refine ⟨trivial, ?_⟩
  have e : happened cfg2 (init cfg2) 20 asks = (init cfg2).ev ++ (thisRun cfg2 (init cfg2) 20 demo).take 17 := by decide +kernel
  have t1 := C121_log_tells (Startable.fresh cfg2) 20 (e := asks) 1 (by decide +kernel)
  have t2 := C121_log_tells (Startable.fresh cfg2) 20 (e := asks) 2 (by decide +kernel)
  have t3 := C121_log_honest (Startable.fresh cfg2) 20 (e := asks)
  rw [e] at t1 t2 t3
  exact huntedBy_one (by decide +kernel) (by decide +kernel) t1 t2 t3 (fun _ => ⟨le_refl _, by norm_num⟩)
    (near (by decide +kernel) (points_of (by decide +kernel)) (points_of (by decide +kernel)))

/-- The leader of that run. -/
example : Leads (acceptedOf (happened cfg2 (init cfg2) 20 asks)) 2 ∧ Ev.received (.fin 0) ∉ happened cfg2 (init cfg2) 20 asks := by
  have hl : acceptedOf (happened cfg2 (init cfg2) 20 asks) = [⟨1, [5], .fin 5, []⟩, ⟨2, [3], .fin 3, []⟩] := by decide +kernel
  exact ⟨Hunt.leads_second hl (by decide) (by decide) (by decide) (by decide), by decide +kernel⟩

/-- Hunts after every three evaluations, no sharing. -/
def cfgH : Cfg := { cfg2 with huntFrequency := 3, sharing := false }

/-- While a checkpoint is taken, optimizer 2 reports a better value than optimizer 1. -/
def lossyCk : Env := start2 ++ [ch [r 1 5], nothing, files, b true, u, u, u, u, b false, u, sg (some .paused), u, sg (some .paused),
  b false, ch [r 2 3], b true, b true, u, u, u, b true, b true, b true, b true, b true]

/-- The manager loaded from it: that evaluation is not in the log. -/
def lostL : State := loadFirst cfgH (startManager cfgH 20 (init cfgH) lossyCk).2.1 [(1, true), (2, true)]

/-- Optimizer 1 ends, optimizer 2 reports one more value; a hunt begins. -/
def goesL : Env := [b false, u, u, u, u, u, sg none, sg none, ch [.fin 1, r 2 7]]

/-- **C121, refuted without the hypothesis.** After a checkpoint was loaded which lacks an evaluation, the memory of the
leader can be released. The log then tells nothing of it: it shows no evaluation of the hunter although it has one, and
`TimeAnnealing(0.5)` condemns a victim with as many evaluations as the hunter, which it should spare. -/
theorem C121_leader_released_refuted :
    ∃ s, Startable cfgH s ∧ Leads (loggedOf (happened cfgH s 20 goesL)) 1 ∧
      (happened cfgH s 20 goesL).getLast? = some (.hunt 1) ∧
      (moment cfgH s 20 goesL).log.hasIterHistory 1 = false ∧
      (evalsOf (loggedOf (happened cfgH s 20 goesL)) 1).length = 1 ∧ (moment cfgH s 20 goesL).log.lenOpt 1 = 0 ∧
      (evalsOf (loggedOf (happened cfgH s 20 goesL)) 2).length = 1 ∧ (moment cfgH s 20 goesL).log.lenOpt 2 = 1 ∧
      Hunter.ask (moment cfgH s 20 goesL).log 1 2 (1 / 2) (.timeAnnealing (1 / 2)) = .ok true ∧
      ¬ Deserves (loggedOf (happened cfgH s 20 goesL)) (ChosenAs (happened cfgH s 20 goesL)) 1 2 (.timeAnnealing (1 / 2)) := by
  have hl : loggedOf (happened cfgH lostL 20 goesL) = [⟨1, [5], .fin 5, []⟩, ⟨2, [7], .fin 7, []⟩] := by decide +kernel
  have h1 : (moment cfgH lostL 20 goesL).log.lenOpt 1 = 0 := by decide +kernel
  have h2 : (moment cfgH lostL 20 goesL).log.lenOpt 2 = 1 := by decide +kernel
  exact ⟨lostL, startable_loadFirst cfgH cfgH _ 20 lossyCk _ (Startable.fresh cfgH) (by decide +kernel),
    leads_first hl (by decide) (by decide) (by decide), by decide +kernel,
    by decide +kernel, by decide +kernel, h1, by decide +kernel, h2, condemned h1 h2, spared hl rfl rfl⟩

end Glompo.Props
