import Verif.Lemmas.LoggerHist
import Verif.Lemmas.LoggerKept

/-!
# C01, C02, C03, C56: the in-memory logger
-/

namespace Glompo.Props

open Glompo Glompo.Spec Glompo.Logger

/-- **C01.** After any well formed history of logger operations (cache clearings anywhere, exceptions included) the
overall best record is the earliest smallest evaluation, or the `+inf` placeholder if no evaluation is below `+inf`.
The same holds for the record of each optimizer among its own evaluations. `callId` is the 1-based number of the
evaluation over the whole optimization. -/
theorem C01_best_is_earliest_min (traj : Bool) (ops : List Op) (hwf : WellFormed ops) :
    -- overall best
    (NoneQualifies (fun _ => True) (evals ops) →
      ((init traj).run ops).getBestIter none = .ok { optId := 0, x := [], fx := .pinf, type := "", callId := 0 }) ∧
    (∀ k r t, EarliestMin (fun _ => True) (evals ops) k → (evals ops)[k]? = some r → Op.add r.optId t ∈ ops →
      ((init traj).run ops).getBestIter none =
        .ok { optId := r.optId, x := r.x, fx := r.fx, type := t, callId := k + 1 }) ∧
    -- best of one optimizer
    (∀ i t, Op.add i t ∈ ops →
      (NoneQualifies (fun r => r.optId = i) (evals ops) →
        ((init traj).run ops).getBestIter (some i) =
          .ok { optId := i, x := [], fx := .pinf, type := t, callId := 0 }) ∧
      (∀ k r, EarliestMin (fun r => r.optId = i) (evals ops) k → (evals ops)[k]? = some r →
        ((init traj).run ops).getBestIter (some i) =
          .ok { optId := i, x := r.x, fx := r.fx, type := t, callId := k + 1 })) := by
  have inv := bestInv_run traj ops hwf
  generalize (init traj).run ops = s at inv
  refine ⟨?_, ?_, ?_⟩
  · intro hn
    rcases inv.glob with ⟨h1, -⟩ | ⟨i, t, b, k, r, -, -, -, h4, h5, -⟩
    · simp [getBestIter, best, h1, BestIter.empty]
    · obtain ⟨r1, q1, _, q3, _⟩ := h4
      rw [hn r1 (List.mem_of_getElem? q1) trivial] at q3; cases q3
  · intro k r t hk hr hadd
    rcases inv.glob with ⟨-, h2⟩ | ⟨i, t', b, k', r', h1, h2, h3, h4, h5, h6, h7, h8, h9⟩
    · obtain ⟨r1, q1, _, q3, _⟩ := hk
      rw [h2 r1 (List.mem_of_getElem? q1) trivial] at q3; cases q3
    · have := hk.unique h4; subst this
      rw [hr] at h5; cases h5
      subst h6
      obtain ⟨b', hb', hid, ht, -⟩ := inv.known r.optId t hadd
      rw [h3] at hb'; cases hb'
      simp only [getBestIter, best, h2, h3, Option.getD_some]
      cases b; simp_all
  · intro i t hadd
    have hi0 : i ≠ 0 := by
      obtain ⟨pre, post, e⟩ := List.append_of_mem hadd
      have := hwf pre _ post e
      simp only [OpOk] at this; exact this.1
    obtain ⟨b, hb, hid, ht, hok⟩ := inv.known i t hadd
    have hget : s.getBestIter (some i) = .ok b := by
      cases i with
      | zero => exact absurd rfl hi0
      | succ n => simp [getBestIter, hb]
    rw [hget]
    refine ⟨fun hn => ?_, fun k r hk hr => ?_⟩
    · rcases hok with ⟨-, h2, h3, h4⟩ | ⟨k, r, hE, -⟩
      · cases b; simp_all
      · obtain ⟨r1, q1, q2, q3, _⟩ := hE
        rw [hn r1 (List.mem_of_getElem? q1) q2] at q3; cases q3
    · rcases hok with ⟨hn, -⟩ | ⟨k', r', hE, hr', h3, h4, h5⟩
      · obtain ⟨r1, q1, q2, q3, _⟩ := hk
        rw [hn r1 (List.mem_of_getElem? q1) q2] at q3; cases q3
      · have := hk.unique hE; subst this
        rw [hr] at hr'; cases hr'
        cases b; simp_all

/-- A history used to show that hypotheses can be met: two optimizers, a tie, a `nan`, an `inf`, a clearing. -/
def sampleOps : List Op :=
  [.add 1 "CMA", .addHist 1 [], .put ⟨1, [1], .nan, []⟩, .add 2 "Random", .put ⟨1, [2], .fin 5, []⟩,
   .addHist 2 ["res"], .put ⟨2, [3], .fin 3, [.fin 7]⟩, .put ⟨1, [4], .fin 3, []⟩, .put ⟨2, [5], .pinf, [.nan]⟩,
   .clear (some 2), .putMsg 1 "done"]

example : WellFormed sampleOps := wellFormed_of_wfB (by decide)
/-- The tie between evaluation 3 (optimizer 2) and 4 (optimizer 1) is won by the earlier one. -/
example : ((init false).run sampleOps).getBestIter none =
    .ok { optId := 2, x := [3], fx := .fin 3, type := "Random", callId := 3 } := by
  rfl

/-- **C02.** As long as an optimizer's memory has not been released (or is never released because a trajectory plot
is wanted), its history columns are exactly its logged evaluations in order, its length is their number; an
optimizer never registered or without an opened history has the empty history; the total length counts all
evaluations. -/
theorem C02_history_exact (traj : Bool) (ops : List Op) (i : Nat) (hwf : WellFormed ops)
    (hc : traj = true ∨ ¬ Cleared ops i) :
    ((init traj).run ops).getHistory i "fx" = .ok ((evalsOf (evals ops) i).map fun r => Cell.num r.fx) ∧
    ((init traj).run ops).getHistory i "x" = .ok ((evalsOf (evals ops) i).map fun r => Cell.vec r.x) ∧
    ((init traj).run ops).getHistory i "call_id" = .ok ((callIds (evals ops) i).map Cell.nat) ∧
    ((init traj).run ops).lenOpt i = (evalsOf (evals ops) i).length ∧
    ((init traj).run ops).len = (evals ops).length := by
  have inv := histInv_run traj ops i hwf hc
  have hlen := (bestInv_run traj ops hwf).count
  generalize (init traj).run ops = s at inv hlen
  refine ⟨?_, ?_, ?_, ?_, hlen⟩ <;>
  · by_cases ha : i ∈ added ops
    · by_cases ho : i ∈ opened ops
      · obtain ⟨st, h1, h2⟩ := inv.filled ha ho
        obtain ⟨g1, g2, g3, g4⟩ := getHistory_cols3 h1 h2
        first | exact g1 | exact g2 | exact g3 | simpa using g4
      · obtain ⟨st, h1, h2, h3⟩ := inv.fresh ha ho
        have hh : s.hasIterHistory i = false := by simp [hasIterHistory, h1, h2]
        simp [getHistory, lenOpt, hh, h3, callIds_nil_of_evalsOf h3]
    · obtain ⟨h1, h3⟩ := inv.absent ha
      have hh : s.hasIterHistory i = false := by simp [hasIterHistory, h1]
      simp [getHistory, lenOpt, hh, h3, callIds_nil_of_evalsOf h3]

example : ¬ Cleared sampleOps 1 ∧ 1 ∈ added sampleOps := by
  constructor
  · intro h; rcases h with h | h | h <;> simp [sampleOps] at h
  · decide
example : ((init false).run sampleOps).getHistory 1 "fx" = .ok [.num .nan, .num (.fin 5), .num (.fin 3)] := by rfl
example : ((init false).run sampleOps).getHistory 1 "call_id" = .ok [.nat 1, .nat 2, .nat 4] := by rfl

/-- **C03.** The evaluation numbers recorded for the optimizers (none of them
released from memory) are pairwise distinct over the whole optimization,
strictly increasing inside each optimizer, and together are exactly `1 .. n` where `n` is the number of logged
evaluations. -/
theorem C03_call_ids (traj : Bool) (ops : List Op) (hwf : WellFormed ops)
    (hc : ∀ i, traj = true ∨ ¬ Cleared ops i) :
    (∀ i, ∃ ids : List Nat, ((init traj).run ops).getHistory i "call_id" = .ok (ids.map Cell.nat) ∧
      ids.Pairwise (· < ·)) ∧
    (∀ (i j c : Nat) (ids jds : List Nat), i ≠ j →
      ((init traj).run ops).getHistory i "call_id" = .ok (ids.map Cell.nat) →
      ((init traj).run ops).getHistory j "call_id" = .ok (jds.map Cell.nat) → c ∈ ids → c ∉ jds) ∧
    (∀ c, (1 ≤ c ∧ c ≤ ((init traj).run ops).len) ↔
      ∃ (i : Nat) (ids : List Nat), ((init traj).run ops).getHistory i "call_id" = .ok (ids.map Cell.nat) ∧ c ∈ ids) := by
  have hist := fun i => (C02_history_exact traj ops i hwf (hc i)).2.2.1
  have hlen := (bestInv_run traj ops hwf).count
  have inj : ∀ {a b : List Nat}, a.map Cell.nat = b.map Cell.nat → a = b := by
    intro a b h
    refine (List.map_inj_right (f := Cell.nat) ?_).mp h
    intro x y e; exact Cell.nat.inj e
  have ids_eq : ∀ (i : Nat) (ids : List Nat), ((init traj).run ops).getHistory i "call_id" = .ok (ids.map Cell.nat) →
      ids = callIds (evals ops) i := by
    intro i ids h; rw [hist i] at h
    exact (inj (Except.ok.inj h)).symm
  refine ⟨fun i => ⟨_, hist i, callIds_pairwise _ _⟩, ?_, ?_⟩
  · intro i j c ids jds hij hi hj hci hcj
    rw [ids_eq i ids hi, mem_callIds] at hci
    rw [ids_eq j jds hj, mem_callIds] at hcj
    obtain ⟨r, _, h2, h3⟩ := hci
    obtain ⟨r', _, h2', h3'⟩ := hcj
    rw [h2] at h2'; cases h2'; exact hij (h3.symm.trans h3')
  · intro c
    simp only [len, hlen]
    constructor
    · rintro ⟨h1, h2⟩
      have : c - 1 < (evals ops).length := by omega
      refine ⟨((evals ops)[c-1]).optId, _, hist _, (mem_callIds _ _ _).mpr ⟨(evals ops)[c-1], h1, ?_, rfl⟩⟩
      simp [this]
    · rintro ⟨i, ids, h1, h2⟩
      rw [ids_eq i ids h1] at h2
      exact callIds_le _ _ c h2

/-- **C02, with releases.** Whatever was released and when, the log holds all evaluations of an optimizer or none of them: the three columns and the
length are exact if the optimizer still has a history, else they are empty. -/
theorem C02_all_or_nothing (traj : Bool) (ops : List Op) (i : Nat) (hwf : WellFormed ops) :
    (((init traj).run ops).getHistory i "fx" = .ok ((evalsOf (evals ops) i).map fun r => Cell.num r.fx) ∧
      ((init traj).run ops).getHistory i "x" = .ok ((evalsOf (evals ops) i).map fun r => Cell.vec r.x) ∧
      ((init traj).run ops).getHistory i "call_id" = .ok ((callIds (evals ops) i).map Cell.nat) ∧
      ((init traj).run ops).lenOpt i = (evalsOf (evals ops) i).length) ∨
    ((∀ k, ((init traj).run ops).getHistory i k = .ok []) ∧ ((init traj).run ops).lenOpt i = 0) := by
  by_cases h : ((init traj).run ops).hasIterHistory i = true
  · exact .inl (history_of_has traj hwf h)
  · exact .inr ⟨fun k => by simp [getHistory, h], by simp [lenOpt, h]⟩

/-- **C03, with releases.** Whatever was released and when: the evaluation numbers in the log are strictly increasing inside each optimizer, none
occurs with two optimizers, and all are numbers of evaluations logged. -/
theorem C03_call_ids_released (traj : Bool) (ops : List Op) (hwf : WellFormed ops) :
    (∀ i, ∃ ids : List Nat, ((init traj).run ops).getHistory i "call_id" = .ok (ids.map Cell.nat) ∧
      ids.Pairwise (· < ·) ∧ ∀ c ∈ ids, 1 ≤ c ∧ c ≤ ((init traj).run ops).len) ∧
    (∀ (i j c : Nat) (ids jds : List Nat), i ≠ j →
      ((init traj).run ops).getHistory i "call_id" = .ok (ids.map Cell.nat) →
      ((init traj).run ops).getHistory j "call_id" = .ok (jds.map Cell.nat) → c ∈ ids → c ∉ jds) := by
  have inj : ∀ {a b : List Nat}, a.map Cell.nat = b.map Cell.nat → a = b := by
    intro a b h
    refine (List.map_inj_right (f := Cell.nat) ?_).mp h
    intro x y e; exact Cell.nat.inj e
  have hlen := (bestInv_run traj ops hwf).count
  have sub : ∀ (i : Nat) (ids : List Nat), ((init traj).run ops).getHistory i "call_id" = .ok (ids.map Cell.nat) →
      ids = callIds (evals ops) i ∨ ids = [] := by
    intro i ids h
    rcases C02_all_or_nothing traj ops i hwf with ⟨-, -, h3, -⟩ | ⟨h3, -⟩
    · rw [h3] at h; exact .inl (inj (Except.ok.inj h)).symm
    · rw [h3] at h; exact .inr (List.map_eq_nil_iff.mp (Except.ok.inj h).symm)
  refine ⟨fun i => ?_, fun i j c ids jds hij hi hj hci hcj => ?_⟩
  · rcases C02_all_or_nothing traj ops i hwf with ⟨-, -, h3, -⟩ | ⟨h3, -⟩
    · exact ⟨_, h3, callIds_pairwise _ _, fun c hc => by simp only [len, hlen]; exact callIds_le _ _ c hc⟩
    · exact ⟨[], h3 _, .nil, by simp⟩
  · rcases sub i ids hi with rfl | rfl
    · rcases sub j jds hj with rfl | rfl
      · rw [mem_callIds] at hci hcj
        obtain ⟨r, _, h2, h3⟩ := hci
        obtain ⟨r', _, h2', h3'⟩ := hcj
        rw [h2] at h2'; cases h2'; exact hij (h3.symm.trans h3')
      · cases hcj
    · cases hci

/-- Optimizer 2 was released, optimizer 1 was not. -/
example : ((init false).run sampleOps).getHistory 2 "call_id" = .ok [] ∧
    ((init false).run sampleOps).getHistory 1 "call_id" = .ok [.nat 1, .nat 2, .nat 4] := ⟨rfl, rfl⟩

/-- Two different optimizers really get numbers in the sample history. -/
example : WellFormed sampleOps ∧ ((init true).run sampleOps).getHistory 2 "call_id" = .ok [.nat 3, .nat 5] :=
  ⟨wellFormed_of_wfB (by decide), rfl⟩

/-- **C56.** `largest_eval` is the largest finite value logged so far (`-inf` if there is none). -/
theorem C56_largest_eval (traj : Bool) (ops : List Op) (hwf : WellFormed ops) :
    (((init traj).run ops).maxEval = .ninf ∧ ∀ r ∈ evals ops, r.fx.isFinite = false) ∨
    (∃ q r, ((init traj).run ops).maxEval = .fin q ∧ r ∈ evals ops ∧ r.fx = .fin q ∧
      ∀ r' ∈ evals ops, ∀ q', r'.fx = .fin q' → q' ≤ q) := by
  exact maxEval_run traj ops hwf

example : ((init false).run sampleOps).maxEval = .fin 5 := by rfl

end Glompo.Props
