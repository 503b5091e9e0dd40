import Verif.Spec.Resources
import Verif.Props.Helpers

/-!
# C113 The summary of resources is about all measurements
-/

namespace Glompo.Props

open Glompo
open Glompo.Resources Glompo.Resources.Spec

theorem total_eq : ∀ (l : List (Option Rat)) (m : Rat), total m l = m + (l.filterMap id).sum := by
  intro l
  induction l with
  | nil => intro m; simp [total]
  | cons a t ih =>
    intro m
    cases a with
    | none => simp [total, ih]
    | some c => simp only [total, ih, List.filterMap_cons, id, List.sum_cons]; ring

theorem valid_append (a b : List PyF) : valid (a ++ b) = valid a ++ valid b := by
  induction a with
  | nil => rfl
  | cons x t ih => cases x <;> simp only [List.cons_append, valid, ih]

theorem run_valid (ops : List Op) : ∀ h : Hist,
    valid (run h ops).cpu = valid h.cpu ++ (samples ops).map (·.cpu) ∧
    valid (run h ops).mem = valid h.mem ++ (samples ops).map Spec.Sample.memory ∧
    valid ((run h ops).load.map (·.1)) = valid (h.load.map (·.1)) ++ (samples ops).map (·.load.1) ∧
    valid ((run h ops).load.map (·.2.1)) = valid (h.load.map (·.2.1)) ++ (samples ops).map (·.load.2.1) ∧
    valid ((run h ops).load.map (·.2.2)) = valid (h.load.map (·.2.2)) ++ (samples ops).map (·.load.2.2) := by
  induction ops with
  | nil => intro h; simp [run, samples]
  | cons op t ih =>
    intro h
    cases op with
    | status s =>
      obtain ⟨h1, h2, h3, h4, h5⟩ := ih (record h s)
      simp only [run, samples, List.map_cons]
      rw [h1, h2, h3, h4, h5]
      simp [record, valid_append, valid, total_eq, Spec.Sample.memory]
    | loaded =>
      obtain ⟨h1, h2, h3, h4, h5⟩ := ih (mark h)
      simp only [run, samples]
      rw [h1, h2, h3, h4, h5]
      simp [mark, valid_append, valid]

theorem run_noInf (ops : List Op) : ∀ h : Hist,
    (∀ v ∈ h.cpu ++ h.mem ++ h.load.flatMap (fun t => [t.1, t.2.1, t.2.2]), v = .nan ∨ ∃ q, v = .fin q) →
    ∀ v ∈ (run h ops).cpu ++ (run h ops).mem ++ (run h ops).load.flatMap (fun t => [t.1, t.2.1, t.2.2]), v = .nan ∨ ∃ q, v = .fin q := by
  induction ops with
  | nil => intro h hh; exact hh
  | cons op t ih =>
    intro h hh
    cases op with
    | status s =>
      refine ih (record h s) fun v hv => ?_
      simp only [record, List.mem_append, List.mem_singleton, List.flatMap_append, List.flatMap_cons, List.flatMap_nil, List.append_nil,
        List.mem_cons, List.not_mem_nil, or_false] at hv hh
      rcases hv with ((hv | hv) | hv | hv) | hv | hv | hv | hv
      · exact hh v (.inl (.inl hv))
      · exact .inr ⟨_, hv⟩
      · exact hh v (.inl (.inr hv))
      · exact .inr ⟨_, hv⟩
      · exact hh v (.inr hv)
      · exact .inr ⟨_, hv⟩
      · exact .inr ⟨_, hv⟩
      · exact .inr ⟨_, hv⟩
    | loaded =>
      refine ih (mark h) fun v hv => ?_
      simp only [mark, List.mem_append, List.mem_singleton, List.flatMap_append, List.flatMap_cons, List.flatMap_nil, List.append_nil,
        List.mem_cons, List.not_mem_nil, or_false] at hv hh
      rcases hv with ((hv | hv) | hv | hv) | hv | hv | hv | hv
      · exact hh v (.inl (.inl hv))
      · exact .inl hv
      · exact hh v (.inl (.inr hv))
      · exact .inl hv
      · exact hh v (.inr hv)
      · exact .inl hv
      · exact .inl hv
      · exact .inl hv

theorem anyValid_iff (l : List PyF) (h : ∀ v ∈ l, v = .nan ∨ ∃ q, v = .fin q) : anyValid l = decide (valid l ≠ []) := by
  induction l with
  | nil => rfl
  | cons a t ih =>
    have ht := ih fun v hv => h v (List.mem_cons_of_mem _ hv)
    rcases h a List.mem_cons_self with rfl | ⟨q, rfl⟩
    · have : anyValid (.nan :: t) = anyValid t := by
        cases t with
        | nil => rfl
        | cons b t => simp [anyValid, PyF.isNan]
      rw [this, ht]; rfl
    · simp [anyValid, valid, PyF.isNan]

theorem valid_flat (l : List (PyF × PyF × PyF)) : (valid (l.flatMap fun t => [t.1, t.2.1, t.2.2]) = []) ↔
    valid (l.map (·.1)) = [] ∧ valid (l.map (·.2.1)) = [] ∧ valid (l.map (·.2.2)) = [] := by
  induction l with
  | nil => simp [valid]
  | cons a t ih =>
    obtain ⟨a, b, c⟩ := a
    have e : valid (List.flatMap (fun t : PyF × PyF × PyF => [t.1, t.2.1, t.2.2]) ((a, b, c) :: t)) =
        valid [a] ++ (valid [b] ++ (valid [c] ++ valid (t.flatMap fun t => [t.1, t.2.1, t.2.2]))) := by
      rw [← valid_append, ← valid_append, ← valid_append]; rfl
    have e1 : ∀ (f : PyF × PyF × PyF → PyF), valid (((a, b, c) :: t).map f) = valid [f (a, b, c)] ++ valid (t.map f) := by
      intro f; rw [← valid_append]; rfl
    rw [e, e1, e1, e1]
    simp only [List.append_eq_nil_iff, ih]
    tauto

theorem foldl_max (t : List Rat) : ∀ q : Rat, (t.foldl max q = q ∨ t.foldl max q ∈ t) ∧ q ≤ t.foldl max q ∧ ∀ x ∈ t, x ≤ t.foldl max q := by
  induction t with
  | nil => intro q; exact ⟨.inl rfl, le_refl _, fun x hx => by cases hx⟩
  | cons a t ih =>
    intro q
    obtain ⟨h1, h2, h3⟩ := ih (max q a)
    rw [List.foldl_cons]
    refine ⟨?_, le_trans (le_max_left _ _) h2, fun x hx => ?_⟩
    · rcases h1 with h | h
      · rw [h]
        rcases max_choice q a with h | h <;> rw [h]
        · exact .inl rfl
        · exact .inr List.mem_cons_self
      · exact .inr (List.mem_cons_of_mem _ h)
    · rcases List.mem_cons.mp hx with rfl | hx
      · exact le_trans (le_max_right _ _) h2
      · exact h3 x hx

/-- **C113.** Whatever sessions there were, the summary gives, rounded to the digits it says, averages and standard deviations of all measurements, those of the
load for each of its three numbers, and the largest and the average memory of manager and children together in readable form; loading a checkpoint
counts as nothing. -/
theorem C113_summary (rnd : Nat → Rat → Rat) (sqrt : Rat → Rat) (ops : List Op) (hne : samples ops ≠ [])
    (hmem : ∀ s ∈ samples ops, Spec.Sample.memory s ≤ 1024 ^ 9) :
    ∃ r largest shownMax shownAve, summarise rnd sqrt (run Hist.new ops) = .ok r ∧
      r.cpuAve = rnd 2 (mean ((samples ops).map (·.cpu))) ∧ r.cpuStd = rnd 2 (sqrt (variance ((samples ops).map (·.cpu)))) ∧
      r.loadAve = [rnd 3 (mean ((samples ops).map (·.load.1))), rnd 3 (mean ((samples ops).map (·.load.2.1))),
        rnd 3 (mean ((samples ops).map (·.load.2.2)))] ∧
      r.loadStd = [rnd 3 (sqrt (variance ((samples ops).map (·.load.1)))), rnd 3 (sqrt (variance ((samples ops).map (·.load.2.1)))),
        rnd 3 (sqrt (variance ((samples ops).map (·.load.2.2))))] ∧
      largest ∈ (samples ops).map Spec.Sample.memory ∧ (∀ s ∈ samples ops, Spec.Sample.memory s ≤ largest) ∧
      r.memMax = some shownMax ∧ Helpers.presentMemory largest 2 = .ok shownMax ∧
      r.memAve = some shownAve ∧ Helpers.presentMemory (mean ((samples ops).map Spec.Sample.memory)) 2 = .ok shownAve := by
  obtain ⟨h1, h2, h3, h4, h5⟩ := run_valid ops Hist.new
  simp only [Hist.new, List.map_nil, valid, List.nil_append] at h1 h2 h3 h4 h5
  have hni := run_noInf ops Hist.new (by intro v hv; simp [Hist.new] at hv)
  generalize hh : run Hist.new ops = h at *
  change run ⟨[], [], []⟩ ops = h at hh
  rw [hh] at h1 h2 h3 h4 h5
  have hmap : ∀ {β : Type} (f : Sample → β), (samples ops).map f ≠ [] := fun f => by simpa using hne
  have hcv : anyValid h.cpu = true := by
    rw [anyValid_iff _ fun v hv => hni v (by simp [hv]), h1]
    simpa using hne
  have hmv : anyValid h.mem = true := by
    rw [anyValid_iff _ fun v hv => hni v (by simp [hv]), h2]
    simpa using hne
  have hlv : anyValid (h.load.flatMap fun t => [t.1, t.2.1, t.2.2]) = true := by
    rw [anyValid_iff _ fun v hv => hni v (List.mem_append.mpr (.inr hv)), decide_eq_true_iff]
    intro e
    have := ((valid_flat _).mp e).1
    rw [h3] at this
    exact hmap _ this
  have hmean : ∀ l : List PyF, nanmean l = mean (valid l) := fun l => rfl
  have hvar : ∀ l : List PyF, nanvar l = variance (valid l) := fun l => by simp only [nanvar, variance, mean, nanmean, List.length_map]
  -- the largest
  obtain ⟨m0, mt, hm⟩ : ∃ m0 mt, (samples ops).map Spec.Sample.memory = m0 :: mt := by
    cases hx : (samples ops).map Spec.Sample.memory with
    | nil => exact absurd hx (hmap _)
    | cons a t => exact ⟨a, t, rfl⟩
  have hmaxe : nanmax h.mem = mt.foldl max m0 := by simp only [nanmax, h2, hm]
  obtain ⟨g1, g2, g3⟩ := foldl_max mt m0
  have hin : mt.foldl max m0 ∈ (samples ops).map Spec.Sample.memory := by
    rw [hm]
    rcases g1 with g | g
    · rw [g]; exact List.mem_cons_self
    · exact List.mem_cons_of_mem _ g
  have hall : ∀ s ∈ samples ops, Spec.Sample.memory s ≤ mt.foldl max m0 := by
    intro s hs
    have : Spec.Sample.memory s ∈ m0 :: mt := hm ▸ List.mem_map_of_mem hs
    rcases List.mem_cons.mp this with e | e
    · rw [e]; exact g2
    · exact g3 _ e
  have hle : mt.foldl max m0 ≤ 1024 ^ 9 := by
    obtain ⟨s, hs, e⟩ := List.mem_map.mp hin
    rw [← e]; exact hmem s hs
  have hmeanle : mean ((samples ops).map Spec.Sample.memory) ≤ 1024 ^ 9 := by
    have : ∀ l : List Rat, (∀ q ∈ l, q ≤ 1024 ^ 9) → l.sum ≤ l.length * 1024 ^ 9 := by
      intro l
      induction l with
      | nil => intro _; simp
      | cons a t ih =>
        intro hl
        have h1 := hl a List.mem_cons_self
        have h2 := ih fun q hq => hl q (List.mem_cons_of_mem _ hq)
        simp only [List.sum_cons, List.length_cons]
        push_cast
        linarith
    have hs := this ((samples ops).map Spec.Sample.memory) (by
      intro q hq
      obtain ⟨s, hs, rfl⟩ := List.mem_map.mp hq
      exact hmem s hs)
    have hpos : (0 : Rat) < ((samples ops).map Spec.Sample.memory).length := by
      have := List.length_pos_iff.mpr (hmap Spec.Sample.memory)
      exact_mod_cast this
    rw [mean, div_le_iff₀ hpos]
    linarith
  obtain ⟨v1, k1, p1, e1, -⟩ := (C65_present_memory (mt.foldl max m0) 2).1 hle
  obtain ⟨v2, k2, p2, e2, -⟩ := (C65_present_memory (mean ((samples ops).map Spec.Sample.memory)) 2).1 hmeanle
  refine ⟨⟨_, _, _, _, _, _⟩, mt.foldl max m0, _, _, ?_, rfl, rfl, rfl, rfl, hin, hall, rfl, e1, rfl, e2⟩
  simp only [summarise, hcv, hlv, hmv, if_true, shown, hmaxe, e1, hmean, hvar, h1, h2, e2, columns, List.map_cons, List.map_nil, h3, h4, h5]

/-- **C113 (nothing measured).** If there was no measurement, however often checkpoints were loaded, the placeholders are given. -/
theorem C113_nothing (rnd : Nat → Rat → Rat) (sqrt : Rat → Rat) (ops : List Op) (hne : samples ops = []) :
    summarise rnd sqrt (run Hist.new ops) = .ok ⟨[0], [0], none, none, 0, 0⟩ := by
  obtain ⟨h1, h2, h3, h4, h5⟩ := run_valid ops Hist.new
  simp only [Hist.new, List.map_nil, valid, List.nil_append, hne] at h1 h2 h3 h4 h5
  have hni := run_noInf ops Hist.new (by intro v hv; simp [Hist.new] at hv)
  generalize hh : run Hist.new ops = h at *
  change run ⟨[], [], []⟩ ops = h at hh
  rw [hh] at h1 h2 h3 h4 h5
  have hcv : anyValid h.cpu = false := by
    rw [anyValid_iff _ fun v hv => hni v (by simp [hv]), h1]; rfl
  have hmv : anyValid h.mem = false := by
    rw [anyValid_iff _ fun v hv => hni v (by simp [hv]), h2]; rfl
  have hlv : anyValid (h.load.flatMap fun t => [t.1, t.2.1, t.2.2]) = false := by
    rw [anyValid_iff _ fun v hv => hni v (List.mem_append.mpr (.inr hv)), (valid_flat _).mpr ⟨h3, h4, h5⟩]; rfl
  simp only [summarise, hcv, hmv, hlv, Bool.false_eq_true, if_false]

/-- Two sessions: two measurements, a checkpoint loaded, a third measurement. -/
def resourceOps : List Op :=
  [.status ⟨50, 1000, [some 500, none], (1, 2, 3)⟩, .status ⟨150, 2000, [some 48], (3, 2, 1)⟩, .loaded, .status ⟨100, 1000, [], (2, 2, 2)⟩]

example : samples resourceOps ≠ [] ∧ (∀ s ∈ samples resourceOps, Spec.Sample.memory s ≤ 1024 ^ 9) ∧
    (samples resourceOps).map Spec.Sample.memory = [1500, 2048, 1000] := by
  refine ⟨by decide, ?_, by decide +kernel⟩
  intro s hs
  simp only [resourceOps, samples, List.mem_cons, List.not_mem_nil, or_false] at hs
  rcases hs with rfl | rfl | rfl <;> norm_num [Spec.Sample.memory, List.filterMap_cons]

end Glompo.Props
