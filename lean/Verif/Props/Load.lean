import Verif.Props.Setup
import Verif.Lemmas.Basic
import Mathlib.Data.List.Nodup

/-!
# C38, C40 and the loading part of C32
-/

namespace Glompo.Props

open Glompo Glompo.Init Glompo.Spec.Setup

/-! ### Helpers -/

theorem demand_spec {known : List (Nat × Int)} : ∀ {rs : List (Nat × Bool)} {w : List (Nat × Int)}, demand known rs = .ok w →
    w.map (·.1) = rs.map (·.1) ∧ (∀ p ∈ w, dictGet known p.1 = some p.2) ∧
    w.map (·.2) = rs.filterMap (fun r => dictGet known r.1)
  | [], w, h => by
    simp only [demand, Except.ok.injEq] at h
    subst h; simp
  | (i, b) :: t, w, h => by
    rw [demand] at h
    cases hi : dictGet known i with
    | none => simp [hi] at h
    | some s =>
      simp only [hi] at h
      cases ht : demand known t with
      | error e => simp [ht] at h
      | ok r =>
        simp only [ht, Except.ok.injEq] at h
        subst h
        obtain ⟨h1, h2, h3⟩ := demand_spec ht
        refine ⟨by simp [h1], ?_, by simp [hi, h3]⟩
        intro p hp
        rcases List.mem_cons.1 hp with rfl | hp
        · exact hi
        · exact h2 p hp

theorem demand_ok {known : List (Nat × Int)} : ∀ (rs : List (Nat × Bool)), (∀ r ∈ rs, (dictGet known r.1).isSome) →
    ∃ w, demand known rs = .ok w
  | [], _ => ⟨[], rfl⟩
  | (i, b) :: t, h => by
    obtain ⟨r, hr⟩ := demand_ok t fun r hr => h r (.tail _ hr)
    have := h (i, b) (.head _)
    obtain ⟨s, hs⟩ := Option.isSome_iff_exists.1 this
    exact ⟨(i, s) :: r, by simp only [demand, hs, hr]⟩

theorem tdiv_mul_le {a : Int} {b : Nat} (hb : 0 < b) (h : 1 ≤ intDiv a b) : (b : Int) * intDiv a b ≤ a ∧ (b : Int) ≤ a := by
  unfold intDiv at *
  have ha : 0 ≤ a := by
    by_contra hn
    have h2 : a < 0 := by omega
    have : Int.tdiv a b ≤ 0 := by
      rw [← Int.neg_neg a, Int.neg_tdiv]
      have := Int.tdiv_nonneg (a := -a) (b := (b : Int)) (by omega) (by omega)
      omega
    omega
  have hm := Int.mul_tdiv_add_tmod a b
  have hr := Int.tmod_nonneg (b : Int) ha
  constructor
  · omega
  · have : (b : Int) * 1 ≤ (b : Int) * Int.tdiv a b := Int.mul_le_mul_of_nonneg_left h (by omega)
    omega

theorem sum_const (l : List (Nat × Int)) (k : Int) : ((l.map fun p => (p.1, k)).map (·.2)).sum = (l.length : Int) * k := by
  induction l with
  | nil => simp
  | cons a t ih =>
    simp only [List.map_cons, List.sum_cons, List.length_cons] at *
    rw [ih]; push_cast; ring

theorem sum_filter_le (l : List (Nat × Int)) (p : Nat × Int → Bool) (h : ∀ q ∈ l, 1 ≤ q.2) :
    ((l.filter p).map (·.2)).sum ≤ (l.map (·.2)).sum := by
  induction l with
  | nil => simp
  | cons a t ih =>
    have ht := ih fun q hq => h q (.tail _ hq)
    have ha := h a (.head _)
    rw [List.filter_cons]
    split
    · simp only [List.map_cons, List.sum_cons]; omega
    · simp only [List.map_cons, List.sum_cons]; omega

theorem apportion_spec {j : Int} {w s : List (Nat × Int)} (h : apportion j w = .ok s) (hp : ∀ q ∈ w, 1 ≤ q.2) :
    s.map (·.1) = w.map (·.1) ∧ (s.map (·.2)).sum ≤ j ∧ (∀ q ∈ s, 1 ≤ q.2) ∧ ((w.map (·.2)).sum ≤ j → s = w) ∧
    (j < (w.map (·.2)).sum → ∀ q ∈ s, q.2 = intDiv j w.length) := by
  unfold apportion at h
  split at h
  · rename_i hlt
    split at h
    · cases h
    · rename_i hl
      split at h
      · cases h
      · rename_i hd
        simp only [Except.ok.injEq] at h
        subst h
        have hq := tdiv_mul_le (a := j) (b := w.length) (by omega) (by omega)
        refine ⟨by simp [Function.comp_def], ?_, ?_, fun h => by omega, fun _ q hq => ?_⟩
        · rw [sum_const]; exact hq.1
        · intro q hq
          obtain ⟨p, -, rfl⟩ := List.mem_map.1 hq
          show 1 ≤ intDiv j w.length
          omega
        · obtain ⟨p, -, rfl⟩ := List.mem_map.1 hq
          rfl
  · rename_i hlt
    simp only [Except.ok.injEq] at h
    subst h
    exact ⟨rfl, by omega, hp, fun _ => rfl, fun h => absurd h hlt⟩

theorem rebuild_ids : ∀ (rs : List (Nat × Bool)) (s : List (Nat × Int)), s.map (·.1) = rs.map (·.1) → (rs.map (·.1)).Nodup →
    (rebuild rs s).map (·.1) = (rs.filter (·.2)).map (·.1) := by
  have key : ∀ (all rs : List (Nat × Bool)) (s : List (Nat × Int)), s.map (·.1) = rs.map (·.1) → (all.map (·.1)).Nodup →
      (∀ r ∈ rs, r ∈ all) → (s.filter fun p => all.any fun q => q.1 == p.1 && q.2).map (·.1) = (rs.filter (·.2)).map (·.1) := by
    intro all rs
    induction rs with
    | nil => intro s hs _ _; simp at hs; simp [hs]
    | cons r t ih =>
      intro s hs hnd hin
      cases s with
      | nil => simp at hs
      | cons p s =>
        simp only [List.map_cons, List.cons.injEq] at hs
        have ih := ih s hs.2 hnd fun q hq => hin q (.tail _ hq)
        have hr : (all.any fun q => q.1 == p.1 && q.2) = r.2 := by
          rw [Bool.eq_iff_iff, List.any_eq_true]
          constructor
          · rintro ⟨q, hq, h⟩
            simp only [Bool.and_eq_true, beq_iff_eq] at h
            have : q = r := by
              exact List.inj_on_of_nodup_map hnd hq (hin r (.head _)) (h.1.trans hs.1)
            rw [← this]; exact h.2
          · intro h
            exact ⟨r, hin r (.head _), by simp [hs.1, h]⟩
        rw [List.filter_cons, List.filter_cons, hr]
        cases hr2 : r.2 with
        | true => simp only [if_true, List.map_cons]; rw [ih, hs.1]
        | false => simpa only [Bool.false_eq_true, if_false] using ih
  intro rs s hs hnd
  exact key rs rs s hs hnd fun _ h => h

/-- Where a task that was chosen comes from. -/
theorem chooseTask_some {t0 t : Option Task} {a : LoadArgs} (h : chooseTask t0 a = (t, none)) :
    ∃ u, t = some u ∧ (t0 = some u ∨ (a.loader = some (.ok (some u)) ∧ u.callable = true) ∨
      (a.task = some u ∧ u.callable = true)) := by
  unfold chooseTask at h
  split at h
  · cases h
  rename_i t1 hl
  split at h
  · cases h
  rename_i t2 hg
  cases t2 with
  | none => cases h
  | some u =>
    simp only [assertSome, Prod.mk.injEq, and_true] at h
    refine ⟨u, h.symm, ?_⟩
    have hc : ∀ v : Task, assertCallable (some v) = none → v.callable = true := by
      intro v hv
      by_contra hn
      simp [assertCallable, hn] at hv
    have hl' : t1 = some u → t0 = some u ∨ (a.loader = some (.ok (some u)) ∧ u.callable = true) := by
      rintro rfl
      unfold useLoader at hl
      split at hl
      · simp only [Prod.mk.injEq, and_true] at hl; exact .inl hl
      · rename_i l hle
        split at hl
        · cases l with
          | error e => simp [callLoader] at hl
          | ok r =>
            simp only [callLoader, Prod.mk.injEq] at hl
            obtain ⟨rfl, hl⟩ := hl
            exact .inr ⟨hle, hc _ hl⟩
        · simp only [Prod.mk.injEq, and_true] at hl; exact .inl hl
    unfold useGiven at hg
    split at hg
    · simp only [Prod.mk.injEq, and_true] at hg
      rcases hl' hg with h | h
      · exact .inl h
      · exact .inr (.inl h)
    · rename_i g hge
      split at hg
      · simp only [Prod.mk.injEq, Option.some.injEq] at hg
        obtain ⟨rfl, hg⟩ := hg
        exact .inr (.inr ⟨hge, hc _ hg⟩)
      · simp only [Prod.mk.injEq, and_true] at hg
        rcases hl' hg with h | h
        · exact .inl h
        · exact .inr (.inl h)

theorem buildTask_from {f : TaskFile} {t : Option Task} {a : LoadArgs} (h : buildTask f a = (t, none)) :
    ∃ u, t = some u ∧ (f = .holds (some u) ∨ (a.loader = some (.ok (some u)) ∧ u.callable = true) ∨
      (a.task = some u ∧ u.callable = true)) := by
  cases f with
  | broken => cases h
  | absent =>
    obtain ⟨u, hu, h⟩ := chooseTask_some h
    exact ⟨u, hu, h.imp_left fun h => by cases h⟩
  | holds t0 =>
    obtain ⟨u, hu, h⟩ := chooseTask_some h
    exact ⟨u, hu, h.imp_left fun h => by rw [h]⟩

theorem buildTask_some {f : TaskFile} {t : Option Task} {a : LoadArgs} (h : buildTask f a = (t, none)) : ∃ u, t = some u :=
  let ⟨u, hu, _⟩ := buildTask_from h
  ⟨u, hu⟩

/-- A successful load went through every stage. -/
theorem load_success {c : Chkpt} {a : LoadArgs} {m m' : Mgr} (hm : m.isInitialised = false) (h : load c a m = (m', none)) :
    ∃ saved t w s, c.archive = true ∧ c.manager = some saved ∧ buildTask c.task a = (some t, none) ∧ c.log = true ∧
      saved.starts.length = saved.ends.length ∧ demand saved.slots c.restarts = .ok w ∧
      apportion (a.maxJobs.getD saved.maxJobs) w = .ok s ∧ ¬ ((rebuild c.restarts s).length = 0 ∧ 0 < s.length) ∧
      m' = { saved with
             task := some t, maxJobs := a.maxJobs.getD saved.maxJobs, tUsed := usedTime saved.starts saved.ends
             packs := rebuild c.restarts s, isRestart := some true } := by
  unfold load at h
  rw [hm] at h
  simp only [Bool.false_eq_true, if_false] at h
  split at h
  · cases h
  rename_i harch
  split at h
  · cases h
  rename_i saved hsaved
  unfold loadTask at h
  split at h
  · cases h
  rename_i t0 htask
  obtain ⟨t, rfl⟩ := buildTask_some htask
  unfold loadRest at h
  split at h
  · cases h
  rename_i hlog
  split at h
  · cases h
  rename_i hlen
  unfold restartOptimizers at h
  simp only [setAttributes, override] at h hlen
  split at h
  · cases h
  rename_i w hw
  split at h
  · cases h
  rename_i s hs
  unfold finishLoad at h
  split at h
  · cases h
  rename_i hpk
  refine ⟨saved, t, w, s, by simpa using harch, hsaved, htask, by simpa using hlog, by simpa using hlen, hw, hs, hpk, ?_⟩
  simp only [Prod.mk.injEq, and_true] at h
  exact h.symm

/-! ### C38 -/

/-- **C38.** Loading a checkpoint in which every optimizer holds at least one slot, with any `max_jobs` (given anew or saved): if no
exception is raised, the restarted optimizers are exactly those of the checkpoint that can be rebuilt; their slots sum to at most
`max_jobs`; each has at least one; all are as in the checkpoint if those fit, and otherwise they are equal shares. -/
theorem C38_no_oversubscription (c : Chkpt) (a : LoadArgs) (m m' saved : Mgr) (hm : m.isInitialised = false)
    (hsaved : c.manager = some saved) (hpos : ∀ i s, dictGet saved.slots i = some s → 1 ≤ s)
    (hnd : (c.restarts.map (·.1)).Nodup) (h : load c a m = (m', none)) :
    m'.maxJobs = a.maxJobs.getD saved.maxJobs ∧
    m'.packs.map (·.1) = (c.restarts.filter (·.2)).map (·.1) ∧
    (m'.packs.map (·.2)).sum ≤ m'.maxJobs ∧
    (∀ p ∈ m'.packs, 1 ≤ p.2) ∧
    ((c.restarts.filterMap fun r => dictGet saved.slots r.1).sum ≤ m'.maxJobs →
      ∀ p ∈ m'.packs, dictGet saved.slots p.1 = some p.2) ∧
    (m'.maxJobs < (c.restarts.filterMap fun r => dictGet saved.slots r.1).sum →
      ∀ p ∈ m'.packs, p.2 = m'.maxJobs / (c.restarts.length : Int)) := by
  obtain ⟨saved', t, w, s, -, hsv, -, -, -, hw, hs, -, rfl⟩ := load_success hm h
  rw [hsaved, Option.some.injEq] at hsv
  subst hsv
  obtain ⟨w1, w2, w3⟩ := demand_spec hw
  have hwp : ∀ q ∈ w, 1 ≤ q.2 := fun q hq => hpos _ _ (w2 q hq)
  obtain ⟨s1, s2, s3, s4, s5⟩ := apportion_spec hs hwp
  have hlen : w.length = c.restarts.length := by simpa using congrArg List.length w1
  refine ⟨rfl, rebuild_ids _ _ (s1.trans w1) hnd, ?_, ?_, ?_, ?_⟩
  · exact (sum_filter_le s _ s3).trans s2
  · intro p hp
    exact s3 p (List.mem_filter.1 hp).1
  · intro hfit p hp
    have := s4 (by rw [w3]; exact hfit)
    subst this
    exact w2 p (List.mem_filter.1 hp).1
  · intro hfit p hp
    have hp' := (List.mem_filter.1 hp).1
    have h1 := s5 (by rw [w3]; exact hfit) p hp'
    rw [h1, hlen]
    have h2 : 1 ≤ intDiv (a.maxJobs.getD saved.maxJobs) c.restarts.length := by rw [← hlen, ← h1]; exact s3 p hp'
    have hl : 0 < c.restarts.length := by
      rw [← hlen]
      have : s.length = w.length := by simpa using congrArg List.length s1
      have := List.length_pos_of_mem hp'
      omega
    have h3 := tdiv_mul_le hl h2
    exact Int.tdiv_eq_ediv_of_nonneg (by omega)

/-- A checkpoint with three optimizers holding six slots; one of them cannot be rebuilt. -/
def sampleChkpt : Chkpt where
  archive := true
  manager := some { (default : Mgr) with
    isRestart := some false, maxJobs := 6, slots := [(1, 3), (2, 1), (4, 2)], starts := [0, 10], ends := [7, 12] }
  task := .holds (some ⟨"f", true, true⟩)
  log := true
  restarts := [(1, true), (2, false), (4, true)]

example : (load sampleChkpt ⟨none, none, some 5⟩ default).1.packs = [(1, 1), (4, 1)] ∧
    (load sampleChkpt ⟨none, none, some 5⟩ default).2 = none ∧
    (load sampleChkpt ⟨none, none, none⟩ default).1.packs = [(1, 3), (4, 2)] ∧
    (load sampleChkpt ⟨none, none, some 2⟩ default).2 = some .checkpointingError := by decide +kernel
example : ∀ i s, dictGet [(1, (3 : Int)), (2, 1), (4, 2)] i = some s → 1 ≤ s := by
  intro i s h
  simp only [dictGet] at h
  repeat' split at h
  all_goals first | (cases h; done) | (simp only [Option.some.injEq] at h; omega)

/-- **C38 (enough jobs).** If everything in the checkpoint can be read, every optimizer in it is known to the manager, at least one can
be rebuilt (or there are none) and there is one job per optimizer, loading succeeds. -/
theorem C38_enough_jobs (c : Chkpt) (a : LoadArgs) (m saved : Mgr) (hm : m.isInitialised = false)
    (hsaved : c.manager = some saved) (harch : c.archive = true) (hlog : c.log = true)
    (htask : (buildTask c.task a).2 = none) (hlen : saved.starts.length = saved.ends.length)
    (hknown : ∀ r ∈ c.restarts, (dictGet saved.slots r.1).isSome)
    (hok : c.restarts = [] ∨ ∃ r ∈ c.restarts, r.2 = true)
    (hjobs : (c.restarts.length : Int) ≤ a.maxJobs.getD saved.maxJobs) :
    (load c a m).2 = none ∧ (load c a m).1.isRestart = some true := by
  obtain ⟨w, hw⟩ := demand_ok c.restarts hknown
  obtain ⟨w1, -, -⟩ := demand_spec hw
  have hwl : w.length = c.restarts.length := by simpa using congrArg List.length w1
  obtain ⟨s, hs, hs1⟩ : ∃ s, apportion (a.maxJobs.getD saved.maxJobs) w = .ok s ∧ s.map (·.1) = w.map (·.1) := by
    unfold apportion
    split
    · rename_i hlt
      have hl : w.length ≠ 0 := by
        intro h0
        have : w = [] := List.length_eq_zero_iff.1 h0
        rw [this] at hlt
        simp only [List.map_nil, List.sum_nil] at hlt
        omega
      rw [if_neg hl]
      have : 1 ≤ intDiv (a.maxJobs.getD saved.maxJobs) w.length := by
        unfold intDiv
        rw [Int.tdiv_eq_ediv_of_nonneg (by omega)]
        exact (Int.le_ediv_iff_mul_le (by omega)).2 (by omega)
      rw [if_neg (by omega)]
      exact ⟨_, rfl, by simp [Function.comp_def]⟩
    · exact ⟨w, rfl, rfl⟩
  have hpk : ¬ ((rebuild c.restarts s).length = 0 ∧ 0 < s.length) := by
    rintro ⟨h0, h1⟩
    rcases hok with hok | ⟨r, hr, hr2⟩
    · have : s.length = w.length := by simpa using congrArg List.length hs1
      rw [hok] at hwl
      simp only [List.length_nil] at hwl
      omega
    · have hr' : r.1 ∈ s.map (·.1) := by rw [hs1, w1]; exact List.mem_map_of_mem hr
      obtain ⟨p, hp, hpe⟩ := List.mem_map.1 hr'
      have : p ∈ rebuild c.restarts s := List.mem_filter.2 ⟨hp, List.any_eq_true.2 ⟨r, hr, by simp [hpe, hr2]⟩⟩
      have := List.length_pos_of_mem this
      omega
  rcases hb : buildTask c.task a with ⟨t, e⟩
  rw [hb] at htask
  simp only at htask
  subst htask
  unfold load
  rw [hm]
  simp only [Bool.false_eq_true, if_false, harch, hsaved, loadTask, hb, loadRest, hlog, Bool.true_eq_false, override, setAttributes,
    hlen, ne_eq, not_true_eq_false, restartOptimizers, hw, hs, finishLoad]
  rw [if_neg hpk]
  exact ⟨rfl, rfl⟩

example : (load sampleChkpt ⟨none, none, some 3⟩ default).2 = none :=
  (C38_enough_jobs sampleChkpt ⟨none, none, some 3⟩ default _ rfl rfl rfl rfl (by decide) rfl (by decide +kernel)
    (.inr ⟨(1, true), by decide, rfl⟩) (by decide)).1

/-! ### C40 -/

/-- An object which can serve as the task. Functions are truthy. -/
def Usable (t : Task) : Prop := t.callable = true ∧ t.truthy = true

/-- **C40 (priority).** With usable tasks only. A task in the checkpoint is used whatever else is offered; without one the loader's;
without a loader the one given; the loader's exception, an unreadable file and the absence of all three raise
`CheckpointingError`. Nothing lower is tried when something higher is broken. Missing: see the refuted parts. -/
theorem C40_priority_partial (c : Chkpt) (a : LoadArgs) (m : Mgr) (hm : m.isInitialised = false) (harch : c.archive = true)
    (hman : c.manager ≠ none) :
    (∀ t, c.task = .holds (some t) → Usable t → (load c a m).1.task = some t) ∧
    (∀ t, c.task = .absent → a.loader = some (.ok (some t)) → Usable t → (load c a m).1.task = some t) ∧
    (∀ t, c.task = .absent → a.loader = none → a.task = some t → Usable t → (load c a m).1.task = some t) ∧
    (c.task = .broken → (load c a m).2 = some .checkpointingError) ∧
    (∀ e, c.task = .absent → a.loader = some (.error e) → (load c a m).2 = some .checkpointingError) ∧
    (c.task = .absent → a.loader = some (.ok none) → (load c a m).2 = some .checkpointingError) ∧
    (c.task = .absent → a.loader = none → a.task = none → (load c a m).2 = some .checkpointingError) := by
  obtain ⟨saved, hsaved⟩ := Option.ne_none_iff_exists'.1 hman
  have hok : ∀ t, buildTask c.task a = (some t, none) → (load c a m).1.task = some t := by
    intro t ht
    have hr : ∀ m' : Mgr, (loadRest c m').1.task = m'.task := by
      intro m'
      unfold loadRest restartOptimizers finishLoad
      split
      · rfl
      · split
        · rfl
        · split
          · rfl
          · split
            · rfl
            · split <;> rfl
    unfold load
    rw [hm]
    simp only [Bool.false_eq_true, if_false, harch, hsaved, ht, Bool.true_eq_false, loadTask, hr]
    rfl
  have herr : ∀ t, buildTask c.task a = (t, some .checkpointingError) → (load c a m).2 = some .checkpointingError := by
    intro t ht
    unfold load
    rw [hm]
    simp only [Bool.false_eq_true, if_false, harch, hsaved, ht, Bool.true_eq_false, loadTask]
  refine ⟨?_, ?_, ?_, ?_, ?_, ?_, ?_⟩
  · intro t hc ht
    apply hok
    rw [hc]
    have hmiss : missing (some t) = false := by simp [missing, ht.2]
    rcases hl : a.loader with _ | l <;> rcases hg : a.task with _ | g <;> simp [buildTask, chooseTask, assertSome, assertCallable, callLoader, useLoader, useGiven, hl, hg, hmiss]
  · intro t hc hl ht
    apply hok
    rw [hc]
    have hmiss : missing (some t) = false := by simp [missing, ht.2]
    rcases hg : a.task with _ | g <;> simp [buildTask, chooseTask, assertSome, assertCallable, callLoader, useLoader, useGiven, hl, hg, hmiss, missing, ht.1, ht.2]
  · intro t hc hl hg ht
    apply hok
    rw [hc]
    simp [buildTask, chooseTask, assertSome, assertCallable, callLoader, useLoader, useGiven, hl, hg, missing, ht.1, ht.2]
  · intro hc
    apply herr (t := none)
    rw [hc]; rfl
  · intro e hc hl
    apply herr (t := none)
    simp [hc, buildTask, chooseTask, assertSome, assertCallable, callLoader, useLoader, hl, missing]
  · intro hc hl
    apply herr (t := none)
    simp [hc, buildTask, chooseTask, assertSome, assertCallable, callLoader, useLoader, hl, missing]
  · intro hc hl hg
    apply herr (t := none)
    simp [hc, buildTask, chooseTask, assertSome, assertCallable, callLoader, useLoader, useGiven, hl, hg]

example : (load { sampleChkpt with task := .absent } ⟨none, some ⟨"g", true, true⟩, none⟩ default).1.task =
    some ⟨"g", true, true⟩ ∧
    (load { sampleChkpt with task := .absent } ⟨some (.ok (some ⟨"h", true, true⟩)), some ⟨"g", true, true⟩, none⟩ default).1.task =
      some ⟨"h", true, true⟩ := by decide +kernel

/-- **C40 (some task).** After a load without exception the manager has a task, and it is the one in the checkpoint, the one the
loader returned or the one given. -/
theorem C40_some_task (c : Chkpt) (a : LoadArgs) (m m' : Mgr) (hm : m.isInitialised = false) (h : load c a m = (m', none)) :
    ∃ t, m'.task = some t ∧ (c.task = .holds (some t) ∨ (a.loader = some (.ok (some t)) ∧ t.callable = true) ∨
      (a.task = some t ∧ t.callable = true)) := by
  obtain ⟨saved, t, w, s, -, -, ht, -, -, -, -, -, rfl⟩ := load_success hm h
  obtain ⟨u, hu, h⟩ := buildTask_from ht
  rw [Option.some.injEq] at hu
  subst hu
  exact ⟨t, rfl, h⟩

example : (load sampleChkpt ⟨none, none, none⟩ default).2 = none := by decide +kernel

/-- **C40 (refuted part).** A usable task is given, but it is not used when the loader fails, although the documentation says "first
attempt to use the `task_loader` and then only use `task` if that fails". -/
theorem C40_fallback_refuted : ∃ (c : Chkpt) (a : LoadArgs) (t : Task), c.task = .absent ∧ a.loader = some (.error .other) ∧
    a.task = some t ∧ Usable t ∧ (load c a default).2 = some .checkpointingError :=
  ⟨{ sampleChkpt with task := .absent }, ⟨some (.error .other), some ⟨"g", true, true⟩, none⟩, ⟨"g", true, true⟩, rfl, rfl, rfl,
    ⟨rfl, rfl⟩, by decide +kernel⟩

/-- **C40 (refuted part).** If the file of the task cannot be read, a loader and a task which are usable are not tried. -/
theorem C40_broken_file_refuted : ∃ (c : Chkpt) (a : LoadArgs) (t : Task), c.task = .broken ∧ a.loader = some (.ok (some t)) ∧
    a.task = some t ∧ Usable t ∧ (load c a default).2 = some .checkpointingError :=
  ⟨{ sampleChkpt with task := .broken }, ⟨some (.ok (some ⟨"g", true, true⟩)), some ⟨"g", true, true⟩, none⟩,
    ⟨"g", true, true⟩, rfl, rfl, rfl, ⟨rfl, rfl⟩, by decide +kernel⟩

/-- **C40 (refuted part).** A task restored from the checkpoint which is callable but falsy (for example because it has length 0) is
replaced by the one given. -/
theorem C40_falsy_task_refuted : ∃ (c : Chkpt) (a : LoadArgs) (t u : Task), c.task = .holds (some t) ∧ t.callable = true ∧
    a.task = some u ∧ t ≠ u ∧ (load c a default).2 = none ∧ (load c a default).1.task = some u :=
  ⟨{ sampleChkpt with task := .holds (some ⟨"f", false, true⟩) }, ⟨none, some ⟨"g", true, true⟩, none⟩,
    ⟨"f", false, true⟩, ⟨"g", true, true⟩, rfl, rfl, rfl, by decide, by decide +kernel, by decide +kernel⟩

/-! ### C32, loading -/

/-- **C32 (loading).** A load which succeeds marks the manager as a restart; one which cannot unpack the archive or read the manager's
file changes nothing. -/
theorem C32_load (c : Chkpt) (a : LoadArgs) (m : Mgr) (hm : m.isInitialised = false) :
    ((load c a m).2 = none → (load c a m).1.isRestart = some true) ∧
    (c.archive = false ∨ c.manager = none → (load c a m).1 = m ∧ (load c a m).2 ≠ none) := by
  constructor
  · intro h
    obtain ⟨saved, t, w, s, -, -, -, -, -, -, -, -, hm'⟩ := load_success hm (m' := (load c a m).1) (by rw [← h])
    rw [hm']
  · intro h
    unfold load
    rw [hm]
    simp only [Bool.false_eq_true, if_false]
    by_cases ha : c.archive = false
    · simp [ha]
    · rw [if_neg ha]
      rcases h with h | h
      · exact absurd h ha
      · simp [h]

example : (load { sampleChkpt with archive := false } ⟨none, none, none⟩ default).1 = default :=
  ((C32_load _ _ _ rfl).2 (.inl rfl)).1

/-- **C32 (refuted part).** A load which fails after the manager's variables were read leaves the manager initialised, without a task:
a second attempt to load, now with everything needed, is refused and changes nothing. -/
theorem C32_failed_load_refuted : ∃ (c : Chkpt) (a b : LoadArgs), (load c a default).2 = some .checkpointingError ∧
    (load c b default).2 = none ∧ (load c a default).1.isInitialised = true ∧ (load c a default).1.task = none ∧
    load c b (load c a default).1 = ((load c a default).1, none) :=
  ⟨{ sampleChkpt with task := .absent }, ⟨none, none, none⟩, ⟨none, some ⟨"g", true, true⟩, none⟩,
    by decide +kernel, by decide +kernel, by decide +kernel, by decide +kernel, by decide +kernel⟩

end Glompo.Props
