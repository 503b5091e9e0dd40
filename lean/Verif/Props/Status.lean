import Verif.Spec.Status
import Verif.Props.ManagerFile

/-! # C118: status messages -/

namespace Glompo.Status

open Glompo.Spec

theorem group_filter : ∀ l : List Char, (∀ c ∈ l, c ≠ ' ') → (group l).filter (fun c => c != ' ') = l
  | [], _ => rfl
  | [a], h => by simp [group, h a]
  | [a, b], h => by simp [group, h a, h b]
  | [a, b, c], h => by simp [group, h a, h b, h c]
  | a :: b :: c :: d :: t, h => by
    have := group_filter (d :: t) fun x hx => h x (by simp only [List.mem_cons] at hx ⊢; tauto)
    have ha := h a (by simp); have hb := h b (by simp); have hc := h c (by simp)
    simp [group, this, ha, hb, hc]

theorem group_blank : ∀ l : List Char, (∀ c ∈ l, c ≠ ' ') → ∀ k < (group l).length, (group l)[k]? = some ' ' ↔ k % 4 = 3
  | [], _, k, hk => by simp [group] at hk
  | [a], h, k, hk => by
    have : k = 0 := by simp [group] at hk; omega
    subst this; simp [group, h a]
  | [a, b], h, k, hk => by
    have : k = 0 ∨ k = 1 := by simp [group] at hk; omega
    rcases this with rfl | rfl <;> simp [group, h a, h b]
  | [a, b, c], h, k, hk => by
    have : k = 0 ∨ k = 1 ∨ k = 2 := by simp [group] at hk; omega
    rcases this with rfl | rfl | rfl <;> simp [group, h a, h b, h c]
  | a :: b :: c :: d :: t, h, k, hk => by
    have ih := group_blank (d :: t) fun x hx => h x (by simp only [List.mem_cons] at hx ⊢; tauto)
    have ha := h a (by simp); have hb := h b (by simp); have hc := h c (by simp)
    simp only [group, List.length_cons] at hk ⊢
    match k, hk with
    | 0, _ => simp [ha]
    | 1, _ => simp [hb]
    | 2, _ => simp [hc]
    | 3, _ => simp
    | k + 4, hk =>
      rw [show (a :: b :: c :: ' ' :: group (d :: t))[k + 4]? = (group (d :: t))[k]? by simp, ih k (by omega)]
      omega

theorem digits_not_blank (n : Nat) : ∀ c ∈ (Nat.toDigits 10 n).reverse, c ≠ ' ' := by
  rintro c hc rfl
  have := Nat.isDigit_of_mem_toDigits (b := 10) (by omega) (by omega) (List.mem_reverse.mp hc)
  exact absurd this (by decide)

theorem grouped_number (n : Nat) : Nat.ofDigitChars 10 ((grouped n).filter fun c => c != ' ') 0 = n := by
  rw [grouped, List.filter_reverse, group_filter _ (digits_not_blank n), List.reverse_reverse]
  exact Nat.ofDigitChars_toDigits (by omega) (by omega)

theorem insertKey_perm (p : Nat × Int) : ∀ l, (insertKey p l).Perm (p :: l)
  | [] => List.Perm.refl _
  | q :: t => by
    unfold insertKey
    split
    · exact List.Perm.refl _
    · exact ((insertKey_perm p t).cons q).trans (List.Perm.swap p q t)

theorem sortKeys_perm : ∀ l, (sortKeys l).Perm l
  | [] => List.Perm.refl _
  | p :: t => (insertKey_perm p _).trans ((sortKeys_perm t).cons p)

theorem insertKey_sorted (p : Nat × Int) : ∀ l : List (Nat × Int), l.Pairwise (fun a b => a.1 ≤ b.1) →
    (insertKey p l).Pairwise fun a b => a.1 ≤ b.1
  | [], _ => by simp [insertKey]
  | q :: t, h => by
    unfold insertKey
    obtain ⟨h1, h2⟩ := List.pairwise_cons.mp h
    split
    · refine List.pairwise_cons.mpr ⟨fun a ha => ?_, h⟩
      rcases List.mem_cons.mp ha with rfl | ha
      · omega
      · have := h1 a ha; omega
    · refine List.pairwise_cons.mpr ⟨fun a ha => ?_, insertKey_sorted p t h2⟩
      rcases List.mem_cons.mp ((insertKey_perm p t).subset ha) with rfl | ha
      · omega
      · exact h1 a ha

theorem sortKeys_sorted : ∀ l, (sortKeys l).Pairwise fun a b => a.1 ≤ b.1
  | [] => List.Pairwise.nil
  | p :: t => insertKey_sorted p _ (sortKeys_sorted t)

theorem loop_ok {alive : Nat → Bool} {hist : Nat → Except Err (List Cell)} {f : Nat → List Cell} :
    ∀ {l : List (Nat × Int)}, (∀ p ∈ l, alive p.1 = true → hist p.1 = .ok (f p.1)) →
      loop alive hist l = .ok ((l.filter fun p => alive p.1).map (·.2),
        (l.filter fun p => alive p.1).filterMap fun p => (lastNum (f p.1)).map fun v => (p.1, v))
  | [], _ => rfl
  | (i, w) :: t, h => by
    have ih := loop_ok (l := t) fun p hp => h p (List.mem_cons_of_mem _ hp)
    unfold loop
    by_cases ha : alive i = true
    · have hh := h (i, w) List.mem_cons_self ha
      simp only at hh
      simp only [ha, if_true, hh, ih, List.filter_cons, List.map_cons, List.filterMap_cons]
      cases lastNum (f i) <;> rfl
    · simp only [ha, if_false, ih, List.filter_cons]
      rfl

theorem lastNum_map (l : List IterRes) : lastNum (l.map fun r => Cell.num r.fx) = l.getLast?.map (·.fx) := by
  unfold lastNum
  rw [List.getLast?_map]
  cases l.getLast? <;> rfl

end Glompo.Status

namespace Glompo.Props

open Glompo.Spec Glompo.Manager Glompo.Props.Runs
open Glompo.Logger (Op)
open Glompo.FileLogger (FOp)

variable {cfg : Cfg} {s : State}

/-- The history of an optimizer which has not announced its end, with the log in memory. -/
theorem history_in_memory {t : State} (inv : Inv cfg t) (h0 : Ev.received (.fin 0) ∉ t.ev) {i : Nat}
    (hi : Ev.received (.fin i) ∉ t.ev) :
    t.log.getHistory i "fx" = .ok (((loggedOf t.ev).filter fun r => r.optId == i).map fun r => Cell.num r.fx) := by
  have hc : ¬ Cleared t.ops i := by
    rintro (h | h | h)
    · obtain ⟨j, hj, -⟩ := inv.rel _ h; cases hj
    · obtain ⟨j, hj, hr⟩ := inv.rel _ h; cases hj; exact h0 hr
    · obtain ⟨j, hj, hr⟩ := inv.rel _ h; cases hj; exact hi hr
  rw [inv.log, (C02_history_exact t.first.traj t.ops i inv.wf (.inr hc)).1, inv.evs]
  rfl

/-- Reading a history in memory raises nothing. -/
theorem history_ok (l : Logger) (i : Nat) : ∃ c, l.getHistory i "fx" = .ok c := by
  unfold Logger.getHistory
  split
  · rename_i h
    unfold Logger.hasIterHistory at h
    cases hd : dictGet l.storage i with
    | none => rw [hd] at h; cases h
    | some st =>
      rw [hd] at h
      simp only at h ⊢
      cases hc : dictGet st.cols "fx" with
      | none => simp [hc] at h
      | some c => exact ⟨c, rfl⟩
  · exact ⟨[], rfl⟩

/-- What a message with any log says, if reading the histories of the living raises nothing. -/
theorem message_reports {t : State} (inv : Inv cfg t) {hist : Nat → Except Err (List Cell)} {f : Nat → List Cell}
    (hh : ∀ i, t.alive i = true → hist i = .ok (f i))
    (hf : ∀ i, t.alive i = true → Ev.received (.fin i) ∉ t.ev →
      f i = ((loggedOf t.ev).filter fun r => r.optId == i).map fun r => Cell.num r.fx) :
    ∃ m, Status.message cfg t hist = .ok m ∧ Reports t.ev (loggedOf t.ev) cfg.maxJobs m := by
  have hl := Status.loop_ok (alive := t.alive) (hist := hist) (f := f) (l := Status.sortKeys t.packs) fun p _ hp => hh _ hp
  unfold Status.message
  rw [hl]
  refine ⟨_, rfl, ?_⟩
  have hperm : ((Status.sortKeys t.packs).filter fun p => t.alive p.1).Perm
      ((startedOf t.ev).filter fun p => decide (p.1 ∉ diedOf t.ev)) := by
    rw [← inv.living]; exact (Status.sortKeys_perm t.packs).filter _
  have hmem : ∀ i v, (i, v) ∈ (((Status.sortKeys t.packs).filter fun p => t.alive p.1).filterMap fun p =>
      (Status.lastNum (f p.1)).map fun v => (p.1, v)) ↔ t.alive i = true ∧ Status.lastNum (f i) = some v := by
    intro i v
    simp only [List.mem_filterMap, Option.map_eq_some_iff, Prod.mk.injEq]
    constructor
    · rintro ⟨p, hp, v', h1, rfl, rfl⟩
      exact ⟨(List.mem_filter.mp hp).2, h1⟩
    · rintro ⟨h1, h2⟩
      obtain ⟨p, hp, rfl⟩ := List.mem_map.mp (inv.held h1)
      exact ⟨p, List.mem_filter.mpr ⟨(Status.sortKeys_perm t.packs).symm.subset hp, h1⟩, v, h2, rfl, rfl⟩
  constructor
  case alive => simp only [List.length_map]; exact hperm.length_eq
  case slots => exact (hperm.map (·.2)).sum_eq
  case jobs => rfl
  case number => simp only [Status.grouped_number]; exact inv.cnt
  case blanks =>
    intro k hk
    simp only [Status.grouped, List.reverse_reverse, List.length_reverse] at hk ⊢
    exact Status.group_blank _ (Status.digits_not_blank _) k hk
  case running =>
    rintro ⟨i, v⟩ hp
    exact inv.running ((hmem i v).mp hp).1
  case values =>
    intro i hi hfin v
    have ha := inv.alive_iff.mpr hi
    rw [hmem, hf i ha hfin, Status.lastNum_map]
    exact ⟨fun h => h.2, fun h => ⟨ha, h⟩⟩
  case order =>
    have hs : (Status.sortKeys t.packs).Pairwise fun a b => a.1 < b.1 := by
      have hn : ((Status.sortKeys t.packs).map (·.1)).Nodup := ((Status.sortKeys_perm t.packs).map (·.1)).nodup_iff.mpr inv.nodup
      have h1 := Status.sortKeys_sorted t.packs
      rw [List.Nodup, List.pairwise_map] at hn
      exact (h1.and hn).imp fun h => by omega
    refine List.Pairwise.filterMap _ (fun a a' h b hb b' hb' => ?_) (hs.filter _)
    simp only [Option.map_eq_some_iff] at hb hb'
    obtain ⟨_, -, rfl⟩ := hb
    obtain ⟨_, -, rfl⟩ := hb'
    exact h
  case best => exact inv.res.2.1

/-- **C118 (log in memory).** Whenever in a run the manager gives a status message, this raises nothing and the message is right. -/
theorem C118_status (hs : Startable cfg s) (fuel : Nat) (e : Env) (h0 : Ev.received (.fin 0) ∉ happened cfg s fuel e) :
    ∃ m, Status.inMemory cfg (moment cfg s fuel e) = .ok m ∧
      Reports (happened cfg s fuel e) (loggedOf (happened cfg s fuel e)) cfg.maxJobs m := by
  have inv := moment_inv hs fuel e
  refine message_reports inv (f := fun i => ((moment cfg s fuel e).log.getHistory i "fx").toOption.getD []) (fun i _ => ?_)
    fun i _ hi => ?_
  · obtain ⟨c, hc⟩ := history_ok (moment cfg s fuel e).log i
    simp only [hc]; rfl
  · simp only [history_in_memory inv h0 hi]; rfl

/-- The slots shown do not exceed the number shown after them. -/
theorem C118_slots (hs : Startable cfg s) (fuel : Nat) (e : Env) (h0 : Ev.received (.fin 0) ∉ happened cfg s fuel e)
    (hf : SelectorFits (happened cfg s fuel e)) (hj : 0 ≤ cfg.maxJobs) (m : Status.Message)
    (hm : Status.inMemory cfg (moment cfg s fuel e) = .ok m) : m.slots ≤ m.maxJobs := by
  obtain ⟨m', h1, h2⟩ := C118_status hs fuel e h0
  rw [hm] at h1
  cases h1
  rw [h2.slots, h2.jobs]
  obtain ⟨c1, -, c3⟩ := C18_slots_never_oversubscribed hs fuel e hf
  have := c1 (happened cfg s fuel e) [] (by simp)
  rw [c3] at this
  exact this hj

/-- **C118 (log with a file).** In a run of a manager set up afresh the message is the same with a log file as long as every optimizer running
has not announced its end. Missing: the others, see `C118_file_refuted`. -/
theorem C118_file_partial (cfg : Cfg) (fuel : Nat) (e : Env) (hl : ∀ i, ¬ LateEval i (happened cfg (init cfg) fuel e))
    (h0 : Ev.received (.fin 0) ∉ happened cfg (init cfg) fuel e) (fops : List FOp)
    (hf : toOps fops = (moment cfg (init cfg) fuel e).ops.filter OnTables)
    (hr : ∀ i, Running (happened cfg (init cfg) fuel e) i → Ev.received (.fin i) ∉ happened cfg (init cfg) fuel e) :
    ∃ m, Status.onFile cfg (moment cfg (init cfg) fuel e) ((FileLogger.init cfg.traj).run fops) = .ok m ∧
      Reports (happened cfg (init cfg) fuel e) (loggedOf (happened cfg (init cfg) fuel e)) cfg.maxJobs m := by
  have inv := moment_inv (Startable.fresh cfg) fuel e
  have hwf : FWellFormed fops := fWellFormed_run inv hl h0 hf
  refine message_reports inv (f := fun i => ((loggedOf (moment cfg (init cfg) fuel e).ev).filter fun r => r.optId == i).map
    fun r => Cell.num r.fx) (fun i hi => ?_) fun i _ _ => rfl
  have hc : ∀ o, Op.clear o ∈ toOps fops → o ≠ none ∧ o ≠ some 0 ∧ o ≠ some i := by
    intro o ho
    rw [hf] at ho
    obtain ⟨j, rfl, hj⟩ := inv.rel o (List.mem_filter.mp ho).1
    refine ⟨by simp, ?_, ?_⟩ <;> intro h <;> cases h
    · exact h0 hj
    · exact hr i (inv.alive_iff.mp hi) hj
  have hmem : ∀ o, FOp.clear o ∈ fops → Op.clear o ∈ toOps fops := fun o ho =>
    List.mem_filterMap.mpr ⟨_, ho, rfl⟩
  have hrel : ¬ Released fops i := by
    rintro (h | h | h)
    · exact (hc _ (hmem _ h)).1 rfl
    · exact (hc _ (hmem _ h)).2.1 rfl
    · exact (hc _ (hmem _ h)).2.2 rfl
  have hcl : ¬ Cleared (toOps fops) i := by
    rintro (h | h | h)
    · exact (hc _ h).1 rfl
    · exact (hc _ h).2.1 rfl
    · exact (hc _ h).2.2 rfl
  rw [(C04_file_log_agrees cfg.traj fops hwf).1 i hrel "fx" (.inl rfl),
    (C02_history_exact cfg.traj (toOps fops) i hwf.1 (.inr hcl)).1, hf, (onTables_ops _).2.2, inv.evs]
  rfl

/-- **C118, refuted.** Optimizer 1 has announced its end and is still running, as every optimizer is for a moment: with a log file building a
status message raises `KeyError`, which ends the optimization as a crash. -/
theorem C118_file_refuted :
    Running (happened cfg2 (init cfg2) 20 oneEnds) 1 ∧
    (Status.inMemory cfg2 (moment cfg2 (init cfg2) 20 oneEnds)).toOption.isSome = true ∧
    ∀ n, n = 1 ∨ n = 60000000 → Status.onFile cfg2 (moment cfg2 (init cfg2) 20 oneEnds)
      ((FileLogger.init false).run (withFile n (moment cfg2 (init cfg2) 20 oneEnds).ops)) = .error .keyError := by
  refine ⟨(moment_inv (Startable.fresh cfg2) 20 oneEnds).running (by decide +kernel), by decide +kernel, ?_⟩
  have key : ∀ x : Except Err Status.Message, (match x with | .error .keyError => true | _ => false) = true → x = .error .keyError := by
    intro x h
    split at h
    · rfl
    · cases h
  rintro n (rfl | rfl) <;> exact key _ (by decide +kernel)

/-- A message in the middle of a run: both optimizers are running, two evaluations were accepted. -/
example : Status.inMemory cfg2 (moment cfg2 (init cfg2) 20 (start2 ++ [ch [r 1 5, r 2 3], u, u, b false, nothing])) =
    .ok { alive := 2, slots := 2, maxJobs := 2, evals := ['2'], values := [(1, .fin 5), (2, .fin 3)], best := some (.fin 3) } := by
  decide +kernel

example : Status.grouped 1234567 = "1 234 567".toList ∧ Status.grouped 999 = "999".toList := by decide +kernel

end Glompo.Props
