import Verif.Props.ManagerRuns
import Verif.Props.Logger

/-!
# C11, C18–C29, C31, C64, C67: the running manager

`cfg` are any settings, `e` is anything the surroundings may show (processes dying, messages, answers of plug-ins,
exceptions), `fuel` any bound on the length of loops. `s` is the state of a manager set up afresh, or loaded from a checkpoint
which another such manager wrote, any number of times over (`Startable cfg s`). `happened cfg s fuel e` is what has happened
when `e` has been shown, from the very beginning, earlier managers included; as `e` is arbitrary this is any moment of any
run. `inForce cfg s fuel e pre` are the settings at the moment when `pre` had happened.
-/

namespace Glompo.Props

open Glompo Glompo.Manager Glompo.Spec Glompo.Props.Runs

variable {cfg : Cfg} {s : State} (hs : Startable cfg s) (fuel : Nat) (e : Env)

/-- Decidable form of `SelectorPos`, for the examples. -/
def fitB (ev : List Ev) : Bool := ev.all fun x => match x with
  | .asked slots (.chosen w _) => decide (1 ≤ w ∧ w ≤ slots) | _ => true

theorem selectorPos_of_fitB {ev : List Ev} (h : fitB ev = true) : SelectorPos ev := fun slots w c hm => by
  have := List.all_eq_true.mp h _ hm
  simpa using this

theorem selectorFits_of_pos {ev : List Ev} (h : SelectorPos ev) : SelectorFits ev := fun slots w c hm =>
  ⟨by have := (h slots w c hm).1; omega, (h slots w c hm).2⟩

/-! ### C11 -/

include hs in
/-- **C11 (manager).** After the selector answered `False` the manager never asks it again, hands out no id and starts
no new optimizer; nor does a manager loaded from a later checkpoint. -/
theorem C11_no_spawn_after_stop (pre post : List Ev) (slots : Int)
    (h : happened cfg s fuel e = pre ++ .asked slots .stop :: post) :
    (∀ k a, Ev.asked k a ∉ post) ∧ (∀ i, Ev.newId i ∉ post) ∧ ∀ i w, Ev.started i w ∉ post := by
  have g := moment_good hs fuel e
  rw [h] at g
  have key : ∀ a x b, post = a ++ x :: b →
      Fine (moment cfg s fuel e).first (pre ++ .asked slots .stop :: a) x := fun a x b hp =>
    g _ x b (by rw [hp]; simp)
  refine ⟨fun k a hm => ?_, fun i hm => ?_, fun i w hm => ?_⟩ <;>
    obtain ⟨p, q, hp⟩ := List.append_of_mem hm <;> have := key p _ q hp
  · exact this.1 slots (by simp)
  · exact this.2.1 slots (by simp)
  · exact this.2.2.2.2.2.2 slots (by simp)

/-- The selector stops the spawning while optimizer 1 runs; the run goes on to its regular end. -/
example : ended cfg2 (init cfg2) 20 wound = some .regular ∧
    ∃ pre post, happened cfg2 (init cfg2) 20 wound = pre ++ .asked 1 .stop :: post ∧ 5 ≤ post.length :=
  ⟨by decide +kernel, (happened cfg2 (init cfg2) 20 wound).take 4, (happened cfg2 (init cfg2) 20 wound).drop 5, by decide +kernel⟩

/-! ### C18 -/

include hs in
/-- **C18.** If the selector only chooses optimizers which fit the slots it was offered, the worker slots of the
processes running sum to at most the `max_jobs` in force at every moment, those of optimizers continued from a checkpoint
included; and what the manager offers is never more than what is free. -/
theorem C18_slots_never_oversubscribed (hf : SelectorFits (happened cfg s fuel e)) :
    (∀ pre post, happened cfg s fuel e = pre ++ post → 0 ≤ (inForce cfg s fuel e pre).maxJobs →
      load pre ≤ (inForce cfg s fuel e pre).maxJobs) ∧
    (∀ pre slots a post, happened cfg s fuel e = pre ++ .asked slots a :: post →
      load pre + slots ≤ (inForce cfg s fuel e pre).maxJobs) ∧
    inForce cfg s fuel e (happened cfg s fuel e) = cfg := by
  have g := moment_good hs fuel e
  refine ⟨fun pre post h h0 => ?_, fun pre slots a post h => ?_, (moment_inv hs fuel e).set⟩
  · rw [h] at g hf
    exact load_le pre (afterEach_prefix g) (fun k w c hm => hf k w c (List.mem_append_left _ hm)) h0
  · have := g pre _ post h
    exact this.2 fun k w c hm => hf k w c (by rw [h]; exact List.mem_append_left _ hm)

example : SelectorFits (happened cfg2 (init cfg2) 20 demo) ∧ load ((happened cfg2 (init cfg2) 20 demo).take 7) = cfg2.maxJobs :=
  ⟨selectorFits_of_pos (selectorPos_of_fitB (by decide +kernel)), by decide +kernel⟩

/-! ### C19 -/

include hs in
/-- **C19.** The ids handed out are 1, 2, 3, … in this order, so none is given twice, also not after loading a checkpoint;
the manager's counter is their number; new optimizers are started in the order of their ids, each at most once and only
with an id handed out; and no manager starts two processes with the same id, whether new or continued. -/
theorem C19_ids :
    newIdsOf (happened cfg s fuel e) = List.range' 1 (newIdsOf (happened cfg s fuel e)).length ∧
    (moment cfg s fuel e).oCounter = (newIdsOf (happened cfg s fuel e)).length ∧
    (launchedOf (happened cfg s fuel e)).Pairwise (· < ·) ∧
    (∀ i w, Ev.started i w ∈ happened cfg s fuel e → i ∈ newIdsOf (happened cfg s fuel e)) ∧
    ((startedOf (happened cfg s fuel e)).map (·.1)).Nodup ∧
    ∀ i w, (i, w) ∈ startedOf (happened cfg s fuel e) → i ∈ newIdsOf (happened cfg s fuel e) := by
  have g := moment_good hs fuel e
  have inv := moment_inv hs fuel e
  refine ⟨newIds_range _ g, ?_, (started_ids _ g).1, fun i w h => (started_ids _ g).2 i ?_, (started_nodup _ g).1,
    fun i w h => (started_nodup _ g).2 i (List.mem_map.mpr ⟨_, h, rfl⟩)⟩
  · have := congrArg List.length inv.ids
    rw [List.length_range'] at this
    exact this.symm
  · simp only [launchedOf, List.mem_filterMap]
    exact ⟨_, h, rfl⟩

example : newIdsOf (happened cfg1 (init cfg1) 20 crashes) = [1, 2, 3, 4, 5, 6] := by decide +kernel

/-- **C19, refuted part.** The numbers of started and killed optimizers reported with the result can be too small when a
run ends regularly: they are those of the last accepted evaluation. -/
theorem C19_reported_statistics_refuted :
    (ended cfg2 (init cfg2) 20 demo = some .regular ∧ (moment cfg2 (init cfg2) 20 demo).result.optsKilled = 0 ∧
      killedOf (happened cfg2 (init cfg2) 20 demo) = [1]) ∧
    (ended cfg2 (init cfg2) 20 quiet = some .regular ∧
      (moment cfg2 (init cfg2) 20 quiet).result.optsStarted = 0 ∧
      newIdsOf (happened cfg2 (init cfg2) 20 quiet) = [1, 2]) := by
  decide +kernel

include hs in
/-- **C19, partial.** The statistics reported with the result are exact for the moment at which the result was last
brought up to date. Missing: that they are those of the end of the run, which is false. -/
theorem C19_reported_statistics_partial :
    (moment cfg s fuel e).result.optsStarted = (newIdsOf (atUpdate (happened cfg s fuel e))).length ∧
    (moment cfg s fuel e).result.optsKilled = (killedOf (atUpdate (happened cfg s fuel e))).length ∧
    (moment cfg s fuel e).result.optsConv = (finishedOf (atUpdate (happened cfg s fuel e))).length ∧
    (moment cfg s fuel e).result.fEvals = (acceptedOf (atUpdate (happened cfg s fuel e))).length := by
  obtain ⟨h1, h2, h3, h4⟩ := (moment_inv hs fuel e).stats
  exact ⟨h2, h3, h4, h1⟩

example : (moment cfg2 (init cfg2) 20 demo).result.optsStarted = 2 ∧ (moment cfg2 (init cfg2) 20 demo).result.fEvals = 2 := by decide +kernel

/-! ### C20 -/

include hs in
/-- **C20.** Whatever a hunt kills is not the optimizer which holds the best evaluation logged at that time (the hunter
does), has evaluations in the log, and has not been killed, nor counted as finished, failed or forcibly terminated before; no
optimizer is killed twice. -/
theorem C20_leader_never_hunted :
    (∀ pre v h post, happened cfg s fuel e = pre ++ .killed v (some h) :: post →
      Leads (loggedOf pre) h ∧ ¬ Leads (loggedOf pre) v ∧ (∃ r ∈ loggedOf pre, r.optId = v) ∧
      v ∉ killedOf pre ∧ v ∉ finishedOf pre ∧ v ∉ failedOf pre ∧ v ∉ forcedOf pre) ∧
    (killedOf (happened cfg s fuel e)).Nodup := by
  have g := moment_good hs fuel e
  refine ⟨fun pre v h post hp => ?_, killed_nodup _ g⟩
  obtain ⟨-, h2, h3, h4, h5, -, h7⟩ := g pre _ post hp
  obtain ⟨l, ne, hr⟩ := h7 h rfl
  exact ⟨l, fun lv => ne (leads_unique lv l), hr, h2, h3, h4, h5⟩

example : ∃ pre post, happened cfg2 (init cfg2) 20 demo = pre ++ .killed 1 (some 2) :: post ∧ (acceptedOf pre).length = 2 :=
  ⟨(happened cfg2 (init cfg2) 20 demo).take 17, (happened cfg2 (init cfg2) 20 demo).drop 18, by decide +kernel⟩

/-! ### C21 -/

include hs in
/-- **C21.** After an optimizer was killed no evaluation of it is accepted any more, also not by a manager loaded from a
later checkpoint; and only accepted evaluations are logged and counted: the log is as long as the list of evaluations
logged, its best record is the best of them, and (unless histories are released to save memory) each history is exactly
the evaluations logged of that optimizer. -/
theorem C21_killed_are_ignored :
    (∀ pre v h post, happened cfg s fuel e = pre ++ .killed v h :: post → ∀ r ∈ acceptedOf post, r.optId ≠ v) ∧
    (loggedOf (happened cfg s fuel e)).Sublist (acceptedOf (happened cfg s fuel e)) ∧
    (moment cfg s fuel e).log.len = (loggedOf (happened cfg s fuel e)).length ∧
    IsBest (moment cfg s fuel e).log.best.x (moment cfg s fuel e).log.best.fx (moment cfg s fuel e).log.best.optId
      (loggedOf (happened cfg s fuel e)) ∧
    ((inForce cfg s fuel e []).traj = true → ∀ i, (moment cfg s fuel e).log.getHistory i "fx" =
      .ok (((loggedOf (happened cfg s fuel e)).filter fun r => r.optId == i).map fun r => Cell.num r.fx)) := by
  have g := moment_good hs fuel e
  have inv := moment_inv hs fuel e
  have hist := fun i (hc : (moment cfg s fuel e).first.traj = true) =>
    C02_history_exact (moment cfg s fuel e).first.traj (moment cfg s fuel e).ops i inv.wf (.inl hc)
  refine ⟨fun pre v h post hp r hr hv => ?_, logged_sublist _, ?_, inv.isBest, fun hc i => ?_⟩
  · obtain ⟨a, b, hp'⟩ := List.append_of_mem (mem_acceptedOf.mp hr)
    have := g (pre ++ .killed v h :: a) (.accepted r) b (by rw [hp, hp']; simp)
    exact this.2.1 (by rw [hv]; exact mem_killedOf.mpr ⟨h, by simp⟩)
  · have := (Logger.bestInv_run (moment cfg s fuel e).first.traj (moment cfg s fuel e).ops inv.wf).count
    rw [inv.log, Logger.len, this, inv.evs]; rfl
  · have := (hist i hc).1
    rw [← inv.log, inv.evs] at this
    exact this

/-- The killed optimizer's last message is read after its end and changes nothing. -/
example : Ev.ignored ⟨1, [4], .fin 4, []⟩ ∈ happened cfg2 (init cfg2) 20 demo ∧ (moment cfg2 (init cfg2) 20 demo).log.len = 2 := by
  decide +kernel

/-! ### C22 -/

include hs in
/-- **C22.** In a history in which no evaluation was lost on loading a checkpoint (C93), in particular in one without
loading, the manager's result is the earliest smallest of the evaluations accepted, with its point and its optimizer: at
every moment at which the last accepted evaluation has been taken into account, in particular before each message is read
and when a run has ended regularly. Before the first evaluation there is no result. From one result to the next the value
never gets worse. -/
theorem C22_result_is_best (hL : Lossless (happened cfg s fuel e)) :
    (UpToDate (happened cfg s fuel e) = true →
      (acceptedOf (happened cfg s fuel e) = [] ∧ (moment cfg s fuel e).result.x = none) ∨
      ∃ x fx i t, (moment cfg s fuel e).result.x = some x ∧ (moment cfg s fuel e).result.fx = some fx ∧
        (moment cfg s fuel e).result.origin = some (i, t) ∧ IsBest x fx i (acceptedOf (happened cfg s fuel e))) ∧
    (∀ pre m post, happened cfg s fuel e = pre ++ .received m :: post → UpToDate pre = true) ∧
    (ended cfg s fuel e = some .regular → UpToDate (happened cfg s fuel e) = true) ∧
    (∀ pre x fx i mid x' fx' i' post,
      happened cfg s fuel e = pre ++ .updated x fx i :: mid ++ .updated x' fx' i' :: post → PyF.lt fx fx' = false) := by
  have g := moment_good hs fuel e
  have inv := moment_inv hs fuel e
  refine ⟨fun hu => ?_, fun pre m post hp => (g pre _ post hp).1, fun he => ?_, fun pre x fx i mid x' fx' i' post hp => ?_⟩
  · obtain ⟨r1, r2, r3⟩ := inv.res
    rcases (result_ok _ g hL).1 hu with ⟨h1, h2⟩ | ⟨x, fx, i, h1, h2⟩
    · left
      refine ⟨h1, ?_⟩
      rw [r1]
      show Option.map _ (lastResult (happened cfg s fuel e)) = none
      rw [h2]; rfl
    · right
      have h1 : lastResult (moment cfg s fuel e).ev = some (x, fx, i) := h1
      rw [h1] at r1 r2 r3
      cases ho : (moment cfg s fuel e).result.origin with
      | none => rw [ho] at r3; cases r3
      | some p =>
        obtain ⟨j, t⟩ := p
        rw [ho] at r3
        cases r3
        exact ⟨x, fx, i, t, r1, r2, rfl, h2⟩
  · have := (startManager_spec fuel hs.spec.1 e).2.1
    have he : (startManager cfg fuel s e).1 = some .regular := he
    rw [he] at this
    exact this.1.1
  · have h1 := g pre (.updated x fx i) (mid ++ .updated x' fx' i' :: post) (by rw [hp]; simp)
    have h2 := g (pre ++ .updated x fx i :: mid) (.updated x' fx' i') post hp
    obtain ⟨es, he⟩ := accepted_after (pre := pre) (post := .updated x fx i :: mid)
    have hL1 : Lossless (pre ++ .updated x fx i :: mid) := lossless_prefix (b := .updated x' fx' i' :: post) (by rw [← hp]; exact hL)
    have h1 : IsBest x fx i (loggedOf pre) := h1
    have h2 : IsBest x' fx' i' (loggedOf (pre ++ .updated x fx i :: mid)) := h2
    rw [logged_of_lossless _ (lossless_prefix hL1)] at h1
    rw [logged_of_lossless _ hL1] at h2
    exact isBest_mono h1 (by rw [← he]; exact h2)

example : ended cfg2 (init cfg2) 20 demo = some .regular ∧ (moment cfg2 (init cfg2) 20 demo).result.x = some [3] := by decide +kernel

/-- When the run is cut short by an exception the last accepted evaluation can be missing in the result: here the log
holds the value 3 and the result says 5. -/
theorem C22_crash_refuted : ended cfg2 (init cfg2) 20 sendFails = some (.crash (.env .osError)) ∧
    (moment cfg2 (init cfg2) 20 sendFails).log.best.fx = .fin 3 ∧ (moment cfg2 (init cfg2) 20 sendFails).result.fx = some (.fin 5) := by
  decide +kernel

include hs in
/-- Whatever was lost: at any moment the result is the best of the evaluations logged when it was last renewed; if it was
renewed since the manager was loaded and the last accepted evaluation has been taken into account, it is the best of all
evaluations logged; and as long as no checkpoint is loaded its value never gets worse. -/
theorem C22_any_history :
    ((atUpdate (happened cfg s fuel e) = [] ∧ (moment cfg s fuel e).result.fx = none) ∨
      ∃ x fx i, (moment cfg s fuel e).result.x = some x ∧ (moment cfg s fuel e).result.fx = some fx ∧
        IsBest x fx i (loggedOf (atUpdate (happened cfg s fuel e)))) ∧
    (∀ x fx i, Ev.updated x fx i ∈ session (happened cfg s fuel e) → UpToDate (happened cfg s fuel e) = true →
      loggedOf (atUpdate (happened cfg s fuel e)) = loggedOf (happened cfg s fuel e)) ∧
    (∀ pre x fx i mid x' fx' i' post,
      happened cfg s fuel e = pre ++ .updated x fx i :: mid ++ .updated x' fx' i' :: post →
      (∀ c n, Ev.resumed c n ∉ mid) → PyF.lt fx fx' = false) := by
  have g := moment_good hs fuel e
  obtain ⟨r1, r2, -⟩ := (moment_inv hs fuel e).res
  refine ⟨?_, fun x fx i hm hu => atUpdate_logged _ hm hu, fun pre x fx i mid x' fx' i' post hp hm => ?_⟩
  · rcases result_at_update _ g with ⟨h1, h2⟩ | ⟨x, fx, i, h1, h2⟩
    · have h2 : lastResult (moment cfg s fuel e).ev = none := h2
      rw [h2] at r2
      exact .inl ⟨h1, r2⟩
    · have h1 : lastResult (moment cfg s fuel e).ev = some (x, fx, i) := h1
      rw [h1] at r1 r2
      exact .inr ⟨x, fx, i, r1, r2, h2⟩
  · have h1 : IsBest x fx i (loggedOf pre) := g pre (.updated x fx i) (mid ++ .updated x' fx' i' :: post) (by rw [hp]; simp)
    have h2 : IsBest x' fx' i' (loggedOf (pre ++ .updated x fx i :: mid)) :=
      g (pre ++ .updated x fx i :: mid) (.updated x' fx' i') post hp
    rw [loggedOf_append (.updated x fx i :: mid) (by simpa using hm)] at h2
    exact isBest_mono h1 h2

include hs in
/-- If nothing was lost: at any moment the result is the best of all accepted evaluations but the last one, or of all. -/
theorem C22_any_moment (hL : Lossless (happened cfg s fuel e)) : ∃ es, (es = acceptedOf (happened cfg s fuel e) ∨
      ∃ r, es ++ [r] = acceptedOf (happened cfg s fuel e)) ∧
    ((es = [] ∧ (moment cfg s fuel e).result.fx = none) ∨
      ∃ x fx i, (moment cfg s fuel e).result.x = some x ∧ (moment cfg s fuel e).result.fx = some fx ∧ IsBest x fx i es) := by
  have g := moment_good hs fuel e
  obtain ⟨r1, r2, -⟩ := (moment_inv hs fuel e).res
  have key : ∀ es, ((es = [] ∧ lastResult (happened cfg s fuel e) = none) ∨
      ∃ x fx i, lastResult (happened cfg s fuel e) = some (x, fx, i) ∧ IsBest x fx i es) →
      ((es = [] ∧ (moment cfg s fuel e).result.fx = none) ∨ ∃ x fx i, (moment cfg s fuel e).result.x = some x ∧
        (moment cfg s fuel e).result.fx = some fx ∧ IsBest x fx i es) := by
    rintro es (⟨h1, h2⟩ | ⟨x, fx, i, h1, h2⟩)
    · left
      have h2 : lastResult (moment cfg s fuel e).ev = none := h2
      rw [h2] at r2
      exact ⟨h1, r2⟩
    · right
      have h1 : lastResult (moment cfg s fuel e).ev = some (x, fx, i) := h1
      rw [h1] at r1 r2
      exact ⟨x, fx, i, r1, r2, h2⟩
  cases hu : UpToDate (happened cfg s fuel e) with
  | true => exact ⟨_, .inl rfl, key _ ((result_ok _ g hL).1 hu)⟩
  | false =>
    obtain ⟨es, r, h1, h2⟩ := (result_ok _ g hL).2 hu
    exact ⟨es, .inr ⟨r, h1.symm⟩, key _ h2⟩

/-! ### C23 -/

include hs in
/-- **C23.** The evaluation counter is the number of accepted evaluations, those of earlier managers included, and the
length of the log, unless evaluations were lost on loading a checkpoint (C93); the accepted evaluations are, in order,
those received from optimizers which had not been killed by then (leaving out the one being processed); and the count
reported with the result is the same number whenever the result is up to date. -/
theorem C23_evaluation_count :
    (moment cfg s fuel e).fCounter = (acceptedOf (happened cfg s fuel e)).length ∧
    (Lossless (happened cfg s fuel e) → (moment cfg s fuel e).fCounter = (moment cfg s fuel e).log.len) ∧
    (moment cfg s fuel e).log.len ≤ (moment cfg s fuel e).fCounter ∧
    (inHand (happened cfg s fuel e) = none → acceptedOf (happened cfg s fuel e) = dueOf (happened cfg s fuel e)) ∧
    (∀ r, inHand (happened cfg s fuel e) = some r →
      dueOf (happened cfg s fuel e) = acceptedOf (happened cfg s fuel e) ∨
      dueOf (happened cfg s fuel e) = acceptedOf (happened cfg s fuel e) ++ [r]) ∧
    (ended cfg s fuel e = some .regular → inHand (happened cfg s fuel e) = none) ∧
    (UpToDate (happened cfg s fuel e) = true →
      (moment cfg s fuel e).result.fEvals = (acceptedOf (happened cfg s fuel e)).length) := by
  have g := moment_good hs fuel e
  have inv := moment_inv hs fuel e
  have hd := due_ok _ g
  have len := (C21_killed_are_ignored hs fuel e).2.2.1
  refine ⟨inv.cnt, fun hL => ?_, ?_, fun hn => ?_, fun r hr => ?_, fun he => ?_, fun hu => ?_⟩
  · rw [len, logged_of_lossless _ hL]; exact inv.cnt
  · rw [len, inv.cnt]; exact (logged_sublist _).length_le
  · rw [hn] at hd; simpa using hd.symm
  · rw [hr] at hd
    simp only [] at hd
    split at hd
    · left; simpa using hd
    · right; exact hd
  · have := (startManager_spec fuel hs.spec.1 e).2.1
    have he : (startManager cfg fuel s e).1 = some .regular := he
    rw [he] at this
    exact this.1.2
  · rw [(moment_inv hs fuel e).stats.1]
    show (acceptedOf (atUpdate (happened cfg s fuel e))).length = _
    rw [atUpdate_accepted _ hu]

example : (moment cfg2 (init cfg2) 20 demo).fCounter = 2 ∧ (dueOf (happened cfg2 (init cfg2) 20 demo)).length = 2 ∧
    (happened cfg2 (init cfg2) 20 demo).countP (fun x => match x with | .received _ => true | _ => false) = 3 := by decide +kernel

/-! ### C24 -/

include hs in
/-- **C24.** A hunt happens only if hunting conditions were given, the hunter is the optimizer which holds the best
evaluation logged, and at least `hunt_frequency` evaluations were accepted since the previous hunt, or since the start
before the first one, loading checkpoints in between or not; all by the settings then in force. The hunts are counted. -/
theorem C24_hunts_spaced :
    (∀ pre h post, happened cfg s fuel e = pre ++ .hunt h :: post → 
      (inForce cfg s fuel e pre).hunting = true ∧ Leads (loggedOf pre) h ∧
      (inForce cfg s fuel e pre).huntFrequency ≤ (acceptedOf pre).length) ∧
    (∀ pre h mid h' post, happened cfg s fuel e = pre ++ .hunt h :: mid ++ .hunt h' :: post →
      (inForce cfg s fuel e (pre ++ .hunt h :: mid)).huntFrequency ≤ (acceptedOf mid).length) ∧
    (moment cfg s fuel e).huntCounter = (huntsOf (happened cfg s fuel e)).length := by
  have g := moment_good hs fuel e
  refine ⟨fun pre h post hp => ?_, fun pre h mid h' post hp => ?_, (moment_inv hs fuel e).hunts⟩
  · obtain ⟨h1, h2, h3⟩ := g pre _ post hp
    have h3 : (inForce cfg s fuel e pre).huntFrequency ≤ _ := h3
    have := sinceHunt_le [] pre
    simp only [List.nil_append] at this
    have h0 : sinceHunt [] = 0 := rfl
    exact ⟨h1, h2, by omega⟩
  · obtain ⟨-, -, h3⟩ := g (pre ++ .hunt h :: mid) (.hunt h') post hp
    have h3 : (inForce cfg s fuel e (pre ++ .hunt h :: mid)).huntFrequency ≤ _ := h3
    have := sinceHunt_le (pre ++ [.hunt h]) mid
    rw [sinceHunt_snoc] at this
    simp only [List.append_assoc, List.singleton_append] at this
    omega

example : ∃ pre post, happened cfg2 (init cfg2) 20 demo = pre ++ .hunt 2 :: post ∧ (acceptedOf pre).length = 2 :=
  ⟨(happened cfg2 (init cfg2) 20 demo).take 16, (happened cfg2 (init cfg2) 20 demo).drop 17, by decide +kernel⟩

/-! ### C25 -/

/-- The convergence criterion answered `True` exactly when `n` evaluations had been accepted (`MaxFuncCalls(n)`, C14). -/
def BudgetCriterion (n : Nat) (ev : List Ev) : Prop :=
  ∀ pre b post, ev = pre ++ .checked b :: post → (b = true ↔ n ≤ (acceptedOf pre).length)

include hs in
/-- **C25.** With a budget of `n ≥ 1` evaluations, and unless a checkpoint has begun since the last check, an evaluation is
accepted only if the last check found the budget not used up, and is then less than the `n + 9 + c`-th, `c` being the
largest chunk taken from the queue. (A manager loaded from a checkpoint checks before it starts.) -/
theorem C25_accepted_within_budget (n c : Nat) (hn : 1 ≤ n)
    (hc : ChunksAtMost c (happened cfg s fuel e)) (hb : BudgetCriterion n (happened cfg s fuel e))
    (pre : List Ev) (r : IterRes) (post : List Ev) (hp : happened cfg s fuel e = pre ++ .accepted r :: post)
    (hk : ckptFree pre = true) (hl : (∃ b, lastCheck pre = some b) ∨ ∀ c n, Ev.resumed c n ∉ pre) :
    lastCheck pre ≠ some true ∧ (acceptedOf (pre ++ [.accepted r])).length < n + 9 + c := by
  have g := moment_good hs fuel e
  obtain ⟨-, -, -, -, h5⟩ := g pre _ post hp
  obtain ⟨h6, h7⟩ := h5 hk
  have h7 := h7 c fun k hm => hc k (by rw [hp]; exact List.mem_append_left _ hm)
  refine ⟨h6, ?_⟩
  rw [acceptedOf_snoc, List.length_append, List.length_singleton]
  rcases sinceCheck_split pre with ⟨-, -, h8⟩ | ⟨h8, c', n', h9⟩ | ⟨p, b, q, h8, h9, h10⟩
  · omega
  · rcases hl with ⟨b, hl⟩ | hl
    · rw [h8] at hl; cases hl
    · exact absurd h9 (hl c' n')
  · have hb := hb p b (q ++ .accepted r :: post) (by rw [hp, h8]; simp)
    have : b = false := by
      cases b with
      | true => exact absurd h9 h6
      | false => rfl
    have : ¬ n ≤ (acceptedOf p).length := fun hh => by rw [hb.mpr hh] at this; cases this
    omega

include hs in
/-- **C25.** With a budget of `n ≥ 1` evaluations and no checkpoint in the history, fewer than `n + 9 + c` evaluations are
accepted, `c` being the largest chunk taken from the queue; and none after the check which finds the budget used up. -/
theorem C25_budget_overshoot (n c : Nat) (hn : 1 ≤ n) (hk : Ev.ckptBegin ∉ happened cfg s fuel e)
    (hc : ChunksAtMost c (happened cfg s fuel e)) (hb : BudgetCriterion n (happened cfg s fuel e)) :
    (acceptedOf (happened cfg s fuel e)).length < n + 9 + c ∧
    ∀ pre post, happened cfg s fuel e = pre ++ .checked true :: post → acceptedOf post = [] := by
  have g := moment_good hs fuel e
  have fresh := fresh_of_noCkpt g hk
  have free : ∀ pre post, happened cfg s fuel e = pre ++ post → ckptFree pre = true ∧ ∀ c n, Ev.resumed c n ∉ pre :=
    fun pre post h => ⟨ckptFree_of_noCkpt _ fun hm => hk (by rw [h]; exact List.mem_append_left _ hm),
      fun c n hm => fresh c n (by rw [h]; exact List.mem_append_left _ hm)⟩
  constructor
  · rcases last_accepted (happened cfg s fuel e) with h | ⟨pre, r, post, hp, hl⟩
    · rw [h]; simp
    · have := (C25_accepted_within_budget hs fuel e n c hn hc hb pre r post hp (free _ _ hp).1 (.inr (free _ _ hp).2)).2
      rw [acceptedOf_snoc, List.length_append, List.length_singleton] at this
      omega
  · intro pre post hp
    rcases last_accepted post with h | ⟨a, r, q, ha, -⟩
    · exact h
    · exfalso
      have hp' : happened cfg s fuel e = (pre ++ .checked true :: a) ++ .accepted r :: q := by rw [hp, ha]; simp
      have h6 := (C25_accepted_within_budget hs fuel e n c hn hc hb _ r q hp' (free _ _ hp').1 (.inr (free _ _ hp').2)).1
      have hn' : n ≤ (acceptedOf pre).length := (hb pre true post hp).mp rfl
      -- so is every later check
      have key : ∀ l z, a = l ++ z → lastCheck (pre ++ .checked true :: l) = some true := by
        intro l
        refine snoc_induction (P := fun l => ∀ z, a = l ++ z → lastCheck (pre ++ .checked true :: l) = some true) ?_
          (fun l x ih => ?_) l
        · intro z _; rw [lastCheck_snoc]
        · intro z hz
          rw [← List.cons_append, ← List.append_assoc, lastCheck_snoc]
          cases x with
          | checked b' =>
            have := (hb (pre ++ .checked true :: l) b' (z ++ .accepted r :: q) (by rw [hp', hz]; simp)).mpr (by
              rw [acceptedOf_append, List.length_append]; omega)
            rw [this]
          | resumed c' n' => exact absurd (by rw [hp', hz]; simp) (fresh c' n')
          | _ => exact ih ([_] ++ z) (by rw [hz]; simp; rfl)
      exact h6 (key a [] (by simp))

/-- Decidable form of the hypotheses, for the example. -/
def budgetB (n : Nat) (ev : List Ev) : Bool := (List.range ev.length).all fun k =>
  match ev[k]? with | some (.checked b) => decide (b = true ↔ n ≤ (acceptedOf (ev.take k)).length) | _ => true

theorem budget_of_budgetB {n : Nat} {ev : List Ev} (h : budgetB n ev = true) : BudgetCriterion n ev := by
  rintro pre b post rfl
  have := List.all_eq_true.mp h pre.length (by simp)
  simp only [List.getElem?_append_right (Nat.le_refl _), Nat.sub_self, List.getElem?_cons_zero, List.take_left,
    decide_eq_true_eq] at this
  exact this

example : Ev.ckptBegin ∉ happened cfg2 (init cfg2) 20 demo ∧ ChunksAtMost 3 (happened cfg2 (init cfg2) 20 demo) ∧
    BudgetCriterion 2 (happened cfg2 (init cfg2) 20 demo) ∧ Ev.checked true ∈ happened cfg2 (init cfg2) 20 demo := by
  refine ⟨by decide +kernel, fun k hk => ?_, budget_of_budgetB (by decide +kernel), by decide +kernel⟩
  have h : (happened cfg2 (init cfg2) 20 demo).all (fun x => match x with | .took k => decide (k ≤ 3) | _ => true) = true := by
    decide +kernel
  simpa using List.all_eq_true.mp h _ hk

/-! ### C26 -/

include hs in
/-- **C26, partial.** If no optimizer's end is noted between the beginning of a checkpoint and the next convergence check
(or loading), no optimizer is counted twice, neither as finished and killed nor twice as either; the counters are these
numbers, and together they do not exceed the number of ids handed out. Missing: ends noted during or just after a
checkpoint, for which it is false. -/
theorem C26_counts_consistent_partial
    (hk : ∀ pre i post, happened cfg s fuel e = pre ++ .finished i :: post → ckptFree pre = true) :
    (finishedOf (happened cfg s fuel e) ++ killedOf (happened cfg s fuel e)).Nodup ∧
    (moment cfg s fuel e).convCounter = (finishedOf (happened cfg s fuel e)).length ∧
    (moment cfg s fuel e).victims = killedOf (happened cfg s fuel e) ∧
    (moment cfg s fuel e).convCounter + (moment cfg s fuel e).victims.length ≤
      (newIdsOf (happened cfg s fuel e)).length := by
  have g := moment_good hs fuel e
  have inv := moment_inv hs fuel e
  have h1 := ended_nodup _ g hk
  refine ⟨h1, inv.conv, inv.vict, ?_⟩
  have := nodup_length_le h1 (ended_ids _ g)
  rw [List.length_append] at this
  rw [inv.conv, inv.vict]
  exact this

example : Ev.ckptBegin ∉ happened cfg2 (init cfg2) 20 demo ∧ killedOf (happened cfg2 (init cfg2) 20 demo) = [1] ∧
    finishedOf (happened cfg2 (init cfg2) 20 wound) = [1] := by decide +kernel

/-- **C26, refuted part.** An optimizer killed before a checkpoint is counted as finished as well if its end message is
read during the checkpoint. -/
theorem C26_checkpoint_refuted :
    1 ∈ killedOf (happened cfg2 (init cfg2) 20 twice) ∧ 1 ∈ finishedOf (happened cfg2 (init cfg2) 20 twice) := by decide +kernel

include hs in
/-- At all times, checkpoints and their loading included, the counters count the events, every optimizer killed or finished had an id, and
none is killed twice. -/
theorem C26_counters_exact :
    (moment cfg s fuel e).convCounter = (finishedOf (happened cfg s fuel e)).length ∧
    (moment cfg s fuel e).victims = killedOf (happened cfg s fuel e) ∧ (killedOf (happened cfg s fuel e)).Nodup ∧
    ∀ i ∈ finishedOf (happened cfg s fuel e) ++ killedOf (happened cfg s fuel e), i ∈ newIdsOf (happened cfg s fuel e) :=
  ⟨(moment_inv hs fuel e).conv, (moment_inv hs fuel e).vict, killed_nodup _ (moment_good hs fuel e),
    ended_ids _ (moment_good hs fuel e)⟩

/-! ### C27 -/

include hs in
/-- **C27.** The optimization loop ends only if the last answer of the convergence criterion (to this manager) was `True`,
or no optimizer is running and the selector has answered `False`; a regular end has passed this point; a run "already
converged" has started nothing, and either the criterion was met or the selector had answered `False`; if Ctrl-C is passed on
to the caller of `start_manager`, nothing has been started either. -/
theorem C27_loop_ends_for_a_reason :
    (∀ pre post, happened cfg s fuel e = pre ++ .loopEnd :: post →
      lastCheck pre = some true ∨ (∀ i, ¬ Running pre i) ∧ ∃ k, Ev.asked k .stop ∈ pre) ∧
    (ended cfg s fuel e = some .regular → Ev.loopEnd ∈ session (happened cfg s fuel e)) ∧
    (ended cfg s fuel e = some .metBefore → startedOf (happened cfg s fuel e) = [] ∧
      (lastCheck (happened cfg s fuel e) = some true ∨ ∃ k, Ev.asked k .stop ∈ happened cfg s fuel e)) ∧
    (ended cfg s fuel e = some .escaped → startedOf (happened cfg s fuel e) = []) ∧
    ended cfg s fuel e ≠ some .notStarted := by
  have g := moment_good hs fuel e
  have sp := (startManager_spec fuel hs.spec.1 e).2.1
  refine ⟨fun pre post hp => g pre _ post hp, fun he => ?_, fun he => ?_, fun he => ?_, fun he => ?_⟩ <;>
    rw [show (startManager cfg fuel s e).1 = _ from he] at sp
  · exact sp.2.1
  · exact ⟨sp.1, sp.2.imp id fun h => h.2⟩
  · exact sp
  · exact sp

example : ended cfg2 (init cfg2) 20 demo = some .regular ∧ lastCheck (happened cfg2 (init cfg2) 20 demo) = some true ∧
    ended cfg2 (init cfg2) 20 wound = some .regular ∧ lastCheck (happened cfg2 (init cfg2) 20 wound) = some false ∧
    ended cfg2 (init cfg2) 20 [b true] = some .metBefore ∧
    ended cfg2 (init cfg2) 20 [⟨[], .raise .keyboardInterrupt⟩] = some .escaped := by decide +kernel

include hs in
/-- **C27, partial.** When the run has ended (however), every optimizer still running has been sent a stop signal by this
manager, provided nothing outside raised an exception, or the only one was the one which ended the run. Missing: runs in which
sending a stop signal fails, for which it is false. -/
theorem C27_children_told_partial (r : Reason) (he : ended cfg s fuel e = some r) (hm : r ≠ .metBefore)
    (hr : raisesOf e = 0 ∨ raisesOf e ≤ 1 ∧ (r = .userInterrupt ∨ ∃ x, r = .crash (.env x))) (i : Nat)
    (hi : Running (happened cfg s fuel e) i) : Ev.stop i ∈ session (happened cfg s fuel e) :=
  (startManager_spec fuel hs.spec.1 e).2.2 r he hm hr i ((moment_inv hs fuel e).alive_iff.mpr hi)

instance (ev : List Ev) (i : Nat) : Decidable (Running ev i) :=
  decidable_of_iff ((startedOf ev).any (fun p => p.1 == i) = true ∧ i ∉ diedOf ev) (by
    simp only [Running, List.any_eq_true, beq_iff_eq]
    constructor
    · rintro ⟨⟨⟨j, w⟩, h, rfl⟩, h2⟩; exact ⟨⟨w, h⟩, h2⟩
    · rintro ⟨⟨w, h⟩, h2⟩; exact ⟨⟨(i, w), h, rfl⟩, h2⟩)

example : ended cfg2 (init cfg2) 20 sendFails = some (.crash (.env .osError)) ∧ raisesOf sendFails = 1 ∧
    Running (happened cfg2 (init cfg2) 20 sendFails) 1 ∧ Running (happened cfg2 (init cfg2) 20 sendFails) 2 := by decide +kernel

/-- **C27, refuted part.** If one stop signal cannot be sent the others are not sent either: the run ends regularly with
two optimizers running, none of which was told to stop. -/
theorem C27_children_told_refuted : ended cfg2 (init cfg2) 20 untold = some .regular ∧
    Running (happened cfg2 (init cfg2) 20 untold) 1 ∧ Running (happened cfg2 (init cfg2) 20 untold) 2 ∧
    Ev.stop 1 ∉ happened cfg2 (init cfg2) 20 untold ∧ Ev.stop 2 ∉ happened cfg2 (init cfg2) 20 untold := by decide +kernel

/-! ### C28 -/

/-- **C28, refuted.** The last optimizer has terminated and the selector answers `False`: the run is reported as crashed
("Not enough worker slots"). In the second run the selector had answered `False` long before, and the optimizer
terminated between a convergence check and the next attempt to fill the slots. Nothing outside failed. -/
theorem C28_clean_end_refuted :
    (ended cfg1 (init cfg1) 20 lastOne = some (.crash .notEnoughSlots) ∧ raisesOf lastOne = 0) ∧
    (ended cfg2 (init cfg2) 20 race = some (.crash .notEnoughSlots) ∧ raisesOf race = 0) := by decide +kernel

include hs in
/-- **C28, partial.** The error about worker slots ends a run only if no optimizer is running. Missing: that such a run
ends regularly when the selector has answered `False`, which is false. -/
theorem C28_not_enough_slots_partial (he : ended cfg s fuel e = some (.crash .notEnoughSlots)) (i : Nat) :
    ¬ Running (happened cfg s fuel e) i := by
  have sp := (startManager_spec fuel hs.spec.1 e).2.1
  rw [show (startManager cfg fuel s e).1 = _ from he] at sp
  exact (moment_inv hs fuel e).nobody (sp.2.1 rfl) i

include hs in
/-- **C28, partial.** Once nobody is running and the selector has answered `False` (and the optimizers of a checkpoint, if the
manager was loaded from one, have been started again), the run is as good as over: the selector is not asked again, no
optimizer is created or started, and the convergence criterion is asked at most once more. Missing: that the run is then not
reported as crashed, which is false. -/
theorem C28_soon_over_partial (pre post : List Ev) (hp : happened cfg s fuel e = pre ++ post) (hq : Quiet pre)
    (hr : ∀ c n, Ev.resumed c n ∉ post) (hb : ∀ i w, Ev.restarted i w ∉ post) :
    (∀ k a, Ev.asked k a ∉ post) ∧ (∀ i, Ev.newId i ∉ post) ∧ (∀ i w, Ev.started i w ∉ post) ∧
    ∀ a b c, post = a ++ .checked b :: c → ∀ b', Ev.checked b' ∉ c := by
  obtain ⟨k, hk⟩ := hq.2
  obtain ⟨x, y, hxy⟩ := List.append_of_mem hk
  obtain ⟨h1, h2, h3⟩ := C11_no_spawn_after_stop hs fuel e x (y ++ post) k (by rw [hp, hxy]; simp)
  refine ⟨fun k a h => h1 k a (List.mem_append_right _ h), fun i h => h2 i (List.mem_append_right _ h),
    fun i w h => h3 i w (List.mem_append_right _ h), fun a b c hc b' hb' => ?_⟩
  obtain ⟨c1, c2, hcc⟩ := List.append_of_mem hb'
  have g := moment_good hs fuel e (pre ++ (a ++ .checked b :: c1)) (.checked b') c2 (by
    show happened cfg s fuel e = _
    rw [hp, hc, hcc]; simp)
  refine g pre (a ++ .checked b :: c1) rfl (fun c' n h => hr c' n ?_) (fun i w h => hb i w ?_) hq b (by simp)
  all_goals
    rw [hc, hcc]
    rcases List.mem_append.mp h with h | h
    · exact List.mem_append_left _ h
    · rcases List.mem_cons.mp h with h | h
      · rw [h]; simp
      · simp [h]

/-- The only optimizer ends after the selector answered `False`; the criterion, which is not met, is asked once more, and the
run ends regularly. -/
example : ∃ pre post, happened cfg2 (init cfg2) 20 endsClean = pre ++ post ∧ Quiet pre ∧ Ev.checked false ∈ post ∧
    (∀ c n, Ev.resumed c n ∉ post) ∧ (∀ i w, Ev.restarted i w ∉ post) ∧
    ended cfg2 (init cfg2) 20 endsClean = some .regular := by
  have h : happened cfg2 (init cfg2) 20 endsClean = [.checked false, .asked 2 (.chosen 1 "O"), .newId 1, .started 1 1,
      .asked 1 .stop, .took 1, .received (.res ⟨1, [5], .fin 5, []⟩), .accepted ⟨1, [5], .fin 5, []⟩,
      .updated [5] (.fin 5) 1, .took 1, .received (.fin 1), .overdue 1 false, .checked false, .said 1 "x", .finished 1,
      .died 1] ++ [.overdue 1 false, .checked false, .loopEnd] := by decide +kernel
  refine ⟨_, _, h, ⟨fun i hi => ?_, 1, by simp⟩, by simp, by simp, by simp, by decide +kernel⟩
  obtain ⟨⟨w, hw⟩, hd⟩ := hi
  have hs : startedOf [Ev.checked false, .asked 2 (.chosen 1 "O"), .newId 1, .started 1 1,
      .asked 1 .stop, .took 1, .received (.res ⟨1, [5], .fin 5, []⟩), .accepted ⟨1, [5], .fin 5, []⟩,
      .updated [5] (.fin 5) 1, .took 1, .received (.fin 1), .overdue 1 false, .checked false, .said 1 "x", .finished 1,
      .died 1] = [(1, 1)] := by decide +kernel
  rw [hs] at hw
  obtain ⟨rfl, _⟩ : i = 1 ∧ w = 1 := by simpa using hw
  exact hd (by decide +kernel)

/-! ### C29 -/

include hs in
/-- **C29.** Once an optimizer has reported a crash to the present manager, fewer than `2 * max_jobs + 6` optimizers are
started by it without an evaluation being accepted (the selector choosing optimizers with at least one worker which fit);
and the error about crashing optimizers ends a run only if a crash was reported in it. -/
theorem C29_crash_loop_guard :
    (SelectorPos (happened cfg s fuel e) →
      ∀ pre mid post i, happened cfg s fuel e = pre ++ mid ++ post → 0 ≤ (inForce cfg s fuel e pre).maxJobs →
        Ev.crashReport i true ∈ session pre → acceptedOf mid = [] → (∀ c n, Ev.resumed c n ∉ mid) →
        ((newIdsOf mid).length : Int) ≤ 2 * (inForce cfg s fuel e pre).maxJobs + 5) ∧
    (ended cfg s fuel e = some (.crash .crashLoop) → ∃ i, Ev.crashReport i true ∈ session (happened cfg s fuel e)) := by
  have g := moment_good hs fuel e
  refine ⟨fun hp pre mid post i h h0 hi ha hr => ?_, fun he => ?_⟩
  · rw [h] at g hp
    exact crashLoop_bound h0 (sinceCrash_some hi) mid (afterEach_prefix g)
      (fun k w c hm => hp k w c (List.mem_append_left _ hm)) ha hr
  · have sp := (startManager_spec fuel hs.spec.1 e).2.1
    rw [show (startManager cfg fuel s e).1 = _ from he] at sp
    exact crash_of_sinceCrash _ ((moment_inv hs fuel e).since.mp (sp.1 rfl))

example : ended cfg1 (init cfg1) 20 crashes = some (.crash .crashLoop) ∧ fitB (happened cfg1 (init cfg1) 20 crashes) = true := by decide +kernel

/-! ### C31 -/

include hs in
/-- **C31, partial.** The incumbent is sent only with sharing switched on, only to running optimizers other than its
finder, it is the best of the evaluations logged, and it is sent only right after an evaluation was accepted, if there
was no incumbent before, or the value is smaller than before, or the value before was 0. Missing: the restriction to
changed incumbents when the value is 0, for which it is false. -/
theorem C31_sharing_partial (pre post : List Ev) (i : Nat) (x : Vec) (fx : PyF)
    (h : happened cfg s fuel e = pre ++ .share i x fx :: post) :
    (inForce cfg s fuel e pre).sharing = true ∧ Running pre i ∧ (∃ b, IsBest x fx b (loggedOf pre) ∧ i ≠ b) ∧ UpToDate pre = false ∧
    (lastResult pre = none ∨ ∃ x' fx' b', lastResult pre = some (x', fx', b') ∧
      (PyF.lt fx fx' = true ∨ fx' = .fin 0)) := by
  obtain ⟨h1, h2, b, h3, h4, h5, h6⟩ := moment_good hs fuel e pre _ post h
  refine ⟨h1, h2, ⟨b, h3, h4⟩, h6, ?_⟩
  cases hl : lastResult pre with
  | none => exact .inl rfl
  | some p =>
    obtain ⟨x', fx', b'⟩ := p
    right
    refine ⟨x', fx', b', rfl, ?_⟩
    rw [hl] at h5
    simp only [Option.map_some, shouldShare, Bool.or_eq_true, Bool.not_eq_true'] at h5
    rcases h5 with h5 | h5
    · right
      cases fx' with
      | fin q => simpa [PyF.truthy] using h5
      | _ => simp [PyF.truthy] at h5
    · exact .inl h5

example : ∃ pre post, happened cfg2 (init cfg2) 20 demo = pre ++ .share 1 [3] (.fin 3) :: post ∧
    lastResult pre = some ([5], .fin 5, 1) :=
  ⟨(happened cfg2 (init cfg2) 20 demo).take 14, (happened cfg2 (init cfg2) 20 demo).drop 15, by decide +kernel⟩

/-- **C31, refuted part.** An incumbent with value 0 is sent again to the same optimizer although nothing changed; and
if the first evaluation is not a number an empty point is sent to everybody, the evaluating optimizer included. -/
theorem C31_sharing_refuted :
    (happened cfg2 (init cfg2) 20 zero).count (.share 2 [0] (.fin 0)) = 2 ∧
    Ev.share 1 [] .pinf ∈ happened cfg2 (init cfg2) 20 nanFirst ∧ Ev.share 2 [] .pinf ∈ happened cfg2 (init cfg2) 20 nanFirst := by
  decide +kernel

/-! ### C64 -/

/-- **C64, refuted.** Nothing outside fails, yet the run is reported as crashed (KeyError): the end marker of an
optimizer in the results queue is read, its storage released, and then its end signal is to be logged. -/
theorem C64_no_failure_no_crash_refuted :
    raisesOf markerFirst = 0 ∧ ended cfg2 (init cfg2) 20 markerFirst = some (.crash .keyError) := by decide +kernel

include hs in
/-- **C64, partial.** If nothing outside raises an exception the run does not end as interrupted, nor as crashed with an
exception from outside. Missing: crashes raised by the manager's own code, which do happen. -/
theorem C64_no_failure_partial (h : raisesOf e = 0) :
    ended cfg s fuel e ≠ some .userInterrupt ∧ ∀ x, ended cfg s fuel e ≠ some (.crash (.env x)) :=
  startManager_clean hs.spec.1 fuel e h

example : raisesOf demo = 0 ∧ ended cfg2 (init cfg2) 20 demo = some .regular := by decide +kernel

include hs in
/-- **C64, partial.** If nothing outside raises an exception, a run is reported as crashed only if an optimizer reported a crash,
or nobody is running, or a checkpoint was begun, or the end marker of an optimizer was read from the queue of results (and
memory is released), or an evaluation was read from the queue which comes from an optimizer not started by this manager.
Missing: that it is not reported as crashed in these cases, which is false. -/
theorem C64_crash_causes_partial (h : raisesOf e = 0) (x : Exc) (hx : ended cfg s fuel e = some (.crash x)) :
    (x = .crashLoop ∧ ∃ i, Ev.crashReport i true ∈ session (happened cfg s fuel e)) ∨
    (x = .notEnoughSlots ∧ ∀ i, ¬ Running (happened cfg s fuel e) i) ∨
    ((x = .eofError ∨ x = .unhandledMessage ∨ x = .queueNotEmpty ∨ x = .ckpt) ∧ Ev.ckptBegin ∈ happened cfg s fuel e) ∨
    (x = .keyError ∧ (((moment cfg s fuel e).first.traj = false ∧ ∃ i, Ev.received (.fin i) ∈ happened cfg s fuel e) ∨
      ∃ r, inHand (happened cfg s fuel e) = some r ∧ ∀ w, (r.optId, w) ∉ startedOf (happened cfg s fuel e))) := by
  have sp := (startManager_spec fuel hs.spec.1 e).2.1
  rw [show (startManager cfg fuel s e).1 = _ from hx] at sp
  obtain ⟨-, h2, h3, h4⟩ := sp
  cases x with
  | crashLoop => exact .inl ⟨rfl, (C29_crash_loop_guard hs fuel e).2 hx⟩
  | notEnoughSlots => exact .inr (.inl ⟨rfl, (moment_inv hs fuel e).nobody (h2 rfl)⟩)
  | keyError =>
    exact .inr (.inr (.inr ⟨rfl, (h3 rfl).imp id fun ⟨r, h5, h6⟩ => ⟨r, h5, fun w hw => h6 (List.mem_map.mpr ⟨_, hw, rfl⟩)⟩⟩))
  | env y => exact absurd hx ((C64_no_failure_partial hs fuel e h).2 y)
  | _ => exact .inr (.inr (.inl ⟨by simp, h4 (by simp)⟩))

/-- An evaluation which comes from an optimizer never started crashes the run. -/
example : raisesOf stranger = 0 ∧ ended cfg2 (init cfg2) 20 stranger = some (.crash .keyError) ∧
    (inHand (happened cfg2 (init cfg2) 20 stranger)).map (·.optId) = some 7 := by decide +kernel

theorem mem_of_session {ev : List Ev} {x : Ev} : x ∈ session ev → x ∈ ev := by
  induction ev using Manager.snoc_induction with
  | h0 => intro h; cases h
  | h l y ih =>
    intro h
    rw [session_snoc] at h
    have : x ∈ session l ∨ x = y := by
      cases y <;> first | (cases h; done) | exact (List.mem_append.mp h).imp id List.mem_singleton.mp
    exact List.mem_append.mpr (this.imp ih List.mem_singleton.mpr)

theorem received_of_hand {ev : List Ev} {r : IterRes} : inHand ev = some r → Ev.received (.res r) ∈ ev := by
  induction ev using Manager.snoc_induction with
  | h0 => intro h; cases h
  | h l y ih =>
    intro h
    rw [inHand_snoc] at h
    cases y with
    | received m =>
      cases m with
      | res r' => cases h; simp
      | fin i => exact List.mem_append_left _ (ih h)
    | accepted r' => cases h
    | ignored r' => cases h
    | _ => exact List.mem_append_left _ (ih h)

include hs in
/-- **C64, partial.** In particular: as long as no optimizer reports a crash, an optimizer is running, no checkpoint is begun, no end
marker is read from the queue of results and all evaluations come from optimizers of this manager, a run in which nothing
outside fails is not reported as crashed. -/
theorem C64_undisturbed_partial (h : raisesOf e = 0) (hc : ∀ i b, Ev.crashReport i b ∉ happened cfg s fuel e)
    (hl : ∃ i, Running (happened cfg s fuel e) i) (hk : Ev.ckptBegin ∉ happened cfg s fuel e)
    (hf : ∀ i, Ev.received (.fin i) ∉ happened cfg s fuel e)
    (ho : ∀ r, Ev.received (.res r) ∈ happened cfg s fuel e → ∃ w, (r.optId, w) ∈ startedOf (happened cfg s fuel e)) (x : Exc) :
    ended cfg s fuel e ≠ some (.crash x) := by
  intro hx
  rcases C64_crash_causes_partial hs fuel e h x hx with ⟨-, i, hi⟩ | ⟨-, hn⟩ | ⟨-, hb⟩ | ⟨-, ⟨-, i, hi⟩ | ⟨r, hr, hn⟩⟩
  · exact hc i true (mem_of_session hi)
  · exact hn _ hl.choose_spec
  · exact hk hb
  · exact hf i hi
  · obtain ⟨w, hw⟩ := ho r (received_of_hand hr)
    exact hn w hw

/-- Evaluations, a hunt, a death, and one optimizer running until the criterion is met. -/
example : raisesOf demo = 0 ∧ ended cfg2 (init cfg2) 20 demo = some .regular ∧ (∃ i, Running (happened cfg2 (init cfg2) 20 demo) i) ∧
    (acceptedOf (happened cfg2 (init cfg2) 20 demo)).length = 2 ∧
    (happened cfg2 (init cfg2) 20 demo).all (fun x => match x with
      | .crashReport _ _ => false | .ckptBegin => false | .received (.fin _) => false
      | .received (.res r) => (startedOf (happened cfg2 (init cfg2) 20 demo)).any fun p => p.1 == r.optId
      | _ => true) = true :=
  ⟨by decide +kernel, by decide +kernel, ⟨2, ⟨1, by decide +kernel⟩, by decide +kernel⟩, by decide +kernel, by decide +kernel⟩

/-! ### C67 -/

include hs in
/-- **C67.** An optimizer is terminated for not responding only if the user allowed forced terminations, the optimizers
are processes, and it was started by this manager and not killed by a hunt. -/
theorem C67_forced_terminations (pre post : List Ev) (i : Nat) (h : happened cfg s fuel e = pre ++ .forced i :: post) :
    (inForce cfg s fuel e pre).forced = true ∧ (inForce cfg s fuel e pre).procs = true ∧ i ∈ newIdsOf pre ∧ i ∉ killedOf pre :=
  moment_good hs fuel e pre _ post h

example : forcedOf (happened cfgForced (init cfgForced) 20 hangs) = [1] ∧ forcedOf (happened cfg1 (init cfg1) 20 hangs) = [] := by decide +kernel

/-! ### C93 -/

/-- **C93, refuted.** The value 3 is accepted and becomes the result while a checkpoint is taken, after the log has been
saved. The manager loaded from that checkpoint reports it, and counts it, but its log does not have it; the next evaluation
makes the result worse. -/
theorem C93_resume_keeps_evaluations_refuted :
    loaded.result.fx = some (.fin 3) ∧ loaded.fCounter = 2 ∧ loaded.log.len = 1 ∧
    (moment cfgSave loaded 20 goesOn).result.fx = some (.fin 4) := by decide +kernel

include hs in
/-- **C93, partial.** On loading a checkpoint the log is that of the moment when taking that checkpoint began, so that what
is lost are the evaluations accepted while it was taken, and nothing if there were none; nothing was half processed, all
ids, kills, counters and the result go on from where they were (C19, C21, C22, C23, C26). Missing: the evaluations accepted
while the checkpoint was taken, which are lost. -/
theorem C93_resume_keeps_evaluations_partial (pre : List Ev) (c : Cfg) (n : Nat) (post : List Ev)
    (h : happened cfg s fuel e = pre ++ .resumed c n :: post) :
    UpToDate pre = true ∧ inHand pre = none ∧ ∃ a b, pre = a ++ .ckptBegin :: b ∧ Ev.ckptBegin ∉ b ∧
      loggedOf (pre ++ [.resumed c n]) = loggedOf a ∧
      (acceptedOf b = [] → loggedOf (pre ++ [.resumed c n]) = loggedOf pre) := by
  obtain ⟨h1, h2, a, b, rfl, h4, h5, h6⟩ := moment_good hs fuel e pre _ post h
  refine ⟨h1, h2, a, b, rfl, h4, by rw [loggedOf_snoc]; exact h5, fun hb => ?_⟩
  rw [loggedOf_snoc]
  refine List.take_of_length_le ?_
  have := logged_length_le a (.ckptBegin :: b)
  have hz : acceptedOf (Ev.ckptBegin :: b) = [] := hb
  rw [hz] at this
  simp only [List.length_nil] at this
  omega

/-- The history of the refutation has a loading which loses an evaluation; the other one has one which loses none. -/
example : Startable cfgSave loaded ∧ (acceptedOf (happened cfgSave loaded 20 goesOn)).length = 3 ∧
    (loggedOf (happened cfgSave loaded 20 goesOn)).length = 2 ∧
    Startable cfg2 haunted ∧ (acceptedOf (happened cfg2 haunted 20 startsAgain)).length = 2 ∧
    loggedOf (happened cfg2 haunted 20 startsAgain) = acceptedOf (happened cfg2 haunted 20 startsAgain) :=
  ⟨startable_loaded, by decide +kernel, by decide +kernel, startable_haunted, by decide +kernel, by decide +kernel⟩

/-! ### C94 -/

/-- **C94, refuted.** An optimizer killed by a hunt but not stopped yet is saved in a checkpoint and started again by the
manager loaded from it. -/
theorem C94_killed_not_continued_refuted :
    killedOf (happened cfg2 haunted 20 startsAgain) = [1] ∧
    startedOf (happened cfg2 haunted 20 startsAgain) = [(1, 1), (2, 1)] ∧
    Running (happened cfg2 haunted 20 startsAgain) 1 := by decide +kernel

include hs in
/-- **C94, partial.** An optimizer started again had been given its id before, and is started at most once by one manager;
if it was killed before, it is not killed again and nothing it evaluates is accepted. Missing: that it is not started. -/
theorem C94_killed_not_continued_partial (pre : List Ev) (i : Nat) (w : Int) (post : List Ev)
    (h : happened cfg s fuel e = pre ++ .restarted i w :: post) :
    i ∈ newIdsOf pre ∧ (∀ w', (i, w') ∉ startedOf pre) ∧
    (i ∈ killedOf pre → i ∉ killedOf post ∧ ∀ r ∈ acceptedOf post, r.optId ≠ i) := by
  obtain ⟨h1, h2, -⟩ := moment_good hs fuel e pre _ post h
  refine ⟨h1, fun w' hw => h2 (List.mem_map.mpr ⟨_, hw, rfl⟩), fun hk => ⟨fun hk' => ?_, fun r hr => ?_⟩⟩
  · have := killed_nodup _ (moment_good hs fuel e)
    rw [h, killedOf_append] at this
    exact (List.nodup_append.mp this).2.2 i hk i (by simpa [killedOf] using hk') rfl
  · obtain ⟨x, hx⟩ := mem_killedOf.mp hk
    obtain ⟨a, b, hab⟩ := List.append_of_mem hx
    refine (C21_killed_are_ignored hs fuel e).1 a i x (b ++ .restarted i w :: post) (by rw [h, hab]; simp) r ?_
    rw [acceptedOf_append]
    exact List.mem_append_right _ hr

example : ∃ pre post, happened cfg2 haunted 20 startsAgain = pre ++ .restarted 1 1 :: post ∧ 1 ∈ killedOf pre :=
  ⟨(happened cfg2 haunted 20 startsAgain).take 26, (happened cfg2 haunted 20 startsAgain).drop 27, by decide +kernel⟩

/-! ### C95 -/

/-- **C95.** A manager loaded from a checkpoint, whose run ends regularly, has started again every optimizer in the
checkpoint which could be rebuilt. -/
theorem C95_checkpoint_continued {cfg₀ cfg : Cfg} {s₀ s : State} (hs : Startable cfg₀ s₀) (fuel₀ fuel : Nat) (e₀ e : Env)
    (k : Saved) (found : List (Nat × Bool)) (hk : k ∈ (moment cfg₀ s₀ fuel₀ e₀).saved) (hf : (found.map (·.1)).Perm k.files)
    (hl : loadCheckpoint cfg k found (moment cfg₀ s₀ fuel₀ e₀).saved = .ok s) :
    ended cfg s fuel e = some .regular →
      ∀ i, (i, true) ∈ found → ∃ w, Ev.restarted i w ∈ session (happened cfg s fuel e) := by
  have hS : Start cfg s := (Startable.loaded cfg₀ cfg s₀ s fuel₀ e₀ k found hs hk hf hl).spec.1
  intro he i hi
  have key : s.restart = true ∧ ∃ w, (i, w) ∈ s.packs := by
    unfold loadCheckpoint at hl
    split at hl
    · cases hl
    rename_i want hwant
    split at hl
    · cases hl
    rename_i slots hslots
    split at hl
    · cases hl
    simp only [Except.ok.injEq] at hl
    have hids : slots.map (·.1) = found.map (·.1) := (apportion_facts hslots).1.trans (demand_mem hwant).1
    have : i ∈ slots.map (·.1) := by rw [hids]; exact List.mem_map.mpr ⟨_, hi, rfl⟩
    obtain ⟨p, hp, rfl⟩ := List.mem_map.mp this
    subst hl
    exact ⟨rfl, p.2, List.mem_filter.mpr ⟨hp, List.any_eq_true.mpr ⟨_, hi, by simp⟩⟩⟩
  obtain ⟨hr, w, hw⟩ := key
  exact ⟨w, startManager_restarts hS hr fuel e he _ hw⟩

/-- `haunted` was loaded from a checkpoint with two optimizers. -/
example : ended cfg2 haunted 20 endsAgain = some .regular ∧
    ((firstOf (moment cfg2 (init cfg2) 20 zombie)).map (·.files)) = some [1, 2] ∧
    ((firstOf (moment cfg2 (init cfg2) 20 zombie)).map fun k =>
      (loadCheckpoint cfg2 k [(1, true), (2, true)] (moment cfg2 (init cfg2) 20 zombie).saved).toBool) = some true := by
  decide +kernel

end Glompo.Props
