import Verif.Lemmas.Interventions
import Verif.Lemmas.ManagerStop
import Verif.Props.ManagerRuns

/-!
# C107, C108: stop files and requests for checkpoints
-/

namespace Glompo.Props

open Glompo Glompo.Interventions
open Glompo.Checkpoint (Name dec undec isDigit)

/-! ### Specification -/

/-- `STOP_x` as documented: the number of the optimizer in decimal, with any number of leading zeros. -/
def stopName (zeros n : Nat) : Name := "STOP_".toList ++ List.replicate zeros '0' ++ dec n

/-- A file (not a directory) asking to stop `i`. -/
def StopFile (e : Entry) (i : Int) : Prop := e.dir = false ∧ isStop e.name = true ∧ named e.name = some i

/-- A look at the directory during which nothing fails: every stop file can be removed, every message be sent. -/
def Smooth (w : World) (p : Pass) : Prop :=
  (∀ e ∈ w.files, isStop e.name = true → e.dir = false ∧ p.lost e.name = false) ∧ ∀ i, p.send i = none

/-- A look at the directory, in the order the files were made, nothing failing. -/
def plain : Pass := ⟨id, fun _ => .rfl, fun _ => false, fun _ => none⟩

/-! ### Names -/

/-- **C107 (documented names).** `STOP_x` means optimizer `x`, with or without leading zeros. -/
theorem C107_documented (zeros n : Nat) :
    isStop (stopName zeros n) = true ∧ named (stopName zeros n) = some (n : Int) := by
  have hp : "STOP_".toList = stopPrefix := by decide
  have e : stopName zeros n = stopPrefix ++ (List.replicate zeros '0' ++ dec n) := by
    unfold stopName; rw [hp, List.append_assoc]
  obtain ⟨h1, h2, h3, -⟩ := Checkpoint.decAux_spec (n + 1) n (by omega)
  have hd : ∀ c ∈ List.replicate zeros '0' ++ dec n, isDigit c = true := by
    intro c hc
    rcases List.mem_append.mp hc with hc | hc
    · rw [List.eq_of_mem_replicate hc]; decide
    · exact h1 c hc
  refine ⟨by rw [e, isStop_iff]; exact ⟨_, rfl⟩, ?_⟩
  rw [e, named_stop, if_neg (fun h => absurd (hd _ h) (by decide)), pyInt_iff]
  refine ⟨[], [], List.replicate zeros '0' ++ dec n, [], by simp, rfl, rfl, ?_, List.all_eq_true.mpr hd, .inl ⟨.inl rfl, ?_⟩⟩
  · intro h
    have := congrArg List.length h
    rw [List.length_append] at this
    unfold dec at this
    have h4 : ([] : Name).length = 0 := rfl
    omega
  · rw [Checkpoint.undec_zeros]; unfold dec; rw [h2]

example : stopName 2 3 = "STOP_003".toList ∧ stopName 0 12 = "STOP_12".toList := by decide

/-- **C107 (all names).** Exactly these names mean optimizer `i`: `STOP_`, then a number in decimal, with blanks around it or not, with a sign or
not. -/
theorem C107_names (f : Name) (i : Int) : isStop f = true ∧ named f = some i ↔
    ∃ pre sign ds post, f = "STOP_".toList ++ (pre ++ (sign ++ ds) ++ post) ∧ pre.all blank = true ∧ post.all blank = true ∧
      ds ≠ [] ∧ ds.all isDigit = true ∧
      ((sign = [] ∨ sign = ['+']) ∧ i = (undec ds : Int) ∨ sign = ['-'] ∧ i = -(undec ds : Int)) := by
  have hp : "STOP_".toList = stopPrefix := by decide
  rw [hp, isStop_iff]
  constructor
  · rintro ⟨⟨x, rfl⟩, h⟩
    rw [named_stop] at h
    split at h
    · cases h
    · obtain ⟨pre, sign, ds, post, rfl, r⟩ := (pyInt_iff x i).mp h
      exact ⟨pre, sign, ds, post, rfl, r⟩
  · rintro ⟨pre, sign, ds, post, rfl, r⟩
    refine ⟨⟨_, rfl⟩, ?_⟩
    rw [named_stop, if_neg, pyInt_iff]
    · exact ⟨pre, sign, ds, post, rfl, r⟩
    · obtain ⟨h1, h2, -, h4, h5⟩ := r
      intro h
      rw [List.all_eq_true] at h1 h2 h4
      simp only [List.mem_append] at h
      rcases h with (h | h | h) | h
      · exact absurd (h1 _ h) (by decide)
      · rcases h5 with ⟨h5 | h5, -⟩ | ⟨h5, -⟩ <;> (subst h5; revert h; decide)
      · exact absurd (h4 _ h) (by decide)
      · exact absurd (h2 _ h) (by decide)

example : named "STOP_ +07".toList = some 7 ∧ named "STOP_1_2".toList = none ∧ named "STOP_x".toList = none ∧
    isStop "stop_1".toList = false := by decide

/-! ### A look at the directory -/

/-- **C107 (a look).** When nothing fails, exactly those optimizers are sent the stop message which are living and named by a stop file; each is
sent it once, is counted as gone and as stopped by the manager, and no other is. For each of them exactly one file is removed, one which names it;
all other files stay. -/
theorem C107_look (w : World) (p : Pass) (h0 : w.raised = none) (hs : Smooth w p) :
    ∃ (removed : List Entry) (new : List Int),
      (act w (.stops p)).raised = none ∧
      (act w (.stops p)).stopped = w.stopped ++ new.map (fun i => (w.runs, i)) ∧ new.Nodup ∧
      (∀ i, i ∈ new ↔ (i ∈ w.packs ∧ i ∉ w.graveyard) ∧ ∃ e ∈ w.files, StopFile e i) ∧
      (∀ i, i ∈ (act w (.stops p)).graveyard ↔ i ∈ w.graveyard ∨ i ∈ new) ∧
      (∀ i, i ∈ (act w (.stops p)).victims ↔ i ∈ w.victims ∨ i ∈ new) ∧
      (act w (.stops p)).packs = w.packs ∧ (act w (.stops p)).control = w.control ∧ (act w (.stops p)).made = w.made ∧
      (∀ e ∈ removed, e ∈ w.files) ∧ removed.map (fun e => named e.name) = new.map some ∧
      (act w (.stops p)).files = w.files.filter fun f => f.name ∉ removed.map (·.name) := by
  have e : act w (.stops p) = lookForStops p w := by simp [act, h0]
  rw [e]
  unfold lookForStops
  have hm : ∀ f, f ∈ (p.order w.files).filter (fun e => isStop e.name) ↔ f ∈ w.files ∧ isStop f.name = true := fun f => by
    rw [List.mem_filter, (p.perm w.files).mem_iff]
  obtain ⟨rm, new, a1, a2, a3, a4, a5, a6, a7, -, a9, a10, a11, a12, a13⟩ :=
    fold_ok hs.2 _ w h0 (fun f hf => hs.1 f ((hm f).mp hf).1 ((hm f).mp hf).2)
  refine ⟨rm, new, a1, a2, a3, fun i => ?_, a5, a6, a7, a9, a10, fun f hf => ((hm f).mp (a11.mem hf)).1, a12, a13⟩
  rw [a4 i]
  refine and_congr_right fun _ => ⟨fun ⟨f, hf, hn⟩ => ?_, fun ⟨f, hf, _, h1, h2⟩ => ⟨f, (hm f).mpr ⟨hf, h1⟩, h2⟩⟩
  exact ⟨f, ((hm f).mp hf).1, (hs.1 f ((hm f).mp hf).1 ((hm f).mp hf).2).1, ((hm f).mp hf).2, hn⟩

/-- Two optimizers running, one gone; files for one of the running, for the one gone, and a name which means nothing. -/
def sample : World := run (empty ["w".toList] ["c".toList] none)
  [.start, .start, .start, .ends 1, .put ⟨"STOP_002".toList, false⟩, .put ⟨"STOP_1".toList, false⟩,
   .put ⟨"STOP_x".toList, false⟩]

example : sample.raised = none ∧ Smooth sample plain ∧ (act sample (.stops plain)).stopped = [(0, 2)] ∧
    (act sample (.stops plain)).files.map (·.name) = ["STOP_1".toList, "STOP_x".toList] := by
  refine ⟨by decide, ⟨?_, fun _ => rfl⟩, by decide, by decide⟩
  show ∀ e ∈ sample.files, _
  decide

/-- **C107 (no request is lost).** A stop file made for an optimizer is there until that optimizer is gone, whatever else happens, unless the
user removes it; the first look while the optimizer is living stops it. -/
theorem C107_honoured (w : World) (l : List Act) (p : Pass) (e : Entry) (i : Int) (he : e ∈ w.files) (hf : StopFile e i)
    (hl : ∀ a ∈ l, Leaves e.name a) (h0 : (run w l).raised = none) (hs : Smooth (run w l) p)
    (hi : i ∈ (run w l).packs ∧ i ∉ (run w l).graveyard) :
    e ∈ (run w l).files ∧ ((run w l).runs, i) ∈ (act (run w l) (.stops p)).stopped := by
  have hst := run_keeps (P := fun w => e ∈ w.files ∨ i ∈ w.graveyard) (ok := Leaves e.name)
    (fun w a ha h => stays hf.2.1 hf.2.2 w a ha h) l w hl (.inl he)
  have hst : e ∈ (run w l).files := hst.resolve_right hi.2
  refine ⟨hst, ?_⟩
  obtain ⟨rm, new, -, h2, -, h4, -⟩ := C107_look (run w l) p h0 hs
  rw [h2]
  exact List.mem_append.mpr (.inr (List.mem_map.mpr ⟨i, (h4 i).mpr ⟨hi, e, hst, hf⟩, rfl⟩))

/-- **C107 (nobody is stopped without request).** In any sequence of runs in the directory: nobody is sent the message twice in a
run, and `i` is sent it no more often than the user made files asking to stop `i`. -/
theorem C107_requested (d c : Path) (k : Option Control) (l : List Act) :
    (run (empty d c k) l).stopped.Nodup ∧
    ∀ i, (run (empty d c k) l).stopped.countP (fun s => s.2 = i) ≤
      l.countP fun | .put e => isStop e.name && decide (named e.name = some i) | _ => false := by
  refine ⟨(run_keeps (P := Once) (ok := fun _ => True) (fun w a _ h => once_act w a h) l _ (fun _ _ => trivial) ?_).1, fun i => ?_⟩
  · exact ⟨List.nodup_nil, (fun s hs => by cases hs), (fun i hi => by cases hi)⟩
  · have h := used_run i l (empty d c k) List.nodup_nil
    have h0 : used i (empty d c k) = 0 := rfl
    have h1 : l.countP (asking i) =
        l.countP fun | .put e => isStop e.name && decide (named e.name = some i) | _ => false := by
      congr 1
    rw [h0, h1] at h
    unfold used at h
    omega

example : (run (empty [] [] none) [.start, .put ⟨"STOP_1".toList, false⟩, .stops plain, .stops plain, .newRun none, .start,
    .stops plain]).stopped = [(0, 1)] := by decide

/-- **C107 (in the manager).** The manager's look at the stop files, in the model of the whole run: if it comes to its end and no system call fails
with `ValueError`, then whoever is living and named is shut down, once, with no hunter, and nobody else. `fs` are the names as read. -/
theorem C107_manager (s s' : Manager.State) (deaths : List Nat) (fs : List (Option Nat)) (e e' : Manager.Env)
    (hv : ∀ o ∈ e, o.ans ≠ .raise .valueError)
    (h : Manager.manualShutdowns s (⟨deaths, .files fs⟩ :: e) = (.ok (), s', e')) :
    ∃ l : List Nat, l.Nodup ∧ (∀ i, i ∈ l ↔ some i ∈ fs ∧ i ∈ s.packs.map (·.1) ∧ i ∉ s.graveyard) ∧
      s'.packs = s.packs ∧ (∀ i, i ∈ s'.graveyard ↔ i ∈ s.graveyard ∨ i ∈ l) ∧
      (∀ i, i ∈ s'.victims ↔ i ∈ s.victims ∨ i ∈ l) ∧
      Manager.kills s'.ev = Manager.kills s.ev ++ l.map fun i => (i, none) := by
  have hc := Manager.calm_die deaths s
  have h' : Manager.M.forEach fs Manager.stopFile (Manager.die deaths s) e = (.ok (), s', e') := h
  obtain ⟨l, k1, k2, k3⟩ := Manager.stops_all fs _ s' e e' hv h'
  refine ⟨l, k2, fun i => ?_, k1.packs.trans hc.1, fun i => by rw [k1.graveyard, hc.2.1],
    fun i => by rw [k1.victims, hc.2.2.1], by rw [k1.kills, hc.2.2.2]⟩
  rw [k3 i, hc.1, hc.2.1]
  have : (dictGet s.packs i).isSome = true ↔ i ∈ s.packs.map (·.1) := dictGet_isSome_iff _ _
  rw [this]

/-- Optimizers 1 and 2 are running. -/
def two : Manager.State := { Manager.init Runs.cfg2 with
  packs := [(1, 1), (2, 1)], log := ((Logger.init false).addOptimizer 1 "O").addOptimizer 2 "O" }

/-- There are a file for 2, one for 5 and one which does not parse. -/
example : ∃ s' e', Manager.manualShutdowns two
    (⟨[], .files [some 2, some 5, none]⟩ :: [⟨[], .unit⟩, ⟨[], .unit⟩]) = (.ok (), s', e') ∧
    Manager.kills s'.ev = [(2, none)] ∧ s'.graveyard = [2] := ⟨_, _, rfl, rfl, rfl⟩

/-! ### What the documentation does not say -/

/-- **C107 refuted (who is meant).** A stop file stops also an optimizer which is not running when the file is made: it waits for an optimizer
of this number. It is also not bound to the run: a file left over stops an optimizer of the next run in the directory, even if
old results are deleted. -/
theorem C107_later_optimizer_refuted :
    (∃ e l, StopFile e 3 ∧ (run (empty [] [] none) [.put e]).packs = [] ∧
      (run (run (empty [] [] none) [.put e]) l).stopped = [(0, 3)] ∧ l.all (fun | .put _ => false | _ => true) = true) ∧
    ∃ e e' l, StopFile e 1 ∧ StopFile e' 1 ∧
      (run (empty [] [] none) ([.start, .put e, .put e', .stops plain] ++ l)).stopped = [(0, 1), (1, 1)] ∧
      l.all (fun | .put _ => false | _ => true) = true := by
  refine ⟨⟨⟨"STOP_3".toList, false⟩, [.start, .stops plain, .start, .stops plain, .start, .stops plain], ?_⟩,
    ⟨"STOP_1".toList, false⟩, ⟨"STOP_01".toList, false⟩, [.stops plain, .newRun none, .start, .stops plain], ?_⟩
  · exact ⟨⟨rfl, by decide, by decide⟩, rfl, by decide, by decide⟩
  · exact ⟨⟨rfl, by decide, by decide⟩, ⟨rfl, by decide, by decide⟩, by decide, by decide⟩

/-- **C107 refuted (removed once processed).** A file for an optimizer which is gone is never removed by the manager, whatever happens in this
run; neither is one whose name means nothing. -/
theorem C107_left_behind_refuted :
    (∀ (w : World) (l : List Act) (e : Entry) (i : Int), e ∈ w.files → StopFile e i → i ∈ w.graveyard →
      (∀ a ∈ l, Leaves e.name a) → e ∈ (run w l).files) ∧
    (∀ (w : World) (l : List Act) (e : Entry), e ∈ w.files → isStop e.name = true → named e.name = none →
      (∀ a ∈ l, a ≠ .remove e.name) → e ∈ (run w l).files) ∧
    ∃ (w : World) (e f : Entry) (i : Int), e ∈ w.files ∧ StopFile e i ∧ i ∈ w.graveyard ∧ f ∈ w.files ∧
      isStop f.name = true ∧ named f.name = none := by
  refine ⟨fun w l e i he hf hg hl => ?_, fun w l e he hs hn hl => ?_,
    sample, ⟨"STOP_1".toList, false⟩, ⟨"STOP_x".toList, false⟩, 1, by decide, ⟨rfl, by decide, by decide⟩, by decide, by decide,
    by decide, by decide⟩
  · exact (run_keeps (P := fun w => e ∈ w.files ∧ i ∈ w.graveyard) (ok := Leaves e.name)
      (fun w a ha h => stays_gone hf.2.1 hf.2.2 w a ha h) l w hl ⟨he, hg⟩).1
  · have hc : e.name ≠ chkpt := fun h => by rw [h] at hs; exact absurd hs (by decide)
    exact run_keeps (P := fun w => e ∈ w.files) (ok := fun a => a ≠ .remove e.name)
      (fun w a ha h => stays_none hn w a ha (fun h => absurd h hc) h) l w hl he

/-- **C107 refuted (a directory).** A directory with the name of a stop file ends the run as soon as the optimizer is living, and nobody is
told to stop by this look. -/
theorem C107_directory_refuted (n : Nat) (zeros : Nat) (w : World) (p : Pass) (h0 : w.raised = none)
    (hf : w.files = [⟨stopName zeros n, true⟩]) (hl : (n : Int) ∈ w.packs ∧ (n : Int) ∉ w.graveyard) :
    (act w (.stops p)).raised = some .osError ∧ (act w (.stops p)).stopped = w.stopped := by
  obtain ⟨h1, h2⟩ := C107_documented zeros n
  have hp : p.order [⟨stopName zeros n, true⟩] = [⟨stopName zeros n, true⟩] := List.perm_singleton.mp (p.perm _)
  have e : act w (.stops p) = stopOne p w ⟨stopName zeros n, true⟩ := by
    simp [act, h0, lookForStops, hf, hp, h1]
  rw [e]
  simp [stopOne, h0, h2, hl]

example : ∃ w : World, w.raised = none ∧ w.files = [⟨stopName 0 1, true⟩] ∧ (1 : Int) ∈ w.packs ∧ (1 : Int) ∉ w.graveyard :=
  ⟨run (empty [] [] none) [.start, .put ⟨stopName 0 1, true⟩], by decide, by decide, by decide, by decide⟩

/-- **C107 (after the end).** A run which was ended by an exception looks for no files and changes nothing any more; in a run which goes on, an optimizer which is gone
is taken off the list of optimizers, and nothing else happens by that. -/
theorem C107_ended (w : World) (a : Act) :
    (w.raised ≠ none → (∀ e, a ≠ .put e) → (∀ n, a ≠ .remove n) → (∀ c, a ≠ .newRun c) → act w a = w) ∧
    (∀ i, w.raised = none → i ∈ w.graveyard → act w (.purge i) = { w with packs := w.packs.filter fun j => j ≠ i }) := by
  constructor
  · intro h h1 h2 h3
    have hs : w.raised.isSome = true := Option.isSome_iff_ne_none.mpr h
    cases a with
    | put e => exact absurd rfl (h1 e)
    | remove n => exact absurd rfl (h2 n)
    | newRun c => exact absurd rfl (h3 c)
    | _ => simp only [act, hs, true_or, if_true]
  · intro i h hg
    simp [act, h, hg]

/-! ### C108: requests for checkpoints -/

/-- **C108 (made).** When the manager looks and there is a file `CHKPT`, the file is removed and a checkpoint is made, with the settings of the run, or
the default settings if there are none. If the checkpoint does not fail, the settings are afterwards what they were before. Without the file nothing
happens. Optimizers and all other files are left alone. -/
theorem C108_made_partial (w : World) (h0 : w.raised = none) (hd : ∀ e ∈ w.files, e.name = chkpt → e.dir = false) :
    ((∀ e ∈ w.files, e.name ≠ "CHKPT".toList) → ∀ fails, act w (.checkpoints fails) = w) ∧
    ((∃ e ∈ w.files, e.name = "CHKPT".toList) → act w (.checkpoints none) = { w with
      files := w.files.filter fun f => f.name ≠ "CHKPT".toList
      made := w.made ++ [w.control.getD (defaults w.cwd)] }) := by
  have hc : "CHKPT".toList = chkpt := by decide
  have hk : ∀ fails, act w (.checkpoints fails) = lookForCheckpoint fails w := fun _ => by simp [act, h0]
  rw [hc]
  constructor
  · intro h fails
    rw [hk]
    rcases chkpt_cases fails w with ⟨-, h1⟩ | ⟨f, hf, hn, -⟩
    · exact h1
    · exact absurd hn (h f hf)
  · rintro ⟨e, he, hn⟩
    rw [hk]
    rcases chkpt_cases none w with ⟨h, -⟩ | ⟨f, hf, hn', ⟨h1, -⟩ | ⟨-, x, h1, -⟩ | ⟨-, -, h1⟩⟩
    · exact absurd hn (h e he)
    · rw [hd f hf hn'] at h1; cases h1
    · cases h1
    · exact h1

example : (run (empty [] [] (some ⟨["a".toList]⟩)) [.put ⟨"CHKPT".toList, false⟩, .checkpoints none, .checkpoints none]).made =
    [⟨["a".toList]⟩] := by decide

/-- **C108 (one request, one checkpoint).** In any sequence of runs, no more checkpoints are made because of files than the user made files
`CHKPT`. -/
theorem C108_requested (d c : Path) (k : Option Control) (l : List Act) :
    (run (empty d c k) l).made.length ≤ l.countP fun | .put e => decide (e.name = "CHKPT".toList) | _ => false := by
  have h := usedC_run l (empty d c k)
  have h0 : usedC (empty d c k) = 0 := rfl
  have hc : "CHKPT".toList = chkpt := by decide
  have h1 : l.countP askingC = l.countP fun | .put e => decide (e.name = "CHKPT".toList) | _ => false := by
    rw [hc]; congr 1
  rw [h0, h1] at h
  unfold usedC at h
  omega

/-- **C108 (no request is lost).** A file `CHKPT` stays until the manager looks, whatever else happens, unless the user removes it, and then a checkpoint is
begun. -/
theorem C108_honoured (w : World) (l : List Act) (e : Entry) (he : e ∈ w.files) (hn : e.name = "CHKPT".toList)
    (hl : ∀ a ∈ l, a ≠ .remove e.name ∧ ∀ x, a ≠ .checkpoints x) :
    e ∈ (run w l).files ∧
    ((run w l).raised = none → (∀ e ∈ (run w l).files, e.name = "CHKPT".toList → e.dir = false) →
      (act (run w l) (.checkpoints none)).made.length = (run w l).made.length + 1) := by
  have hc : "CHKPT".toList = chkpt := by decide
  rw [hc] at hn ⊢
  suffices h : e ∈ (run w l).files by
    refine ⟨h, fun h0 hd => ?_⟩
    rw [(C108_made_partial _ h0 hd).2 ⟨e, h, by rw [hn, hc]⟩]
    simp
  exact run_keeps (P := fun w => e ∈ w.files) (ok := fun a => a ≠ .remove e.name ∧ ∀ x, a ≠ .checkpoints x)
    (fun w a ha h => stays_none (by rw [hn]; decide) w a ha.1 (fun _ => ha.2) h) l w hl he

example : (run (empty [] [] none) [.start, .put ⟨"CHKPT".toList, false⟩, .stops plain, .ends 1]).files = [⟨"CHKPT".toList, false⟩] := by decide

/-- **C108 refuted (where).** The documentation says that the directory of the checkpoints appears in the working directory of the run
when no settings were given. It appears where the program was started. -/
theorem C108_where_refuted : ∃ w : World, w.control = none ∧ w.raised = none ∧
    (act w (.checkpoints none)).made = [⟨["home".toList, "checkpoints".toList]⟩] ∧ w.workingDir = ["home".toList, "run".toList] :=
  ⟨run (empty ["home".toList, "run".toList] ["home".toList] none) [.put ⟨"CHKPT".toList, false⟩], by decide, by decide, by decide, by decide⟩

/-- **C108, partial (where).** Without settings it appears in the working directory if and only if that is where the program was started. -/
theorem C108_where_partial (w : World) (h0 : w.raised = none) (hd : ∀ e ∈ w.files, e.name = chkpt → e.dir = false)
    (hc : w.control = none) (he : ∃ e ∈ w.files, e.name = "CHKPT".toList) :
    (act w (.checkpoints none)).made = w.made ++ [⟨w.cwd ++ ["checkpoints".toList]⟩] ∧
    ((⟨w.cwd ++ ["checkpoints".toList]⟩ : Control) = ⟨w.workingDir ++ ["checkpoints".toList]⟩ ↔ w.cwd = w.workingDir) := by
  rw [(C108_made_partial w h0 hd).2 he]
  refine ⟨by rw [hc]; rfl, fun h => ?_, fun h => by rw [h]⟩
  injection h with h
  exact List.append_cancel_right h

/-- **C108 refuted (settings).** If the checkpoint fails, the default settings stay: the run ends as one with checkpointing, which the summary then reports. -/
theorem C108_settings_refuted (x : Err) : ∃ w : World, w.control = none ∧ w.raised = none ∧
    (act w (.checkpoints (some x))).control = some ⟨["checkpoints".toList]⟩ ∧ (act w (.checkpoints (some x))).raised = some x :=
  ⟨run (empty [] [] none) [.put ⟨"CHKPT".toList, false⟩], by decide, by decide, rfl, rfl⟩

end Glompo.Props
