import Verif.Model.TaskSave
import Verif.Props.Load
import Verif.Props.Checkpoint

/-!
# C106: a checkpoint keeps the task, or says that it does not
-/

namespace Glompo.Props

open Glompo Glompo.Init Glompo.TaskSave Glompo.Checkpoint Glompo.Spec

/-- **C106, partial (saving).** If pickling the task fails with nothing but `PickleError`, saving it never fails. If it is pickled,
and pickling is not skipped, the checkpoint holds this task and `checkpoint_save` is not called. Otherwise the checkpoint holds no pickled
task, not even a part of one, and exactly the files `checkpoint_save` made; "Checkpointing without task" is logged if and only if
`checkpoint_save` does not exist or raises. -/
theorem C106_saving_partial (force : Bool) (t : Task) (d : Dumping) (s : Saving) (hd : ∀ e, d ≠ .other e) :
    (saveTask force t d s).2 = none ∧
    (force = false → d = .ok → (saveTask force t d s).1 = ⟨.holds (some t), [], false⟩) ∧
    (force = true ∨ d = .pickleError →
      (saveTask force t d s).1.file = .absent ∧
      (∀ fs, s = .done fs → (saveTask force t d s).1.files = fs ∧ (saveTask force t d s).1.warned = false) ∧
      (∀ fs, s = .fails fs → (saveTask force t d s).1.files = fs ∧ (saveTask force t d s).1.warned = true) ∧
      (s = .missing → (saveTask force t d s).1.files = [] ∧ (saveTask force t d s).1.warned = true)) := by
  cases d with
  | other e => exact absurd rfl (hd e)
  | ok =>
    cases force with
    | false => exact ⟨rfl, fun _ _ => rfl, fun h => by rcases h with h | h <;> cases h⟩
    | true =>
      refine ⟨(by cases s <;> rfl), (fun h => by cases h), fun _ => ⟨(by cases s <;> rfl), fun fs h => ?_, fun fs h => ?_, fun h => ?_⟩⟩ <;>
        subst h <;> exact ⟨rfl, rfl⟩
  | pickleError =>
    cases force <;>
      refine ⟨(by cases s <;> rfl), (fun _ h => by cases h), fun _ => ⟨(by cases s <;> rfl), fun fs h => ?_, fun fs h => ?_, fun h => ?_⟩⟩ <;>
        subst h <;> exact ⟨rfl, rfl⟩

/-- **C106, partial (round trip).** A checkpoint with the task as saved, loaded by a new manager. If the task was pickled it is the task again,
whatever loader and task are given. If it was not, it is what the loader makes of the files, and without loader the task given; with
neither, loading fails with `CheckpointingError`. -/
theorem C106_round_trip_partial (force : Bool) (t : Task) (d : Dumping) (s : Saving) (hd : ∀ e, d ≠ .other e) (ht : Usable t)
    (c : Chkpt) (a : LoadArgs) (m : Mgr) (hm : m.isInitialised = false) (harch : c.archive = true) (hman : c.manager ≠ none)
    (hc : c.task = (saveTask force t d s).1.file) :
    (force = false → d = .ok → (load c a m).1.task = some t) ∧
    (force = true ∨ d = .pickleError →
      (∀ u, a.loader = some (.ok (some u)) → Usable u → (load c a m).1.task = some u) ∧
      (∀ u, a.loader = none → a.task = some u → Usable u → (load c a m).1.task = some u) ∧
      (a.loader = none → a.task = none → (load c a m).2 = some .checkpointingError)) := by
  obtain ⟨_, h1, h2⟩ := C106_saving_partial force t d s hd
  obtain ⟨p1, p2, p3, _, _, _, p7⟩ := C40_priority_partial c a m hm harch hman
  refine ⟨fun hf hok => p1 t (by rw [hc, h1 hf hok]) ht, fun h => ?_⟩
  have habs : c.task = .absent := hc.trans (h2 h).1
  exact ⟨fun u hl hu => p2 u habs hl hu, fun u hl hu => p3 u habs hl hu, p7 habs⟩

/-- **C106, refuted.** The documentation promises that a checkpoint is made without the task if the task cannot be saved. If pickling raises
anything but `PickleError` (for example `TypeError`, for a task holding a lock), `checkpoint` raises this exception, even if
`raise_checkpoint_fail` is off and the task has a `checkpoint_save`; no file is made, yet the history lists the checkpoint. -/
theorem C106_unexpected_error_refuted (e : Err) (he : e ≠ .checkpointingError) (t : Task) (s : Saving) (fmt : List Char) (keep : Int)
    (raiseFail : Bool) (name : Name) (content : Nat) (dir : Dir) (hist : List Name) (hnew : name ∉ names dir) (hh : tarName name ∉ hist) :
    (checkpointFiles fmt keep raiseFail name content (faults false t (.other e) s) dir hist).2.2 = .error e ∧
    (checkpointFiles fmt keep raiseFail name content (faults false t (.other e) s) dir hist).2.1 = hist ++ [tarName name] ∧
    (∀ o, o ≠ ovwName → dictGet (checkpointFiles fmt keep raiseFail name content (faults false t (.other e) s) dir hist).1 o = dictGet dir o) := by
  have hg : dictGet dir name = none := by
    cases h : dictGet dir name with
    | none => rfl
    | some n => exact absurd (mem_names.mpr (by rw [h]; rfl)) hnew
  have hf : faults false t (.other e) s = ⟨some (e, false), none, none, false⟩ := rfl
  have h1 : checkpointFiles fmt keep raiseFail name content (faults false t (.other e) s) dir hist =
      (dictDel (dictDel (dictSet dir name .dir) name) ovwName, hist ++ [tarName name], .error e) := by
    rw [hf]
    unfold checkpointFiles tryBlock
    cases e <;> first | exact absurd rfl he | simp [hg, hh]
  rw [h1]
  refine ⟨rfl, rfl, fun o ho => ?_⟩
  rw [dictGet_del, if_neg ho, dictGet_del]
  split
  · rename_i e; rw [e, hg]
  · rename_i e; rw [dictGet_set_ne _ _ e]

/-- With nothing but `PickleError` the checkpoint is completed. -/
theorem C106_completed_partial (force : Bool) (t : Task) (d : Dumping) (s : Saving) (hd : ∀ e, d ≠ .other e) (fmt : List Char)
    (raiseFail : Bool) (name : Name) (content : Nat) (dir : Dir) (hist : List Name) (hnew : name ∉ names dir)
    (hno : tarName name ≠ name) (hto : tarName name ≠ ovwName) :
    (checkpointFiles fmt (-1) raiseFail name content (faults force t d s) dir hist).2.2 = .ok () ∧
    dictGet (checkpointFiles fmt (-1) raiseFail name content (faults force t d s) dir hist).1 (tarName name) = some (.file content) := by
  have hf : faults force t d s = ⟨none, none, none, false⟩ := by
    unfold faults
    rw [(C106_saving_partial force t d s hd).1]; rfl
  have hg : dictGet dir name = none := by
    cases h : dictGet dir name with
    | none => rfl
    | some n => exact absurd (mem_names.mpr (by rw [h]; rfl)) hnew
  have h1 : ∃ d' hist', checkpointFiles fmt (-1) raiseFail name content (faults force t d s) dir hist =
      (dictDel (dictDel (dictSet d' (tarName name) (.file content)) name) ovwName, hist', .ok ()) := by
    rw [hf]
    unfold checkpointFiles tryBlock
    simp only [hg]
    exact ⟨setAside (tarName name) (dictSet dir name .dir), _, rfl⟩
  obtain ⟨d', hist', h1⟩ := h1
  rw [h1]
  refine ⟨rfl, ?_⟩
  rw [dictGet_del, if_neg hto, dictGet_del, if_neg hno, dictGet_set, if_pos rfl]

/-- A task with a lock and a proper `checkpoint_save`. -/
example : checkpointFiles "chk".toList (-1) false "chk".toList 2 (faults false ⟨"f", true, true⟩ (.other .typeError) (.done ["f.yml"])) [] [] =
    ([], ["chk.tar.gz".toList], .error .typeError) := by rfl

example : (saveTask false ⟨"f", true, true⟩ .pickleError (.done ["f.yml"])) = (⟨.absent, ["f.yml"], false⟩, none) ∧
    (saveTask false ⟨"f", true, true⟩ .ok (.done ["f.yml"])) = (⟨.holds (some ⟨"f", true, true⟩), [], false⟩, none) ∧
    (load { sampleChkpt with task := (saveTask false ⟨"f", true, true⟩ .ok .missing).1.file } ⟨none, none, none⟩ default).1.task =
      some ⟨"f", true, true⟩ := by decide +kernel

end Glompo.Props
