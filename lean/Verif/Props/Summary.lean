import Verif.Lemmas.Summary
import Verif.Lemmas.Basic
import Verif.Props.Helpers
import Verif.Props.Manager

/-!
# C109: the summary file

`load` is loading the file as plain YAML (`yaml.safe_load`), `Same o v` says that the native value `v` tells what the object `o` is, and
`v.at [k₁, k₂, …]` is `v[k₁][k₂]…`.
-/

namespace Glompo.Props

open Glompo Glompo.Summary Glompo.Helpers

/-- **C109 (values).** A value written to a YAML file by the manager, whatever lists, dictionaries, numpy values, classes and objects it is
made of, can be loaded as a native value which tells the same if no tuple, function or class without a metaclass is part of it; if one
is, loading fails. -/
theorem C109_values (o : Obj) :
    ((∀ p, Inside p o → ¬ Foreign p) → ∃ v, load (represent o) = some v ∧ Same o v) ∧
    ((∃ p, Inside p o ∧ Foreign p) → load (represent o) = none) :=
  ⟨load_represent o, fun ⟨_, h, hp⟩ => load_foreign hp h⟩

/-- A class of optimizers with arguments, among them a numpy array and an object. -/
def sampleOpt : List Obj :=
  [.cls true "CMAOptimizer".toList,
    .dict [(key "workers", nat 2), (key "sigma", .npArray [.scal (.float (.fin 1)), .scal (.float .pinf)]),
      (key "sampler", .inst "Sampler".toList [("mirror".toList, .scal (.bool true))])],
    .dict []]

theorem sampleOpt_clean : ∀ x ∈ sampleOpt, Clean x := by
  intro x hx
  simp only [sampleOpt, List.mem_cons, List.not_mem_nil, or_false] at hx
  rcases hx with rfl | rfl | rfl
  · intro p hp hf; cases hp; cases hf
  · refine clean_dict fun b hb => ?_
    simp only [List.mem_cons, List.not_mem_nil, or_false] at hb
    rcases hb with rfl | rfl | rfl
    · exact clean_scal _
    · intro p hp hf
      cases hp with
      | self => exact hf
      | cell h i =>
        simp only [List.mem_cons, List.not_mem_nil, or_false] at h
        rcases h with rfl | rfl <;> exact clean_scal _ p i hf
    · intro p hp hf
      cases hp with
      | self => exact hf
      | attr h i =>
        simp only [List.mem_cons, List.not_mem_nil, or_false] at h
        cases h
        exact clean_scal _ p i hf
  · exact clean_dict fun b hb => by cases hb

example : (∀ p, Inside p (Obj.list sampleOpt) → ¬ Foreign p) ∧ ∃ p, Inside p (Obj.dict [(key "bounds", .tuple [])]) ∧ Foreign p :=
  ⟨clean_list sampleOpt_clean, .tuple [], .entry (k := key "bounds") (o := .tuple []) (by simp) .self, trivial⟩

/-- What the entries of a summary are to say about counters and result. -/
def Tells (c : Counters) (r : Solution) (v : Val) : Prop :=
  v.at [key "Counters", key "Function Evaluations"] = some (.scal (.int c.evals)) ∧
  v.at [key "Counters", key "Hunts Started"] = some (.scal (.int c.hunts)) ∧
  v.at [key "Counters", key "Optimizers", key "Started"] = some (.scal (.int c.started)) ∧
  v.at [key "Counters", key "Optimizers", key "Killed"] = some (.scal (.int c.killed)) ∧
  v.at [key "Counters", key "Optimizers", key "Converged"] = some (.scal (.int c.converged)) ∧
  (∀ fx, r.fx = some fx → v.at [key "Solution", key "fx"] = some (.scal (.float fx))) ∧
  (∀ x, r.x = some x → v.at [key "Solution", key "x"] = some (.list (x.map fun a => .scal (.float (.fin a))))) ∧
  (∀ i t, r.origin = some (i, t) → v.at [key "Solution", key "origin", key "opt_id"] = some (.scal (.int i)) ∧
    v.at [key "Solution", key "origin", key "type"] = some (.scal (.str t))) ∧
  (r.fx = none → v.at [key "Solution", key "fx"] = some (.scal .none)) ∧
  (r.x = none → v.at [key "Solution", key "x"] = some (.scal .none)) ∧
  (r.origin = none → v.at [key "Solution", key "origin"] = some (.scal .none))

/-- What the entries of a summary say about the settings: the selector with each optimizer and its arguments, the generator, the number of
jobs, the texts of checkers and hunters, and for each bound the parameters which have it. -/
def TellsSettings (m : Facts) (v : Val) : Prop :=
  v.at [key "Settings", key "Max Jobs"] = some (.scal (.int m.maxJobs)) ∧
  v.at [key "Settings", key "x0 Generator", key "Generator"] = some (.scal (.str m.generator.1)) ∧
  v.at [key "Settings", key "Optimizer Selector", key "Selector"] = some (.scal (.str m.selector.cls)) ∧
  (∃ w, v.at [key "Settings", key "Optimizer Selector", key "Allow Spawn"] = some w ∧ Same m.selector.allowSpawn w) ∧
  (∀ i cls ini call, m.selector.avail[i]? = some [cls, ini, call] →
    (∃ w, v.at [key "Settings", key "Optimizer Selector", key "Available Optimizers", .int i, key "type"] = some w ∧ Same cls w) ∧
    (∃ w, v.at [key "Settings", key "Optimizer Selector", key "Available Optimizers", .int i, key "init_kwargs"] = some w ∧ Same ini w) ∧
    (∃ w, v.at [key "Settings", key "Optimizer Selector", key "Available Optimizers", .int i, key "call_kwargs"] = some w ∧ Same call w)) ∧
  (∃ t, v.at [key "Settings", key "Convergence Checker"] = some (.scal (.str t)) ∧ t.filter (· ≠ ' ') = m.checker.filter (· ≠ ' ')) ∧
  (∀ h, m.hunters = some h → ∃ t, v.at [key "Settings", key "Hunt Conditions"] = some (.scal (.str t)) ∧
    t.filter (· ≠ ' ') = h.filter (· ≠ ' ')) ∧
  (∀ b ∈ m.bounds, v.at [key "Settings", key "Bounds", .str (m.boundText b)] =
    some (.list (((List.range m.bounds.length).filter fun k => decide (m.bounds[k]? = some b)).map fun (k : Nat) => .scal (.int k))))

/-- The sum of the durations of the sessions so far. -/
def totalTime (m : Facts) : Rat := ((m.clock.starts.zip m.clock.ends).map fun p => p.2 - p.1).sum

theorem save_spec (old : File) (m : Facts) (c : Counters) (r : Solution) (reason : List Char) (caught : Option (List Char))
    (ht : m.clock.tStart = none ∨ m.clock.tEnd ≠ none) (hb : WrittenAlike m.bounds)
    (hx : ∀ a ∈ m.bounds, ∀ b ∈ m.bounds, m.boundText a = m.boundText b → a = b) :
    ∃ time bounds, saveSummary old m c r reason caught =
        (some (some (represent (dataDict m c r (reasonText reason caught) time bounds))), none) ∧
      timeEntry m = .ok time ∧ presentBounds m.boundText m.bounds = .ok bounds ∧
      time.at [key "Total"] = some (.scal (.str (m.duration (totalTime m)))) ∧
      ∀ b ∈ m.bounds, bounds.at [.str (m.boundText b)] =
        some (.list (((List.range m.bounds.length).filter fun k => decide (m.bounds[k]? = some b)).map nat)) := by
  obtain ⟨d, h1, h2, h3⟩ := C48_grouping_partial m.bounds hb
  have hbd : presentBounds m.boundText m.bounds =
      .ok (.dict (d.map fun p => (Key.str (m.boundText p.1), Obj.list (p.2.map nat)))) := by
    simp only [presentBounds, h1]
  have htm : ∃ time, timeEntry m = .ok time ∧ time.at [key "Total"] = some (.scal (.str (m.duration (totalTime m)))) := by
    unfold timeEntry
    cases h : m.clock.tStart with
    | none => exact ⟨_, rfl, rfl⟩
    | some t0 =>
      cases h' : m.clock.tEnd with
      | none => rcases ht with ht | ht <;> simp_all
      | some t => exact ⟨_, rfl, rfl⟩
  obtain ⟨time, h4, h5⟩ := htm
  refine ⟨time, _, by unfold saveSummary; rw [h4]; simp only [hbd], h4, hbd, h5, fun b hm => ?_⟩
  have hin : ∀ a ∈ d.map Prod.fst, a ∈ m.bounds := fun a ha => by
    by_contra hn
    have := (dictGet_isSome_iff d a).mpr ha
    rw [h3 a hn] at this
    cases this
  have := get_bounds (text := m.boundText) d (fun a ha => hx a (hin a ha) b hm) (h2 b hm)
  simp only [Obj.at, this]

/-- **C109, partial.** If the session has ended or none has begun, equal bounds are written alike, and no tuple, function or class without a
metaclass is among the settings, saving the summary succeeds, whatever was there before, and the file can be loaded: counters, result,
settings and total time are found in it. Missing: the other cases, and the entries which are wrong, see the refutations. -/
theorem C109_summary_partial (old : File) (m : Facts) (c : Counters) (r : Solution) (reason : List Char) (caught : Option (List Char))
    (ht : m.clock.tStart = none ∨ m.clock.tEnd ≠ none) (hb : WrittenAlike m.bounds)
    (hx : ∀ a ∈ m.bounds, ∀ b ∈ m.bounds, m.boundText a = m.boundText b → a = b) (hm : CleanSettings m) :
    ∃ doc v, saveSummary old m c r reason caught = (some (some doc), none) ∧ load doc = some v ∧ Tells c r v ∧ TellsSettings m v ∧
      v.at [key "Assignment", key "Time", key "Total"] = some (.scal (.str (m.duration (totalTime m)))) ∧
      ∃ t, v.at [key "Solution", key "exit cond."] = some (.scal (.str t)) ∧
        t.filter (· ≠ ' ') = (match caught with | none => reason | some e => "Process Crash: ".toList ++ e).filter (· ≠ ' ') := by
  obtain ⟨time, bounds, h1, h2, h3, h4, h5⟩ := save_spec old m c r reason caught ht hb hx
  obtain ⟨v, h6, h7⟩ := load_represent _ (clean_data hm c r (reasonText reason caught) (clean_time h2) (clean_bounds h3))
  have look : ∀ ks p, (dataDict m c r (reasonText reason caught) time bounds).at ks = some p → ∃ w, v.at ks = some w ∧ Same p w :=
    fun ks p h => same_at ks h7 h
  have scal : ∀ ks s, (dataDict m c r (reasonText reason caught) time bounds).at ks = some (.scal s) → v.at ks = some (.scal s) :=
    fun ks s h => by
      obtain ⟨w, hw, hs⟩ := look ks _ h
      rw [hw, same_scal hs]
  have lit : ∀ ks s, (dataDict m c r (reasonText reason caught) time bounds).at ks = some (.literal s) →
      ∃ t, v.at ks = some (.scal (.str t)) ∧ t.filter (· ≠ ' ') = s.filter (· ≠ ' ') := fun ks s h => by
    obtain ⟨w, hw, hs⟩ := look ks _ h
    cases hs with
    | literal _ t e => exact ⟨t, hw, e⟩
  have top : ∀ k ks, (k = "Assignment" ∨ k = "Settings" ∨ k = "Counters") →
      (dataDict m c r (reasonText reason caught) time bounds).at (key k :: ks) =
      (if k = "Assignment" then assignment m time else if k = "Settings" then .dict (settings m ++ [(key "Bounds", bounds)])
        else counterEntry c).at ks := by
    rintro k ks (rfl | rfl | rfl) <;> rfl
  have sol : ∀ ks, (dataDict m c r (reasonText reason caught) time bounds).at (key "Solution" :: ks) =
      (solutionEntry r (reasonText reason caught)).at ks := by
    intro ks
    unfold dataDict checkpointing
    split <;> rfl
  refine ⟨_, v, h1, h6, ⟨scal _ _ rfl, scal _ _ rfl, scal _ _ rfl, scal _ _ rfl, scal _ _ rfl, fun fx hf => ?_, fun x hf => ?_,
    fun i t hf => ⟨?_, ?_⟩, fun hf => ?_, fun hf => ?_, fun hf => ?_⟩,
    ⟨scal _ _ rfl, scal _ _ rfl, scal _ _ rfl, look _ _ rfl, fun i cls ini call hi => ?_, lit _ _ rfl, fun h hh => ?_, fun b hb => ?_⟩, ?_, ?_⟩
  · refine scal _ _ ?_
    rw [sol]; simp only [solutionEntry, hf]; rfl
  · obtain ⟨w, hw, hs⟩ := look [key "Solution", key "x"] (.list (x.map fun a => .scal (.float (.fin a))))
      (by rw [sol]; simp only [solutionEntry, hf]; rfl)
    rw [hw, same_scals (fun a => .float (.fin a)) x hs]
  · refine scal _ _ ?_
    rw [sol]; simp only [solutionEntry, hf]; rfl
  · refine scal _ _ ?_
    rw [sol]; simp only [solutionEntry, hf]; rfl
  · refine scal _ _ ?_
    rw [sol]; simp only [solutionEntry, hf]; rfl
  · refine scal _ _ ?_
    rw [sol]; simp only [solutionEntry, hf]; rfl
  · refine scal _ _ ?_
    rw [sol]; simp only [solutionEntry, hf]; rfl
  · have hg := get_optEntries m.selector.avail 0 i _ hi
    rw [Nat.zero_add] at hg
    have pre : ∀ ks, (dataDict m c r (reasonText reason caught) time bounds).at
        (key "Settings" :: key "Optimizer Selector" :: key "Available Optimizers" :: .int i :: ks) =
        (optEntry [cls, ini, call]).at ks := by
      intro ks
      have : ((presentSelector m.selector).at (key "Available Optimizers" :: .int i :: ks)) = (optEntry [cls, ini, call]).at ks := by
        show (Obj.dict (optEntries 0 m.selector.avail)).at (.int i :: ks) = _
        simp only [Obj.at, hg]
      exact this
    exact ⟨look _ _ (pre _), look _ _ (pre _), look _ _ (pre _)⟩
  · refine lit _ _ ?_
    rw [top _ _ (by simp)]
    simp only [settings, hh]
    rfl
  · obtain ⟨w, hw, hs⟩ := look [key "Settings", key "Bounds", .str (m.boundText b)] _ (h5 b hb)
    rw [hw, same_scals (fun (k : Nat) => .int k) _ hs]
  · exact scal _ _ h4
  · obtain ⟨t, e1, e2⟩ := lit [key "Solution", key "exit cond."] (reasonText reason caught) (sol _)
    refine ⟨t, e1, ?_⟩
    rw [e2]
    cases caught <;> rfl

/-- A manager after a session of 50 seconds. -/
def sampleFacts : Facts :=
  { version := "3.0".toList, task := .object "Rastrigin".toList, cwd := "/home".toList, workingDir := "/data/run".toList
    user := "me".toList, host := "node".toList
    clock := { tStart := some 100, tEnd := some 150, tUsed := 0, starts := [100], ends := [150] }
    duration := fun t => (toString t.num).toList, moment := fun t => (toString t.num).toList
    generator := ("RandomGenerator".toList, [("n_params".toList, nat 3)])
    checker := "MaxFuncCalls \nand more".toList, hunters := none
    selector := ⟨"CycleSelector".toList, .inst "IterSpawnStop".toList [("max_calls".toList, nat 500)], [sampleOpt]⟩
    maxJobs := 4, bounds := [⟨⟨0, false⟩, ⟨1, false⟩⟩, ⟨⟨2, false⟩, ⟨3, false⟩⟩, ⟨⟨0, false⟩, ⟨1, false⟩⟩]
    boundText := fun b => (toString b.min.val.num ++ ", " ++ toString b.max.val.num).toList
    checkpoints := none, huntFrequency := 100, forceAfter := -1, splitStreams := true }

theorem sampleFacts_clean : CleanSettings sampleFacts := by
  refine ⟨fun a ha => ?_, fun p hp hf => ?_, fun o ho => ?_⟩
  · simp only [sampleFacts, List.mem_cons, List.not_mem_nil, or_false] at ha
    subst ha
    exact clean_scal _
  · simp only [sampleFacts] at hp
    cases hp with
    | self => exact hf
    | attr h i =>
      simp only [List.mem_cons, List.not_mem_nil, or_false] at h
      cases h
      exact clean_scal _ p i hf
  · simp only [sampleFacts, List.mem_cons, List.not_mem_nil, or_false] at ho
    subst ho
    exact sampleOpt_clean

example : (sampleFacts.clock.tStart = none ∨ sampleFacts.clock.tEnd ≠ none) ∧ WrittenAlike sampleFacts.bounds ∧
    (∀ a ∈ sampleFacts.bounds, ∀ b ∈ sampleFacts.bounds, sampleFacts.boundText a = sampleFacts.boundText b → a = b) ∧
    CleanSettings sampleFacts :=
  ⟨by decide +kernel, by unfold WrittenAlike; decide +kernel, by decide +kernel, sampleFacts_clean⟩

section
open Glompo.Manager Glompo.Spec Glompo.Props.Runs
variable {cfg : Cfg} {s : Manager.State} (hs : Startable cfg s) (fuel : Nat) (e : Env)

include hs in
/-- **C109 (counters).** At any moment of any run, loading checkpoints in between or not, the counters a summary is written with are the
numbers of evaluations accepted, hunts begun and optimizers killed and ended, those of earlier managers included. -/
theorem C109_counters :
    (countersOf (moment cfg s fuel e)).evals = (acceptedOf (happened cfg s fuel e)).length ∧
    (countersOf (moment cfg s fuel e)).hunts = (huntsOf (happened cfg s fuel e)).length ∧
    (countersOf (moment cfg s fuel e)).killed = (killedOf (happened cfg s fuel e)).length ∧
    (countersOf (moment cfg s fuel e)).converged = (finishedOf (happened cfg s fuel e)).length := by
  refine ⟨(C23_evaluation_count hs fuel e).1, (C24_hunts_spaced hs fuel e).2.2, ?_, (C26_counters_exact hs fuel e).1⟩
  show (moment cfg s fuel e).victims.length = _
  rw [(C26_counters_exact hs fuel e).2.1]

example : countersOf (moment cfg2 (init cfg2) 20 demo) =
    ⟨(acceptedOf (happened cfg2 (init cfg2) 20 demo)).length, 1, 2, 1, 0⟩ := by decide +kernel

end

/-- **C109 (return).** If equal bounds are written alike, the end of a run returns its result whatever the number of summary files, the
settings and the times; with `summary_files` at least 1 a summary is in the working directory then, and without summary files what is
there is left alone. -/
theorem C109_returns (n : Nat) (now : Rat) (old : File) (m : Facts) (c : Counters) (r : Solution) (reason : List Char)
    (caught : Option (List Char)) (hb : WrittenAlike m.bounds) :
    (finish n now old m c r reason caught).2 = .ok (r, reason) ∧
    (n = 0 → (finish n now old m c r reason caught).1 = old) ∧
    (1 ≤ n → ∃ doc, (finish n now old m c r reason caught).1 = some (some doc)) := by
  obtain ⟨d, h1, -, -⟩ := C48_grouping_partial m.bounds hb
  have hbd : ∃ o, presentBounds m.boundText m.bounds = .ok o := by
    simp only [presentBounds, h1]; exact ⟨_, rfl⟩
  obtain ⟨o, hbd⟩ := hbd
  by_cases hn : n = 0
  · subst hn
    simp [finish]
  · have htm : ∃ time, timeEntry { m with clock := { m.clock with tEnd := m.clock.tEnd.or (some now) } } = .ok time := by
      unfold timeEntry
      cases h : m.clock.tStart with
      | none => exact ⟨_, rfl⟩
      | some t0 => cases h' : m.clock.tEnd <;> exact ⟨_, rfl⟩
    obtain ⟨time, htm⟩ := htm
    simp only [finish, if_neg hn, saveSummary, htm, hbd]
    exact ⟨trivial, fun h => absurd h hn, fun _ => ⟨_, rfl⟩⟩

example : (finish 3 200 none sampleFacts ⟨7, 0, 1, 0, 1⟩ ⟨some (.fin 3), some (1, "CMAOptimizer".toList), some [1, 2]⟩
    "MaxFuncCalls".toList none).2 = .ok (⟨some (.fin 3), some (1, "CMAOptimizer".toList), some [1, 2]⟩, "MaxFuncCalls".toList) := rfl

/-- **C109, refuted (result lost).** With bounds of which two are equal but written differently, a whole run with summary files ends by
raising `KeyError` instead of returning its result, whatever the result is, and leaves an empty summary file in place of an older one. -/
theorem C109_lost_refuted (n : Nat) (hn : 1 ≤ n) (now : Rat) (old : File) (c : Counters) (r : Solution) (reason : List Char)
    (caught : Option (List Char)) :
    finish n now old { sampleFacts with bounds := [⟨⟨0, true⟩, ⟨1, true⟩⟩, ⟨⟨0, false⟩, ⟨1, false⟩⟩] } c r reason caught =
      (some none, .error .keyError) := by
  have : ¬ n = 0 := by omega
  simp only [finish, if_neg this]
  rfl

/-- **C109, refuted (native types).** If anything foreign is part of what the user hands over as `allow_spawn`, as an attribute of the
generator or as optimizer arguments, a summary which is written cannot be loaded. -/
theorem C109_settings_unloadable (old : File) (m : Facts) (c : Counters) (r : Solution) (reason : List Char) (caught : Option (List Char))
    (p : Obj) (hp : Foreign p)
    (h : Inside p m.selector.allowSpawn ∨
      (∃ k o, (k, o) ∈ m.generator.2 ∧ k ≠ "logger".toList ∧ k ≠ "bounds".toList ∧ Inside p o) ∨
      ∃ (i : Nat) (cls ini call : Obj), m.selector.avail[i]? = some [cls, ini, call] ∧ (Inside p cls ∨ Inside p ini ∨ Inside p call))
    (doc : Node) (hs : saveSummary old m c r reason caught = (some (some doc), none)) : load doc = none := by
  have hd : ∃ time bounds, doc = represent (dataDict m c r (reasonText reason caught) time bounds) := by
    unfold saveSummary at hs
    split at hs
    · cases hs
    · split at hs
      · cases hs
      · cases hs; exact ⟨_, _, rfl⟩
  obtain ⟨time, bounds, rfl⟩ := hd
  refine load_foreign hp ?_
  refine .entry (k := key "Settings") (o := .dict (settings m ++ [(key "Bounds", bounds)])) (by simp) ?_
  rcases h with h | ⟨k, o, h1, h2, h3, h4⟩ | ⟨i, cls, ini, call, h1, h2⟩
  · refine .entry (k := key "Optimizer Selector") (o := presentSelector m.selector) (by simp [settings]) ?_
    exact .entry (k := key "Allow Spawn") (by simp) h
  · refine .entry (k := key "x0 Generator") (o := presentGenerator m.generator.1 m.generator.2) (by simp [settings]) ?_
    refine .entry (k := .str k) (o := o) ?_ h4
    refine List.mem_cons_of_mem _ (List.mem_map.mpr ⟨(k, o), List.mem_filter.mpr ⟨h1, ?_⟩, rfl⟩)
    exact decide_eq_true ⟨h2, h3⟩
  · refine .entry (k := key "Optimizer Selector") (o := presentSelector m.selector) (by simp [settings]) ?_
    refine .entry (k := key "Available Optimizers") (o := .dict (optEntries 0 m.selector.avail)) (by simp) ?_
    refine .entry (k := .int i) (o := optEntry [cls, ini, call]) ?_ ?_
    · have := get_optEntries m.selector.avail 0 i _ h1
      rw [Nat.zero_add] at this
      exact dictGet_mem this
    · rcases h2 with h2 | h2 | h2
      · exact .entry (k := key "type") (by simp [List.zip]) h2
      · exact .entry (k := key "init_kwargs") (by simp [List.zip]) h2
      · exact .entry (k := key "call_kwargs") (by simp [List.zip]) h2

/-- So it is for every function given as `allow_spawn`, the documented way to control spawning: the run ends well and its summary cannot be
loaded. -/
theorem C109_spawn_function_refuted (f : List Char) (now : Rat) (old : File) (c : Counters) (r : Solution) (reason : List Char) :
    ∃ doc, finish 1 now old { sampleFacts with selector := { sampleFacts.selector with allowSpawn := .function f } } c r reason none =
      (some (some doc), .ok (r, reason)) ∧ load doc = none := by
  refine ⟨_, rfl, ?_⟩
  refine C109_settings_unloadable old { sampleFacts with selector := { sampleFacts.selector with allowSpawn := .function f } } c r reason
    none (.function f) trivial (.inl .self) _ ?_
  rfl

/-- **C109, refuted (during a run).** While a session is running `write_summary_file` raises `TypeError` and writes nothing. -/
theorem C109_running_refuted (old : File) (m : Facts) (c : Counters) (r : Solution) (t : Rat) (h1 : m.clock.tStart = some t)
    (h2 : m.clock.tEnd = none) : writeSummaryFile old m c r = (old, some .typeError) := by
  simp only [writeSummaryFile, saveSummary, timeEntry, h1, h2]

/-- A session which has begun (C30) is such a case. -/
example : (Sessions.begin_ (fun _ => 0) 100 {}).tStart = some 100 ∧ (Sessions.begin_ (fun _ => 0) 100 {}).tEnd = none := ⟨rfl, rfl⟩

/-- **C109, refuted (what is missing or wrong).** The summary does not depend on which function the task is, on the working directory of
the manager, or on settings such as the frequency of hunts, forced terminations and print streams; so none of them can be read from it. -/
theorem C109_silent_refuted (old : File) (m : Facts) (c : Counters) (r : Solution) (reason : List Char) (caught : Option (List Char))
    (f g d : List Char) (n : Nat) (k : Int) (b : Bool) :
    saveSummary old { m with task := .function f } c r reason caught = saveSummary old { m with task := .function g } c r reason caught ∧
    saveSummary old { m with workingDir := d } c r reason caught = saveSummary old m c r reason caught ∧
    saveSummary old { m with huntFrequency := n, forceAfter := k, splitStreams := b } c r reason caught =
      saveSummary old m c r reason caught := ⟨rfl, rfl, rfl⟩

/-- What is found in their place: `function` as the name of the task, and the directory of the process. For tasks which are objects the
name is that of their class. -/
theorem C109_assignment (old : File) (m : Facts) (c : Counters) (r : Solution) (reason : List Char) (caught : Option (List Char))
    (doc : Node) (v : Val) (hs : saveSummary old m c r reason caught = (some (some doc), none)) (hv : load doc = some v) :
    (∀ f, m.task = .function f → v.at [key "Assignment", key "Task"] = some (.scal (.str "function".toList))) ∧
    (∀ n, m.task = .object n → v.at [key "Assignment", key "Task"] = some (.scal (.str n))) ∧
    v.at [key "Assignment", key "Working Dir"] = some (.scal (.str m.cwd)) := by
  have hd : ∃ time bounds, doc = represent (dataDict m c r (reasonText reason caught) time bounds) := by
    unfold saveSummary at hs
    split at hs
    · cases hs
    · split at hs
      · cases hs
      · cases hs; exact ⟨_, _, rfl⟩
  obtain ⟨time, bounds, rfl⟩ := hd
  have hc : Clean (dataDict m c r (reasonText reason caught) time bounds) := fun p hp hf => by
    rw [load_foreign hf hp] at hv; cases hv
  obtain ⟨w, h1, h2⟩ := load_represent _ hc
  rw [hv] at h1
  cases h1
  have scal : ∀ ks s, (dataDict m c r (reasonText reason caught) time bounds).at ks = some (.scal s) → v.at ks = some (.scal s) :=
    fun ks s h => by
      obtain ⟨w, hw, hs⟩ := same_at ks h2 h
      rw [hw, same_scal hs]
  have task : (dataDict m c r (reasonText reason caught) time bounds).at [key "Assignment", key "Task"] = some (taskEntry m.task) := rfl
  refine ⟨fun f hf => scal _ _ ?_, fun n hf => scal _ _ ?_, scal _ _ rfl⟩ <;> rw [task, hf] <;> rfl

example : ∃ doc v, saveSummary none sampleFacts ⟨7, 0, 1, 0, 1⟩ ⟨none, none, none⟩ "done".toList none = (some (some doc), none) ∧
    load doc = some v ∧ sampleFacts.cwd ≠ sampleFacts.workingDir := ⟨_, _, rfl, rfl, by decide +kernel⟩

/-- **C109 (checkpoints).** A summary which can be loaded names the directory of checkpoints and lists all of the history of checkpoints, in
its order, if checkpointing was asked for. -/
theorem C109_checkpoints (old : File) (m : Facts) (c : Counters) (r : Solution) (reason : List Char) (caught : Option (List Char))
    (doc : Node) (v : Val) (hs : saveSummary old m c r reason caught = (some (some doc), none)) (hv : load doc = some v)
    (dir : List Char) (hist : List (List Char)) (hm : m.checkpoints = some (dir, hist)) :
    v.at [key "Checkpointing", key "Directory"] = some (.scal (.str dir)) ∧
    v.at [key "Checkpointing", key "Checkpoints"] = some (.list (hist.map fun n => .scal (.str n))) := by
  have hd : ∃ time bounds, doc = represent (dataDict m c r (reasonText reason caught) time bounds) := by
    unfold saveSummary at hs
    split at hs
    · cases hs
    · split at hs
      · cases hs
      · cases hs; exact ⟨_, _, rfl⟩
  obtain ⟨time, bounds, rfl⟩ := hd
  have hc : Clean (dataDict m c r (reasonText reason caught) time bounds) := fun p hp hf => by
    rw [load_foreign hf hp] at hv; cases hv
  obtain ⟨w, h1, h2⟩ := load_represent _ hc
  rw [hv] at h1
  cases h1
  have top : ∀ ks, (dataDict m c r (reasonText reason caught) time bounds).at (key "Checkpointing" :: ks) =
      (Obj.dict [(key "Directory", .scal (.str dir)), (key "Checkpoints", .list (hist.map fun n => .scal (.str n)))]).at ks := by
    intro ks
    simp only [dataDict, checkpointing, hm]
    rfl
  constructor
  · obtain ⟨w, hw, hs⟩ := same_at [key "Checkpointing", key "Directory"] h2 (top _)
    rw [hw, same_scal hs]
  · obtain ⟨w, hw, hs⟩ := same_at [key "Checkpointing", key "Checkpoints"] h2 (top _)
    rw [hw, same_scals (fun n => .str n) hist hs]

example : ∃ doc v, saveSummary none { sampleFacts with checkpoints := some ("chk".toList, ["a".toList, "b".toList]) } ⟨7, 0, 1, 0, 1⟩
    ⟨none, none, none⟩ "done".toList none = (some (some doc), none) ∧ load doc = some v := ⟨_, _, rfl, rfl⟩

/-- **C109 (on request).** Under the conditions of `C109_summary_partial`, `write_summary_file` outside of a session writes the same kind of
summary: counters, result and settings, and the words "Manual Save State" in place of the reason for the end. -/
theorem C109_on_request_partial (old : File) (m : Facts) (c : Counters) (r : Solution) (ht : m.clock.tStart = none ∨ m.clock.tEnd ≠ none)
    (hb : WrittenAlike m.bounds) (hx : ∀ a ∈ m.bounds, ∀ b ∈ m.bounds, m.boundText a = m.boundText b → a = b) (hm : CleanSettings m) :
    ∃ doc v, writeSummaryFile old m c r = (some (some doc), none) ∧ load doc = some v ∧ Tells c r v ∧ TellsSettings m v ∧
      ∃ t, v.at [key "Solution", key "exit cond."] = some (.scal (.str t)) ∧ t.filter (· ≠ ' ') = "ManualSaveState".toList := by
  obtain ⟨doc, v, h1, h2, h3, h4, -, t, h5, h6⟩ := C109_summary_partial old m c r "Manual Save State".toList none ht hb hx hm
  exact ⟨doc, v, h1, h2, h3, h4, t, h5, h6.trans (by decide)⟩

end Glompo.Props
