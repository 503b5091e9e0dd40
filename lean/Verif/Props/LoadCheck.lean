import Verif.Model.LoadCheck
import Verif.Spec.LoadCheck
import Verif.Props.Criterion

/-! # C124: the warning that a loaded optimization cannot be resumed -/

namespace Glompo.Props

open Glompo.Spec Glompo.Manager Glompo.Props.Runs

namespace LoadCheck

theorem ask_twice (c : Checker) (v : CView) (l : Latch) : (c.ask v (c.ask v l).1).2 = (c.ask v l).2 := by
  cases c with
  | killsAfterConvergence nk nc =>
    simp only [Checker.ask, Latch.update]
    split <;> simp_all
  | _ => rfl

/-- Asking the criteria on the same manager again and again does not change the answers. -/
theorem call_stable (chk : Nat → Checker) (v : CView) (answer : Nat → Bool) (c : Cond) (st : Cond.Last) (w : Latches)
    (hw : ∀ i, ((chk i).ask v (w i)).2 = answer i) :
    (c.call (askChecker chk v) st w).ans = .ok (boolValue answer c) ∧
      ∀ i, ((chk i).ask v ((c.call (askChecker chk v) st w).world i)).2 = answer i := by
  induction c generalizing st w with
  | leaf i =>
    refine ⟨by simp [Cond.call, askChecker, hw, boolValue], fun j => ?_⟩
    simp only [Cond.call, askChecker]
    by_cases h : j = i
    · subst h; simp [ask_twice, hw]
    · simp [h, hw]
  | or i a b iha ihb =>
    obtain ⟨h1, h2⟩ := iha ((Cond.or i a b).reset st) w hw
    simp only [Cond.call, h1, boolValue]
    cases boolValue answer a with
    | true => exact ⟨rfl, h2⟩
    | false =>
      obtain ⟨h3, h4⟩ := ihb (a.call (askChecker chk v) ((Cond.or i a b).reset st) w).last _ h2
      simp only [h3, Bool.false_or]
      exact ⟨trivial, h4⟩
  | and i a b iha ihb =>
    obtain ⟨h1, h2⟩ := iha ((Cond.and i a b).reset st) w hw
    simp only [Cond.call, h1, boolValue]
    cases boolValue answer a with
    | false => exact ⟨rfl, h2⟩
    | true =>
      obtain ⟨h3, h4⟩ := ihb (a.call (askChecker chk v) ((Cond.and i a b).reset st) w).last _ h2
      simp only [h3, Bool.true_and]
      exact ⟨trivial, h4⟩

/-- Before the start the clock does not matter. -/
theorem ask_clock (c : Checker) (s : State) (now now' tUsed : Rat) (l : Latch) :
    c.ask (s.view now none tUsed) l = c.ask (s.view now' none tUsed) l := by
  cases c <;> rfl

theorem ask_metBy (c : Checker) (v : CView) (l : Latch) (hc : c.constructible = true) : (c.ask v l).2 = true ↔ MetBy v l c := by
  cases c with
  | killsAfterConvergence nk nc =>
    obtain ⟨en, kc⟩ := l
    simp only [Checker.ask, MetBy, Latch.update]
    cases en with
    | true => simp
    | false => by_cases hn : nc ≤ (v.convCounter : Int) <;> simp [hn]
  | _ => exact C14_exact _ v l trivial hc

theorem consult_answer (chk : Nat → Checker) (c : Cond) (v : CView) (k : Memory) :
    (consult chk c v k).2 = some (boolValue (fun i => ((chk i).ask v (k.mem i)).2) c) ∧
      ∀ i, ((chk i).ask v ((consult chk c v k).1.mem i)).2 = ((chk i).ask v (k.mem i)).2 := by
  obtain ⟨h1, h2⟩ := call_stable chk v (fun i => ((chk i).ask v (k.mem i)).2) c k.last k.mem fun _ => rfl
  refine ⟨?_, h2⟩
  show (Except.toOption _) = _
  rw [h1]; rfl

theorem boolValue_metAllBy (chk : Nat → Checker) (c : Cond) (v : CView) (mem : Latches)
    (hc : ∀ i ∈ leaves c, (chk i).constructible = true) :
    boolValue (fun i => ((chk i).ask v (mem i)).2) c = true ↔ MetAllBy chk v mem c := by
  induction c with
  | leaf i => exact ask_metBy _ _ _ (hc i (by simp [leaves]))
  | or i a b iha ihb =>
    simp only [boolValue, Bool.or_eq_true, MetAllBy]
    rw [iha fun i hi => hc i (by simp [leaves, hi]), ihb fun i hi => hc i (by simp [leaves, hi])]
  | and i a b iha ihb =>
    simp only [boolValue, Bool.and_eq_true, MetAllBy]
    rw [iha fun i hi => hc i (by simp [leaves, hi]), ihb fun i hi => hc i (by simp [leaves, hi])]

/-- The answer on starting is that on loading. -/
theorem consult_again (chk : Nat → Checker) (c : Cond) (s : State) (now now' tUsed : Rat) (k : Memory) :
    (consult chk c (s.view now' none tUsed) (loadCheck chk c s now tUsed k).1).2 = some (loadCheck chk c s now tUsed k).2 := by
  obtain ⟨h1, h2⟩ := consult_answer chk c (s.view now none tUsed) k
  rw [(consult_answer chk c (s.view now' none tUsed) _).1]
  have : (fun i => ((chk i).ask (s.view now' none tUsed) ((loadCheck chk c s now tUsed k).1.mem i)).2) =
      fun i => ((chk i).ask (s.view now none tUsed) (k.mem i)).2 := by
    funext i
    rw [ask_clock _ _ now' now]
    exact h2 i
  rw [this]
  simp only [loadCheck, h1]
  cases boolValue _ c <;> rfl

theorem afterCheck_ne (cfg : Cfg) (fuel : Nat) (s : State) (e : Env) : (afterCheck cfg fuel s e).1 ≠ some .metBefore := by
  unfold afterCheck
  repeat' split
  all_goals simp

end LoadCheck

open LoadCheck

variable (chk : Nat → Checker) (c : Cond) (s : State) (now now' tUsed : Rat) (k : Memory)

/-- **C124, the warning.** `load_checkpoint` warns exactly if the criterion is met by the counters restored and the time used so far. -/
theorem C124_warning (hc : ∀ i ∈ leaves c, (chk i).constructible = true) :
    (loadCheck chk c s now tUsed k).2 = true ↔ MetAllBy chk (s.view now none tUsed) k.mem c := by
  rw [← boolValue_metAllBy chk c _ k.mem hc]
  simp only [loadCheck, (consult_answer chk c (s.view now none tUsed) k).1]
  simp

/-- **C124, warned.** After the warning, `start_manager` ends at once, whenever it is called and whatever goes on outside: it starts nothing,
evaluates nothing, and the result, the log, and all counters are as in the checkpoint. -/
theorem C124_warned (cfg : Cfg) (fuel : Nat) (e : Env) (h : (loadCheck chk c s now tUsed k).2 = true) :
    startWith chk c cfg fuel s now' tUsed (loadCheck chk c s now tUsed k).1 e =
      (some .metBefore, { s with converged := true, ev := s.ev ++ [.checked true] }, e) := by
  simp [startWith, consult_again, h, startManager, askBool, observe, die, M.bind, M.pure, bind, pure]

/-- **C124, not warned.** Without the warning, `start_manager` goes on to run the optimization, unless no optimizer is left and spawning has
been stopped. -/
theorem C124_not_warned (cfg : Cfg) (fuel : Nat) (e : Env) (h : (loadCheck chk c s now tUsed k).2 = false) :
    ((startWith chk c cfg fuel s now' tUsed (loadCheck chk c s now tUsed k).1 e).1 = some .metBefore ↔
      s.packs = [] ∧ s.spawning = false) ∧
    (¬ (s.packs = [] ∧ s.spawning = false) → startWith chk c cfg fuel s now' tUsed (loadCheck chk c s now tUsed k).1 e =
      afterCheck cfg fuel { s with converged := false, ev := s.ev ++ [.checked false] } e) := by
  have hs : startWith chk c cfg fuel s now' tUsed (loadCheck chk c s now tUsed k).1 e =
      if s.packs.isEmpty && !s.spawning then (some .metBefore, { s with converged := true, ev := s.ev ++ [.checked false] }, e)
      else afterCheck cfg fuel { s with converged := false, ev := s.ev ++ [.checked false] } e := by
    simp [startWith, consult_again, h, startManager, askBool, observe, die, M.bind, M.pure, bind, pure]
  rw [hs]
  by_cases hp : s.packs = [] ∧ s.spawning = false
  · simp [hp.1, hp.2]
  · have : ¬ (s.packs.isEmpty && !s.spawning) = true := by simpa using hp
    rw [if_neg this]
    exact ⟨iff_of_false (afterCheck_ne _ _ _ _) hp, fun _ => rfl⟩

/-- **C124, by the history.** For a manager from a checkpoint which left nothing behind, and criteria about what has happened: the warning
comes exactly if the criterion is met by the whole history up to the checkpoint, over all sessions. -/
theorem C124_history {cfg : Cfg} {s : State} (hs : Startable cfg s) (hL : Lossless s.ev) (hu : UpToDate s.ev = true)
    (hc : ∀ i ∈ leaves c, Countable (chk i)) :
    (loadCheck chk c s now tUsed k).2 = true ↔ MeetsAll chk s.ev c := by
  obtain ⟨b, h1, h2⟩ := (C120_answer (e := []) hs 0 hL hc now none tUsed).2 hu k.last k.mem
  have h1 : (c.call (askChecker chk (s.view now none tUsed)) k.last k.mem).ans = .ok b := h1
  have h2 : b = true ↔ MeetsAll chk s.ev c := h2
  rw [← h2]
  simp [loadCheck, consult, h1, Except.toOption]

/-- Decidable form of `Lossless`, for the example. -/
def LoadCheck.losslessB (ev : List Ev) : Bool := (List.range ev.length).all fun k =>
  match ev[k]? with
  | some (.resumed _ n) => decide ((loggedOf (ev.take k)).length ≤ n)
  | _ => true

theorem LoadCheck.lossless_of {ev : List Ev} (h : losslessB ev = true) : Lossless ev := by
  rintro pre c n post rfl
  have := List.all_eq_true.mp h pre.length (by simp)
  simpa only [List.getElem?_append_right (Nat.le_refl _), Nat.sub_self, List.getElem?_cons_zero, List.take_left,
    decide_eq_true_eq] using this

/-- Criteria which have not been called yet. -/
def LoadCheck.fresh : Memory := ⟨fun _ => none, fun _ => Latch.init⟩

/-- `MaxFuncCalls(2) & (MaxOptsStarted(1) | MaxSeconds(overall_max=10))`. -/
def LoadCheck.chk2 : Nat → Checker
  | 0 => .maxFuncCalls 2
  | 1 => .maxOptsStarted 1
  | _ => .maxSeconds none (some 10)

def LoadCheck.c2 : Cond := .and 4 (.leaf 0) (.or 3 (.leaf 1) (.leaf 2))

example : (loadCheck chk2 c2 loaded 50 3 fresh).2 = true ∧ (∀ i ∈ leaves c2, (chk2 i).constructible = true) ∧
    Startable cfg2 haunted ∧ Lossless haunted.ev ∧ UpToDate haunted.ev = true ∧ haunted.fCounter = 2 ∧
    (loadCheck (fun _ => .maxFuncCalls 3) (.leaf 0) loaded 50 3 fresh).2 = false ∧ loaded.packs = [(1, 1)] ∧
    (loadCheck (fun _ => .maxSeconds (some 10) none) (.leaf 0) loaded 50 30 fresh).2 = false ∧
    (loadCheck (fun _ => .maxSeconds none (some 10)) (.leaf 0) loaded 50 30 fresh).2 = true :=
  ⟨by decide +kernel, by decide, startable_haunted, lossless_of (by decide +kernel), by decide +kernel, by decide +kernel, by decide +kernel, by decide +kernel,
    by decide +kernel, by decide +kernel⟩

end Glompo.Props
