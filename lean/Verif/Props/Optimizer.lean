import Verif.Lemmas.Optimizer

/-!
# C42, C43, C68: optimizers under the manager

`run cfg r fuel env` is the life of an optimizer with number `cfg.optId` whose `minimize` method is `r` (any user code),
with everything it sees of the outside (`env`: values of the task, messages, exceptions, ...). It ends by returning or
raising, or it is `pending` if `env` or `fuel` is used up. Its record `ev` is read with the definitions of
`Spec/Optimizer`.
-/

namespace Glompo.Props

open Glompo Glompo.Optimizer Glompo.Spec.Optimizer

namespace Opt

def run (cfg : Cfg) (r : Routine) (fuel : Nat) (env : List Obs) : Out Unit × W := minimize cfg r fuel ⟨env, []⟩

/-- Optimizer 3 evaluates the task at 0, 1, 2, ..., checks messages after each, and stops when told to. -/
def cfg3 : Cfg := { optId := 3, logDetailed := false, hasDetailed := false, stopDefault := true }

def counting : Routine where
  σ := Nat × Bool × Bool
  init := (0, true, false)
  next
    | (n, true, false) => .call false [(n : Rat)] fun r => match r with | .ok _ => (n + 1, false, false) | .error _ => (n, true, true)
    | (n, false, false) => .check fun r => match r with | .ok c => (n, !(c.contains 1), c.contains 1) | .error _ => (n, false, true)
    | (_, false, true) => .ret
    | (_, true, true) => .throw (.error .valueError)

/-- Two evaluations, then a stop instruction arrives. -/
def world : List Obs :=
  [.value (.fin 5), .unit, .quiet, .value .nan, .unit, .msg (.tuple 1 [.str "enough"]), .unit, .quiet, .unit]

/-- Evaluates the task at 0 for ever, passes on every exception. -/
def careless : Routine where
  σ := Option Exc
  init := none
  next
    | none => .call false [0] fun r => match r with | .ok _ => none | .error e => some e
    | some e => .throw e

end Opt

open Opt

variable (cfg : Cfg) (r : Routine) (fuel : Nat) (env : List Obs)

/-! ### C42 -/

/-- **C42.** When the optimizer has ended, in whatever way, and the queue took everything that was put on it, then the
queue got exactly one report per evaluation, in order, with the number of the optimizer, the point and the value, and
after them one end marker. -/
theorem C42_every_evaluation_once (hend : (run cfg r fuel env).1 ≠ .pending)
    (hq : ∀ e ∈ (run cfg r fuel env).2.ev, isLost e = false) :
    queueOf (run cfg r fuel env).2.ev =
      (evalsOf cfg.optId (run cfg r fuel env).2.ev).map .inl ++ [.inr cfg.optId] := by
  obtain ⟨u, n, _, h2, h3⟩ := reads_minimize cfg r fuel ⟨env, []⟩
  simp only [List.nil_append] at h2
  unfold run at *
  rw [h2] at hq ⊢
  rcases h3 with ⟨h, _⟩ | ⟨_, m, hm, h⟩
  · exact absurd h hend
  · rcases h with rfl | rfl
    · rw [queueOf_append, evalsOf_append, hm.queue fun e he => hq e (List.mem_append_left _ he)]
      simp [queueOf, evalsOf]
    · exact absurd (hq .lostEnd (by simp)) (by simp [isLost])

/-- **C42, during the run.** As long as the queue takes everything, at every moment all evaluations but possibly the
last one have been reported, in order, and there is no end marker. -/
theorem C42_at_every_moment (hp : (run cfg r fuel env).1 = .pending)
    (hq : ∀ e ∈ (run cfg r fuel env).2.ev, isLost e = false) :
    ∃ last, last.length ≤ 1 ∧
      (evalsOf cfg.optId (run cfg r fuel env).2.ev).map .inl = queueOf (run cfg r fuel env).2.ev ++ last := by
  obtain ⟨u, n, _, h2, h3⟩ := reads_minimize cfg r fuel ⟨env, []⟩
  simp only [List.nil_append] at h2
  unfold run at *
  rw [h2] at hq ⊢
  rcases h3 with ⟨_, h⟩ | ⟨h, _⟩
  · rcases h with h | ⟨_, m, x, v, ex, hm, rfl⟩
    · exact ⟨[], by simp, by rw [h.queue hq, List.append_nil]⟩
    · refine ⟨[.inl ⟨cfg.optId, x, v, ex⟩], by simp, ?_⟩
      rw [queueOf_append, evalsOf_append, hm.queue fun e he => hq e (List.mem_append_left _ he)]
      simp [queueOf, evalsOf]
  · exact absurd hp h

/-- **C42, whatever happens to the queue.** Nothing but evaluations is reported, none twice, in order; an end marker is
the very last thing, and it is missing only if the optimizer has not ended or the queue refused it. -/
theorem C42_nothing_else : ∃ q : List (IterRes ⊕ Nat),
    q.Sublist ((evalsOf cfg.optId (run cfg r fuel env).2.ev).map .inl) ∧
    (queueOf (run cfg r fuel env).2.ev = q ∧
        ((run cfg r fuel env).1 = .pending ∨ .lostEnd ∈ (run cfg r fuel env).2.ev) ∨
      queueOf (run cfg r fuel env).2.ev = q ++ [.inr cfg.optId] ∧ (run cfg r fuel env).1 ≠ .pending ∧
        (run cfg r fuel env).2.ev.getLast? = some (.queuedEnd cfg.optId)) := by
  obtain ⟨u, n, _, h2, h3⟩ := reads_minimize cfg r fuel ⟨env, []⟩
  simp only [List.nil_append] at h2
  unfold run at *
  rw [h2]
  rcases h3 with ⟨hp, h⟩ | ⟨hp, m, hm, h⟩
  · refine ⟨queueOf n, ?_, Or.inl ⟨rfl, Or.inl hp⟩⟩
    rcases h with h | ⟨_, m, x, v, ex, hm, rfl⟩
    · exact h.queue_sublist
    · rw [queueOf_append, evalsOf_append, List.map_append]
      exact hm.queue_sublist.append (by simp [queueOf])
  · rcases h with rfl | rfl
    · refine ⟨queueOf m, ?_, Or.inr ⟨by rw [queueOf_append]; rfl, hp, by simp⟩⟩
      rw [evalsOf_append]
      simpa [evalsOf] using hm.queue_sublist
    · refine ⟨queueOf m, ?_, Or.inl ⟨by rw [queueOf_append]; simp [queueOf], Or.inr (by simp)⟩⟩
      rw [evalsOf_append]
      simpa [evalsOf] using hm.queue_sublist

example : run cfg3 counting 20 world = (.ok (), ⟨[],
    [.evaluated [0] [.fin 5], .queued ⟨3, [0], .fin 5, []⟩, .evaluated [1] [.nan], .queued ⟨3, [1], .nan, []⟩,
     .stopped (some (.str "enough")), .queuedEnd 3]⟩) := by decide +kernel

/-- The task fails: the manager is told, then the end marker follows. The queue fails: the report is lost. -/
example :
    (run cfg3 counting 20 [.value (.fin 5), .unit, .quiet, .raise (.error .zeroDivision), .unit, .unit]).2.ev =
      [.evaluated [0] [.fin 5], .queued ⟨3, [0], .fin 5, []⟩, .sent 9, .queuedEnd 3] ∧
    (run cfg3 counting 20 [.value (.fin 5), .raise .brokenPipe, .unit, .unit]).2.ev =
      [.evaluated [0] [.fin 5], .lost [0], .sent 9, .queuedEnd 3] := by decide +kernel

/-- **C42, one evaluation.** The task is called in detail if details are logged or the optimizer asks for them. The report has the first value
as function value and all the others as extra results; the optimizer gets all of them if it has asked for details, otherwise the first. -/
theorem C42_one_evaluation (det : Bool) (x : Vec) (v : PyF) (vs : List PyF) (rest : List Obs) (ev : List Ev) :
    (cfg.logDetailed = true ∨ det = true → calculate cfg det x ⟨.values (v :: vs) :: .unit :: rest, ev⟩ =
      (.ok (if det then v :: vs else [v]), ⟨rest, ev ++ [.evaluated x (v :: vs), .queued ⟨cfg.optId, x, v, vs⟩]⟩)) ∧
    (cfg.logDetailed = false ∧ det = false → calculate cfg det x ⟨.value v :: .unit :: rest, ev⟩ =
      (.ok [v], ⟨rest, ev ++ [.evaluated x [v], .queued ⟨cfg.optId, x, v, []⟩]⟩)) := by
  obtain ⟨i, ld, hd, sd⟩ := cfg
  constructor
  · intro h
    cases ld <;> cases det <;> simp at h <;>
      simp [calculate, evaluate, putResult, bind, M.bind, M.ask, M.emit, M.attempt, askUnit, pure, M.pure]
  · rintro ⟨h1, h2⟩
    simp only at h1
    subst h1 h2
    simp [calculate, evaluate, putResult, bind, M.bind, M.ask, M.emit, M.attempt, askUnit, pure, M.pure]

/-! ### C68 -/

/-- **C68.** User code which fails with an exception: the manager is told (message 9), then the end marker follows, and
the exception is passed on. -/
theorem C68_failure_is_reported (e : Err) (w : W) (rest : List Obs) (hd : ¬ (cfg.logDetailed = true ∧ cfg.hasDetailed = false))
    (h : runRoutine cfg r fuel r.init ⟨env, []⟩ = (.err (.error e), w)) (hw : w.env = .unit :: .unit :: rest) :
    run cfg r fuel env = (.err (.error e), ⟨rest, w.ev ++ [.sent 9, .queuedEnd cfg.optId]⟩) := by
  obtain ⟨we, wv⟩ := w
  subst hw
  simp [run, minimize, guarded, hd, bind, M.bind, M.attempt, h, messageManager, askUnit, M.ask, M.emit, M.throw, putEnd, pure, M.pure]

/-- **C68.** An interrupt (Ctrl-C, a pipe closed by the manager) ends it quietly: nothing is sent but the end marker. -/
theorem C68_interrupt_is_no_failure (x : Exc) (hx : x = .keyboard ∨ x = .brokenPipe) (w : W) (rest : List Obs)
    (hd : ¬ (cfg.logDetailed = true ∧ cfg.hasDetailed = false))
    (h : runRoutine cfg r fuel r.init ⟨env, []⟩ = (.err x, w)) (hw : w.env = .unit :: rest) :
    run cfg r fuel env = (.ok (), ⟨rest, w.ev ++ [.queuedEnd cfg.optId]⟩) := by
  obtain ⟨we, wv⟩ := w
  subst hw
  rcases hx with rfl | rfl <;>
  simp [run, minimize, guarded, hd, bind, M.bind, M.attempt, h, askUnit, M.ask, M.emit, putEnd, pure, M.pure]

/-- **C68.** A task without the detailed evaluation which is to be logged is a failure as well, before any evaluation. -/
theorem C68_no_detailed_call (rest : List Obs) (hd : cfg.logDetailed = true ∧ cfg.hasDetailed = false) :
    run cfg r fuel (.unit :: .unit :: rest) = (.err (.error .other), ⟨rest, [.sent 9, .queuedEnd cfg.optId]⟩) := by
  simp [run, minimize, guarded, hd, bind, M.bind, M.attempt, messageManager, askUnit, M.ask, M.emit, M.throw, putEnd, pure, M.pure]

example :
    run cfg3 careless 20 [.value (.fin 5), .unit, .raise (.error .zeroDivision), .unit, .unit] =
      (.err (.error .zeroDivision), ⟨[], [.evaluated [0] [.fin 5], .queued ⟨3, [0], .fin 5, []⟩, .sent 9, .queuedEnd 3]⟩) ∧
    run cfg3 careless 20 [.value (.fin 5), .raise .brokenPipe, .unit] =
      (.ok (), ⟨[], [.evaluated [0] [.fin 5], .lost [0], .queuedEnd 3]⟩) ∧
    runRoutine cfg3 careless 20 careless.init ⟨[.value (.fin 5), .unit, .raise .keyboard, .unit], []⟩ =
      (.err .keyboard, ⟨[.unit], [.evaluated [0] [.fin 5], .queued ⟨3, [0], .fin 5, []⟩]⟩) := by decide +kernel

/-! ### C43 -/

/-- **C43.** When `check_messages` returns, every message read, in this call and in the pauses inside it, was carried out
as documented, once, in the order sent. -/
theorem C43_in_order (codes : List Int) (w : W) (h : checkMessages cfg fuel ⟨env, []⟩ = (.ok codes, w)) :
    ∃ used, env = used ++ w.env ∧ actsOf w.ev = (msgsOf used).map documented := by
  obtain ⟨u, n, h1, h2, h3, _⟩ := (all_reads cfg fuel).1 [] ⟨env, []⟩
  have h' : checkLoop cfg fuel [] ⟨env, []⟩ = (.ok codes, w) := h
  rw [h'] at h1 h2 h3
  simp only [List.nil_append] at h2
  exact ⟨u, h1, by rw [h2]; simpa using h3.1 trivial⟩

/-- **C43, at every moment**, also when an instruction fails: whatever was read has been carried out as documented, in
order, but possibly the last. -/
theorem C43_in_order_always : ∃ used last, env = used ++ (checkMessages cfg fuel ⟨env, []⟩).2.env ∧ last.length ≤ 1 ∧
    (msgsOf used).map documented = actsOf (checkMessages cfg fuel ⟨env, []⟩).2.ev ++ last := by
  obtain ⟨u, n, h1, h2, ⟨_, ⟨last, hl⟩, h5⟩, _⟩ := (all_reads cfg fuel).1 [] ⟨env, []⟩
  simp only [List.nil_append] at h2 hl h5
  refine ⟨u, last, h1, ?_, ?_⟩
  · rw [← hl, List.length_append] at h5; omega
  · rw [← hl]; unfold checkMessages; rw [h2]

/-- **C43, pauses.** Whenever the optimizer starts to hold, it has replied before and, after the reply, carried out a save or
continue instruction. No instruction serves two pauses. -/
theorem C43_pause (pre post : List Ev) (h : (checkMessages cfg fuel ⟨env, []⟩).2.ev = pre ++ .held :: post) :
    (∃ a b, pre = a ++ .sent 1 :: b ∧ ∃ e ∈ b, isRelease e = true) ∧
    pre.countP (fun e => decide (e = .held)) < pre.countP isRelease := by
  obtain ⟨u, n, h1, h2, _, h3, _⟩ := (all_reads cfg fuel).1 [] ⟨env, []⟩
  simp only [List.nil_append] at h2
  have h' : n = pre ++ .held :: post := by rw [← h2]; exact h
  refine ⟨h3.1 pre post h', ?_⟩
  have := h3.2 (pre ++ [.held]) ⟨post, by rw [h']; simp⟩
  rw [nHeld_append, nRel_append] at this
  have e1 : nHeld [.held] = 1 := by decide
  have e2 : nRel [.held] = 0 := by decide
  unfold nHeld nRel at *
  omega

/-- **C43, without trouble.** (Codes of instructions read during a pause are returned to the pause, see `C43_pause_ends`.)
All pending instructions are carried out in one call, which returns their codes; what is no
instruction is ignored. -/
theorem C43_all_at_once (ms : List Msg) (rest : List Obs) (hms : ∀ m ∈ ms, Plain m) (hf : ms.length + 2 ≤ fuel) :
    checkMessages cfg fuel ⟨smooth ms ++ .quiet :: rest, []⟩ = (.ok (ms.filterMap codeOf), ⟨rest, ms.map documented⟩) := by
  have := checkLoop_smooth cfg ms fuel [] rest [] hms hf
  simpa [checkMessages] using this

/-- **C43, a pause without trouble.** The request to pause is answered, the optimizer waits for instructions however long it
takes, carries them out, and holds; the pause ends. -/
theorem C43_pause_ends (k : Nat) (ms : List Msg) (rest : List Obs) (hms : ∀ m ∈ ms, Plain m)
    (hr : ∃ m ∈ ms, codeOf m = some 0 ∨ codeOf m = some 3) (hf : ms.length + 7 ≤ fuel) :
    checkMessages cfg fuel ⟨.msg (.int 2) :: .unit :: (List.replicate k .quiet ++ smooth ms ++ .quiet :: .unit :: .quiet :: rest), []⟩ =
      (.ok [2], ⟨rest, .sent 1 :: ms.map documented ++ [.held, .resumed]⟩) := by
  obtain ⟨n, rfl⟩ : ∃ n, fuel = n + 1 + 1 + 1 + 1 + 1 := ⟨fuel - 5, by omega⟩
  have hl := checkLoop_smooth cfg ms (n + 1) [] (.unit :: .quiet :: rest) [.sent 1] hms (by omega)
  have hw : waitLoop cfg (n + 1 + 1) ⟨List.replicate k .quiet ++ smooth ms ++ .quiet :: .unit :: .quiet :: rest, [.sent 1]⟩ =
      (.ok (), ⟨.unit :: .quiet :: rest, .sent 1 :: ms.map documented⟩) := by
    rw [waitLoop]
    simp only [bind, M.bind]
    rw [waitMsg_smooth (by obtain ⟨m, hm, _⟩ := hr; intro h; subst h; cases hm)]
    dsimp only
    rw [hl]
    have : 0 ∈ ms.filterMap codeOf ∨ 3 ∈ ms.filterMap codeOf := by
      obtain ⟨m, hm, h | h⟩ := hr
      · exact Or.inl (List.mem_filterMap.mpr ⟨m, hm, h⟩)
      · exact Or.inr (List.mem_filterMap.mpr ⟨m, hm, h⟩)
    dsimp only [List.nil_append]
    rw [if_pos this]
    rfl
  rw [checkMessages, checkLoop]
  simp [bind, M.bind, poll, M.ask, keys, execute, prepare, askUnit, M.emit]
  rw [← List.append_assoc, hw]
  simp [checkLoop, bind, M.bind, poll, M.ask, pure, M.pure]

example : checkMessages cfg3 20 ⟨[.msg (.int 2), .unit, .quiet, .quiet, .msg (.tuple 1 [.str "why"]), .unit, .quiet, .quiet,
    .msg (.tuple 0 [.str "opt3"]), .unit, .msg .other, .quiet, .unit, .msg (.tuple 4 [.vec [1], .num (.fin 2)]), .quiet], []⟩ =
  (.ok [2, 4], ⟨[], [.sent 1, .stopped (some (.str "why")), .saved (.str "opt3"), .ignored, .held, .resumed,
    .injected (.vec [1]) (.num (.fin 2))]⟩) := by decide +kernel

end Glompo.Props
