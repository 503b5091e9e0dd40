import Verif.Lemmas.ManagerTrace

/-! Runs used as examples and counterexamples for the manager properties: what the manager sees, in order. -/

namespace Glompo.Props.Runs

open Glompo Glompo.Manager

/-- Two worker slots, hunts after every two evaluations, incumbent sharing, no periodic checkpoints. -/
def cfg2 : Cfg :=
  { maxJobs := 2, huntFrequency := 2, hunting := true, sharing := true, forced := false, procs := true
    aggressive := false, checkpointing := false, checkpointAtConv := false, raiseCkptFail := true, traj := false }

/-- One worker slot, neither hunts nor sharing. -/
def cfg1 : Cfg := { cfg2 with maxJobs := 1, sharing := false, hunting := false }

def u : Obs := ⟨[], .unit⟩
def b (x : Bool) : Obs := ⟨[], .bool x⟩
def ch (l : List Msg) : Obs := ⟨[], .chunk (some l)⟩
def nothing : Obs := ⟨[], .chunk none⟩
def sel (w : Int) : Obs := ⟨[], .sel (.chosen w "O")⟩
def no : Obs := ⟨[], .sel .stop⟩
def sg (m : Option Sig) : Obs := ⟨[], .sig m⟩
def files : Obs := ⟨[], .files []⟩
def d (i : Nat) : Obs := ⟨[i], .unit⟩
def x (e : Err) : Obs := ⟨[], .raise e⟩
/-- Evaluation of optimizer `i` with value `f`. -/
def r (i : Nat) (f : Int) : Msg := .res ⟨i, [f], .fin f, []⟩

/-- Optimizers 1 and 2 are started; no signals. -/
def start2 : Env := [b false, u, u, sel 1, u, u, u, sel 1, u, u, u, u, sg none, sg none]

/-- Optimizer 1 is started. -/
def start1 : Env := [b false, u, u, sel 1, u, u, u, u, sg none]

/-- Optimizer 1 is started, then the selector answers `False`. -/
def startNo : Env := [b false, u, u, sel 1, u, u, u, no, u, sg none]

/-- Three evaluations; a hunt kills optimizer 1; its third message is ignored; it terminates; convergence. -/
def demo : Env := start2 ++ [ch [r 1 5, r 2 3, r 1 4], u, u, b true, u, nothing, files, b false,
  u, b false, u, u, b false, d 1, u, u, b true, u, u, u, u, u]

/-- Optimizer 1 is killed, then its end message is read during a checkpoint. -/
def twice : Env := start2 ++ [ch [r 1 5, r 2 3], u, u, b true, u, nothing, files, b true,
  u, u, u, u, b false, u, sg (some (.done "x"))]

/-- Convergence; the first of the stop signals cannot be sent. -/
def untold : Env := start2 ++ [nothing, files, b false, u, u, b false, u, u, b false, u, u, u, b true, u,
  x .osError, u, u, u, u, u]

/-- Convergence before the first evaluation. -/
def quiet : Env := start2 ++ [nothing, files, b false, u, u, b false, u, u, b false, u, u, u, b true, u,
  u, u, u, u, u, u, u]

/-- The only optimizer terminates, then the selector answers `False` for the first time. -/
def lastOne : Env := start1 ++ [ch [r 1 5], nothing, files, b false, u, u, b false, u, u, b false, u,
  d 1, no, u, u, u, u]

/-- The selector has answered `False`; the only optimizer says that it is done and terminates. -/
def endsClean : Env := startNo ++ [ch [r 1 5], ch [.fin 1], nothing, files, b false, u, u, b false, u, u, b false, u,
  u, u, sg (some (.done "x")), nothing, files, b false, d 1, b false, u, u, b false, u, u, u]

/-- The selector has answered `False`; the only optimizer terminates just after the convergence check. -/
def race : Env := startNo ++ [ch [r 1 5], nothing, files, b false, u, u, b false, u, u, b false, u,
  d 1, u, u, u, u]

/-- The selector has answered `False`; the optimizer terminates in time. -/
def wound : Env := startNo ++ [ch [r 1 5], nothing, files, b false, u, u, b false, u, u, b false, u,
  u, u, sg (some (.done "x")), nothing, files, b false, d 1, b false, u, u, b false, u, u, u]

/-- An evaluation with value 0, then a worse one. -/
def zero : Env := start2 ++ [ch [r 1 0, r 2 3], u, u]

/-- The first evaluation is not a number. -/
def nanFirst : Env := start2 ++ [ch [.res ⟨1, [7], .nan, []⟩], u, u]

/-- One start which crashes at once. -/
def crashIter (i : Nat) : Env := [u, sel 1, u, u, u, u, sg (some (.note "E" true)), nothing, files, b false,
  d i, b false, u, b false, u, u, b false, u]

/-- Optimizers crash as soon as they are started. -/
def crashes : Env := [b false, u] ++ (List.range' 1 6).flatMap crashIter ++ [u, u]

/-- The end marker of optimizer 1 in the results queue is read before its end signal. -/
def markerFirst : Env := start2 ++ [ch [r 2 3, .fin 1], u, nothing, files, b false, u, u, b false, u, u, b false,
  u, u, u, b false, u, u, u, sg (some (.done "x")), u, u, u]

/-- An evaluation by an optimizer nobody knows. -/
def stranger : Env := start2 ++ [ch [r 1 5, r 7 3], u, u, u, u, u, u, u, u, u]

/-- The second evaluation is better, but sending it to the other optimizer fails. -/
def sendFails : Env := start2 ++ [ch [r 1 5, r 2 3], u, x .osError, u, u, u, u, u, u, u]

/-- One slot, processes, forced terminations. -/
def cfgForced : Cfg := { cfg1 with forced := true }

/-- Optimizer 1 has not sent anything for too long. -/
def hangs : Env := start1 ++ [nothing, files, b false, u, u, b true, u, u, u]

/-- One slot, periodic checkpoints. -/
def cfgSave : Cfg := { cfg1 with checkpointing := true }

/-- An evaluation with value 5 is accepted; then a checkpoint, while which is taken one with value 3 arrives. -/
def saves : Env := start1 ++ [ch [r 1 5], nothing, files, b false, u, u, b false, u, u, b false, u, b true,
  u, u, u, b false, u, sg (some .paused), b false, ch [r 1 3], b true, b true, u, u, b true, b true, b true]

/-- The manager with settings `cfg` loaded from the first checkpoint written by the time `s`. -/
def loadFirst (cfg : Cfg) (s : State) (found : List (Nat × Bool)) : State :=
  match s.saved with
  | [] => s
  | k :: _ => match loadCheckpoint cfg k found s.saved with | .ok s' => s' | .error _ => s

def firstOf (s : State) : Option Saved := s.saved.head?

def loaded : State := loadFirst cfgSave (startManager cfgSave 20 (init cfgSave) saves).2.1 [(1, true)]

/-- It continues with optimizer 1, whose next evaluation has value 4. -/
def goesOn : Env := [b false, u, u, u, u, sg none, ch [r 1 4]]

/-- A hunt kills optimizer 1; a checkpoint is taken before it has stopped. -/
def zombie : Env := start2 ++ [ch [r 1 5, r 2 3], u, u, b true, u, nothing, files, b true,
  u, u, u, u, b false, u, sg (some .paused), u, sg (some .paused), b true, b true, u, u, u, b true, b true, b true, b true, b true]

def haunted : State := loadFirst cfg2 (startManager cfg2 20 (init cfg2) zombie).2.1 [(1, true), (2, true)]

/-- The manager loaded starts its optimizers. -/
def startsAgain : Env := [b false, u, u, u]

/-- It starts its optimizers; convergence. -/
def endsAgain : Env := [b false, u, u, u, u, u, sg none, nothing, files, b false, u, b false, u, u, b false, u, u, u,
  b true, u, u, u, u, u, u, u, u]

/-- A manager loaded so from a checkpoint of a startable one is startable. -/
theorem startable_loadFirst (cfg₀ cfg : Cfg) (s₀ : State) (fuel : Nat) (e : Env) (found : List (Nat × Bool))
    (h : Startable cfg₀ s₀)
    (hk : ((firstOf (startManager cfg₀ fuel s₀ e).2.1).any fun k => decide ((found.map (·.1)) = k.files) &&
      (loadCheckpoint cfg k found (startManager cfg₀ fuel s₀ e).2.1.saved).toBool) = true) :
    Startable cfg (loadFirst cfg (startManager cfg₀ fuel s₀ e).2.1 found) := by
  unfold loadFirst
  unfold firstOf at hk
  generalize hm : (startManager cfg₀ fuel s₀ e).2.1.saved = l at hk ⊢
  cases l with
  | nil => cases hk
  | cons k t =>
    simp only [List.head?_cons, Option.any_some, Bool.and_eq_true, decide_eq_true_eq] at hk ⊢
    cases hl : loadCheckpoint cfg k found (k :: t) with
    | error x => rw [hl] at hk; cases hk.2
    | ok s' =>
      exact Startable.loaded cfg₀ cfg s₀ s' fuel e k found h (by rw [hm]; simp) (by rw [hk.1]) (by rw [hm, hl])

theorem startable_loaded : Startable cfgSave loaded :=
  startable_loadFirst _ _ _ _ _ _ (.fresh _) (by decide +kernel)

theorem startable_haunted : Startable cfg2 haunted :=
  startable_loadFirst _ _ _ _ _ _ (.fresh _) (by decide +kernel)

end Glompo.Props.Runs
