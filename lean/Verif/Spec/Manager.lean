import Verif.Model.Manager
import Verif.Spec.Logger

/-!
# Specification vocabulary for the manager properties

Everything here is about the record of what happened (`List Ev`, oldest first): which optimizers were started or died,
which evaluations were accepted, who was shut down. The manager's variables do not appear. The record of a manager loaded
from a checkpoint begins with the record up to that checkpoint, followed by `resumed`.
-/

namespace Glompo.Spec

open Glompo.Manager (Ev SelAns Msg Obs Ans)

/-- Evaluations accepted. -/
def acceptedOf (ev : List Ev) : List IterRes :=
  ev.filterMap fun x => match x with | .accepted r => some r | _ => none

/-- Optimizers shut down by the manager. -/
def killedOf (ev : List Ev) : List Nat := ev.filterMap fun x => match x with | .killed i _ => some i | _ => none

/-- Optimizers counted as having ended by themselves. -/
def finishedOf (ev : List Ev) : List Nat := ev.filterMap fun x => match x with | .finished i => some i | _ => none

/-- Optimizers recorded as ended in error. -/
def failedOf (ev : List Ev) : List Nat := ev.filterMap fun x => match x with | .failed i => some i | _ => none

/-- Optimizers terminated because they did not respond. -/
def forcedOf (ev : List Ev) : List Nat := ev.filterMap fun x => match x with | .forced i => some i | _ => none

/-- Ids handed out. -/
def newIdsOf (ev : List Ev) : List Nat := ev.filterMap fun x => match x with | .newId i => some i | _ => none

/-- What happened since the manager was loaded from a checkpoint (since the beginning, if it never was). -/
def session (ev : List Ev) : List Ev :=
  ev.foldl (fun l x => match x with | .resumed _ _ => [] | y => l ++ [y]) []

/-- Processes started by the present manager, with their worker slots. -/
def startedOf (ev : List Ev) : List (Nat × Int) :=
  (session ev).filterMap fun x => match x with | .started i w => some (i, w) | .restarted i w => some (i, w) | _ => none

/-- Processes of the present manager which terminated. -/
def diedOf (ev : List Ev) : List Nat :=
  (session ev).filterMap fun x => match x with | .died i => some i | _ => none

/-- New optimizers started, in the whole history. -/
def launchedOf (ev : List Ev) : List Nat := ev.filterMap fun x => match x with | .started i _ => some i | _ => none

/-- The evaluations the log holds: those accepted, but on loading a checkpoint only the first ones, as many as its log
has. -/
def loggedOf (ev : List Ev) : List IterRes :=
  ev.foldl (fun l x => match x with | .accepted r => l ++ [r] | .resumed _ n => l.take n | _ => l) []

/-- No evaluation was lost on loading a checkpoint. -/
def Lossless (ev : List Ev) : Prop :=
  ∀ pre c n post, ev = pre ++ .resumed c n :: post → (loggedOf pre).length ≤ n

/-- The settings in force; `c₀` are those at the beginning. -/
def settings (c₀ : Manager.Cfg) (ev : List Ev) : Manager.Cfg :=
  ev.foldl (fun c x => match x with | .resumed c' _ => c' | _ => c) c₀

/-- No checkpoint has begun since the convergence criterion was last asked (or the manager loaded). -/
def ckptFree (ev : List Ev) : Bool :=
  ev.foldl (fun b x => match x with | .ckptBegin => false | .checked _ => true | .resumed _ _ => true | _ => b) true

/-- What happened since the last checkpoint began. -/
def sinceCkpt (ev : List Ev) : List Ev :=
  ev.foldl (fun l x => match x with | .ckptBegin => [] | y => l ++ [y]) []

/-- Worker slots in use: those of the processes started and not terminated. -/
def load (ev : List Ev) : Int :=
  (((startedOf ev).filter fun p => decide (p.1 ∉ diedOf ev)).map (·.2)).sum

/-- The process of optimizer `i` is running. -/
def Running (ev : List Ev) (i : Nat) : Prop := (∃ w, (i, w) ∈ startedOf ev) ∧ i ∉ diedOf ev

/-- Nobody is running, and the selector has answered `False`. -/
def Quiet (ev : List Ev) : Prop := (∀ i, ¬ Running ev i) ∧ ∃ k, Ev.asked k .stop ∈ ev

/-- The process of optimizer `i` was running when it was last looked at: processes may have terminated since, nothing else
happened. -/
def SeenRunning (ev : List Ev) (i : Nat) : Prop := ∃ a b, ev = a ++ b ∧ Running a i ∧ ∀ x ∈ b, ∃ j, x = Ev.died j

/-- How the optimizers were treated in the checkpoint which began last, in which `files` were saved. `before` and `after`
are what happened before and after the optimizers were told to save or to go on. -/
structure Shaken (ev : List Ev) (files : List Nat) (before after : List Ev) : Prop where
  split : sinceCkpt ev = before ++ after
  notYet : ∀ i, Ev.save i ∉ before ∧ Ev.pass i ∉ before
  only : ∀ x ∈ after, (∃ i, x = .died i) ∨ (∃ i, x = .save i) ∨ ∃ i, x = .pass i
  asked : ∀ i, Running ev i → Ev.pauseReq i ∈ before
  told : ∀ i, Running ev i → if i ∈ files then Ev.save i ∈ after else Ev.pass i ∈ after
  saved : ∀ i, Ev.save i ∈ after → i ∈ files
  passed : ∀ i, Ev.pass i ∈ after → i ∉ files ∧ Ev.pauseReq i ∈ before
  living : ∀ i ∈ files, Ev.pauseReq i ∈ before ∧ i ∉ killedOf before ∧ i ∉ finishedOf before
  all : ∀ i, Running ev i → i ∉ killedOf before → i ∉ finishedOf before → Ev.released i ∉ before → i ∈ files

/-- The same, whenever they were told. -/
def HandShake (ev : List Ev) (files : List Nat) : Prop := ∃ before after, Shaken ev files before after

/-- The selector chose only optimizers which fit the slots offered. -/
def SelectorFits (ev : List Ev) : Prop :=
  ∀ slots w c, Ev.asked slots (.chosen w c) ∈ ev → 0 ≤ w ∧ w ≤ slots

/-- Optimizer `h` found the earliest smallest value. -/
def Leads (es : List IterRes) (h : Nat) : Prop :=
  ∃ k r, EarliestMin (fun _ => True) es k ∧ es[k]? = some r ∧ r.optId = h

/-- Number of evaluations accepted since the last hunt (since the start, before the first). -/
def sinceHunt (ev : List Ev) : Nat :=
  ev.foldl (fun n x => match x with | .hunt _ => 0 | .accepted _ => n + 1 | _ => n) 0

/-- `x`, `fx`, `i` are point, value and optimizer of the earliest smallest evaluation of `es`, or the empty answer if no
value is below `+inf`. -/
def IsBest (x : Vec) (fx : PyF) (i : Nat) (es : List IterRes) : Prop :=
  (NoneQualifies (fun _ => True) es ∧ x = [] ∧ fx = .pinf ∧ i = 0) ∨
  ∃ k r, EarliestMin (fun _ => True) es k ∧ es[k]? = some r ∧ x = r.x ∧ fx = r.fx ∧ i = r.optId

/-- The result was brought up to date after the last accepted evaluation. -/
def UpToDate (ev : List Ev) : Bool :=
  ev.foldl (fun b x => match x with | .accepted _ => false | .updated _ _ _ => true | _ => b) true

/-- Point, value and optimizer of the last result, `none` before the first. -/
def lastResult (ev : List Ev) : Option (Vec × PyF × Nat) :=
  ev.foldl (fun b x => match x with | .updated v f i => some (v, f, i) | _ => b) none

/-- `hs` are the headings for the extra results of `r`: none if there are none, otherwise some which were given for its optimizer. -/
def Headed (ev : List Ev) (r : IterRes) (hs : List String) : Prop :=
  (r.extras = [] → hs = []) ∧ (r.extras ≠ [] → Ev.named r.optId hs ∈ ev)

/-- The evaluation received last, if it has not been accepted or ignored yet. -/
def inHand (ev : List Ev) : Option IterRes :=
  ev.foldl (fun b x => match x with
    | .received (.res r) => some r | .accepted _ => none | .ignored _ => none | _ => b) none

/-- Evaluations received from optimizers which had not been shut down at that time (with the optimizers shut down). -/
def dueAux (ev : List Ev) : List Nat × List IterRes :=
  ev.foldl (fun p x => match x with
    | .killed i _ => (p.1 ++ [i], p.2)
    | .received (.res r) => if r.optId ∈ p.1 then p else (p.1, p.2 ++ [r])
    | _ => p) ([], [])

def dueOf (ev : List Ev) : List IterRes := (dueAux ev).2

/-- Number of evaluations accepted since the last time the convergence criterion was asked (or the manager loaded). -/
def sinceCheck (ev : List Ev) : Nat :=
  ev.foldl (fun n x => match x with | .checked _ => 0 | .resumed _ _ => 0 | .accepted _ => n + 1 | _ => n) 0

/-- Last answer of the convergence criterion to the present manager. -/
def lastCheck (ev : List Ev) : Option Bool :=
  ev.foldl (fun b x => match x with | .checked c => some c | .resumed _ _ => none | _ => b) none

/-- No chunk taken from the queue had more than `c` messages. -/
def ChunksAtMost (c : Nat) (ev : List Ev) : Prop := ∀ k, Ev.took k ∈ ev → k ≤ c

/-- The selector chose only optimizers with at least one worker which fit the slots offered. -/
def SelectorPos (ev : List Ev) : Prop :=
  ∀ slots w c, Ev.asked slots (.chosen w c) ∈ ev → 1 ≤ w ∧ w ≤ slots

/-- Number of ids given since the last accepted evaluation, or since the first report of a crash if that was later;
`none` before the first such report to the present manager. -/
def sinceCrash (ev : List Ev) : Option Nat :=
  ev.foldl (fun b x => match x with
    | .crashReport _ true => some (b.getD 0)
    | .accepted _ => b.map fun _ => 0
    | .newId _ => b.map (· + 1)
    | .resumed _ _ => none
    | _ => b) none

/-- Number of hunts. -/
def huntsOf (ev : List Ev) : List Nat := ev.filterMap fun x => match x with | .hunt h => some h | _ => none

/-- The events up to the last renewal of the result, none before the first. -/
def atUpdate (ev : List Ev) : List Ev :=
  ev.foldl (fun (p : List Ev × List Ev) x => match x with
    | .updated v f i => (p.1 ++ [.updated v f i], p.1 ++ [.updated v f i])
    | x => (p.1 ++ [x], p.2)) ([], []) |>.2

/-- Number of observations which raise an exception. -/
def raisesOf (e : List Obs) : Nat := (e.filter fun o => match o.ans with | .raise _ => true | _ => false).length

/-- Every event stands in the relation `G` to the events before it. -/
def AfterEach (G : List Ev → Ev → Prop) (ev : List Ev) : Prop :=
  ∀ pre x post, ev = pre ++ x :: post → G pre x

/-- Messages from the results queue processed. -/
def receivedOf (ev : List Ev) : List Msg := ev.filterMap fun x => match x with | .received m => some m | _ => none

/-- An evaluation of optimizer `i` was received after its last message, which says that there are no more. -/
def LateEval (i : Nat) (ev : List Ev) : Prop :=
  ∃ a b r, ev = a ++ .received (.fin i) :: b ∧ .received (.res r) ∈ b ∧ r.optId = i

/-- Id `i` was given out for an answer of the selector which names the class `cls`. -/
def ChosenAs (ev : List Ev) (i : Nat) (cls : String) : Prop :=
  ∃ pre k w post, ev = pre ++ .asked k (.chosen w cls) :: .newId i :: post

/-- Messages handed over by the results queue, in the observations `e`. -/
def handed (e : List Obs) : List Msg :=
  (e.filterMap fun o => match o.ans with | .chunk (some c) => some c | _ => none).flatten

/-- `QueueShows q e puts left`: the observations `e` are possible with a first-in-first-out queue which holds the chunks `q`
at the beginning, into which the chunks `puts` are put in the course, and which holds `left` at the end. -/
inductive QueueShows : List (List Msg) → List Obs → List (List Msg) → List (List Msg) → Prop where
  | done (q : List (List Msg)) : QueueShows q [] [] q
  | put {q e puts left} (c : List Msg) : QueueShows (q ++ [c]) e puts left → QueueShows q e (c :: puts) left
  | get {q e puts left} (d : List Nat) (c : List Msg) :
      QueueShows q e puts left → QueueShows (c :: q) (⟨d, .chunk (some c)⟩ :: e) puts left
  | empty {e puts left} (d : List Nat) : QueueShows [] e puts left → QueueShows [] (⟨d, .chunk none⟩ :: e) puts left
  | other {q e puts left} (o : Obs) : (∀ c, o.ans ≠ .chunk c) → QueueShows q e puts left → QueueShows q (o :: e) puts left

/-- The moment of the run of a manager started in state `s` at which the surroundings have shown `e`. -/
def moment (cfg : Manager.Cfg) (s : Manager.State) (fuel : Nat) (e : Manager.Env) : Manager.State :=
  (Manager.startManager cfg fuel s e).2.1

/-- What has happened up to then, in the whole history if the manager was loaded from a checkpoint. -/
def happened (cfg : Manager.Cfg) (s : Manager.State) (fuel : Nat) (e : Manager.Env) : List Ev := (moment cfg s fuel e).ev

/-- How the run ended, `none` if it is still going on. -/
def ended (cfg : Manager.Cfg) (s : Manager.State) (fuel : Nat) (e : Manager.Env) : Option Manager.Reason :=
  (Manager.startManager cfg fuel s e).1

/-- The settings at a moment of the history: those of its beginning, or of the last loading. -/
def inForce (cfg : Manager.Cfg) (s : Manager.State) (fuel : Nat) (e : Manager.Env) (pre : List Ev) : Manager.Cfg :=
  settings (moment cfg s fuel e).first pre

end Glompo.Spec
