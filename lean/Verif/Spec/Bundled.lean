import Verif.Spec.Manager
import Verif.Model.Selectors

/-!
# Runs of the manager with a bundled selector

Vocabulary of C137: the questions a run puts to the selector, the answers it gets, and whose answers these are.
-/

namespace Glompo.Spec

open Glompo.Manager

/-- What a selector sees of a manager with the given history: the number of evaluations accepted and of optimizers created. -/
def seenBySelector (ev : List Ev) : SelView := ⟨(acceptedOf ev).length, (newIdsOf ev).length⟩

/-- The questions put to the selector in the events after the history `old`: what it saw of the manager, and the slots offered. -/
def questions (old : List Ev) : List Ev → List (SelView × Int)
  | [] => []
  | x :: t =>
    match x with
    | .asked k _ => (seenBySelector old, k) :: questions (old ++ [x]) t
    | _ => questions (old ++ [x]) t

/-- An answer to the manager, in the words of the selectors. -/
def inWords : SelAns → Sel
  | .stop => .stop
  | .nothing => .nothing
  | .chosen w c => .chosen ⟨c, w⟩

/-- The answers of the selector in the given events. -/
def repliesIn (ev : List Ev) : List Sel :=
  ev.filterMap fun x => match x with | .asked _ a => some (inWords a) | _ => none

/-- The answers in `run`, after the history `old`, are those of the selector `sel`, which answers series of requests. -/
def SelectedBy (sel : List Req → List Sel) (old run : List Ev) : Prop :=
  ∃ reqs : List Req, (reqs.map fun r => (r.view, r.slots)) = questions old run ∧ sel reqs = repliesIn run

/-- The selectors of the package, in any state they may have been left in, with the spawn control `allow`. -/
inductive Bundled (opts : List AvailOpt) (allow : SelView → Bool) : (List Req → List Sel) → Prop
  | cycle (i : Int) : Bundled opts allow fun reqs => ((Cycle.mk opts allow i).run reqs).2
  | chain (ths : List PyF) (toggle : Nat) : Bundled opts allow fun reqs => ((Chain.mk opts ths allow toggle).run reqs).2
  | random : Bundled opts allow fun reqs => reqs.map (randomSelect opts allow)

end Glompo.Spec
