import Verif.Spec.Manager

/-!
# Who is judged in a hunt, and with what result
-/

namespace Glompo.Spec

open Glompo.Manager

/-- Those a hunt is about, in the order of the manager's list: not shut down or ended, with evaluations in the log, and not the hunter. -/
def Quarry (s : State) (hunter : Nat) : List Nat :=
  (s.packs.map (·.1)).filter fun v => !decide (v ∈ s.graveyard) && s.log.hasIterHistory v && decide (v ≠ hunter)

/-- The answers of conditions among the observations. -/
def verdicts (used : Env) : List Bool := used.filterMap fun o => match o.ans with | .bool b => some b | _ => none

/-- Optimizers told to stop. -/
def toldOf (ev : List Ev) : List Nat := ev.filterMap fun x => match x with | .stop i => some i | _ => none

/-- From state `s` to `s'`, by the observations `used`, everybody in `quarry` was judged exactly once, in order, by an answer of the hunting conditions;
those condemned, `vs`, and nobody else, were shut down and told to stop, and are noted as ended. -/
structure AllJudged (quarry : List Nat) (s s' : State) (used : Env) (vs : List Nat) : Prop where
  judged : ∃ asked : List (Nat × Bool), asked.map (·.1) = quarry ∧ asked.map (·.2) = verdicts used ∧ vs = (asked.filter (·.2)).map (·.1)
  events : ∃ l, s'.ev = s.ev ++ l ∧ killedOf l = vs ∧ toldOf l = vs
  ended : ∀ i, i ∈ s'.graveyard ↔ i ∈ s.graveyard ∨ i ∈ vs
  victims : ∀ i, i ∈ s'.victims ↔ i ∈ s.victims ∨ i ∈ vs

end Glompo.Spec
