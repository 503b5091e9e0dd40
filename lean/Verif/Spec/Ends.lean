import Verif.Spec.Manager

/-! Which endings the log may record for an optimizer. -/

namespace Glompo.Spec

open Glompo.Manager

/-- How the hunter is named. -/
def hunterName : Option Nat → String
  | some h => toString h
  | none => "None"

/-- After the history `ev` the text `v` is a true account of the end of optimizer `i`: it was shut down by the manager; this is what it said
itself when it ended; it ended without a word, its process with exit code 0; its process had another exit code; it was overdue and terminated by force, or
shut down and then overdue; or the optimization was over. -/
inductive TrueEnding (ev : List Ev) (i : Nat) : String → Prop where
  | killed (hunter : Option Nat) (reason : String) (h : Ev.killed i hunter ∈ ev) :
      TrueEnding ev i ("GloMPO Termination\nHunter: " ++ hunterName hunter ++ "\nReason: \n" ++ reason)
  | said (msg : String) (h : Ev.said i msg ∈ ev) : TrueEnding ev i msg
  | silent (h : Ev.exited i true ∈ ev) : TrueEnding ev i "Normal termination (Reason unknown)"
  | failed (h : Ev.exited i false ∈ ev) : TrueEnding ev i "Error termination"
  | forced (h : Ev.overdue i true ∈ ev ∧ (Ev.forced i ∈ ev ∨ ∃ hunter, Ev.killed i hunter ∈ ev)) : TrueEnding ev i "Forced GloMPO Termination"
  | over (h : Ev.loopEnd ∈ ev) : TrueEnding ev i "GloMPO Convergence"

end Glompo.Spec
