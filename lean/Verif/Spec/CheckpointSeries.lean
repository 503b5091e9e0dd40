import Verif.Spec.Checkpoint
import Verif.Model.CheckpointSeries

/-!
# Specification vocabulary for series of checkpoints
-/

namespace Glompo.Spec

open Glompo.Checkpoint

/-- Ordinary text of a naming format: no key begins in it, and no dot, question mark or backslash. -/
def Ordinary (t : List Char) : Prop := '%' ∉ t ∧ '?' ∉ t ∧ '\\' ∉ t ∧ '.' ∉ t

instance (t : List Char) : Decidable (Ordinary t) := by unfold Ordinary; infer_instance

/-- The calls which do not fail, in order. -/
def succeeded (as : List Attempt) : List Attempt := as.filter fun a => a.fault.isNone

/-- `a` is earlier than `b`: years, months, … seconds compared one after the other. -/
def Earlier (a b : Clock) : Prop :=
  [a.year, a.month, a.day, a.hour, a.minute, a.second] < [b.year, b.month, b.day, b.hour, b.minute, b.second]

instance (a b : Clock) : Decidable (Earlier a b) := by unfold Earlier; infer_instance

/-- YYYYMMDD. -/
def dateText (t : Clock) : List Char := pad 4 t.year ++ pad 2 t.month ++ pad 2 t.day

/-- HHMMSS. -/
def timeText (t : Clock) : List Char := pad 2 t.hour ++ pad 2 t.minute ++ pad 2 t.second

end Glompo.Spec
