import Verif.Model.Resources

/-!
# What the summary of resources should say
-/

namespace Glompo.Resources.Spec

open Glompo
open Glompo.Resources

/-- The measurements of all sessions. -/
def samples : List Op → List Sample
  | [] => []
  | .status s :: t => s :: samples t
  | .loaded :: t => samples t

/-- All memory in use when a sample was taken: of the manager and of its children which were alive. -/
def Sample.memory (s : Sample) : Rat := s.mem + (s.children.filterMap id).sum

/-- The average of numbers. -/
def mean (l : List Rat) : Rat := l.sum / l.length

/-- The mean squared deviation from the average. -/
def variance (l : List Rat) : Rat := mean (l.map fun q => (q - mean l) ^ 2)

end Glompo.Resources.Spec
