import Verif.Model.Float
import Mathlib.Data.EReal.Operations

/-!
# What the numbers of the model stand for
-/

namespace Glompo.Spec

open Glompo

/-- The extended real number a Python float of the model stands for; `nan` stands for none. -/
noncomputable def number : PyF → Option EReal
  | .fin q => some ((q : ℝ) : EReal)
  | .pinf => some ⊤
  | .ninf => some ⊥
  | .nan => none

end Glompo.Spec
