import Verif.Model.Plot
import Mathlib.Analysis.SpecialFunctions.Log.Base
import Mathlib.Data.Sign.Basic

/-! The logarithmic scale of the plot of trajectories, in real arithmetic. -/

namespace Glompo.Plot

/-- optimizerlogger.py:251: `sign(v) * log10(|v|)`. -/
noncomputable def shown (v : ℝ) : ℝ := (SignType.sign v : ℝ) * Real.logb 10 |v|

end Glompo.Plot
