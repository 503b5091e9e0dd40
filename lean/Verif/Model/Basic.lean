/-!
# Values shared by all models

`PyF` is the model of a Python `float` as far as comparisons are concerned: an exact rational, an infinity or
`nan`.  IEEE rounding is not modelled (see DESIGN.md).
-/

namespace Glompo

/-- A Python `float`: exact rationals, infinities and `nan`. A Python type; the values of evaluations, `glompo/common/namedtuples.py:52-61`. -/
inductive PyF where
  | fin (q : Rat)
  | pinf
  | ninf
  | nan
  deriving DecidableEq, Repr, Inhabited

namespace PyF

/-- Python's `a < b` on floats (false as soon as a `nan` takes part). A Python operator, used for instance in `glompo/core/optimizerlogger.py:136`. -/
def lt : PyF → PyF → Bool
  | fin a, fin b => decide (a < b)
  | fin _, pinf => true
  | ninf, fin _ => true
  | ninf, pinf => true
  | _, _ => false

/-- Python's `a <= b` on floats. A Python operator, used for instance in `glompo/hunters/bestunmoving.py:43-47`. -/
def le : PyF → PyF → Bool
  | fin a, fin b => decide (a ≤ b)
  | fin _, pinf => true
  | ninf, fin _ => true
  | ninf, pinf => true
  | pinf, pinf => true
  | ninf, ninf => true
  | _, _ => false

/-- Python's `a == b` on floats (`nan != nan`). A Python operator, used for instance in `glompo/generators/exploit_explore.py:69`. -/
def eq : PyF → PyF → Bool
  | fin a, fin b => decide (a = b)
  | pinf, pinf => true
  | ninf, ninf => true
  | _, _ => false

/-- `numpy.isfinite`. A function of numpy, used in `glompo/core/optimizerlogger.py:136`. -/
def isFinite : PyF → Bool
  | fin _ => true
  | _ => false

/-- `numpy.isnan`. A function of numpy, used in `glompo/core/scope.py:282`. -/
def isNan : PyF → Bool
  | nan => true
  | _ => false

/-- Python truth value of a float: everything but `0.0` is true (`nan` too). A rule of Python, used for `glompo/core/manager.py:1623` and wherever a float is a condition. -/
def truthy : PyF → Bool
  | fin q => decide (q ≠ 0)
  | _ => true

end PyF

/-- Input vectors (`Sequence[float]`), coordinates are exact rationals. The field `x` in `glompo/common/namedtuples.py:52-61`. -/
abbrev Vec := List Rat

/-- `glompo/common/namedtuples.py:52-61` `IterationResult`. -/
structure IterRes where
  optId : Nat
  x : Vec
  fx : PyF
  extras : List PyF
  deriving DecidableEq, Repr, Inhabited

/-- The Python exceptions that occur in the modelled code. Python classes, apart from `CheckpointingError` (`glompo/common/helpers.py:546`). -/
inductive Err where
  | keyError
  | indexError
  | valueError
  | typeError
  | runtimeError
  | checkpointingError
  | assertionError
  | zeroDivision
  | fileExists
  | full
  | osError
  | tarError
  | keyboardInterrupt
  | other
  deriving DecidableEq, Repr, Inhabited

end Glompo
