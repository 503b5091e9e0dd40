import Verif.Model.Basic

/-!
# Arithmetic on Python floats

Exact on finite values, IEEE rules for infinities and `nan`; rounding and overflow are not modelled.
-/

namespace Glompo.PyF

/-- `a + b`. A Python operation, used on the values of evaluations in the hunters (`bestunmoving.py:43-44`, `evalsunmoving.py:49`). -/
def add : PyF → PyF → PyF
  | fin a, fin b => fin (a + b)
  | nan, _ => nan
  | _, nan => nan
  | pinf, ninf => nan
  | ninf, pinf => nan
  | pinf, _ => pinf
  | _, pinf => pinf
  | ninf, _ => ninf
  | _, ninf => ninf

/-- `-a`. A Python operation, used on the values of evaluations in the hunters (`bestunmoving.py:43-44`, `evalsunmoving.py:49`). -/
def neg : PyF → PyF
  | fin a => fin (-a)
  | pinf => ninf
  | ninf => pinf
  | nan => nan

/-- `a - b`. A Python operation, used on the values of evaluations in the hunters (`bestunmoving.py:43-44`, `evalsunmoving.py:49`). -/
def sub (a b : PyF) : PyF := add a (neg b)

/-- `abs(a)`. A Python operation, used on the values of evaluations in the hunters (`bestunmoving.py:43-44`, `evalsunmoving.py:49`). -/
def abs : PyF → PyF
  | fin a => fin (if a < 0 then -a else a)
  | pinf => pinf
  | ninf => pinf
  | nan => nan

/-- An infinity with the sign of `a * b`, `nan` for `0 * inf`. A Python operation, used on the values of evaluations in the hunters (`bestunmoving.py:43-44`, `evalsunmoving.py:49`). -/
def signInf (q : Rat) (pos : Bool) : PyF :=
  if q = 0 then nan else if decide (0 < q) = pos then pinf else ninf

/-- `a * b`. A Python operation, used on the values of evaluations in the hunters (`bestunmoving.py:43-44`, `evalsunmoving.py:49`). -/
def mul : PyF → PyF → PyF
  | fin a, fin b => fin (a * b)
  | nan, _ => nan
  | _, nan => nan
  | fin a, pinf => signInf a true
  | fin a, ninf => signInf a false
  | pinf, fin b => signInf b true
  | ninf, fin b => signInf b false
  | pinf, pinf => pinf
  | ninf, ninf => pinf
  | pinf, ninf => ninf
  | ninf, pinf => ninf

/-- Python's `min` of a non-empty list: the first value which no later one is smaller than (`nan` sticks if first). A Python operation, used on the values of evaluations in the hunters (`bestunmoving.py:43-44`, `evalsunmoving.py:49`). -/
def minList : PyF → List PyF → PyF
  | m, [] => m
  | m, a :: t => minList (if lt a m then a else m) t

end Glompo.PyF
