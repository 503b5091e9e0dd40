import Verif.Model.FileLogger

/-!
# The estimated size of an evaluation

`deepsizeof` (glompo/common/helpers.py:397-412), which `FileLogger.put_iteration` (glompo/core/optimizerlogger.py:411-412) asks for the size of the
first evaluation. Objects are finite trees: objects which contain themselves are left out (there `RecursionError` is swallowed by `finally`).
-/

namespace Glompo.DeepSize

/-- Python objects as `deepsizeof` distinguishes them (helpers.py:402-412), each with `sys.getsizeof` of itself. `leaf`: anything which is neither
a dictionary nor a list, tuple or set: numbers, strings, arrays; going over it raises `TypeError` or gives nothing but leaves. -/
inductive Obj where
  | leaf (own : Nat)
  | seq (own : Nat) (items : List Obj)
  | dict (own : Nat) (entries : List (Obj × Obj))

/-- `sys.getsizeof(obj)` (helpers.py:402). -/
def Obj.own : Obj → Nat
  | .leaf n => n
  | .seq n _ => n
  | .dict n _ => n

mutual

/-- `deepsizeof` (helpers.py:397-412); `e` is `sys.getsizeof({})`. Going over a dictionary gives its keys. -/
def deepsizeof (e : Nat) : Obj → Nat
  | .leaf n => n
  | .seq n l => n + inItems e l
  | .dict n l => n + inKeys e l

/-- The loop over a list, tuple or set (helpers.py:404-408): nothing is added for a leaf. -/
def inItems (e : Nat) : List Obj → Nat
  | [] => 0
  | .leaf _ :: t => inItems e t
  | .seq n l :: t => (n + inItems e l) + inItems e t
  | .dict _ l :: t => (e + sumKeys e l + sumValues e l) + inItems e t

/-- The loop over the keys of a dictionary (helpers.py:404-408). -/
def inKeys (e : Nat) : List (Obj × Obj) → Nat
  | [] => 0
  | (.leaf _, _) :: t => inKeys e t
  | (.seq n l, _) :: t => (n + inItems e l) + inKeys e t
  | (.dict _ l, _) :: t => (e + sumKeys e l + sumValues e l) + inKeys e t

/-- `sum(map(deepsizeof, i.keys()))` (helpers.py:406). -/
def sumKeys (e : Nat) : List (Obj × Obj) → Nat
  | [] => 0
  | (k, _) :: t => deepsizeof e k + sumKeys e t

/-- `sum(map(deepsizeof, i.values()))` (helpers.py:406). -/
def sumValues (e : Nat) : List (Obj × Obj) → Nat
  | [] => 0
  | (_, v) :: t => deepsizeof e v + sumValues e t

end

/-- An evaluation (namedtuples.py:52-61) as an object: a tuple of the id, the point, the value and the tuple of extras. -/
def evaluation (own id : Nat) (x : Obj) (fx extrasOwn : Nat) (extras : List Obj) : Obj :=
  .seq own [.leaf id, x, .leaf fx, .seq extrasOwn extras]

/-- A sequence of evaluations handed to the log file (optimizerlogger.py:405-418), each with the object it is. -/
def logAll (e : Nat) : List (IterRes × Obj) → FileLogger → FileLogger × Option Err
  | [], s => (s, none)
  | (r, o) :: t, s =>
    match s.putIteration r (deepsizeof e o) with
    | (s', none) => logAll e t s'
    | (s', some x) => (s', some x)

end Glompo.DeepSize
