import Verif.Model.Basic
import Verif.Model.Logger
import Mathlib.Data.Rat.Floor
import Mathlib.Tactic.Linarith

/-!
# `glompo/common/helpers.py`
-/

namespace Glompo.Helpers

open Glompo

/-- `is_bounds_valid` (helpers.py:187-229); `raise` is `raise_invalid`. -/
def isBoundsValid : List (PyF × PyF) → (raise_ : Bool) → Except Err Bool
  | [], _ => .ok true
  | bnd :: t, raise_ =>
    if PyF.le bnd.2 bnd.1 = true then (if raise_ then .error .valueError else .ok false)
    else if ¬ (bnd.1.isFinite = true ∧ bnd.2.isFinite = true) then
      (if raise_ then .error .valueError else .ok false)
    else isBoundsValid t raise_

/-- Python's `min(a, b)`: `a` unless `b < a`. Belongs to the model of `helpers.py:314-316`. -/
def pyMin2 (a b : PyF) : PyF := if PyF.lt b a = true then b else a

/-- The loop of `rolling_min` (helpers.py:314-316): `y[i] = min(val, y[i - 1])` for the entries of `x[1:]`. -/
def rollingLoop : List PyF → Nat → List PyF → List PyF
  | [], _, y => y
  | v :: t, i, y => rollingLoop t (i + 1) (y.set i (pyMin2 v (y.getD (i - 1) .nan)))

/-- `rolling_min` (helpers.py:302-317) of a list of floats. -/
def rollingMin (x : List PyF) : Except Err (List PyF) :=
  if x.all fun a => !a.isNan then .ok (rollingLoop (x.drop 1) 1 x) else .error .assertionError

/-- A nested value: a string, a sequence, or anything which is not iterable. Belongs to the model of `helpers.py:320-339`. -/
inductive Nest where
  | atom (v : Int)
  | str (s : String)
  | seq (l : List Nest)

/-- `unravel` (helpers.py:320-339). The `TypeError` of iterating over something not iterable is caught, which yields it. -/
def unravel : Nest → List Nest
  | .atom v => [.atom v]
  | .str s => [.str s]
  | .seq l => unravelAll l
where
  unravelAll : List Nest → List Nest
    | [] => []
    | .str s :: t => .str s :: unravelAll t
    | .atom v :: t => unravel (.atom v) ++ unravelAll t
    | .seq l :: t => unravel (.seq l) ++ unravelAll t

/-- A Python number in a bound as the user wrote it, an `int` or a `float`. Comparisons look at the value, the text of
an f-string depends on both. Not modelled: `-0.0`. Belongs to the model of `namedtuples.py:28-33`. -/
structure Num where
  val : Rat
  isInt : Bool
  deriving DecidableEq, Repr

/-- `Bound` (namedtuples.py:28-33). -/
structure Bound where
  min : Num
  max : Num
  deriving DecidableEq, Repr

/-- Python's `==` of two bounds. Belongs to the model of `namedtuples.py:28-33`. -/
def Bound.pyEq (a b : Bound) : Bool := decide (a.min.val = b.min.val ∧ a.max.val = b.max.val)

/-- `set(bounds)`: of equal ones the first stays. The order of a Python set is arbitrary; it only decides the order of
the groups. Belongs to the model of `namedtuples.py:28-33`. -/
def pySet : List Bound → List Bound → List Bound
  | acc, [] => acc
  | acc, b :: t => pySet (if acc.any (fun a => a.pyEq b) then acc else acc ++ [b]) t

/-- `bound_group_presenter` (helpers.py:489-495). The text `(min, max)` identifies a bound as written, so bounds as
written stand for the keys. -/
def groupLoop : List Bound → Nat → List (Bound × List Nat) → Except Err (List (Bound × List Nat))
  | [], _, d => .ok d
  | b :: t, i, d =>
    match dictGet d b with
    | none => .error .keyError
    | some l => groupLoop t (i + 1) (dictSet d b (l ++ [i]))

/-- Belongs to the model of `namedtuples.py:28-33`, `helpers.py:489-495`. -/
def boundGroups (bs : List Bound) : Except Err (List (Bound × List Nat)) :=
  groupLoop bs 0 ((pySet [] bs).map fun b => (b, []))

/-- The loop of `present_memory` (helpers.py:290-293). -/
def memLoop (b : Rat) (units : Nat) : Rat × Nat :=
  if 1024 < b then memLoop (b / 1024) (units + 1) else (b, units)
termination_by ⌊b⌋.toNat
decreasing_by
  rename_i h
  have h1 : (1024 : Int) ≤ ⌊b⌋ := Int.le_floor.mpr (by exact_mod_cast h.le)
  have h2 : ⌊b / 1024⌋ < ⌊b⌋ := by
    have a : (⌊b / 1024⌋ : Rat) ≤ b / 1024 := Int.floor_le _
    have c : b < ⌊b⌋ + 1 := Int.lt_floor_add_one _
    have : (⌊b / 1024⌋ : Rat) < ⌊b⌋ := by linarith
    exact_mod_cast this
  omega

/-- `present_memory` (helpers.py:271-299): number, digits shown and unit prefix. Rounding to digits is left out. -/
def presentMemory (b : Rat) (digits : Nat) : Except Err (Rat × Nat × String) :=
  let r := memLoop b 0
  match ["", "k", "M", "G", "T", "P", "E", "Z", "Y"][r.2]? with
  | some u => .ok (r.1, if r.2 = 0 then 0 else digits, u)
  | none => .error .indexError

end Glompo.Helpers
