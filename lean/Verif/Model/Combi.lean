import Verif.Model.Basic

/-!
# `glompo/common/corebase.py`: combined conditions (hunters and checkers)

Objects are named by numbers, so that one object may occur several times in a tree, as in Python.
-/

namespace Glompo

/-- A condition object: a basic one, or `_OrCore` / `_AndCore` of two (corebase.py:61-71, 105, 120). -/
inductive Cond where
  | leaf (id : Nat)
  | or (id : Nat) (base1 base2 : Cond)
  | and (id : Nat) (base1 base2 : Cond)
  deriving DecidableEq, Repr, Inhabited

namespace Cond

/-- The object's name. Belongs to the model of `corebase.py:52-58`. -/
def id : Cond → Nat
  | leaf i => i
  | or i _ _ => i
  | and i _ _ => i

/-- The attribute `_last_result` of every object (corebase.py:23-24). -/
abbrev Last := Nat → Option Bool

/-- Belongs to the model of `corebase.py:52-58`. -/
def Last.set (st : Last) (i : Nat) (v : Option Bool) : Last := fun j => if j = i then v else st j

/-- `_CoreBase.reset` (corebase.py:52-58) and `_CombiCore.reset` (corebase.py:83-88). -/
def reset : Cond → Last → Last
  | leaf i, st => st.set i none
  | or _ a b, st => reset b ((reset a (st.set a.id none)).set b.id none)
  | and _ a b, st => reset b ((reset a (st.set a.id none)).set b.id none)

/-- Outcome of a call: stored results, state of the basic conditions and of what they look at, names of the basic
conditions evaluated (in order), and the answer or the exception. Belongs to the model of `corebase.py:108-111`. -/
structure Out (W : Type) where
  last : Last
  world : W
  trace : List Nat
  ans : Except Err Bool

/-- `_OrCore.__call__` (corebase.py:108-111), `_AndCore.__call__` (corebase.py:123-126); a basic condition is called
through `ask` and, as the documentation of `__call__` requires, saves its answer to `last_result` before
returning. -/
def call {W : Type} (ask : Nat → W → W × Except Err Bool) : Cond → Last → W → Out W
  | leaf i, st, w =>
    let a := ask i w
    match a.2 with
    | .ok b => ⟨st.set i (some b), a.1, [i], .ok b⟩
    | .error e => ⟨st, a.1, [i], .error e⟩
  | or i a b, st, w =>
    let st0 := reset (or i a b) st
    let r1 := call ask a st0 w
    match r1.ans with
    | .error e => ⟨r1.last, r1.world, r1.trace, .error e⟩
    | .ok true => ⟨r1.last.set i (some true), r1.world, r1.trace, .ok true⟩
    | .ok false =>
      let r2 := call ask b r1.last r1.world
      match r2.ans with
      | .error e => ⟨r2.last, r2.world, r1.trace ++ r2.trace, .error e⟩
      | .ok v => ⟨r2.last.set i (some v), r2.world, r1.trace ++ r2.trace, .ok v⟩
  | and i a b, st, w =>
    let st0 := reset (and i a b) st
    let r1 := call ask a st0 w
    match r1.ans with
    | .error e => ⟨r1.last, r1.world, r1.trace, .error e⟩
    | .ok false => ⟨r1.last.set i (some false), r1.world, r1.trace, .ok false⟩
    | .ok true =>
      let r2 := call ask b r1.last r1.world
      match r2.ans with
      | .error e => ⟨r2.last, r2.world, r1.trace ++ r2.trace, .error e⟩
      | .ok v => ⟨r2.last.set i (some v), r2.world, r1.trace ++ r2.trace, .ok v⟩

/-- Python's text for `True`, `False` and `None`. Belongs to the model of `corebase.py:46-50`. -/
def pyBool : Option Bool → String
  | some true => "True"
  | some false => "False"
  | none => "None"

/-- `str_with_result` (corebase.py:46-50, 79-81, 116-117, 131-132); `name` gives `str(base)` of the basic ones. -/
def strWithResult (name : Nat → String) (st : Last) : Cond → String
  | leaf i => name i ++ " = " ++ pyBool (st i)
  | or _ a b => "[" ++ strWithResult name st a ++ " | \n" ++ strWithResult name st b ++ "]"
  | and _ a b => "[" ++ strWithResult name st a ++ " & \n" ++ strWithResult name st b ++ "]"

/-- `_bases` / `__iter__` (corebase.py:30-32, 90-102). -/
def bases : Cond → List Nat
  | leaf i => [i]
  | or _ a b => bases a ++ bases b
  | and _ a b => bases a ++ bases b

end Cond
end Glompo
