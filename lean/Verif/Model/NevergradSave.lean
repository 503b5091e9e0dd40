import Verif.Model.Nevergrad

/-!
# Checkpoints of the Nevergrad optimizer

`glompo/optimizers/nevergrad.py:52-107`: what `checkpoint_save` takes away from the callback wrapper and gives back, what the file holds, and
how often the wrapper is registered with the algorithm after the optimizer was loaded. Nevergrad itself is outside the repository: its
`register_callback` appends to a list, the functions in this list are called after every value told, and the list is part of what is pickled
(with the wrapper as the same object as `ng_callbacks`, since both are in one dictionary).
-/

namespace Glompo.NevergradSave

open Glompo Glompo.Nevergrad

/-- How `super().checkpoint_save` (nevergrad.py:102, baseoptimizer.py:361-395) ends: with a file, without one because of an `ImportError`, which
`needs_optional_package` (wrappers.py:50-68) turns into the answer `None`, or with another exception. -/
inductive Dumped where
  | written
  | noPackage
  | raises
  deriving DecidableEq, Repr

/-- The file (nevergrad.py:95-107): `parent` and `callbacks` of the wrapper, `stop`, the end of the budget and the number of times the wrapper is
registered. Simplification: the state of the algorithm itself is left out. -/
structure File where
  parent : Bool
  callbacks : Attr
  stop : Bool
  exhausted : Bool
  registered : Nat
  deriving DecidableEq, Repr

/-- A running optimizer (nevergrad.py:48-66): the wrapper and `stop` (`w`), whether the wrapper has its parent, how often it is registered with the
algorithm, how many times a callback of the user was called, and the files written. -/
structure S where
  w : W
  parent : Bool
  registered : Nat
  asked : Nat
  files : List File
  deriving DecidableEq, Repr

/-- `minimize` of a new optimizer up to the first value (nevergrad.py:52-68). -/
def start (a : Arg) : S := ⟨begin false a, true, 1, 0, []⟩

/-- `minimize` of an optimizer loaded from a file (nevergrad.py:57-60, 67-68): parent and callbacks are set, the wrapper is registered again. -/
def resume (f : File) (a : Arg) : S := ⟨{ begin true a with exhausted := f.exhausted }, true, f.registered + 1, 0, []⟩

/-- How many callbacks of the user one call of the wrapper calls (nevergrad.py:130-141): all of them, unless the optimizer has stopped or the value
ends it. -/
def asks (zero : PyF) (t : Tell) (w : W) : Nat :=
  if w.stop || converged zero t.fx then 0
  else match w.callbacks with
    | .list n => n
    | _ => 0

/-- One call of the wrapper (nevergrad.py:128-157); without its parent an `AttributeError`. -/
def callOnce (zero : PyF) (t : Tell) (s : S) : Except Err S :=
  if s.parent then
    match call zero true t s.w with
    | .error e => .error e
    | .ok w => .ok { s with w := w, asked := s.asked + asks zero t s.w }
  else .error .other

/-- The calls for one value told: one for each registration (nevergrad.py:67-68). `met j`: the value, the answers of the callbacks and the messages
found in the `j`-th call from the end. -/
def callAll (zero : PyF) (met : Nat → Tell) : Nat → S → Except Err S
  | 0, s => .ok s
  | j + 1, s =>
    match callOnce zero (met j) s with
    | .error e => .error e
    | .ok s => callAll zero met j s

/-- `checkpoint_save` (nevergrad.py:95-107). `ng_callbacks` exists, as `minimize` has been called. -/
def save (r : Dumped) (s : S) : Except Err Unit × S :=
  let callbacks := s.w.callbacks
  let bare : S := { s with parent := false, w := { s.w with callbacks := .none } }
  match r with
  | .raises => (.error .other, bare)
  | .noPackage => (.ok (), { bare with parent := true, w := { bare.w with callbacks := callbacks } })
  | .written =>
    let bare : S := { bare with files := bare.files ++ [⟨bare.parent, bare.w.callbacks, bare.w.stop, bare.w.exhausted, bare.registered⟩] }
    (.ok (), { bare with parent := true, w := { bare.w with callbacks := callbacks } })

/-- What happens to the optimizer: a value is told (nevergrad.py:67-82), or a checkpoint is made (nevergrad.py:95-107). -/
inductive Event where
  | told (met : Nat → Tell)
  | save (r : Dumped)

/-- One of these (nevergrad.py:67-82, 95-107). The exception of a failed `checkpoint_save` is taken to be caught by its caller. -/
def step (zero : PyF) (e : Event) (s : S) : Except Err S :=
  match e with
  | .told met => callAll zero met s.registered s
  | .save r => .ok (save r s).2

/-- A sequence of them (nevergrad.py:67-82, 95-107); an exception of the wrapper ends it. -/
def run (zero : PyF) : List Event → S → Except Err S
  | [], s => .ok s
  | e :: es, s =>
    match step zero e s with
    | .error x => .error x
    | .ok s => run zero es s

end Glompo.NevergradSave
