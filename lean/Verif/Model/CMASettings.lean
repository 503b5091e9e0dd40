import Verif.Model.Logger

/-!
# `glompo/optimizers/cmawrapper.py`: the settings handed to the strategy
-/

namespace Glompo.CMASettings

/-- What a user gives for a setting: a whole number, `None`, anything else (true as a condition). Belongs to the model of `cmawrapper.py:95`. -/
inductive Given where
  | int (n : Int)
  | none
  | other (s : String)
  deriving DecidableEq, Repr

/-- Truth value of a setting. Belongs to the model of `cmawrapper.py:143-148`. -/
def Given.truthy : Given → Bool
  | .int n => decide (n ≠ 0)
  | .none => false
  | .other _ => true

/-- What the strategy gets for an option: something given, the options it does not know (cmawrapper.py:95), infinity
(cmawrapper.py:100), the bounds (cmawrapper.py:160). -/
inductive Entry where
  | given (g : Given)
  | custom (d : List (String × Given))
  | inf
  | bounds (lower upper : List Rat)
  deriving DecidableEq, Repr

/-- Belongs to the model of `cmawrapper.py:75-86`. -/
abbrev Settings := List (String × Entry)

/-- The attributes which matter for the settings (cmawrapper.py:75-86, 95-105). -/
structure Obj where
  settings : Settings
  popsize : Given
  workers : Int
  deriving DecidableEq, Repr

/-- The loop sorting out the options the strategy does not know (cmawrapper.py:89-93). -/
def sortOut (native : String → Bool) : List (String × Given) → Settings × List (String × Given) → Settings × List (String × Given)
  | [], s => s
  | (k, v) :: t, s => if native k then sortOut native t s else sortOut native t (dictDel s.1 k, dictSet s.2 k v)

/-- cmawrapper.py:89-100: `vv`, `verbose` and `maxiter`. -/
def fixed (native : String → Bool) (given : List (String × Given)) : Settings :=
  let s := sortOut native given (given.map fun q => (q.1, .given q.2), [])
  let st := dictSet (dictSet s.1 "vv" (.custom s.2)) "verbose" (.given (.int (-3)))
  if (dictGet st "maxiter").isSome then st else dictSet st "maxiter" .inf

/-- `CMAOptimizer.__init__` (cmawrapper.py:61-105). `vd` and `vkd` are `extend_cma_options` of the two samplers of the `cma` package. -/
def init (native : String → Bool) (vd vkd : Settings → Settings) (workers : Int) (sampler : String) (given : List (String × Given)) : Obj :=
  let st := fixed native given
  { settings := if sampler = "vd" then vd st else if sampler = "vkd" then vkd st else st
    popsize := (dictGet given "popsize").getD .none
    workers := workers }

/-- Arguments of a call of `minimize`: `x0`, `bounds`, `sigma0`. Belongs to the model of `cmawrapper.py:143-148`. -/
structure Call where
  x0 : List Rat
  bounds : List (Rat × Rat)
  sigma0 : PyF
  deriving DecidableEq, Repr

/-- cmawrapper.py:143-148. `log3 d` is `int(3 * np.log(d))`. Simplification: `x0` is not empty. -/
def choose (log3 : Nat → Int) (o : Obj) (c : Call) : Obj × Settings :=
  if o.popsize.truthy then (o, o.settings)
  else
    let n := if o.workers > 1 then o.workers else 4 + log3 c.x0.length
    ({ o with popsize := .int n }, dictSet o.settings "popsize" (.given (.int n)))

/-- The beginning of `minimize` for an optimizer which is not resumed (cmawrapper.py:137-161): the object afterwards and the settings of the new
strategy. Simplification: warnings are left out. -/
def begin (log3 : Nat → Int) (o : Obj) (c : Call) : Obj × Except Err Settings :=
  if PyF.le c.sigma0 (.fin 0) then (o, .error .valueError)
  else
    let r := choose log3 o c
    match r.1.popsize with
    | .int _ => (r.1, .ok (dictSet r.2 "bounds" (.bounds (c.bounds.map (·.1)) (c.bounds.map (·.2)))))
    | _ => (r.1, .error .typeError)

/-- The object after several calls of `minimize` (cmawrapper.py:107-148). -/
def after (log3 : Nat → Int) (o : Obj) : List Call → Obj
  | [] => o
  | c :: t => after log3 (begin log3 o c).1 t

end Glompo.CMASettings
