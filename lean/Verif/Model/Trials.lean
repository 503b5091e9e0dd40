import Verif.Model.Plot
import Verif.Model.Checkpoint
import Verif.Model.Helpers

/-!
# The pictures of parameter values and the plot of best values

`BaseLogger.plot_optimizer_trials` (`/repo/glompo/core/optimizerlogger.py:177-212`) and `plot_trajectory` with `best_fx=True`
(`:214-282`). Drawing itself (matplotlib) and the interactive mode are not modelled.
-/

namespace Glompo.Plot
open Checkpoint (dec)

/-- The curves of one picture: the values of one parameter each, at 0, 1, 2, ... Belongs to the model of `optimizerlogger.py:202`. -/
abbrev Picture := List (List Rat)

/-- `ax.plot(x_all)` (optimizerlogger.py:202): the rows are made an array, every column of it is a curve. There is nothing to see without
rows; rows of different lengths are refused by numpy. -/
def draw : List Vec → Except Err Picture
  | [] => .ok []
  | r :: rows =>
    if rows.all fun q => q.length == r.length then
      .ok ((List.range r.length).map fun j => (r :: rows).map fun q => q.getD j 0)
    else .error .valueError

/-- The points among the cells of a column; the column `x` has no others. Belongs to the model of `optimizerlogger.py:195-209`. -/
def vecs : List Cell → List Vec
  | [] => []
  | .vec x :: t => x :: vecs t
  | _ :: t => vecs t

/-- optimizerlogger.py:207: `f'opt{opt}_parms.png'`. -/
def fileOf (opt : Nat) : List Char := "opt".toList ++ dec opt ++ "_parms.png".toList

/-- The loop over optimizers (optimizerlogger.py:195-209), until an exception. `files` is the directory. -/
def trialsLoop (s : Logger) : List Nat → List (List Char × Picture) → List (List Char × Picture) × Option Err
  | [], files => (files, none)
  | opt :: rest, files =>
    match s.getHistory opt "x" with
    | .error e => (files, some e)
    | .ok cells =>
      match draw (vecs cells) with
      | .error e => (files, some e)
      | .ok pic => trialsLoop s rest (dictSet files (fileOf opt) pic)

/-- optimizerlogger.py:193: `[opt_id] if opt_id else range(1, self.n_optimizers + 1)`; `None` and 0 are falsy. -/
def trialIds (s : Logger) : Option Nat → List Nat
  | none => List.range' 1 s.nOptimizers
  | some 0 => List.range' 1 s.nOptimizers
  | some i => [i]

/-- `plot_optimizer_trials` (optimizerlogger.py:177-212): the pictures in the directory afterwards. -/
def trials (s : Logger) (opt : Option Nat) (files : List (List Char × Picture)) : List (List Char × Picture) × Option Err :=
  trialsLoop s (trialIds s opt) files

/-- The numbers of a column given to `rolling_min`, which insists on numbers (helpers.py:311). -/
def nums : List Cell → Except Err (List PyF)
  | [] => .ok []
  | .num f :: t =>
    match nums t with
    | .error e => .error e
    | .ok l => .ok (f :: l)
  | _ :: _ => .error .assertionError

/-- optimizerlogger.py:244-269 for one optimizer, with `best_fx = True` (`:247-248`); otherwise as `curve`. -/
def bestCurve (s : Logger) (opt : Nat) : Except Err Curve :=
  match s.getHistory opt "call_id" with
  | .error e => .error e
  | .ok calls =>
    match s.getHistory opt "fx" with
    | .error e => .error e
    | .ok cells =>
      match nums cells with
      | .error e => .error e
      | .ok values =>
        match Helpers.rollingMin values with
        | .error e => .error e
        | .ok traj =>
          if calls.length ≠ traj.length then .error .valueError
          else
            match s.getMetadata opt "opt_type" with
            | .error e => .error e
            | .ok type =>
              .ok { opt := opt, points := calls.zip (traj.map Cell.num), type := type,
                    mark := match s.getMetadata opt "end_cond" with
                      | .error _ => none
                      | .ok cond => if traj = [] then none else some (marker cond.toList) }

/-- The optimizers from `opt` on, until an exception: then nothing is saved (`fig.savefig` comes last, optimizerlogger.py:278). -/
def bestCurvesFrom (s : Logger) : Nat → Nat → Except Err (List Curve)
  | 0, _ => .ok []
  | n + 1, opt =>
    match bestCurve s opt with
    | .error e => .error e
    | .ok c =>
      match bestCurvesFrom s n (opt + 1) with
      | .error e => .error e
      | .ok cs => .ok (c :: cs)

/-- `plot_trajectory(title, best_fx=True)`. Belongs to the model of `optimizerlogger.py:278`. -/
def bestCurves (s : Logger) : Except Err (List Curve) := bestCurvesFrom s s.nOptimizers 1

end Glompo.Plot
