import Verif.Model.Basic

/-!
# `glompo/optimizers/cmawrapper.py`

The evolution strategy of the `cma` package is a component: it proposes vectors (arbitrary), is told their values, keeps the best pair
it was told, counts the tellings, and may wish to stop at any time.
-/

namespace Glompo.CMA

open Glompo

/-- `self.es`: `countiter`, `callbackstop`, `result[:2]` (infinity and `None` before a value below infinity). Belongs to the model of `cmawrapper.py:75-86`. -/
structure Es where
  count : Nat
  callbackStop : Bool
  bestX : Option Vec
  bestF : PyF
  deriving DecidableEq, Repr

/-- An instruction carried out by `check_messages` (baseoptimizer.py:268-272): `callstop` (without argument: manager termination signal), `inject`,
`checkpoint_save`. -/
inductive Msg where
  | stop (reason : String)
  | inject (x : Vec) (fx : PyF)
  | save
  deriving DecidableEq, Repr

/-- The attributes of the optimizer (cmawrapper.py:75-86, baseoptimizer.py:274); `incumbent` without `None`. -/
structure Opt where
  es : Es
  x : Option Vec
  fx : PyF
  success : Bool
  incX : Vec
  incF : PyF
  injCounter : Nat
  deriving DecidableEq, Repr

/-- What an iteration meets outside.
* `wantsStop`: the strategy wishes to stop (`es.stop()`, cmawrapper.py:168);
* `xs`, `vals`: the population and the values of the function, if they are evaluated;
* `during`: the instructions which arrive between the evaluations (read after each completed one);
* `cancels`: which evaluations could be cancelled after a stop;
* `callback`: the answer of the callbacks; `after`: the instructions read at cmawrapper.py:198. -/
structure Gen where
  wantsStop : Bool
  xs : List Vec
  vals : List PyF
  during : List (List Msg)
  cancels : List Bool
  callback : Bool
  after : List Msg
  deriving DecidableEq, Repr

/-- Settings (cmawrapper.py:66-73, 85): the starting point, `injection_frequency` (`None` and 0 are both false), whether the evaluations run in a pool
(`workers > 1`), and whether there is a manager (`_results_queue`). -/
structure Cfg where
  x0 : Vec
  freq : Nat
  pool : Bool
  managed : Bool
  deriving DecidableEq, Repr

/-- The reasons which are not a success (cmawrapper.py:275). -/
def unsuccessful (reason : String) : Bool := reason = "GloMPO Crash" || reason = "Manager termination signal"

/-- `callstop` (cmawrapper.py:270-275). -/
def callStop (reason : String) (o : Opt) : Opt :=
  { o with es := { o.es with callbackStop := true }, success := !unsuccessful reason }

/-- `check_messages` (baseoptimizer.py:302-331; `inject`: 397-399; called at cmawrapper.py:198 and 257): the state after it and the states saved. -/
def messages : List Msg → Opt → Opt × List Opt
  | [], o => (o, [])
  | .stop r :: t, o => messages t (callStop r o)
  | .inject x f :: t, o => messages t { o with incX := x, incF := f }
  | .save :: t, o => let r := messages t o; (r.1, o :: r.2)

/-- The loop over completed evaluations (cmawrapper.py:253-263): ends as soon as a stop has been received. -/
def during : List (List Msg) → Opt → Opt × List Opt
  | [], o => (o, [])
  | ms :: t, o =>
    let r := messages ms o
    if r.1.es.callbackStop then r else let r' := during t r.1; (r'.1, r.2 ++ r'.2)

/-- The values of the evaluations which were not cancelled (cmawrapper.py:264). -/
def remaining : List PyF → List Bool → List PyF
  | v :: vs, c :: cs => if c then remaining vs cs else v :: remaining vs cs
  | vs, _ => vs

/-- `_parallel_map` (cmawrapper.py:240-268): the state, the saved states, and the values returned. -/
def parallelMap (c : Cfg) (g : Gen) (o : Opt) : Opt × List Opt × List PyF :=
  if c.pool && c.managed then
    let r := during g.during o
    (r.1, r.2, if r.1.es.callbackStop then remaining g.vals g.cancels else g.vals)
  else (o, [], g.vals)

/-- One told pair (`es.tell`, cmawrapper.py:183; the best pair of the `cma` package is replaced by strictly smaller values). -/
def tellOne (e : Es) (x : Vec) (f : PyF) : Es := if PyF.lt f e.bestF = true then { e with bestX := some x, bestF := f } else e

/-- `es.tell(x, fx)` of the `cma` package (cmawrapper.py:183). -/
def tell (e : Es) : List (Vec × PyF) → Es
  | [] => { e with count := e.count + 1 }
  | p :: t => tell (tellOne e p.1 p.2) t

/-- `min(fx)` (cmawrapper.py:204). Simplification: infinity for an empty list, where Python raises; a population is not empty. -/
def pyMin : List PyF → PyF
  | [] => .pinf
  | v :: t => t.foldl (fun m y => if PyF.lt y m = true then y else m) v

/-- State of a run (cmawrapper.py:166-167): the optimizer, the local variables `i` and `x`, and the record: told generations, injections (iteration, vector
and value), saved states. -/
structure Run where
  o : Opt
  i : Nat
  last : Option (List Vec)
  told : List (List Vec × List PyF)
  injected : List (Nat × Vec × PyF)
  saved : List Opt
  deriving DecidableEq, Repr

/-- cmawrapper.py:185-189, 212-217: the best pair becomes the result; the first vector of the population if there is no value below infinity. -/
def setResult (o : Opt) (first : Option Vec) : Opt :=
  { o with x := if o.es.bestF = .pinf then first else o.es.bestX, fx := o.es.bestF }

/-- cmawrapper.py:180-181: `x0` becomes the incumbent with the value of the first vector. -/
def firstIncumbent (c : Cfg) (i : Nat) (fx : List PyF) (o : Opt) : Opt :=
  if i = 1 then { o with incX := c.x0, incF := fx.headD .pinf } else o

/-- cmawrapper.py:204-205: whether the incumbent is injected. -/
def injects (c : Cfg) (i : Nat) (fx : List PyF) (o : Opt) : Bool :=
  PyF.lt o.incF (pyMin fx) && decide (c.freq ≠ 0) && decide ((c.freq : Int) < i - o.injCounter)

/-- cmawrapper.py:194-200: callbacks and messages. Simplification: no pause. -/
def answer (c : Cfg) (g : Gen) (o : Opt) : Opt × List Opt :=
  let o := if g.callback then callStop "Callbacks termination." o else o
  if c.managed then messages g.after o else (o, [])

/-- cmawrapper.py:180-202: what follows a complete evaluation of a population, up to the injection. -/
def settle (c : Cfg) (g : Gen) (i : Nat) (fx : List PyF) (o : Opt) : Opt × List Opt :=
  let o := firstIncumbent c i fx o
  answer c g (setResult { o with es := tell o.es (g.xs.zip fx) } g.xs.head?)

/-- cmawrapper.py:180-208: what follows a complete evaluation of a population. -/
def complete (c : Cfg) (g : Gen) (fx : List PyF) (r : Run) : Run :=
  let a := settle c g r.i fx r.o
  let inj := injects c r.i fx a.1
  { r with
    o := if inj then { a.1 with injCounter := r.i } else a.1
    told := r.told ++ [(g.xs, fx)]
    injected := if inj then r.injected ++ [(r.i, a.1.incX, a.1.incF)] else r.injected
    saved := r.saved ++ a.2 }

/-- The state after `ask` and `_parallel_map` (cmawrapper.py:169-174). -/
def asked (c : Cfg) (g : Gen) (r : Run) : Run :=
  { r with
    o := (parallelMap c g r.o).1
    i := r.i + 1
    last := some g.xs
    saved := r.saved ++ (parallelMap c g r.o).2.1 }

/-- The body of the loop (cmawrapper.py:169-208); the flag is `false` after `break` (178). -/
def body (c : Cfg) (g : Gen) (r : Run) : Run × Bool :=
  if (parallelMap c g r.o).2.2.length = g.xs.length then (complete c g (parallelMap c g r.o).2.2 (asked c g r), true)
  else (asked c g r, false)

/-- The loop (cmawrapper.py:168-208). The flag tells that it ended; otherwise the run is still going when the list is used up. -/
def loop (c : Cfg) : List Gen → Run → Run × Bool
  | [], r => (r, r.o.es.callbackStop)
  | g :: t, r =>
    if r.o.es.callbackStop || g.wantsStop then (r, true)
    else
      let b := body c g r
      if b.2 then loop c t b.1 else (b.1, true)

/-- The start of `minimize` (cmawrapper.py:166-167). -/
def start (o : Opt) : Run := { o := o, i := o.es.count, last := none, told := [], injected := [], saved := [] }

/-- A new optimizer (cmawrapper.py:156-162). Simplification: `incumbent` is empty instead of `None` until cmawrapper.py:181. -/
def fresh : Opt :=
  { es := { count := 0, callbackStop := false, bestX := none, bestF := .pinf }, x := none, fx := .pinf, success := false,
    incX := [], incF := .pinf, injCounter := 0 }

/-- The end of `minimize` (cmawrapper.py:212-217): an exception if no population was ever asked for and there is no value below infinity. -/
def finish (r : Run) : Except Err Opt :=
  if r.o.es.bestF = .pinf then
    match r.last with
    | none => .error .typeError
    | some xs => .ok { setResult r.o xs.head? with success := false }
  else .ok { setResult r.o none with success := r.o.es.bestF.isFinite && r.o.success }

/-- `minimize` (cmawrapper.py:107-238, from 156 on; printing, messages to the manager and result files left out): `none` while it is still running. -/
def minimize (c : Cfg) (o : Opt) (env : List Gen) : Option (Except Err Opt × Run) :=
  let r := loop c env (start o)
  if r.2 then some (finish r.1, r.1) else none

end Glompo.CMA
