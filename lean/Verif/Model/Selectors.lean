import Verif.Model.Basic

/-!
# `glompo/opt_selectors/`: optimizer selectors and spawn control
-/

namespace Glompo

/-- An entry of `avail_opts` after parsing (baseselector.py:70-97): class name and the `workers` entry of its
initialisation dictionary. The other settings are opaque. -/
structure AvailOpt where
  cls : String
  workers : Int
  deriving DecidableEq, Repr, Inhabited

/-- One of the `*avail_opts` arguments (baseselector.py:71-97). `isOpt` tells whether the class is a subclass of
`BaseOptimizer`. For the initialisation dictionary `.none` is Python's `None`, `.bad` is something which is not a
dictionary, `.dict w` is a dictionary with its optional entry `workers`. -/
inductive InitArg where
  | none
  | bad
  | dict (workers : Option Int)
  deriving DecidableEq, Repr

/-- Belongs to the model of `baseselector.py:73-97`. -/
inductive OptArg where
  | plain (cls : String) (isOpt : Bool)
  | triple (cls : String) (isOpt : Bool) (initArg : InitArg) (callArg : InitArg)
  deriving DecidableEq, Repr

/-- The body of the parsing loop (baseselector.py:73-97); a failed assertion becomes `ValueError`. -/
def parseOpt : OptArg → Except Err AvailOpt
  | .plain c ok => if ok then .ok ⟨c, 1⟩ else .error .valueError
  | .triple c ok i k =>
    if ok then
      match i with
      | .bad => .error .valueError
      | .none => if k = .bad then .error .valueError else .ok ⟨c, 1⟩
      | .dict w => if k = .bad then .error .valueError else .ok ⟨c, w.getD 1⟩
    else .error .valueError

/-- `BaseSelector.__init__` (baseselector.py:64-102) without spawn control. -/
def parseOpts : List OptArg → Except Err (List AvailOpt)
  | [] => .ok []
  | a :: as =>
    match parseOpt a with
    | .error e => .error e
    | .ok o =>
      match parseOpts as with
      | .error e => .error e
      | .ok os => .ok (o :: os)

/-- Answer of `select_optimizer` (baseselector.py:105-137): `False`, `None`, an optimizer, or an exception. -/
inductive Sel where
  | stop
  | nothing
  | chosen (o : AvailOpt)
  | raised (e : Err)
  deriving DecidableEq, Repr

/-- What the bundled selectors and stoppers read of the manager. Belongs to the model of `spawncontrol.py:17-20`. -/
structure SelView where
  fCounter : Nat
  oCounter : Nat
  deriving DecidableEq, Repr

/-- `IterSpawnStop.__call__` (spawncontrol.py:17-20). -/
def iterSpawnStop (maxCalls : Int) (m : SelView) : Bool := if (m.fCounter : Int) ≥ maxCalls then false else true

/-- `NOptimizersSpawnStop.__call__` (spawncontrol.py:35-38). -/
def nOptimizersSpawnStop (maxOpts : Int) (m : SelView) : Bool := if (m.oCounter : Int) ≥ maxOpts then false else true

/-- `_AlwaysSpawn.__call__` (spawncontrol.py:42-43). -/
def alwaysSpawn (_ : SelView) : Bool := true

/-- A request to a selector: what it sees of the manager, the offered slots, and the random number used (only by the
random selector). Belongs to the model of `cycle.py:35-52`. -/
structure Req where
  view : SelView
  slots : Int
  draw : Nat
  deriving DecidableEq, Repr

/-- `CycleSelector` (cycle.py:27-33); `i` starts at -1. -/
structure Cycle where
  opts : List AvailOpt
  allow : SelView → Bool
  i : Int

/-- `CycleSelector.__init__` (cycle.py:27-33). -/
def Cycle.init (opts : List AvailOpt) (allow : SelView → Bool) : Cycle := { opts := opts, allow := allow, i := -1 }

/-- `CycleSelector.select_optimizer` (cycle.py:35-52). With no optimizers `% 0` raises `ZeroDivisionError`. -/
def Cycle.select (s : Cycle) (r : Req) : Cycle × Sel :=
  if s.allow r.view = false then (s, .stop)
  else if s.opts.length = 0 then (s, .raised .zeroDivision)
  else
    let i := (s.i + 1) % (s.opts.length : Int)
    match s.opts[i.toNat]? with
    | none => ({ s with i := i }, .raised .indexError)
    | some o => if o.workers > r.slots then (s, .nothing) else ({ s with i := i }, .chosen o)

/-- `ChainSelector` (chain.py:42-51). -/
structure Chain where
  opts : List AvailOpt
  thresholds : List PyF
  allow : SelView → Bool
  toggle : Nat

/-- `ChainSelector.__init__` (chain.py:42-51); `none` if the assertion on the number of thresholds fails. -/
def Chain.init (opts : List AvailOpt) (thresholds : List PyF) (allow : SelView → Bool) : Option Chain :=
  if opts.length ≤ thresholds.length + 1 ∧ thresholds.length ≤ opts.length then
    some { opts := opts, thresholds := thresholds, allow := allow, toggle := 0 }
  else none

/-- Lines 59-60 of chain.py: advance by one stage if the next threshold is reached. -/
def Chain.advance (s : Chain) (f : Nat) : Nat :=
  match s.thresholds[s.toggle]? with
  | some th => if PyF.le th (.fin f) then s.toggle + 1 else s.toggle
  | none => s.toggle

/-- `ChainSelector.select_optimizer` (chain.py:53-66). -/
def Chain.select (s : Chain) (r : Req) : Chain × Sel :=
  if s.allow r.view = false then (s, .stop)
  else
    let s' := { s with toggle := s.advance r.view.fCounter }
    match s'.opts[s'.toggle]? with
    | none => (s', .raised .indexError)
    | some o => if o.workers > r.slots then (s', .nothing) else (s', .chosen o)

/-- `RandomSelector.select_optimizer` (random.py:12-29); `random.choice` picks by the random number `draw`. -/
def randomSelect (opts : List AvailOpt) (allow : SelView → Bool) (r : Req) : Sel :=
  if allow r.view = false then .stop
  else
    let viable := opts.filter fun o => decide (o.workers ≤ r.slots)
    if viable.length = 0 then .nothing
    else
      match viable[r.draw % viable.length]? with
      | none => .raised .indexError
      | some o => .chosen o

/-- A sequence of requests to a cycle selector, with the answers. Belongs to the model of `baseselector.py:105-137`, `cycle.py:35-52`, `cycle.py:27-33`, `chain.py:53-66`. -/
def Cycle.run (s : Cycle) : List Req → Cycle × List Sel
  | [] => (s, [])
  | r :: rs => let a := s.select r; let b := Cycle.run a.1 rs; (b.1, a.2 :: b.2)

/-- A sequence of requests to a chain selector, with the answers. Belongs to the model of `baseselector.py:105-137`. -/
def Chain.run (s : Chain) : List Req → Chain × List Sel
  | [] => (s, [])
  | r :: rs => let a := s.select r; let b := Chain.run a.1 rs; (b.1, a.2 :: b.2)

end Glompo
