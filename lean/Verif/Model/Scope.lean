import Verif.Model.Logger

/-!
# The scope (live plot)

Models the data behind the plot of `GloMPOScope` in `glompo/core/scope.py`: the points of the lines, the redraws and the frames. Drawing itself
(matplotlib) and movie files are not modelled.
-/

namespace Glompo.Scope

/-- A point: number of function evaluations, and function value. Simplification: evaluation counts are integers. Belongs to the model of `scope.py:120-131`. -/
abbrev Pt := Int × PyF

/-- Keys of `gen_streams` (scope.py:156-161). -/
inductive Track where
  | kill | norm | crash | pause | chkpt
deriving DecidableEq, Repr

/-- The options of the constructor (scope.py:109-118). Simplification: `np.log10` and `10 ** _` are parameters. -/
structure Cfg where
  lg : PyF → PyF := id
  pw : PyF → PyF := id
  logScale : Bool := false
  elitism : Bool := false
  truncated : Option Nat := some 300
  epf : Int := 10
  recordMovie : Bool := false

/-- Attributes that change (scope.py:120-131, 155-161); `redraws`, `frames`: how often the figure was drawn and a frame taken. -/
structure St where
  streams : List (Nat × List Pt) := []
  marks : Track → List Pt := fun _ => []
  dead : List Nat := []
  xMax : Int := 0
  counter : Int := 0
  isSetup : Bool := false
  redraws : Nat := 0
  frames : Nat := 0

/-- `np.clip(self.x_max - self.truncated, 0, None)` (scope.py:239). -/
def low (xMax : Int) (n : Nat) : Int := if xMax - n < 0 then 0 else xMax - n

/-- Belongs to the model of `scope.py:230-250`. -/
def keep (xMax : Int) (n : Nat) (l : List Pt) : List Pt := l.filter fun p => decide (low xMax n ≤ p.1)

/-- The loop which purges old results (scope.py:230-250). -/
def purge (n : Nat) (s : St) : St :=
  { s with
    streams := s.streams.map fun q => (q.1, if q.1 ∈ s.dead then q.2 else keep s.xMax n q.2)
    dead := s.dead ++ (s.streams.filter fun q => !decide (q.1 ∈ s.dead) && (keep s.xMax n q.2).isEmpty).map (·.1) }

/-- Belongs to the model of `scope.py:223-265`. -/
def purged (cfg : Cfg) (s : St) : St :=
  match cfg.truncated with
  | none => s
  | some n => purge n s

/-- Lines 243-254: the figure is drawn and, if a movie is recorded, a frame is taken. -/
def draw (cfg : Cfg) (s : St) : St × Option Err :=
  if cfg.recordMovie then
    if s.isSetup then ({ s with redraws := s.redraws + 1, frames := s.frames + 1 }, none)
    else ({ s with redraws := s.redraws + 1 }, some .runtimeError)
  else ({ s with redraws := s.redraws + 1 }, none)

/-- `_redraw_graph` (scope.py:223-265). -/
def redraw (cfg : Cfg) (force : Bool) (s : St) : St × Option Err :=
  if cfg.epf ≤ s.counter || force then draw cfg (purged cfg { s with counter := 1 })
  else ({ s with counter := s.counter + 1 }, none)

/-- Lines 264-266: data for a stream out of scope bring it back. -/
def revive (s : St) (i : Nat) : St := { s with dead := s.dead.filter (· ≠ i) }

/-- Belongs to the model of `scope.py:267-295`. -/
def extend (s : St) (x : Int) : St := { s with xMax := if s.xMax < x then x else s.xMax }

/-- Belongs to the model of `scope.py:267-295`. -/
def scale (cfg : Cfg) (y : PyF) : PyF := if cfg.logScale then cfg.lg y else y

/-- `_update_point` with track `all_opt` and a point (scope.py:267-295). -/
def addPoint (cfg : Cfg) (s : St) (i : Nat) (p : Pt) : St × Option Err :=
  match dictGet s.streams i with
  | none => (extend (revive s i) p.1, some .keyError)
  | some l => ({ extend (revive s i) p.1 with streams := dictSet s.streams i (l ++ [(p.1, scale cfg p.2)]) }, none)

/-- `get_farthest_pt` (scope.py:406-414). -/
def farthest (s : St) (i : Nat) : Except Err (Option Pt) :=
  match dictGet s.streams i with
  | none => .error .keyError
  | some l => .ok l.getLast?

/-- `_update_point` with another track and no point (scope.py:267-295). -/
def addMark (s : St) (i : Nat) (t : Track) : St × Option Err :=
  match farthest s i with
  | .error e => (s, some e)
  | .ok none => (revive s i, none)
  | .ok (some p) =>
    ({ extend (revive s i) p.1 with marks := fun u => if u = t then s.marks u ++ [p] else s.marks u }, none)

/-- A method that first changes the data and then redraws. Belongs to the model of `scope.py:324-335`. -/
def thenDraw (cfg : Cfg) : St × Option Err → St × Option Err
  | (s, some e) => (s, some e)
  | (s, none) => redraw cfg false s

/-- The last value plotted, on the scale of the function (scope.py:330). -/
def unscale (cfg : Cfg) (y : PyF) : PyF := if cfg.logScale then cfg.pw y else y

/-- With elitism, the value to plot (scope.py:327-332). -/
def elite (cfg : Cfg) (l : List Pt) (y : PyF) : PyF :=
  match l.getLast? with
  | none => y
  | some q => if PyF.lt (unscale cfg q.2) y then unscale cfg q.2 else y

/-- `update_optimizer` (scope.py:324-335). -/
def updateOptimizer (cfg : Cfg) (s : St) (i : Nat) (x : Int) (y : PyF) : St × Option Err :=
  if cfg.elitism then
    match dictGet s.streams i with
    | none => (s, some .keyError)
    | some l => thenDraw cfg (addPoint cfg s i (x, elite cfg l y))
  else thenDraw cfg (addPoint cfg s i (x, y))

/-- `add_stream` (scope.py:297-322). -/
def addStream (s : St) (i : Nat) : St := { s with streams := dictSet s.streams i [] }

/-- The public methods the manager calls (scope.py:297-390). -/
inductive Ev where
  | add (i : Nat)
  | update (i : Nat) (x : Int) (y : PyF)
  | mark (t : Track) (i : Nat)
  | setup
  | force
deriving DecidableEq, Repr

/-- `setup_moviemaker` (scope.py:362-390): without `record_movie` nothing happens. -/
def setupMovie (cfg : Cfg) (s : St) : St := if cfg.recordMovie then { s with isSetup := true } else s

/-- Belongs to the model of `scope.py:109-118`, `scope.py:120-131`, `scope.py:223-265`, `scope.py:267-295`. -/
def step (cfg : Cfg) (s : St) : Ev → St × Option Err
  | .add i => (addStream s i, none)
  | .update i x y => updateOptimizer cfg s i x y
  | .mark t i => thenDraw cfg (addMark s i t)
  | .setup => (setupMovie cfg s, none)
  | .force => redraw cfg true s

/-- The scope after a history, the most recent call first. Belongs to the model of `scope.py:109-118`, `scope.py:120-131`, `scope.py:297-390`. -/
def after (cfg : Cfg) : List Ev → St
  | [] => {}
  | e :: h => (step cfg (after cfg h) e).1

/-! ## The constructor's checks -/

/-- Values of `x_range` (scope.py:169-186). -/
inductive XRange where
  | none | pair (a b : Rat) | last (n : Int) | other
deriving DecidableEq, Repr

/-- Belongs to the model of `scope.py:167-199`. -/
inductive YRange where
  | none | pair (a b : Rat) | other
deriving DecidableEq, Repr

/-- Belongs to the model of `scope.py:167-199`. -/
def checkX : XRange → Except Err (Option Int)
  | .none => .ok none
  | .pair a b => if b ≤ a then .error .valueError else .ok none
  | .last n => if n < 2 then .error .valueError else .ok (some n)
  | .other => .error .typeError

/-- Belongs to the model of `scope.py:167-199`. -/
def checkY : YRange → Except Err Unit
  | .none => .ok ()
  | .pair a b => if b ≤ a then .error .valueError else .ok ()
  | .other => .error .typeError

/-- The constructor (scope.py:167-199): the value of `truncated`, or an exception. -/
def init (x : XRange) (y : YRange) : Except Err (Option Int) :=
  match checkX x with
  | .error e => .error e
  | .ok t =>
    match checkY y with
    | .error e => .error e
    | .ok () => .ok t

end Glompo.Scope
