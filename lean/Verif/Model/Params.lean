import Verif.Model.Logger

/-!
# The ParAMS interface

`BaseParamsError` and `ReaxFFError` of `glompo/interfaces/params.py`. ParAMS itself is outside the repository: its parameter engine is
modelled as the ordered list of its parameters, with `active` the sub-list of active ones, subscripts by position or name, and setters
which refuse a list of another length. Arithmetic is exact (rational instead of float).
-/

namespace Glompo.Params

open Glompo

/-- One parameter of the engine (`scm.params`); `_id` is its position. Belongs to the model of `params.py:629-640`. -/
structure Par where
  name : String
  value : Rat
  lo : Rat
  hi : Rat
  active : Bool
  deriving DecidableEq, Repr

/-- `par_eng`. Belongs to the model of `params.py:214-221`. -/
abbrev Eng := List Par

/-- `par_eng.active`. Belongs to the model of `params.py:214-221`. -/
def act (e : Eng) : List Par := e.filter (·.active)

/-- `n_parms` (params.py:214-221). -/
def nParms (e : Eng) : Nat := (act e).length

/-- `n_all_parms` (`params.py:224-231`). -/
def nAll (e : Eng) : Nat := e.length

/-- `active_abs_indices` (`params.py:234-243`). -/
def activeAbs (e : Eng) : List Nat := (e.zipIdx.filter (·.1.active)).map (·.2)

/-- `bounds` (`params.py:258-267`). -/
def bounds (e : Eng) : List (Rat × Rat) := List.replicate (nParms e) (0, 1)

/-- `min_, max_ = np.array(l).T`: an empty list cannot be unpacked in two. Belongs to the model of `params.py:629-640`. -/
def unpack (l : List Par) : Except Err (List Par) := if l = [] then .error .valueError else .ok l

/-- `_convert_parms_core` (`params.py:629-640`): the parameters whose ranges are used. -/
def core (e : Eng) (n : Nat) : Except Err (List Par) :=
  if n = nParms e then unpack (act e)
  else if n = nAll e then unpack e
  else .error .valueError

/-- One coordinate of `(x - min_) / (max_ - min_)` (`params.py:507`); numpy divides by zero without an exception. -/
def scale1 (x : Rat) (p : Par) : PyF :=
  if p.hi - p.lo = 0 then (if x - p.lo = 0 then .nan else if 0 < x - p.lo then .pinf else .ninf)
  else .fin ((x - p.lo) / (p.hi - p.lo))

/-- One coordinate of `(max_ - min_) * x + min_` (`params.py:514`). -/
def unscale1 (x : Rat) (p : Par) : Rat := (p.hi - p.lo) * x + p.lo

/-- `convert_parms_real2scaled` (`params.py:480-507`). -/
def real2scaled (e : Eng) (x : List Rat) : Except Err (List PyF) :=
  match core e x.length with
  | .error r => .error r
  | .ok ps => .ok (List.zipWith scale1 x ps)

/-- `convert_parms_scaled2real` (`params.py:509-514`). -/
def scaled2real (e : Eng) (x : List Rat) : Except Err (List Rat) :=
  match core e x.length with
  | .error r => .error r
  | .ok ps => .ok (List.zipWith unscale1 x ps)

/-- The argument `space` (`params.py:369`). -/
inductive Space where
  | real | scaled | other
  deriving DecidableEq, Repr

/-- `par_eng.x = x`. Belongs to the model of `params.py:369-409`. -/
def assignAll (e : Eng) (x : List Rat) : Except Err Eng :=
  if x.length = e.length then .ok (List.zipWith (fun p v => { p with value := v }) e x) else .error .other

/-- Values for the active parameters, in order. Belongs to the model of `params.py:369-409`. -/
def fill : Eng → List Rat → Eng
  | [], _ => []
  | p :: e, x => if p.active then
      match x with
      | [] => p :: e
      | v :: x => { p with value := v } :: fill e x
    else p :: fill e x

/-- `par_eng.active.x = x`. Belongs to the model of `params.py:369-409`. -/
def assignActive (e : Eng) (x : List Rat) : Except Err Eng :=
  if x.length = nParms e then .ok (fill e x) else .error .other

/-- `min_ < x_ < max_` (`params.py:402`). -/
def inside (v : Rat) (p : Par) : Bool := decide (p.lo < v) && decide (v < p.hi)

/-- The values stored (`params.py:397-400`). -/
def toReal (e : Eng) (x : List Rat) : Space → Except Err (List Rat)
  | .scaled => scaled2real e x
  | .real => .ok x
  | .other => .error .valueError

/-- `set_parameters` (`params.py:369-409`): the engine afterwards and whether a warning was given. The ranges the values are compared with are those
of all parameters if only values of active ones are given, and the reverse (`params.py:402-403`). -/
def setParameters (e : Eng) (x : List Rat) (s : Space) (full : Bool) : Except Err (Eng × Bool) :=
  match toReal e x s with
  | .error r => .error r
  | .ok y =>
    match if full then assignAll e y else assignActive e y with
    | .error r => .error r
    | .ok e' => .ok (e', (List.zipWith inside y (if full then act e else e)).any (!·))

/-- A Python subscript. Belongs to the model of `params.py:449`. -/
def pyIdx (n : Nat) (i : Int) : Option Nat :=
  if 0 ≤ i then (if i.toNat < n then some i.toNat else none)
  else if -i ≤ n then some (n - (-i).toNat) else none

/-- `{n: i for i, n in enumerate(names)}`. Belongs to the model of `params.py:411-451`. -/
def enumDict (l : List String) : List (String × Nat) := l.zipIdx.foldl (fun d p => dictSet d p.1 p.2) []

/-- Names at positions (`params.py:449`). -/
def namesAt (e : Eng) : List Int → Except Err (List String)
  | [] => .ok []
  | i :: l =>
    match (pyIdx e.length i).bind (fun k => e[k]?) with
    | none => .error .indexError
    | some p =>
      match namesAt e l with
      | .error r => .error r
      | .ok ns => .ok (p.name :: ns)

/-- `convert_indices_abs2rel` (`params.py:411-451`). -/
def abs2rel (e : Eng) (l : List Int) : Except Err (List (Option Nat)) :=
  match namesAt e l with
  | .error r => .error r
  | .ok ns => .ok (ns.map (dictGet (enumDict ((act e).map (·.name)))))

/-- `rel_name_map[i]` and `_name_to_allidx[n]` (`params.py:476-478`). -/
def rel2abs (e : Eng) : List Int → Except Err (List Nat)
  | [] => .ok []
  | i :: l =>
    match (if 0 ≤ i then ((act e).map (·.name))[i.toNat]? else none).bind (dictGet (enumDict (e.map (·.name)))) with
    | none => .error .keyError
    | some k =>
      match rel2abs e l with
      | .error r => .error r
      | .ok ks => .ok (k :: ks)

/-- How a parameter is named in `toggle_parameter`. Belongs to the model of `params.py:561-564`. -/
inductive Key where
  | idx (i : Int)
  | str (s : String)
  deriving DecidableEq, Repr

/-- The argument `toggle`. Belongs to the model of `params.py:554-559`. -/
inductive Toggle where
  | on | off | true_ | false_ | other
  deriving DecidableEq, Repr

/-- `params.py:554-559`. -/
def Toggle.val : Toggle → Option Bool
  | .on | .true_ => some true
  | .off | .false_ => some false
  | .other => none

/-- The mapping of `params.py:561-564`. -/
def mapping0 (e : Eng) : Key → List (Key × Bool)
  | .str _ => e.foldl (fun d p => dictSet d (.str p.name) p.active) []
  | .idx _ => e.zipIdx.foldl (fun d p => dictSet d (.idx (p.2 : Nat)) p.1.active) []

/-- `params.py:566-571`; the second component: names not recognised. -/
def marks (v : Bool) : List (Key × Bool) → List Key → List (Key × Bool) × List String
  | d, [] => (d, [])
  | d, .str s :: l =>
    if (dictGet d (.str s)).isSome then marks v (dictSet d (.str s) v) l
    else ((marks v d l).1, s :: (marks v d l).2)
  | d, .idx i :: l => marks v (dictSet d (.idx i) v) l

/-- `par_eng.is_active = l` (`params.py:573`). -/
def setActive (e : Eng) (l : List Bool) : Except Err Eng :=
  if l.length = e.length then .ok (List.zipWith (fun p b => { p with active := b }) e l) else .error .other

/-- `toggle_parameter` (`params.py:516-573`): the engine and the names warned about. -/
def toggle (e : Eng) (ps : List Key) (t : Toggle) : Except Err (Eng × List String) :=
  match t.val with
  | none => .error .valueError
  | some v =>
    match ps with
    | [] => .error .indexError
    | k :: _ =>
      match setActive e ((marks v (mapping0 e k) ps).1.map (·.2)) with
      | .error r => .error r
      | .ok e' => .ok (e', (marks v (mapping0 e k) ps).2)

/-- `par_eng[i]._id`. Belongs to the model of `params.py:700`. -/
def idOf (e : Eng) : Key → Option Nat
  | .idx i => pyIdx e.length i
  | .str s => e.findIdx? (fun p => decide (p.name = s))

/-- All of them (`params.py:700`). -/
def idsOf (e : Eng) : List Key → Option (List Nat)
  | [] => some []
  | k :: l =>
    match idOf e k, idsOf e l with
    | some i, some is => some (i :: is)
    | _, _ => none

/-- Positions which are to be activated and may be, in order (`params.py:706`). -/
def validIds (allowed : List Bool) (ids : List Nat) : List Nat :=
  (List.range allowed.length).filter fun i => (allowed[i]?.getD false) && decide (i ∈ ids)

/-- Positions which are to be activated and must not be (`params.py:702`). -/
def invalidIds (allowed : List Bool) (ids : List Nat) : List Nat :=
  (List.range allowed.length).filter fun i => !(allowed[i]?.getD false) && decide (i ∈ ids)

/-- `ReaxFFError.toggle_parameter` (`params.py:671-709`): `allowed` is `par_eng._get_active()`; third component: positions warned about. -/
def reaxToggle (e : Eng) (allowed : List Bool) (ps : List Key) (t : Toggle) (force : Bool) : Except Err (Eng × List String × List Nat) :=
  if t = .true_ ∨ t = .on then
    match idsOf e ps with
    | none => .error .keyError
    | some ids =>
      match toggle e (if force then ps else (validIds allowed ids).map (fun i => .idx (i : Nat))) t with
      | .error r => .error r
      | .ok (e', w) => .ok (e', w, invalidIds allowed ids)
  else
    match toggle e ps t with
    | .error r => .error r
    | .ok (e', w) => .ok (e', w, [])

/-! ## Evaluation -/

/-- A data set: weights and sigmas of its entries. Belongs to the model of `params.py:618-627`. -/
abbrev DataSet := List (Rat × Rat)

/-- What the evaluation of one data set by ParAMS gives: value, residuals; or one of the two errors caught (`params.py:614`). -/
abbrev Outcome := Except Unit (PyF × List PyF)

/-- `default` (`params.py:606`). -/
def dflt : PyF × List PyF := (.pinf, [.pinf])

/-- `_calculate` (`params.py:604-615`) without contributions: `engine` tells whether engine and jobs ran; the second component of the result is used
with a validation set only. -/
def calculate (engine : Bool) (ts : Outcome) (vs : Option Outcome) : (PyF × List PyF) × (PyF × List PyF) :=
  if engine then
    match ts, vs with
    | .ok t, none => (t, dflt)
    | .ok t, some (.ok v) => (t, v)
    | _, _ => (dflt, dflt)
  else (dflt, dflt)

/-- `weight * (r / sigma) ** 2` (`params.py:627`). -/
def scaleResid (ws : Rat × Rat) : PyF → PyF
  | .fin r => if ws.2 = 0 then (if r = 0 then .nan else if ws.1 = 0 then .nan else if 0 < ws.1 then .pinf else .ninf)
      else .fin (ws.1 * (r / ws.2) ^ 2)
  | .nan => .nan
  | _ => if ws.1 = 0 then .nan else if 0 < ws.1 then .pinf else .ninf

/-- `_scale_residuals` (`params.py:618-627`); a single residual is broadcast over the entries. -/
def scaleResids (ds : DataSet) (rs : List PyF) : Except Err (List PyF) :=
  if rs.length = ds.length then .ok (List.zipWith scaleResid ds rs)
  else match rs with
    | [r] => .ok (ds.map (scaleResid · r))
    | _ => if ds.length = 1 then .ok (rs.flatMap fun r => ds.map (scaleResid · r)) else .error .valueError

/-- The residuals reported (`params.py:302, 307, 331-334`). -/
def report (scale : Bool) (ds : DataSet) (rs : List PyF) : Except Err (List PyF) :=
  if scale then scaleResids ds rs else .ok rs

/-- An entry of the tuple `detailed_call` returns. Belongs to the model of `params.py:280-311`. -/
inductive Datum where
  | num (x : PyF)
  | arr (l : List PyF)
  deriving DecidableEq, Repr

/-- `__call__` (`params.py:269-278`). -/
def call (engine : Bool) (ts : Outcome) (vs : Option Outcome) : PyF := (calculate engine ts vs).1.1

/-- `resids` (`params.py:326-335`). -/
def resids (scale : Bool) (ds : DataSet) (engine : Bool) (ts : Outcome) (vs : Option Outcome) : Except Err (List PyF) :=
  report scale ds (calculate engine ts vs).1.2

/-- `detailed_call` (`params.py:280-311`); the validation set comes with what its evaluation gives. -/
def detailedCall (scale : Bool) (ds : DataSet) (engine : Bool) (ts : Outcome) (vs : Option (DataSet × Outcome)) : Except Err (List Datum) :=
  match report scale ds (calculate engine ts (vs.map (·.2))).1.2 with
  | .error r => .error r
  | .ok rt =>
    match vs with
    | none => .ok [.num (calculate engine ts none).1.1, .arr rt]
    | some (dv, o) =>
      match report scale dv (calculate engine ts (some o)).2.2 with
      | .error r => .error r
      | .ok rv => .ok [.num (calculate engine ts (some o)).1.1, .arr rt, .num (calculate engine ts (some o)).2.1, .arr rv]

/-- A column: its name and, for arrays, its length. Belongs to the model of `params.py:313-324`. -/
inductive Col where
  | num (name : String)
  | arr (name : String) (len : Nat)
  deriving DecidableEq, Repr

/-- `headers` (`params.py:313-324`): `if self.val_set` is false for an empty data set. -/
def headers (ds : DataSet) (vs : Option DataSet) : List Col :=
  [.num "fx", .arr "resids_ts" ds.length] ++
    match vs with
    | none => []
    | some dv => if dv.length = 0 then [] else [.num "fx_vs", .arr "resids_vs" dv.length]

/-! ## Setting up from files -/

/-- The files of a collection which exist: pickle, YAML. Belongs to the model of `params.py:876-884`. -/
structure Files where
  pkl : Bool
  yml : Bool

/-- Which loads are carried out, in order (`params.py:876-884`): `true` for the pickle. -/
def loads (f : Files) : Except Err (List Bool) :=
  if !f.pkl && !f.yml then .error .osError
  else .ok ((if f.pkl then [true] else []) ++ (if f.yml then [false] else []))

/-- `params.py:825-834`: activity from `ffield_bool`, ranges from `ffield_min` and `ffield_max`. `p.x = ...` sets no value of the parameter. -/
def fromExtras (p : Par) (b lo hi : Rat) : Par :=
  if b ≠ 0 then
    if lo < hi then { p with active := true, lo := lo, hi := hi } else { p with active := false }
  else { p with active := false }

/-- `params.py:839-842`. -/
def centre (p : Par) : Par :=
  if p.active then (if p.lo < p.value ∧ p.value < p.hi then p else { p with value := (p.lo + p.hi) / 2 }) else p

/-- The parameters set up by `setup_reax_from_classic` (`params.py:747-852`): with the three extra files (one entry
for each parameter: activity, minimum, maximum), or without. -/
def classic (e : Eng) : Option (List (Rat × Rat × Rat)) → Eng
  | none => e.map centre
  | some ex => (List.zipWith (fun p (q : Rat × Rat × Rat) => fromExtras p q.1 q.2.1 q.2.2) e ex).map centre

end Glompo.Params
