import Verif.Model.Basic

/-!
# `glompo/core/optimizerlogger.py`: `BaseLogger`

Operations return the new state together with an optional exception: Python keeps the mutations made before a
`raise`, so does the model.
-/

namespace Glompo

/-- A cell of an iteration history column. Belongs to the model of `optimizerlogger.py:86-87`. -/
inductive Cell where
  | nat (n : Nat)
  | vec (x : Vec)
  | num (f : PyF)
  deriving DecidableEq, Repr, Inhabited

/-- One of the dictionaries in `_best_iters` (optimizerlogger.py:62, 85). -/
structure BestIter where
  optId : Nat
  x : Vec
  fx : PyF
  type : String
  callId : Nat
  deriving DecidableEq, Repr, Inhabited

/-- The dictionary with which every best record starts (optimizerlogger.py:62-63, 85). -/
def BestIter.empty (optId : Nat) (type : String) : BestIter :=
  { optId := optId, x := [], fx := .pinf, type := type, callId := 0 }

/-- `_storage[opt_id]` (optimizerlogger.py:86-87, 95-96): the two fixed keys `metadata` and `messages` followed by
the iteration history columns in insertion order. Metadata values are opaque strings. -/
structure Store where
  metadata : List (String × String)
  messages : List String
  cols : List (String × List Cell)
  deriving DecidableEq, Repr, Inhabited

/-- Python `d[k] = v` on an insertion ordered dictionary. Belongs to the model of `optimizerlogger.py:83-87`. -/
def dictSet {K V : Type} [DecidableEq K] : List (K × V) → K → V → List (K × V)
  | [], k, v => [(k, v)]
  | (k', v') :: t, k, v => if k' = k then (k', v) :: t else (k', v') :: dictSet t k v

/-- Python `d[k]` (`none` stands for `KeyError`). Belongs to the model of `optimizerlogger.py:98-100`. -/
def dictGet {K V : Type} [DecidableEq K] : List (K × V) → K → Option V
  | [], _ => none
  | (k', v') :: t, k => if k' = k then some v' else dictGet t k

/-- Python `del d[k]` (only used when the key is present). Belongs to the model of `optimizerlogger.py:110-111`. -/
def dictDel {K V : Type} [DecidableEq K] (d : List (K × V)) (k : K) : List (K × V) :=
  d.filter fun p => decide (p.1 ≠ k)

/-- The state of a `BaseLogger` (optimizerlogger.py:60-67).
`bestRef` models Python aliasing: `none` is the dictionary built in `__init__` (line 63), `some i` says that
`_best_iter` is the *same object* as `_best_iters[i]` (line 134). `_figure_data` is never used and left out. -/
structure Logger where
  fCounter : Nat
  bestIters : List (Nat × BestIter)
  bestRef : Option Nat
  maxEval : PyF
  storage : List (Nat × Store)
  buildTrajPlot : Bool
  deriving DecidableEq, Repr, Inhabited

namespace Logger

/-- `BaseLogger.__init__` (optimizerlogger.py:60-67). -/
def init (buildTrajPlot : Bool) : Logger :=
  { fCounter := 0
    bestIters := [(0, BestIter.empty 0 "")]
    bestRef := none
    maxEval := .ninf
    storage := []
    buildTrajPlot := buildTrajPlot }

/-- `BaseLogger.n_optimizers` (optimizerlogger.py:36-39). -/
def nOptimizers (s : Logger) : Nat := s.storage.length

/-- `BaseLogger.__len__` (optimizerlogger.py:73-75). -/
def len (s : Logger) : Nat := s.fCounter

/-- `BaseLogger.has_iter_history` (optimizerlogger.py:98-100). -/
def hasIterHistory (s : Logger) (optId : Nat) : Bool :=
  match dictGet s.storage optId with
  | none => false
  | some st => (dictGet st.cols "fx").isSome

/-- `BaseLogger.len` (optimizerlogger.py:77-81). -/
def lenOpt (s : Logger) (optId : Nat) : Nat :=
  if s.hasIterHistory optId then
    match dictGet s.storage optId with
    | none => 0
    | some st => ((dictGet st.cols "fx").getD []).length
  else 0

/-- `BaseLogger.add_optimizer` (optimizerlogger.py:83-87); the start time is part of the opaque metadata. -/
def addOptimizer (s : Logger) (optId : Nat) (optType : String) : Logger :=
  { s with
    bestIters := dictSet s.bestIters optId (BestIter.empty optId optType)
    storage := dictSet s.storage optId { metadata := [("opt_type", optType)], messages := [], cols := [] } }

/-- `for k in headers: self._storage[opt_id][k] = []` (optimizerlogger.py:95-96). -/
def setHeaders (cols : List (String × List Cell)) (headers : List String) : List (String × List Cell) :=
  headers.foldl (fun c k => dictSet c k []) cols

/-- `BaseLogger.add_iter_history` (optimizerlogger.py:89-96). -/
def addIterHistory (s : Logger) (optId : Nat) (extraHeaders : List String) : Logger × Option Err :=
  match dictGet s.storage optId with
  | none => (s, some .keyError)
  | some st =>
    let st' := { st with cols := setHeaders st.cols (["call_id", "x", "fx"] ++ extraHeaders) }
    ({ s with storage := dictSet s.storage optId st' }, none)

/-- `for key in to_del: del self._storage[key]` (optimizerlogger.py:110-111). -/
def delKeys (st : List (Nat × Store)) : List Nat → List (Nat × Store) × Option Err
  | [] => (st, none)
  | k :: ks => if (dictGet st k).isSome then delKeys (dictDel st k) ks else (st, some .keyError)

/-- `BaseLogger.clear_cache` (optimizerlogger.py:102-111). `none` and `some 0` are the falsy arguments. -/
def clearCache (s : Logger) (optId : Option Nat) : Logger × Option Err :=
  if s.buildTrajPlot then (s, none)
  else
    let toDel := match optId with
      | none => s.storage.map (·.1)
      | some 0 => s.storage.map (·.1)
      | some i => [i]
    let r := delKeys s.storage toDel
    ({ s with storage := r.1 }, r.2)

/-- `BaseLogger.put_metadata` (optimizerlogger.py:113-115). -/
def putMetadata (s : Logger) (optId : Nat) (key value : String) : Logger × Option Err :=
  match dictGet s.storage optId with
  | none => (s, some .keyError)
  | some st =>
    ({ s with storage := dictSet s.storage optId { st with metadata := dictSet st.metadata key value } }, none)

/-- `BaseLogger.put_message` (optimizerlogger.py:120-122). -/
def putMessage (s : Logger) (optId : Nat) (msg : String) : Logger × Option Err :=
  match dictGet s.storage optId with
  | none => (s, some .keyError)
  | some st =>
    ({ s with storage := dictSet s.storage optId { st with messages := st.messages ++ [msg] } }, none)

/-- `BaseLogger.get_metadata` (optimizerlogger.py:173-175). -/
def getMetadata (s : Logger) (optId : Nat) (key : String) : Except Err String :=
  match dictGet s.storage optId with
  | none => .error .keyError
  | some st =>
    match dictGet st.metadata key with
    | none => .error .keyError
    | some v => .ok v

/-- The `zip` loop appending one value per history column (optimizerlogger.py:139-143). The first two keys of the
dictionary are `metadata` and `messages`, they are paired with the two `None` and skipped; `zip` stops at the
shorter of columns and values. -/
def appendRow : List (String × List Cell) → List Cell → List (String × List Cell)
  | (k, c) :: cs, v :: vs => (k, c ++ [v]) :: appendRow cs vs
  | cs, _ => cs

/-- The fields of `_best_iter` behind the alias (optimizerlogger.py:63, 134). -/
def best (s : Logger) : BestIter :=
  match s.bestRef with
  | none => BestIter.empty 0 ""
  | some i => (dictGet s.bestIters i).getD (BestIter.empty 0 "")

/-- `BaseLogger.put_iteration`, lines 126-137: counter and best records. -/
def putBest (s : Logger) (r : IterRes) (b : BestIter) : Logger :=
  let n := s.fCounter + 1
  let s1 := { s with fCounter := n }
  let s2 :=
    if PyF.lt r.fx b.fx then
      let oldBest := s.best.fx
      let b' := { b with x := r.x, fx := r.fx, callId := n }
      -- lines 129-131 mutate the dictionary in place; if `_best_iter` is an alias of it, it changes too
      let oldBest' := if s.bestRef = some r.optId then r.fx else oldBest
      { s1 with
        bestIters := dictSet s.bestIters r.optId b'
        bestRef := if PyF.lt r.fx oldBest' then some r.optId else s.bestRef }
    else s1
  if PyF.lt s.maxEval r.fx && r.fx.isFinite then { s2 with maxEval := r.fx } else s2

/-- `BaseLogger.put_iteration` (optimizerlogger.py:124-143). -/
def putIteration (s : Logger) (r : IterRes) : Logger × Option Err :=
  match dictGet s.bestIters r.optId with
  | none => ({ s with fCounter := s.fCounter + 1 }, some .keyError)
  | some b =>
    let s3 := s.putBest r b
    match dictGet s3.storage r.optId with
    | none => (s3, some .keyError)
    | some st =>
      let vals := [Cell.nat s3.fCounter, Cell.vec r.x, Cell.num r.fx] ++ r.extras.map Cell.num
      ({ s3 with storage := dictSet s3.storage r.optId { st with cols := appendRow st.cols vals } }, none)

/-- `BaseLogger.get_best_iter` (optimizerlogger.py:145-151); `none` and `some 0` are falsy. -/
def getBestIter (s : Logger) (optId : Option Nat) : Except Err BestIter :=
  match optId with
  | none => .ok s.best
  | some 0 => .ok s.best
  | some i =>
    match dictGet s.bestIters i with
    | none => .error .keyError
    | some b => .ok b

/-- `BaseLogger.get_history` (optimizerlogger.py:153-171). -/
def getHistory (s : Logger) (optId : Nat) (track : String) : Except Err (List Cell) :=
  if s.hasIterHistory optId then
    match dictGet s.storage optId with
    | none => .error .keyError
    | some st =>
      match dictGet st.cols track with
      | none => .error .keyError
      | some c => .ok c
  else .ok []

/-- The operations by which the manager changes a logger. Belongs to the model of `optimizerlogger.py:60-67`. -/
inductive Op where
  | add (optId : Nat) (optType : String)
  | addHist (optId : Nat) (extraHeaders : List String)
  | put (r : IterRes)
  | clear (optId : Option Nat)
  | putMeta (optId : Nat) (key value : String)
  | putMsg (optId : Nat) (msg : String)
  deriving Repr

/-- One operation; an exception leaves the state reached when it was raised (the caller may go on). Belongs to the model of `optimizerlogger.py:60-67`, `optimizerlogger.py:83-87`, `optimizerlogger.py:89-96`, `optimizerlogger.py:102-111`. -/
def step (s : Logger) : Op → Logger × Option Err
  | .add i t => (s.addOptimizer i t, none)
  | .addHist i hs => s.addIterHistory i hs
  | .put r => s.putIteration r
  | .clear i => s.clearCache i
  | .putMeta i k v => s.putMetadata i k v
  | .putMsg i m => s.putMessage i m

/-- State after a sequence of operations, exceptions included. Belongs to the model of `optimizerlogger.py:60-67`. -/
def run (s : Logger) (ops : List Op) : Logger := ops.foldl (fun s op => (s.step op).1) s

end Logger
end Glompo
