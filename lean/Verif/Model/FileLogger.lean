import Verif.Model.Logger

/-!
# `glompo/core/optimizerlogger.py:320-533`: `FileLogger`

The HDF5 file is a map from optimizer ids to tables, a table is the list of its rows. Group attributes (metadata) and
the `messages` arrays of the file are not modelled; `call_id` is an unbounded number (the file uses `UInt32`).
-/

namespace Glompo

/-- A row of the `iter_hist` table (optimizerlogger.py:388-393, 414-415). -/
structure Row where
  callId : Nat
  x : Vec
  fx : PyF
  extras : List PyF
  deriving DecidableEq, Repr, Inhabited

/-- The `iter_hist` table of one optimizer: names of the extra columns and rows. Belongs to the model of `optimizerlogger.py:335-349`. -/
structure Table where
  extraHeaders : List String
  rows : List Row
  deriving DecidableEq, Repr, Inhabited

/-- `FileLogger` (optimizerlogger.py:335-349). `groups` are the optimizer groups in the file. -/
structure FileLogger where
  base : Logger
  oCounter : Nat
  chunk : List (Nat × List Row)
  est : Nat
  groups : List Nat
  tables : List (Nat × Table)
  deriving DecidableEq, Repr, Inhabited

namespace FileLogger

/-- `FileLogger.__init__` followed by `open(.., 'w', ..)` (optimizerlogger.py:335-349, 512-513). -/
def init (traj : Bool) : FileLogger :=
  { base := Logger.init traj, oCounter := 0, chunk := [], est := 0, groups := [], tables := [] }

/-- `FileLogger.add_optimizer` (optimizerlogger.py:366-383); `create_group` fails for an existing group. -/
def addOptimizer (s : FileLogger) (i : Nat) (t : String) : FileLogger × Option Err :=
  let s1 := { s with base := s.base.addOptimizer i t }
  if i ∈ s.groups then (s1, some .other)
  else
    ({ s1 with
       groups := s.groups ++ [i]
       chunk := dictSet s.chunk i []
       oCounter := s.oCounter + 1 }, none)

/-- `FileLogger.has_iter_history` (optimizerlogger.py:402-403). -/
def hasIterHistory (s : FileLogger) (i : Nat) : Bool := (dictGet s.tables i).isSome

/-- `FileLogger.add_iter_history` (optimizerlogger.py:385-400); extra columns are not kept in memory (line 387);
`create_table` fails if the group is missing or the table exists. -/
def addIterHistory (s : FileLogger) (i : Nat) (extraHeaders : List String) : FileLogger × Option Err :=
  let r := s.base.addIterHistory i []
  let s1 := { s with base := r.1 }
  match r.2 with
  | some e => (s1, some e)
  | none =>
    if i ∈ s.groups ∧ s.hasIterHistory i = false then
      ({ s1 with tables := dictSet s.tables i { extraHeaders := extraHeaders, rows := [] } }, none)
    else (s1, some .other)

/-- One pass of the loop in `flush` (optimizerlogger.py:477-483). -/
def flush1 (s : FileLogger) (o : Nat) : FileLogger × Option Err :=
  match dictGet s.chunk o with
  | none => (s, some .keyError)
  | some c =>
    if c.length > 0 then
      match dictGet s.tables o with
      | none => (s, some .other)        -- get_node raises NoSuchNodeError
      | some t =>
        ({ s with
           tables := dictSet s.tables o { t with rows := t.rows ++ c }
           chunk := dictSet s.chunk o [] }, none)
    else (s, none)

/-- The loop of `flush` over several optimizers (optimizerlogger.py:477-483). -/
def flushList (s : FileLogger) : List Nat → FileLogger × Option Err
  | [] => (s, none)
  | o :: os =>
    match s.flush1 o with
    | (s', none) => flushList s' os
    | (s', some e) => (s', some e)

/-- `FileLogger.flush` (optimizerlogger.py:471-483). -/
def flush (s : FileLogger) (optId : Option Nat) : FileLogger × Option Err :=
  match optId with
  | none => s.flushList (s.chunk.map (·.1))
  | some 0 => s.flushList (s.chunk.map (·.1))
  | some i => s.flushList [i]

/-- Total number of buffered rows (optimizerlogger.py:417). -/
def pending (s : FileLogger) : Nat := (s.chunk.map fun p => p.2.length).sum

/-- `FileLogger.put_iteration` (optimizerlogger.py:405-418). `size` is the value `deepsizeof` would return, only used
for the first evaluation. -/
def putIteration (s : FileLogger) (r : IterRes) (size : Nat) : FileLogger × Option Err :=
  let s1 := { s with base := (s.base.putIteration r).1 }   -- a KeyError of the base class is swallowed
  let s2 := if s1.est = 0 then { s1 with est := size } else s1
  match dictGet s2.chunk r.optId with
  | none => (s2, some .keyError)
  | some c =>
    let row : Row := { callId := s2.base.fCounter, x := r.x, fx := r.fx, extras := r.extras }
    let s3 := { s2 with chunk := dictSet s2.chunk r.optId (c ++ [row]) }
    if s3.est * s3.pending > 100000000 then s3.flush (some r.optId) else (s3, none)

/-- One pass of the loop in `clear_cache` (optimizerlogger.py:490-496). -/
def clear1 (s : FileLogger) (o : Nat) : FileLogger × Option Err :=
  let r : FileLogger × Option Err :=
    if (dictGet s.chunk o).isSome then
      match s.flush1 o with
      | (s', none) => ({ s' with chunk := dictDel s'.chunk o }, none)
      | (s', some e) => (s', some e)
    else (s, none)
  match r with
  | (s', some e) => (s', some e)
  | (s', none) =>
    if (dictGet s'.base.storage o).isSome then
      let b := s'.base.clearCache (some o)
      ({ s' with base := b.1 }, b.2)
    else (s', none)

/-- The loop of `clear_cache` (optimizerlogger.py:490-496). -/
def clearList (s : FileLogger) : List Nat → FileLogger × Option Err
  | [] => (s, none)
  | o :: os =>
    match s.clear1 o with
    | (s', none) => clearList s' os
    | (s', some e) => (s', some e)

/-- `FileLogger.clear_cache` (optimizerlogger.py:485-496). -/
def clearCache (s : FileLogger) (optId : Option Nat) : FileLogger × Option Err :=
  match optId with
  | none => s.clearList (List.range' 1 s.oCounter)
  | some 0 => s.clearList (List.range' 1 s.oCounter)
  | some i => s.clearList [i]

/-- Position of a name in the list of extra columns. Belongs to the model of `optimizerlogger.py:455`. -/
def headerIdx : List String → String → Option Nat
  | [], _ => none
  | h :: t, k => if h = k then some 0 else (headerIdx t k).map (· + 1)

/-- PyTables `Table.col(track)` (optimizerlogger.py:455); `none` if there is no such column. -/
def Table.col (t : Table) (track : String) : Option (List Cell) :=
  if track = "call_id" then some (t.rows.map fun r => .nat r.callId)
  else if track = "x" then some (t.rows.map fun r => .vec r.x)
  else if track = "fx" then some (t.rows.map fun r => .num r.fx)
  else match headerIdx t.extraHeaders track with
    | none => none
    | some k => some (t.rows.map fun r => .num (r.extras.getD k .nan))

/-- `BaseLogger.get_history` with the overridden `has_iter_history` (optimizerlogger.py:169-171, 402-403). -/
def baseHistory (s : FileLogger) (i : Nat) (track : String) : Except Err (List Cell) :=
  if s.hasIterHistory i then
    match dictGet s.base.storage i with
    | none => .error .keyError
    | some st =>
      match dictGet st.cols track with
      | none => .error .keyError
      | some c => .ok c
  else .ok []

/-- `FileLogger.get_history` (optimizerlogger.py:448-457). It may write the buffer, hence the new state. -/
def getHistory (s : FileLogger) (i : Nat) (track : String) : FileLogger × Except Err (List Cell) :=
  match s.baseHistory i track with
  | .ok c => (s, .ok c)
  | .error _ =>
    if s.hasIterHistory i then
      match s.flush (some i) with
      | (s', some e) => (s', .error e)
      | (s', none) =>
        match dictGet s'.tables i with
        | none => (s', .error .other)
        | some t =>
          match Table.col t track with
          | none => (s', .error .other)
          | some c => (s', .ok c)
    else (s, .ok [])

/-- `FileLogger.close` as far as the tables are concerned (optimizerlogger.py:519-530). -/
def close (s : FileLogger) : FileLogger × Option Err := s.flush none

/-- The operations by which the manager changes a file logger. Belongs to the model of `optimizerlogger.py:471-483`. -/
inductive FOp where
  | add (i : Nat) (t : String)
  | addHist (i : Nat) (hs : List String)
  | put (r : IterRes) (size : Nat)
  | flush (i : Option Nat)
  | clear (i : Option Nat)
  | read (i : Nat) (track : String)
  deriving Repr

/-- One operation (exceptions leave the state reached). Belongs to the model of `optimizerlogger.py:335-349`, `optimizerlogger.py:366-383`, `optimizerlogger.py:385-400`, `optimizerlogger.py:471-483`. -/
def step (s : FileLogger) : FOp → FileLogger × Option Err
  | .add i t => s.addOptimizer i t
  | .addHist i hs => s.addIterHistory i hs
  | .put r n => s.putIteration r n
  | .flush i => s.flush i
  | .clear i => s.clearCache i
  | .read i k => ((s.getHistory i k).1, none)

/-- State after a sequence of operations. Belongs to the model of `optimizerlogger.py:335-349`, `optimizerlogger.py:471-483`. -/
def run (s : FileLogger) (ops : List FOp) : FileLogger := ops.foldl (fun s op => (s.step op).1) s

end FileLogger
end Glompo
