import Verif.Model.Logger
import Verif.Model.Checkpoint

/-!
# Names of extra results in the log

A task with `detailed_call` returns more than the function value. What it returns is logged in columns whose names come from
`BaseFunction.headers` or from `infer_headers`: `_process_results` (`glompo/core/manager.py:1493-1508`), `infer_headers`
(`glompo/common/helpers.py:342-394`), `BaseLogger.add_iter_history` and `put_iteration` (`glompo/core/optimizerlogger.py:89-96, 124-143`) and
the same of `FileLogger` (385-400, 405-418, 471-483), for one optimizer. `Model/FileLogger` has all optimizers, but only numbers as extra
results, and takes columns to be in the order of the headings; here the order is the one PyTables gives them.
-/

namespace Glompo.Headers

open Glompo
open Glompo.Checkpoint (Name dec nameLe)

/-- Elements of arrays. Belongs to the model of `helpers.py:369-392`. -/
inductive Elem where
  | float | int | bool | str
  deriving DecidableEq, Repr

/-- Values of evaluations as far as `infer_headers` distinguishes them. `array` is a list, tuple or array of at least one dimension with its
shape and, in one row, its entries; `other` is anything else, among it numpy's own integers, booleans and single precision numbers, which are
not instances of Python's types. Belongs to the model of `helpers.py:369-392`. -/
inductive Val where
  | float (v : PyF)
  | bool (b : Bool)
  | int (n : Int)
  | str (s : Name)
  | array (e : Elem) (shape : List Nat) (items : List PyF)
  | none
  | complex (re im : Rat)
  | other (id : Nat)
  deriving DecidableEq, Repr

/-- Types of columns (`tables.Col`). Belongs to the model of `helpers.py:369-392`. -/
inductive Kind where
  | uint32
  | float64
  | bool
  | int64
  | string (size : Nat)
  | complex128
  | array (e : Elem) (shape : List Nat)
  deriving DecidableEq, Repr

/-- A column as it is described to PyTables: type and, if given, position. Belongs to the model of `helpers.py:366-394`. -/
structure Col where
  kind : Kind
  pos : Option Int
  deriving DecidableEq, Repr

/-- A dictionary of descriptions. Belongs to the model of `helpers.py:366-394`. -/
abbrev Heads := List (Name × Col)

/-! ### Headings -/

/-- The type for a value (helpers.py:369-392). -/
def inferKind : Val → Except Err Kind
  | .float _ => .ok .float64
  | .bool _ => .ok .bool
  | .int _ => .ok .int64
  | .str _ => .ok (.string 280)
  | .array e s _ => .ok (.array e s)
  | .none => .ok .float64
  | .complex _ _ => .ok .complex128
  | .other _ => .error .typeError

/-- `f'result_{pos}'`. Belongs to the model of `helpers.py:366-394`. -/
def resultName (i : Nat) : Name := "result_".toList ++ dec i

/-- `infer_headers` (helpers.py:366-394), from position `i` on. -/
def infer : Nat → List Val → Except Err Heads
  | _, [] => .ok []
  | i, v :: t =>
    match inferKind v with
    | .error e => .error e
    | .ok k =>
      match infer (i + 1) t with
      | .error e => .error e
      | .ok l => .ok ((resultName i, ⟨k, some i⟩) :: l)

/-- An evaluation. Belongs to the model of `manager.py:1494-1500`. -/
structure Eval where
  x : List PyF
  fx : PyF
  extras : List Val
  deriving DecidableEq, Repr

/-- The headings of the table (manager.py:1494-1500). `task` is what `task.headers()` returns, `none` if it is not implemented. -/
def headings (task : Option Heads) (e : Eval) : Except Err Heads :=
  if e.extras = [] then .ok []
  else match task with
    | some h => .ok h
    | none => infer 0 e.extras

/-! ### The log file -/

/-- The columns every table has (optimizerlogger.py:388-390); `n` is the number of parameters. -/
def baseHeads (n : Nat) : Heads :=
  [("call_id".toList, ⟨.uint32, some (-3)⟩), ("x".toList, ⟨.array .float [n], some (-2)⟩), ("fx".toList, ⟨.float64, some (-1)⟩)]

/-- `{**headers, **extra_headers}` (optimizerlogger.py:392-393): a name which is there already keeps its place in the dictionary. -/
def merge (d extra : Heads) : Heads := extra.foldl (fun d p => dictSet d p.1 p.2) d

/-- Order of positions, then of names. Belongs to the model of `optimizerlogger.py:395-399`. -/
def posLe (a b : Int × Name × Kind) : Bool := decide (a.1 < b.1) || (decide (a.1 = b.1) && nameLe a.2.1 b.2.1)

/-- Insertion into a sorted list. Belongs to the model of `optimizerlogger.py:395-399`. -/
def insert {A : Type} (le : A → A → Bool) (a : A) : List A → List A
  | [] => [a]
  | b :: t => if le a b then a :: b :: t else b :: insert le a t

/-- `list.sort`. Belongs to the model of `optimizerlogger.py:395-399`. -/
def sort {A : Type} (le : A → A → Bool) : List A → List A
  | [] => []
  | a :: t => insert le a (sort le t)

/-- The descriptions with a position. Belongs to the model of `optimizerlogger.py:395-399`. -/
def placed : Heads → List (Int × Name × Kind)
  | [] => []
  | (n, ⟨k, some p⟩) :: t => (p, n, k) :: placed t
  | (_, ⟨_, none⟩) :: t => placed t

/-- The descriptions without. Belongs to the model of `optimizerlogger.py:395-399`. -/
def unplaced : Heads → List (Name × Kind)
  | [] => []
  | (_, ⟨_, some _⟩) :: t => unplaced t
  | (n, ⟨k, none⟩) :: t => (n, k) :: unplaced t

/-- The columns of a table made from a dictionary (`create_table`, optimizerlogger.py:395-399; `Description.__init__` of PyTables): first those
with positions, in this order, then the others in the order of their names. -/
def columns (h : Heads) : List (Name × Kind) :=
  (sort posLe (placed h)).map (·.2) ++ sort (fun a b => nameLe a.1 b.1) (unplaced h)

/-- A table. Belongs to the model of `optimizerlogger.py:481`. -/
structure Table where
  cols : List (Name × Kind)
  rows : List (List Val)
  deriving DecidableEq, Repr

/-- Whether a row can be stored: one value for each column, of a fitting type. What fits is left open. Belongs to the model of `optimizerlogger.py:481`. -/
def rowFits (fits : Kind → Val → Bool) (cols : List (Name × Kind)) (row : List Val) : Bool :=
  decide (cols.length = row.length) && (cols.zip row).all fun p => fits p.1.2 p.2

/-- `Table.append` (optimizerlogger.py:481): all rows or none. Simplification: values are stored as they are, whereas the file cuts off long
strings and converts numbers. -/
def append (fits : Kind → Val → Bool) (t : Table) (rows : List (List Val)) : Except Err Table :=
  if rows.all (rowFits fits t.cols) then .ok { t with rows := t.rows ++ rows } else .error .valueError

/-- The log of one optimizer in a `FileLogger`: the counter of evaluations of all optimizers, the table and the rows not written yet. Belongs to the model of `manager.py:1493-1505`. -/
structure File where
  count : Nat
  table : Option Table
  chunk : List (List Val)
  deriving DecidableEq, Repr

/-- The row of an evaluation (optimizerlogger.py:414-415). -/
def row (count : Nat) (e : Eval) : List Val := .int count :: .array .float [e.x.length] e.x :: .float e.fx :: e.extras

/-- A result of the optimizer arrives (manager.py:1493-1505, optimizerlogger.py:385-400, 405-415). -/
def result (n : Nat) (task : Option Heads) (s : File) (e : Eval) : File × Option Err :=
  let put (s : File) : File := { s with count := s.count + 1, chunk := s.chunk ++ [row (s.count + 1) e] }
  match s.table with
  | some _ => (put s, none)
  | none =>
    match headings task e with
    | .error x => (s, some x)
    | .ok h => (put { s with table := some ⟨columns (merge (baseHeads n) h), []⟩ }, none)

/-- `flush` (optimizerlogger.py:471-483). -/
def flush (fits : Kind → Val → Bool) (s : File) : File × Option Err :=
  if s.chunk = [] then (s, none)
  else match s.table with
    | none => (s, some .other)
    | some t =>
      match append fits t s.chunk with
      | .error e => (s, some e)
      | .ok t' => ({ s with table := some t', chunk := [] }, none)

/-- What happens: evaluations of this optimizer, of others, and writing, which may happen at any time. Belongs to the model of `manager.py:1494-1500`, `optimizerlogger.py:471-483`. -/
inductive Op where
  | eval (e : Eval)
  | other
  | flush
  deriving DecidableEq, Repr

/-- One of these. Belongs to the model of `helpers.py:369-392`, `helpers.py:366-394`, `manager.py:1493-1505`, `optimizerlogger.py:471-483`. -/
def step (fits : Kind → Val → Bool) (n : Nat) (task : Option Heads) (s : File) : Op → File × Option Err
  | .eval e => result n task s e
  | .other => ({ s with count := s.count + 1 }, none)
  | .flush => flush fits s

/-- A sequence of them. An exception ends the run. Belongs to the model of `helpers.py:369-392`, `helpers.py:366-394`, `manager.py:1493-1505`, `manager.py:1494-1500`. -/
def run (fits : Kind → Val → Bool) (n : Nat) (task : Option Heads) : File → List Op → File × Option Err
  | s, [] => (s, none)
  | s, op :: t =>
    match step fits n task s op with
    | (s', some e) => (s', some e)
    | (s', none) => run fits n task s' t

/-- An optimizer in a new log file. Belongs to the model of `manager.py:1493-1505`. -/
def newFile : File := ⟨0, none, []⟩

/-! ### The log in memory -/

/-- Storage of one optimizer in a `BaseLogger` with the counter. What `metadata` and `messages` hold is left out. Belongs to the model of `optimizerlogger.py:83-87`. -/
structure Mem where
  count : Nat
  store : List (Name × List Val)
  deriving DecidableEq, Repr

/-- `add_optimizer` (optimizerlogger.py:83-87). -/
def newMem : Mem := ⟨0, [("metadata".toList, []), ("messages".toList, [])]⟩

/-- `add_iter_history` (optimizerlogger.py:89-96). -/
def addHistory (h : Heads) (st : List (Name × List Val)) : List (Name × List Val) :=
  (["call_id".toList, "x".toList, "fx".toList] ++ h.map (·.1)).foldl (fun d k => dictSet d k []) st

/-- The loop of `put_iteration` (optimizerlogger.py:139-143): the shorter of both decides; `vals` begins with two entries which are
skipped with `metadata` and `messages`. -/
def putZip : List (Name × List Val) → List (Option Val) → List (Name × List Val)
  | (k, l) :: t, v :: vs =>
    (k, if k = "metadata".toList ∨ k = "messages".toList then l else match v with | some v => l ++ [v] | none => l ++ [.none]) :: putZip t vs
  | st, _ => st

/-- A result of the optimizer arrives (manager.py:1493-1505, optimizerlogger.py:124-143). -/
def resultMem (task : Option Heads) (s : Mem) (e : Eval) : Mem × Option Err :=
  let put (s : Mem) : Mem :=
    { s with count := s.count + 1, store := putZip s.store (none :: none :: (row (s.count + 1) e).map some) }
  if (dictGet s.store "fx".toList).isSome = true then (put s, none)
  else match headings task e with
    | .error x => (s, some x)
    | .ok h => (put { s with store := addHistory h s.store }, none)

/-- One of the happenings; nothing is written. Belongs to the model of `helpers.py:366-394`, `optimizerlogger.py:471-483`, `manager.py:1494-1500`, `optimizerlogger.py:83-87`. -/
def stepMem (task : Option Heads) (s : Mem) : Op → Mem × Option Err
  | .eval e => resultMem task s e
  | .other => ({ s with count := s.count + 1 }, none)
  | .flush => (s, none)

/-- A sequence of them. Belongs to the model of `helpers.py:366-394`, `manager.py:1494-1500`, `optimizerlogger.py:83-87`. -/
def runMem (task : Option Heads) : Mem → List Op → Mem × Option Err
  | s, [] => (s, none)
  | s, op :: t =>
    match stepMem task s op with
    | (s', some e) => (s', some e)
    | (s', none) => runMem task s' t

end Glompo.Headers
