import Verif.Model.Logger

/-!
# Arguments of new optimizers: `BaseSelector.__init__` (`glompo/opt_selectors/baseselector.py:64-102`) and
`_setup_new_optimizer` (`glompo/core/manager.py:1297-1353`)

Python dictionaries are objects: two names may stand for the same one, and a change by one name is seen by the other. So dictionaries
live in a store and are known by their address. Values `V` are opaque. Arguments which cannot be parsed are in `Model/Selectors`.
-/

namespace Glompo.Spawn

open Glompo

/-- A dictionary of keyword arguments. Belongs to the model of `manager.py:1341-1353`. -/
abbrev Dict (V : Type) := List (String × V)

/-- All dictionaries, by address. Belongs to the model of `baseselector.py:77-83`. -/
abbrev Store (V : Type) := List (Dict V)

/-- The dictionary at an address. Belongs to the model of `manager.py:1341-1353`, `baseselector.py:77-83`. -/
def view {V : Type} (σ : Store V) (a : Nat) : Dict V := σ.getD a []

/-- An element of `avail_opts`: a class of optimizers, or a tuple with the dictionaries, or `None`, for initialisation and call. Belongs to the model of `baseselector.py:71-94`. -/
inductive Item where
  | bare (cls : String)
  | full (cls : String) (init call : Option Nat)
  deriving DecidableEq, Repr

/-- An entry of the attribute `avail_opts`: class and the addresses of both dictionaries. Belongs to the model of `baseselector.py:71-94`. -/
structure Entry where
  cls : String
  init : Nat
  call : Nat
  deriving DecidableEq, Repr

/-- `if x is None: x = {}` (baseselector.py:77-83). -/
def orNew {V : Type} (σ : Store V) : Option Nat → Store V × Nat
  | some a => (σ, a)
  | none => (σ ++ [[]], σ.length)

/-- Lines 86-87: `workers` is added to the dictionary, in place. -/
def addWorkers {V : Type} (one : V) (σ : Store V) (a : Nat) : Store V :=
  if (dictGet (view σ a) "workers").isSome then σ else σ.set a (dictSet (view σ a) "workers" one)

/-- The body of the loop of baseselector.py:71-94, for elements which can be parsed. `one` is the number 1. -/
def parseOne {V : Type} (one : V) (σ : Store V) : Item → Store V × Entry
  | .bare c => (σ ++ [[("workers", one)], []], ⟨c, σ.length, σ.length + 1⟩)
  | .full c i k =>
    let (σ1, a) := orNew σ i
    let (σ2, b) := orNew σ1 k
    (addWorkers one σ2 a, ⟨c, a, b⟩)

/-- The loop of baseselector.py:71-94. -/
def parse {V : Type} (one : V) : Store V → List Item → Store V × List Entry
  | σ, [] => (σ, [])
  | σ, it :: t =>
    let (σ1, e) := parseOne one σ it
    let (σ2, es) := parse one σ1 t
    (σ2, e :: es)

/-- What an optimizer is created and called with (manager.py:1341-1353), apart from what the manager adds of its own. -/
structure Created (V : Type) where
  cls : String
  backend : V
  init : Dict V
  call : Dict V
  deriving DecidableEq, Repr

/-- How the manager works: with processes or threads, and the backend optimizers get by default (line 1339). -/
structure Mode (V : Type) where
  processes : Bool
  default : V

/-- Lines 1320-1353 for the entry the selector returned. With threads both dictionaries are copied first (lines 1321-1326); the entry
`backend` is taken out of the dictionary in place (lines 1335-1339). -/
def setUp {V : Type} (m : Mode V) (σ : Store V) (e : Entry) : Store V × Created V :=
  let (σ1, a, b) := if m.processes then (σ, e.init, e.call) else (σ ++ [view σ e.init, view σ e.call], σ.length, σ.length + 1)
  match dictGet (view σ1 a) "backend" with
  | some v =>
    let σ2 := σ1.set a (dictDel (view σ1 a) "backend")
    (σ2, ⟨e.cls, v, view σ2 a, view σ2 b⟩)
  | none => (σ1, ⟨e.cls, m.default, view σ1 a, view σ1 b⟩)

/-- Setting up one optimizer after the other, the selector choosing by index; an index out of range gives nothing. Belongs to the model of `baseselector.py:77-83`, `baseselector.py:71-94`, `manager.py:1341-1353`. -/
def setUpAll {V : Type} (m : Mode V) (es : List Entry) : Store V → List Nat → Store V × List (Option (Created V))
  | σ, [] => (σ, [])
  | σ, i :: t =>
    match es[i]? with
    | none => let (σ2, l) := setUpAll m es σ t; (σ2, none :: l)
    | some e =>
      let (σ1, o) := setUp m σ e
      let (σ2, l) := setUpAll m es σ1 t
      (σ2, some o :: l)

/-- A whole run: the selector is made from the user's elements, then optimizers are set up. Belongs to the model of `baseselector.py:77-83`, `baseselector.py:71-94`, `manager.py:1341-1353`. -/
def run {V : Type} (one : V) (m : Mode V) (σ : Store V) (items : List Item) (choices : List Nat) :
    Store V × List (Option (Created V)) :=
  let (σ1, es) := parse one σ items
  setUpAll m es σ1 choices

end Glompo.Spawn
