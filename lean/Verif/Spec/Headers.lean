import Mathlib.Data.List.Forall2
import Verif.Model.Headers

/-!
# What a user expects to find in the log of a task with extra results
-/

namespace Glompo.Headers.Spec

open Glompo
open Glompo.Headers
open Glompo.Checkpoint (Name)

/-- The evaluations of the optimizer with their numbers among the evaluations of all optimizers, the first of which gets the number after
`count`. -/
def numbered : Nat → List Op → List (Nat × Eval)
  | _, [] => []
  | count, .eval e :: t => (count + 1, e) :: numbered (count + 1) t
  | count, .other :: t => numbered (count + 1) t
  | count, .flush :: t => numbered count t

/-- The elements of the return of `detailed_call`: the function value and the extra results. -/
def returned (e : Eval) : List Val := .float e.fx :: e.extras

/-- The column with this name holds these values. -/
def Holds (t : Table) (name : Name) (vals : List Val) : Prop :=
  ∃ k kind, t.cols[k]? = some (name, kind) ∧ (∀ (j : Nat) (c : Name × Kind), t.cols[j]? = some c → c.1 = name → j = k) ∧
    t.rows.map (·[k]?) = vals.map some

/-- Headings as `BaseFunction.headers` documents them, a name for each element of the return, the first being the function value, with the two
names left alone which the log uses itself. -/
structure Documented (h : Heads) : Prop where
  first : h.head?.map (·.1) = some "fx".toList
  distinct : (h.map (·.1)).Nodup
  call : "call_id".toList ∉ h.map (·.1)
  x : "x".toList ∉ h.map (·.1)

/-- Every heading has a position, and the positions grow, from some number above -2. -/
def Placed (h : Heads) : Prop :=
  (∀ p ∈ h, ∃ i : Int, p.2.pos = some i ∧ -2 < i) ∧
  h.Pairwise fun a b => ∀ i j, a.2.pos = some i → b.2.pos = some j → i < j

/-- The evaluation returns one value for each heading, more than the function value, all of fitting types. -/
def Returns (fits : Kind → Val → Bool) (n : Nat) (h : Heads) (e : Eval) : Prop :=
  e.extras ≠ [] ∧ (returned e).length = h.length ∧ (∀ c : Nat, fits .uint32 (.int c) = true) ∧
  fits (.array .float [n]) (.array .float [e.x.length] e.x) = true ∧
  ∀ (k : Nat) (p : Name × Col) (v : Val), h[k]? = some p → (returned e)[k]? = some v → fits p.2.kind v = true

/-- The type of column which holds a value. -/
inductive Suits : Kind → Val → Prop
  | float (v : PyF) : Suits .float64 (.float v)
  | bool (b : Bool) : Suits .bool (.bool b)
  | int (n : Int) : Suits .int64 (.int n)
  | str (s : Name) : Suits (.string 280) (.str s)
  | array (e : Elem) (shape : List Nat) (l : List PyF) : Suits (.array e shape) (.array e shape l)
  | none : Suits .float64 .none
  | complex (a b : Rat) : Suits .complex128 (.complex a b)

/-- The names of results without headings: `result_0`, `result_1`, ... -/
def IsResultName (i : Nat) (name : Name) : Prop :=
  ∃ s, name = "result_".toList ++ s ∧ s ≠ [] ∧ (∀ c ∈ s, Checkpoint.isDigit c = true) ∧ Checkpoint.undec s = i

/-- The evaluation returns extra results which suit these types of columns, one for each. -/
def Alike (fits : Kind → Val → Bool) (n : Nat) (ks : List Kind) (e : Eval) : Prop :=
  e.extras ≠ [] ∧ List.Forall₂ Suits ks e.extras ∧ (∀ c : Nat, fits .uint32 (.int c) = true) ∧
  fits (.array .float [n]) (.array .float [e.x.length] e.x) = true ∧ (∀ v, fits .float64 (.float v) = true) ∧
  ∀ (k : Nat) (c : Kind) (v : Val), ks[k]? = some c → e.extras[k]? = some v → fits c v = true

/-- In memory, the column with this name holds these values. -/
def HoldsMem (s : Mem) (name : Name) (vals : List Val) : Prop := dictGet s.store name = some vals

end Glompo.Headers.Spec
