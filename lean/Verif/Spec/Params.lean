import Verif.Model.Params

/-!
# Vocabulary of the ParAMS interface
-/

namespace Glompo.Spec.Params

open Glompo Glompo.Params

/-- The parameters a vector of length `n` stands for: the active ones if there are `n`, otherwise all. -/
def concerned (e : Eng) (n : Nat) : List Par := if n = (e.filter (·.active)).length then e.filter (·.active) else e

/-- A vector with one entry for each active parameter, or one for each parameter. -/
def Fits (e : Eng) (x : List Rat) : Prop := x ≠ [] ∧ (x.length = (e.filter (·.active)).length ∨ x.length = e.length)

/-- The position of parameter `i` among the active ones: how many come before it. -/
def relOf (e : Eng) (i : Nat) : Nat := ((e.take i).filter (·.active)).length

/-- Parameter `i` exists and is active. -/
def ActiveAt (e : Eng) (i : Nat) : Prop := ∃ p, e[i]? = some p ∧ p.active = true

/-- Names are not used twice. -/
def Unique (e : Eng) : Prop := (e.map (·.name)).Nodup

/-- Nothing but values has changed. -/
def SameButValues (e e' : Eng) : Prop := e'.map (fun p => { p with value := 0 }) = e.map (fun p => { p with value := 0 })

/-- Nothing but activity has changed. -/
def SameButActivity (e e' : Eng) : Prop := e'.map (fun p => { p with active := false }) = e.map (fun p => { p with active := false })

/-- The key stands for parameter `i`: its name, its position, or its position counted from the end. -/
def StandsFor (e : Eng) (k : Key) (i : Nat) : Prop :=
  ∃ p, e[i]? = some p ∧ (k = .str p.name ∨ k = .idx i ∨ k = .idx ((i : Int) - e.length))

/-- Cells match columns: a number for a number, an array of the length announced (or one value, for all entries). -/
inductive Matches : List Datum → List Col → Prop where
  | nil : Matches [] []
  | num {x n l c} (h : Matches l c) : Matches (.num x :: l) (.num n :: c)
  | arr {a n k l c} (ha : a.length = k ∨ a.length = 1) (h : Matches l c) : Matches (.arr a :: l) (.arr n k :: c)

end Glompo.Spec.Params
