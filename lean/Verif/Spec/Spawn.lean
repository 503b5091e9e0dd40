import Verif.Model.Spawn

/-! # What an optimizer is to be created with -/

namespace Glompo.Spawn

variable {V : Type}

/-- The class the user named. -/
def Item.cls : Item → String
  | .bare c => c
  | .full c _ _ => c

/-- What the user's dictionaries say about an argument of initialisation. -/
def Item.asked (σ : Store V) : Item → String → Option V
  | .full _ (some a) _, k => dictGet (view σ a) k
  | _, _ => none

/-- What the user's dictionaries say about an argument of the call. -/
def Item.askedCall (σ : Store V) : Item → String → Option V
  | .full _ _ (some b), k => dictGet (view σ b) k
  | _, _ => none

/-- The address of the dictionary of initialisation, if the user gave one. -/
def Item.initAddr : Item → Option Nat
  | .full _ i _ => i
  | _ => none

def Item.callAddr : Item → Option Nat
  | .full _ _ k => k
  | _ => none

/-- All arguments but the backend are as asked for, `workers` being 1 if nothing else was asked for. -/
def ArgsAsAsked (one : V) (σ : Store V) (it : Item) (o : Created V) : Prop :=
  o.cls = it.cls ∧
  (∀ k, k ≠ "backend" → k ≠ "workers" → dictGet o.init k = it.asked σ k) ∧
  dictGet o.init "workers" = some ((it.asked σ "workers").getD one) ∧
  dictGet o.init "backend" = none ∧
  ∀ k, dictGet o.call k = it.askedCall σ k

/-- The backend is the one asked for, or the manager's default. -/
def BackendAsAsked (m : Mode V) (σ : Store V) (it : Item) (o : Created V) : Prop :=
  o.backend = (it.asked σ "backend").getD m.default

/-- The dictionaries of the user exist, and none serves both for initialisation and for calls. -/
def Sound (σ : Store V) (items : List Item) : Prop :=
  (∀ it ∈ items, ∀ a, it.initAddr = some a ∨ it.callAddr = some a → a < σ.length) ∧
  ∀ it ∈ items, ∀ it' ∈ items, ∀ a, it.initAddr = some a → it'.callAddr ≠ some a

end Glompo.Spawn
