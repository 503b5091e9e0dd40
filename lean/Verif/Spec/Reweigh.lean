import Verif.Model.Reweigh
import Verif.Spec.Params

/-! # Which entry a reference means, and what is asked for -/

namespace Glompo.Spec.Reweigh

open Glompo Glompo.Params Glompo.Reweigh

/-- The reference means entry `n`: its position, its position counted from the end, or its key (of the first entry which has this key). -/
def Means (d : DSet) (k : Key) (n : Nat) : Prop :=
  ∃ e, d[n]? = some e ∧ (k = .idx n ∨ k = .idx ((n : Int) - d.length) ∨
    (k = .str e.key ∧ ∀ m e', m < n → d[m]? = some e' → e'.key ≠ e.key))

/-- The reference means some entry. -/
def Known (d : DSet) (k : Key) : Prop := ∃ n, Means d k n

/-- The new weights asked for, one after the other; `none`: the weight is missing. -/
def asked : Resids → Option Rat → Option (List (Key × Rat))
  | .dict l, _ => some l
  | .seq l, some w => some (l.map fun k => (k, w))
  | .seq _, none => none

/-- The last of the new weights for entry `n` is `x`. -/
def LastFor (d : DSet) (l : List (Key × Rat)) (n : Nat) (x : Rat) : Prop :=
  ∃ pre k post, l = pre ++ (k, x) :: post ∧ Means d k n ∧ ∀ q ∈ post, ¬ Means d q.1 n

/-- The same problem: data, jobs and parameters. -/
def SameProblem (f g : ErrFn) : Prop := g.dat = f.dat ∧ g.jobs = f.jobs ∧ g.eng = f.eng

end Glompo.Spec.Reweigh
