import Verif.Model.Names

/-!
# What the file of an optimizer should hold

Independent of the names of files.
-/

namespace Glompo.NamesSpec

open Names (Op Std)

/-- What optimizer `i` printed to `s`, in order. -/
def said (i : Nat) (s : Std) : List Op → List Char
  | [] => []
  | .print j s' t :: l => if j = i ∧ s' = s then t ++ said i s l else said i s l
  | .start _ :: l => said i s l

/-- Optimizer `i` begins. -/
def begins (i : Nat) (l : List Op) : Prop := Op.start i ∈ l

end Glompo.NamesSpec
