import Verif.Model.DeepSize

/-!
# Sizes of objects

What a size of a Python object should be: its own and those of everything in it.
-/

namespace Glompo.Spec

open Glompo.DeepSize

mutual

/-- The memory of an object with everything in it. -/
def trueSize : Obj → Nat
  | .leaf n => n
  | .seq n l => n + trueSizes l
  | .dict n l => n + trueEntries l

/-- Of all items. -/
def trueSizes : List Obj → Nat
  | [] => 0
  | o :: t => trueSize o + trueSizes t

/-- Of all keys and values. -/
def trueEntries : List (Obj × Obj) → Nat
  | [] => 0
  | (k, v) :: t => (trueSize k + trueSize v) + trueEntries t

end

mutual

/-- No dictionary is smaller than an empty one, of size `e`. -/
def DictsFrom (e : Nat) : Obj → Prop
  | .leaf _ => True
  | .seq _ l => DictsFromL e l
  | .dict n l => e ≤ n ∧ DictsFromD e l

/-- In a list. -/
def DictsFromL (e : Nat) : List Obj → Prop
  | [] => True
  | o :: t => DictsFrom e o ∧ DictsFromL e t

/-- In a dictionary. -/
def DictsFromD (e : Nat) : List (Obj × Obj) → Prop
  | [] => True
  | (k, v) :: t => (DictsFrom e k ∧ DictsFrom e v) ∧ DictsFromD e t

end

mutual

/-- Lists, tuples and sets, with leaves in them, but no dictionaries. -/
def NoDict : Obj → Prop
  | .leaf _ => True
  | .seq _ l => NoDicts l
  | .dict _ _ => False

/-- In a list. -/
def NoDicts : List Obj → Prop
  | [] => True
  | o :: t => NoDict o ∧ NoDicts t

end

mutual

/-- The memory of the leaves in an object. -/
def leavesSize : Obj → Nat
  | .leaf n => n
  | .seq _ l => leavesSizes l
  | .dict _ l => leavesEntries l

/-- In a list. -/
def leavesSizes : List Obj → Nat
  | [] => 0
  | o :: t => leavesSize o + leavesSizes t

/-- In a dictionary. -/
def leavesEntries : List (Obj × Obj) → Nat
  | [] => 0
  | (k, v) :: t => (leavesSize k + leavesSize v) + leavesEntries t

end

end Glompo.Spec
