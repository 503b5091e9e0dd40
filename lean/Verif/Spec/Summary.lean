import Verif.Model.Summary

/-!
# What a summary file is meant to say, independently of how it is written
-/

namespace Glompo.Summary

/-- `p` is `o` or a part of it: an item, an entry, an attribute, or a part of one. -/
inductive Inside (p : Obj) : Obj → Prop where
  | self : Inside p p
  | item {o l} (h : o ∈ l) (i : Inside p o) : Inside p (.list l)
  | entry {k o l} (h : (k, o) ∈ l) (i : Inside p o) : Inside p (.dict l)
  | place {o l} (h : o ∈ l) (i : Inside p o) : Inside p (.tuple l)
  | cell {o l} (h : o ∈ l) (i : Inside p o) : Inside p (.npArray l)
  | attr {k o n l} (h : (k, o) ∈ l) (i : Inside p o) : Inside p (.inst n l)

/-- Tuples, functions, and classes without a metaclass. -/
def Foreign : Obj → Prop
  | .tuple _ => True
  | .function _ => True
  | .cls hasMeta _ => hasMeta = false
  | _ => False

/-- Nothing foreign inside. -/
def Clean (o : Obj) : Prop := ∀ p, Inside p o → ¬ Foreign p

/-- Nothing foreign in the settings the user supplies. -/
def CleanSettings (m : Facts) : Prop :=
  (∀ a ∈ m.generator.2, Clean a.2) ∧ Clean m.selector.allowSpawn ∧ ∀ o ∈ m.selector.avail, ∀ x ∈ o, Clean x

/-- `Same o v`: the native value `v` says what the object `o` is. Classes are named; objects are a dictionary with their class as the key
and the attributes, or nothing if there are none, as the value; texts may lose blanks at the ends of lines. -/
inductive Same : Obj → Val → Prop where
  | scal (v) : Same (.scal v) (.scal v)
  | literal (s t) (h : t.filter (· ≠ ' ') = s.filter (· ≠ ' ')) : Same (.literal s) (.scal (.str t))
  | noItem : Same (.list []) (.list [])
  | items {o v l vs} (h : Same o v) (t : Same (.list l) (.list vs)) : Same (.list (o :: l)) (.list (v :: vs))
  | noEntry : Same (.dict []) (.dict [])
  | entries {k o v l vs} (h : Same o v) (t : Same (.dict l) (.dict vs)) : Same (.dict ((k, o) :: l)) (.dict ((k, v) :: vs))
  | npScalar (v) : Same (.npScalar v) (.scal v)
  | npArray {l vs} (h : Same (.list l) (.list vs)) : Same (.npArray l) (.list vs)
  | cls (m n) : Same (.cls m n) (.scal (.str n))
  | bare (n) : Same (.inst n []) (.dict [(.str n, .scal .none)])
  | inst {n l vs} (hl : l ≠ []) (h : Same (.dict (l.map fun a => (.str a.1, a.2))) (.dict vs)) :
      Same (.inst n l) (.dict [(.str n, .dict vs)])

/-- The value found by following keys. -/
def Val.at : Val → List Key → Option Val
  | v, [] => some v
  | .dict l, k :: ks =>
    match dictGet l k with
    | none => none
    | some v => v.at ks
  | _, _ :: _ => none

end Glompo.Summary
