import Verif.Model.Redirect

/-!
# Vocabulary of print redirection

Histories have the most recent operation first.
-/

namespace Glompo.Spec.Redirect

open Glompo Glompo.Redirect

/-- The operation closes the file of `t`: it names `t`, or nobody. -/
def Closes (o : Op) (t : Tid) : Prop := o = .close (some t) ∨ o = .close (some 0) ∨ o = .close none

instance (o : Op) (t : Tid) : Decidable (Closes o t) := by unfold Closes; infer_instance

/-- The file thread `t` is redirected to at present: the one it registered last, unless it was closed since. -/
def current : List Op → Tid → Option Path
  | [], _ => none
  | .register u p :: h, t => if u = t then some p else current h t
  | o :: h, t => if Closes o t then none else current h t

/-- The message thread `t` is in the middle of writing. -/
def said : List Op → Tid → Option (List Char)
  | [], _ => none
  | .look u m :: h, t => if u = t then some m else said h t
  | .put u :: h, t => if u = t then none else said h t
  | .register u _ :: h, t => if u = t then none else said h t
  | .flush _ :: h, t => said h t
  | .close c :: h, t => if Closes (.close c) t then none else said h t

/-- What was printed by threads while they were redirected to the file, in order. -/
def fileText (p : Path) : List Op → List Char
  | [] => []
  | .put t :: h => fileText p h ++ (if current h t = some p then (said h t).getD [] else [])
  | _ :: h => fileText p h

/-- What was printed by threads while they were not redirected, in order. -/
def streamText : List Op → List Char
  | [] => []
  | .put t :: h => streamText h ++ (if current h t = none then (said h t).getD [] else [])
  | _ :: h => streamText h

/-- The files registered. -/
def regs : List Op → List Path
  | [] => []
  | .register _ p :: h => p :: regs h
  | _ :: h => regs h

/-- No file is registered twice. -/
def Once (h : List Op) : Prop := (regs h).Nodup

/-- Nobody closes or registers a thread's file while that thread is in the middle of writing. -/
def Calm : List Op → Prop
  | [] => True
  | .put t :: h => (said h t).isSome ∧ Calm h
  | _ :: h => Calm h

end Glompo.Spec.Redirect
