import Verif.Model.Sessions

/-!
# What really happened: sessions as intervals of time
-/

namespace Glompo.Spec.Sessions

open Glompo Glompo.Sessions

/-- Where a manager is in its life; a running session has a beginning and possibly a moment of convergence. -/
inductive Phase where
  | ready
  | running (since : Rat) (converged : Option Rat)
  | done
  deriving DecidableEq, Repr

/-- The sessions which led to this manager, and its phase. -/
structure Life where
  past : List (Rat × Rat)
  phase : Phase
  deriving DecidableEq, Repr

/-- The living manager and for each checkpoint the sessions which led to it. -/
structure Truth where
  life : Option Life := none
  saved : List (List (Rat × Rat)) := []
  deriving DecidableEq, Repr, Inhabited

/-- A checkpoint taken at `t` knows all earlier sessions and the running one up to `t`. -/
def known (l : Life) (t : Rat) : List (Rat × Rat) :=
  match l.phase with
  | .running s _ => l.past ++ [(s, t)]
  | _ => l.past

/-- A session ends when it converged, or else when it stops. -/
def after (l : Life) (e : Event) : Life :=
  match e, l.phase with
  | .start t, .ready => { l with phase := .running t none }
  | .start t, .done => { l with phase := .running t none }
  | .converge t, .running s _ => { l with phase := .running s (some t) }
  | .finish t, .running s c => { past := l.past ++ [(s, c.getD t)], phase := .done }
  | _, _ => l

/-- One event. -/
def next (w : Truth) (e : Event) : Truth :=
  match e, w.life with
  | .fresh, _ => { w with life := some ⟨[], .ready⟩ }
  | .kill, _ => { w with life := none }
  | .load i, _ =>
    match w.saved[i]? with
    | some p => { w with life := some ⟨p, .ready⟩ }
    | none => w
  | .checkpoint t, some l => { w with saved := w.saved ++ [known l t] }
  | e, some l => { w with life := some (after l e) }
  | _, none => w

/-- A history from nothing. -/
def truth (es : List Event) : Truth := es.foldl next default

/-- What a user does who starts every manager object once and takes checkpoints only while it runs (or before the first session). -/
def Ordinary (w : Truth) : Event → Prop
  | .start _ => ∀ l, w.life = some l → l.phase ≠ .done
  | .checkpoint _ => ∀ l, w.life = some l → (∃ s c, l.phase = .running s c) ∨ l.past = []
  | .interrupted _ => False
  | _ => True

/-- Every event is ordinary at its time. -/
def AllOrdinary (es : List Event) : Prop := ∀ pre e post, es = pre ++ e :: post → Ordinary (truth pre) e

/-- Total length of sessions. -/
def total (l : List (Rat × Rat)) : Rat := (l.map fun p => p.2 - p.1).sum

/-- Local time is ahead by a constant. -/
def NoChange (z : Zone) : Prop := ∃ k, ∀ t, z t = k

end Glompo.Spec.Sessions
