import Verif.Spec.Logger
import Verif.Model.FileLogger

/-!
# Specification vocabulary for the file backed logger
-/

namespace Glompo.Spec

open Glompo.Logger (Op)
open Glompo.FileLogger (FOp)

/-- The calls of a file logger history which also exist for the in-memory logger. -/
def toOps (ops : List FOp) : List Op :=
  ops.filterMap fun op => match op with
    | .add i t => some (.add i t)
    | .addHist i hs => some (.addHist i hs)
    | .put r _ => some (.put r)
    | .clear i => some (.clear i)
    | .flush _ => none
    | .read _ _ => none

/-- `clear_cache` was called for optimizer `i` (or for all). -/
def Released (ops : List FOp) (i : Nat) : Prop :=
  FOp.clear none ∈ ops ∨ FOp.clear (some 0) ∈ ops ∨ FOp.clear (some i) ∈ ops

/-- A file logger history as the manager produces it: well formed, and a released optimizer neither opens a history
nor logs another evaluation. Flushes, reads and releases may come at any time. -/
def FWellFormed (ops : List FOp) : Prop :=
  WellFormed (toOps ops) ∧
  ∀ pre op post, ops = pre ++ op :: post →
    (∀ r n, op = .put r n → ¬ Released pre r.optId) ∧ (∀ i hs, op = .addHist i hs → ¬ Released pre i)

/-- The rows which the evaluations of optimizer `i` amount to. -/
def rowsOf (es : List IterRes) (i : Nat) : List Row :=
  ((es.zipIdx 1).filter fun p => p.1.optId == i).map fun p =>
    { callId := p.2, x := p.1.x, fx := p.1.fx, extras := p.1.extras }

end Glompo.Spec
