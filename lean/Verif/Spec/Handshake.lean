import Verif.Model.Handshake

/-!
# Vocabulary of the checkpoint hand-shake
-/

namespace Glompo.Spec.Handshake

open Glompo Glompo.Handshake

/-- A state that some interleaving leads to. -/
def Reachable (σ : Sys) : Prop := ∃ as, run {} as = some σ

/-- Something done by an optimizer. -/
def ByOptimizer (a : Act) : Prop := ∃ i b, a = .opt i b

/-- Something after which optimizer `i` need not be saved: it ends, fails or dies, or the manager tells it to stop. -/
def EndOf (i : Nat) (a : Act) : Prop :=
  a = .mgr (.kill i) ∨ a = .opt i .finish ∨ a = .opt i .crash ∨ a = .opt i .die ∨ a = .opt i .breakSave

/-- The manager counts on optimizer `i`: it has replied, and the manager will wait until it has cleared its event. -/
def CountsOn : Pc → Nat → Prop
  | .waiting w h, i => i ∈ h.living ∧ i ∉ w
  | .draining h, i | .asserting h, i | .telling _ h, i => i ∈ h.living
  | .clearing w _, i => i ∈ w
  | _, _ => False

/-- Living and not at its end. -/
def Well (o : Opt) : Prop := o.alive = true ∧ o.phase ≠ .ended ∧ o.phase ≠ .gone

end Glompo.Spec.Handshake
