import Verif.Spec.Manager

/-!
# Hunts are not put off
-/

namespace Glompo.Spec

open Glompo.Manager

/-- After the history `old`, whenever the result is renewed in `run`, with optimizer `i` as its finder, and a hunt is due by then, the next thing to
happen is a hunt by `i`. -/
def Prompt (cfg : Cfg) (old run : List Ev) : Prop :=
  ∀ a x f i b, run = a ++ .updated x f i :: b → 0 < i → cfg.hunting = true → cfg.huntFrequency ≤ sinceHunt (old ++ a) → ∃ b', b = .hunt i :: b'

end Glompo.Spec
