import Verif.Model.Manager
import Verif.Model.Convergence

/-!
# What the convergence criteria see of the running manager
-/

namespace Glompo.Manager

/-- The attributes of the manager which the bundled criteria read: `f_counter` (fmax.py:14), `o_counter` (omax.py:14),
`conv_counter` (nconv.py:17, nkillsafterconv.py:20), `len(hunt_victims)` (nkills.py:14, nkillsafterconv.py:22-24), `result.fx`
(ftarget.py:15-16), and the clock (tmax.py:36-40), which is not part of the model of the manager and given from outside. -/
def State.view (s : State) (now : Rat) (tStart : Option Rat) (tUsed : Rat) : CView :=
  { fCounter := s.fCounter, oCounter := s.oCounter, convCounter := s.convCounter, kills := s.victims.length
    best := s.result.fx, now := now, tStart := tStart, tUsed := tUsed }

end Glompo.Manager
