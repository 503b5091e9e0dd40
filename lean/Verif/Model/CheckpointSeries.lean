import Verif.Model.Checkpoint

/-!
# Several checkpoints one after the other

`GloMPOManager.checkpoint` (`/repo/glompo/core/manager.py:1098-1200`) called again and again, each time with the name made by
`CheckpointingControl.get_name` (`/repo/glompo/core/checkpointing.py:128-159`) from what the directory holds then.
-/

namespace Glompo.Checkpoint

/-- A call of `checkpoint`: when, what is to be saved, and the exception raised while it is saved, if any (see
`Faults.build`). Simplification: compression, deletion and `rmtree` succeed. Belongs to the model of `manager.py:1120-1197`. -/
structure Attempt where
  now : Clock
  content : Nat
  fault : Option (Err × Bool)
deriving Repr, DecidableEq

/-- manager.py:1120-1197: one call. The directory exists (manager.py:1122, after the first call). -/
def attempt (fmt : List Char) (keepPast : Int) (raiseFail : Bool) (a : Attempt) (d : Dir) (hist : List Name) :
    Dir × List Name × Except Err Unit :=
  match getName fmt a.now (some (d.map (·.1))) with
  | .error e => (d, hist, .error e)
  | .ok (name, _) => checkpointFiles fmt keepPast raiseFail name a.content ⟨a.fault, none, none, false⟩ d hist

/-- Several calls: directory, history and what each call ended with. A call which raises does not keep the manager, or a manager
loaded later, from making further ones. Belongs to the model of `manager.py:1120-1197`. -/
def attempts (fmt : List Char) (keepPast : Int) (raiseFail : Bool) : List Attempt → Dir → List Name →
    Dir × List Name × List (Except Err Unit)
  | [], d, hist => (d, hist, [])
  | a :: t, d, hist =>
    let x := attempt fmt keepPast raiseFail a d hist
    let y := attempts fmt keepPast raiseFail t x.1 x.2.1
    (y.1, y.2.1, x.2.2 :: y.2.2)

end Glompo.Checkpoint
