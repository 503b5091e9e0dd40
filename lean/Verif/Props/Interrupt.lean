import Verif.Lemmas.ManagerExt
import Verif.Props.Manager

/-!
# C102: Ctrl-C ends the optimization

`pre` is what the manager of `start_manager` has seen so far, `o` is Ctrl-C at that moment, `post` is what it sees afterwards.
-/

namespace Glompo.Props

open Glompo Glompo.Manager Glompo.Spec Glompo.Props.Runs

/-- Ctrl-C. -/
def pressed : Obs := ⟨[], .raise .keyboardInterrupt⟩

/-- **C102, partial.** A manager without visualisation, set up or loaded, is optimizing: it has seen `pre`, it has not ended,
and it is not at an impossible moment (there is a way in which it might end). Ctrl-C is pressed while it waits for what
comes next (`o`; processes may terminate at the same time). From then on nothing happens but stop signals to the optimizers
and the end of processes: no optimizer is started or told anything else, no evaluation is taken, no checkpoint is written,
no plug-in is asked. The run ends with the end condition "User Interrupt", except when it was about to end because of
another exception anyway: then it ends with that one. It ends at once if Ctrl-C is pressed again, and it does
end if nothing else goes wrong. Missing: managers with visualisation, and Ctrl-C before the start; see the refutation. -/
theorem C102_interrupt_ends_partial {cfg : Cfg} {s : State} (hs : Startable cfg s) (hv : cfg.visual = false) (fuel : Nat)
    (pre : Env) (hp : pre ≠ []) (hn : ended cfg s fuel pre = none) (hw : ∃ ext, ended cfg s fuel (pre ++ ext) ≠ none)
    (o : Obs) (ho : o.ans = .raise .keyboardInterrupt) :
    (∀ post, ∃ closing, happened cfg s fuel (pre ++ o :: post) = happened cfg s fuel pre ++ closing ∧
      ∀ x ∈ closing, (∃ i, x = Ev.stop i) ∨ ∃ i, x = Ev.died i) ∧
    (∀ post r, ended cfg s fuel (pre ++ o :: post) = some r → r = .userInterrupt ∨
      ∃ x, r = .crash x ∧ ∀ ext r', ended cfg s fuel (pre ++ ext) = some r' → r' = .crash x) ∧
    (∀ o' post, o'.ans = .raise .keyboardInterrupt → ended cfg s fuel (pre ++ o :: o' :: post) ≠ none) ∧
    ∃ n, ended cfg s fuel (pre ++ o :: List.replicate n ⟨[], .unit⟩) ≠ none := by
  have b := startManager_broken cfg fuel s pre (startable_blind hs hv) hp hn hw ho
  refine ⟨fun post => ?_, b.reason, b.twice, b.calm⟩
  obtain ⟨new, h1, h2⟩ := b.events post
  refine ⟨new, h1, fun x hx => ?_⟩
  have := h2 x hx
  unfold Winding at this
  split at this
  · exact .inl ⟨_, rfl⟩
  · exact .inr ⟨_, rfl⟩
  · exact this.elim

/-- Two optimizers are running and have evaluated something; Ctrl-C is pressed during the search for the next message. -/
example : start2 ≠ [] ∧ ended cfg2 (init cfg2) 20 start2 = none ∧
    (ended cfg2 (init cfg2) 20 (start2 ++ demo.drop start2.length) ≠ none) ∧
    ended cfg2 (init cfg2) 20 (start2 ++ pressed :: List.replicate 7 u) = some .userInterrupt ∧
    happened cfg2 (init cfg2) 20 (start2 ++ pressed :: List.replicate 7 u) =
      happened cfg2 (init cfg2) 20 start2 ++ [.stop 1, .stop 2] ∧
    ended cfg2 (init cfg2) 20 (start2 ++ [pressed]) = none ∧
    ended cfg2 (init cfg2) 20 (start2 ++ [pressed, pressed]) = some .userInterrupt := by decide +kernel

/-- Ctrl-C while everything is being stopped because of another exception. -/
example : ended cfg2 (init cfg2) 20 (sendFails.take 18) = none ∧
    ended cfg2 (init cfg2) 20 (sendFails.take 18 ++ [pressed]) = some (.crash (.env .osError)) := by decide +kernel

/-- Ctrl-C while the first picture of a new optimizer is drawn; then an ordinary run. -/
def ignoresCtrlC : Env := [b false, u, u, sel 1, u, u, u, pressed, no, u, sg none] ++
  [ch [r 1 5], u, nothing, files, b false, u, u, b false, u, u, b false, u,
  u, u, sg (some (.done "x")), u, nothing, files, b false, d 1, b false, u, u, b false, u, u, u]

/-- **C102, refuted part.** With visualisation Ctrl-C can be without any effect: pressed while the scope is drawing, it is
swallowed, the run goes on, takes an evaluation and ends regularly. And Ctrl-C during the check before the start leaves
`start_manager` without a result. -/
theorem C102_interrupt_refuted :
    (pressed ∈ ignoresCtrlC ∧ ended { cfg2 with visual := true } (init { cfg2 with visual := true }) 20 ignoresCtrlC = some .regular ∧
      (acceptedOf (happened { cfg2 with visual := true } (init { cfg2 with visual := true }) 20 ignoresCtrlC)).length = 1 ∧
      acceptedOf (happened { cfg2 with visual := true } (init { cfg2 with visual := true }) 20 (ignoresCtrlC.take 8)) = []) ∧
    ended cfg2 (init cfg2) 20 [pressed] = some .escaped := by
  decide +kernel

end Glompo.Props
