import Verif.Spec.DefaultCriterion
import Verif.Props.Criterion
import Verif.Props.Convergence

/-! # C122: the criterion used if none is given -/

namespace Glompo.Props

open Glompo.Spec Glompo.Manager Glompo.Props.Runs EndToEnd

namespace DefaultCriterion

theorem looks_append (a b : List Ev) : looks (a ++ b) = looks a + looks b := List.countP_append

theorem looks_cons {x : Ev} (h : IsLook x = true) (l : List Ev) : looks (x :: l) = looks l + 1 := List.countP_cons_of_pos h

/-- Every number below that of the calls is the number of a call. -/
theorem nth_look (ev : List Ev) : ∀ j, j < looks ev → ∃ p x q, ev = p ++ x :: q ∧ IsLook x = true ∧ looks p = j := by
  refine Manager.snoc_induction (P := fun ev => ∀ j, j < looks ev → ∃ p x q, ev = p ++ x :: q ∧ IsLook x = true ∧ looks p = j)
    ?_ (fun l x ih => ?_) ev
  · intro j hj; simp [looks] at hj
  · intro j hj
    by_cases hl : j < looks l
    · obtain ⟨p, y, q, rfl, hy, h⟩ := ih j hl
      exact ⟨p, y, q ++ [x], by simp, hy, h⟩
    · rw [looks_append] at hj
      cases hx : IsLook x with
      | true =>
        rw [looks_cons hx] at hj
        refine ⟨l, x, [], rfl, hx, ?_⟩
        simp [looks] at hj hl ⊢
        omega
      | false => simp [looks, hx] at hj hl; omega

/-- Parts of the same history before calls, ordered by their number. -/
theorem prefix_of_lt {ev p p' q q' : List Ev} {x x' : Ev} (h : ev = p ++ x :: q) (h' : ev = p' ++ x' :: q')
    (hlt : looks p < looks p') : ∃ z, p' = p ++ x :: z := by
  rw [h] at h'
  rcases List.append_eq_append_iff.mp h' with ⟨a, h1, h2⟩ | ⟨a, h1, h2⟩
  · cases a with
    | nil => simp at h1; rw [h1] at hlt; exact absurd hlt (Nat.lt_irrefl _)
    | cons y t => simp at h2; exact ⟨t, by rw [h1, h2.1]⟩
  · rw [h1, looks_append] at hlt; omega

end DefaultCriterion

open DefaultCriterion

/-- **C122.** Each answer of `KillsAfterConvergence(nk, nc)` is `True` exactly if `nc` optimizers have converged and, since it was first called
when this was so, `nk` more optimizers were shut down. -/
theorem C122_answer {nk nc : Int} {ev : List Ev} (ha : AnsweredInTurn nk nc ev) (pre : List Ev) (b : Bool) (post : List Ev)
    (he : ev = pre ++ .checked b :: post) :
    b = true ↔ ∃ p, FirstSeen nc pre p ∧ nk ≤ ((killedOf pre).length : Int) - (killedOf p).length := by
  obtain ⟨vs, hv⟩ := ha
  obtain ⟨v, h1, h2, h3⟩ := hv pre _ post he rfl
  have key := C15_kills_after_convergence nk nc vs _ v h1
  rw [h3 b rfl] at key
  have hb : b = true ↔ some b = some true := by simp
  rw [hb, key]
  constructor
  · rintro ⟨j, u, hj, ⟨⟨u', hu', hc⟩, hfirst⟩, hu, hk⟩
    rw [hu'] at hu; cases hu
    have : ∃ p c q, ev = p ++ c :: q ∧ IsLook c = true ∧ looks p = j ∧ (p = pre ∨ ∃ z, pre = p ++ c :: z) := by
      rcases Nat.lt_or_eq_of_le hj with hlt | rfl
      · obtain ⟨p, c, q, e, hc, hl⟩ := nth_look ev j (by rw [he, looks_append]; omega)
        exact ⟨p, c, q, e, hc, hl, .inr (prefix_of_lt e he (by omega))⟩
      · exact ⟨pre, _, post, he, rfl, rfl, .inl rfl⟩
    obtain ⟨p, c, q, e, hlook, hl, hp⟩ := this
    obtain ⟨w, hw, hs, -⟩ := hv p c q e hlook
    rw [hl, hu'] at hw; cases hw
    refine ⟨p, ⟨hp.imp id fun ⟨z, hz⟩ => ⟨c, z, hlook, hz⟩, hs.converged ▸ hc, fun p' c' q' hlook' e' => ?_⟩, ?_⟩
    · have e2 : ev = p' ++ c' :: (q' ++ c :: q) := by rw [e, e']; simp
      obtain ⟨w, hw, hs', -⟩ := hv p' c' _ e2 hlook'
      have hlt : looks p' < j := by
        rw [← hl, e', looks_append, looks_cons hlook']; omega
      have := hfirst _ w hlt hw
      rw [hs'.converged] at this
      omega
    · rw [← h2.killed, ← hs.killed]; exact hk
  · rintro ⟨p, ⟨hp, hc, hfirst⟩, hk⟩
    have : ∃ c q, ev = p ++ c :: q ∧ IsLook c = true ∧ looks p ≤ looks pre := by
      rcases hp with rfl | ⟨c, z, hlook, hz⟩
      · exact ⟨_, post, he, rfl, le_refl _⟩
      · exact ⟨c, z ++ .checked b :: post, by rw [he, hz]; simp, hlook, by rw [hz, looks_append]; omega⟩
    obtain ⟨c, q, e, hlook, hle⟩ := this
    obtain ⟨w, hw, hs, -⟩ := hv p c q e hlook
    refine ⟨_, w, hle, ⟨⟨w, hw, by rw [hs.converged]; exact hc⟩, fun i u hi hu => ?_⟩, hw, ?_⟩
    · obtain ⟨p', c', q', e', hlook', hl'⟩ := nth_look ev i (by rw [e, looks_append]; omega)
      obtain ⟨z, hz⟩ := prefix_of_lt e' e (by omega)
      obtain ⟨w', hw', hs', -⟩ := hv p' c' q' e' hlook'
      rw [hl', hu] at hw'; cases hw'
      rw [hs'.converged]
      have := hfirst p' c' z hlook' hz
      omega
    · rw [h2.killed, hs.killed]; exact hk

/-- **C122, the default.** If no kills are asked for, each answer says whether `nc` optimizers have converged. -/
theorem C122_answer_default {nc : Int} {ev : List Ev} (ha : AnsweredInTurn 0 nc ev) (pre : List Ev) (b : Bool) (post : List Ev)
    (he : ev = pre ++ .checked b :: post) : b = true ↔ nc ≤ (finishedOf pre).length := by
  rw [C122_answer ha pre b post he]
  constructor
  · rintro ⟨p, ⟨hp, hc, -⟩, -⟩
    rcases hp with rfl | ⟨c, z, -, rfl⟩
    · exact hc
    · rw [finishedOf_append, List.length_append]; push_cast; omega
  · intro h
    -- the shortest part before a call at which so many had converged
    have : ∀ n (p : List Ev), p.length = n → (p = pre ∨ ∃ c z, IsLook c = true ∧ pre = p ++ c :: z) → nc ≤ (finishedOf p).length →
        ∃ p, FirstSeen nc pre p := by
      intro n
      induction n using Nat.strong_induction_on with
      | _ n ih =>
        intro p hn hp hc
        by_cases hex : ∃ p' c q, IsLook c = true ∧ p = p' ++ c :: q ∧ nc ≤ ((finishedOf p').length : Int)
        · obtain ⟨p', c, q, hlook, e, hc'⟩ := hex
          refine ih p'.length (by rw [← hn, e]; simp) p' rfl (.inr ?_) hc'
          rcases hp with rfl | ⟨c', z, -, rfl⟩
          · exact ⟨c, q, hlook, e⟩
          · exact ⟨c, q ++ c' :: z, hlook, by rw [e]; simp⟩
        · exact ⟨p, hp, hc, fun p' c q hlook e => by
            by_contra hh
            exact hex ⟨p', c, q, hlook, e, by omega⟩⟩
    obtain ⟨p, hp⟩ := this _ pre rfl (.inl rfl) h
    refine ⟨p, hp, ?_⟩
    rcases hp.check with rfl | ⟨c, z, -, rfl⟩
    · simp
    · rw [killedOf_append, List.length_append]; push_cast; omega

variable {cfg : Cfg} {s : State} (hs : Startable cfg s) (fuel : Nat) {e : Env}

include hs in
/-- **C122.** The manager shows the criterion what it has to. -/
theorem C122_seen (now : Rat) (tStart : Option Rat) (tUsed : Rat) :
    Shows (happened cfg s fuel e) ((moment cfg s fuel e).view now tStart tUsed) := by
  have inv := moment_inv hs fuel e
  exact ⟨inv.cnt, by show (moment cfg s fuel e).oCounter = (newIdsOf (moment cfg s fuel e).ev).length; rw [inv.ids, List.length_range'],
      inv.conv, congrArg List.length inv.vict, inv.res.2.1⟩

include hs in
/-- **C122, then.** With the default, a check made after `nc` optimizers have converged is the last one of the run; nothing is started any
more. -/
theorem C122_ends_if_converged {nc : Int} (ha : AnsweredInTurn 0 nc (happened cfg s fuel e)) (pre : List Ev) (b : Bool) (post : List Ev)
    (hp : thisRun cfg s fuel e = pre ++ .checked b :: post) (hm : nc ≤ (finishedOf (s.ev ++ pre)).length) :
    b = true ∧ ∀ x ∈ post, ¬ GoesOn x := by
  have hh : happened cfg s fuel e = (s.ev ++ pre) ++ .checked b :: post := by
    rw [happened_split hs fuel e, hp, List.append_assoc]
  have hb := (C122_answer_default ha _ b post hh).mpr hm
  subst hb
  exact ⟨rfl, C120_true_is_last hs fuel pre post hp⟩

include hs in
/-- **C122, only then.** With the default, if a run ends regularly then `nc` optimizers have converged, or nobody was running and the
selector had answered `False`. -/
theorem C122_ends_only_if_converged {nc : Int} (ha : AnsweredInTurn 0 nc (happened cfg s fuel e))
    (he : ended cfg s fuel e = some .regular) :
    nc ≤ (finishedOf (happened cfg s fuel e)).length ∨
      (∀ i, ¬ Running (happened cfg s fuel e) i) ∧ ∃ k, Ev.asked k .stop ∈ happened cfg s fuel e := by
  have sp := startManager_spec fuel hs.spec.1 e
  obtain ⟨-, -, hconv⟩ : Ending (some .regular) (moment cfg s fuel e) := by
    have := sp.2.1
    rwa [show (startManager cfg fuel s e).1 = _ from he] at this
  refine ((moment_inv hs fuel e).why hconv).imp (fun hl => ?_) id
  have hsplit := happened_split hs fuel e
  have hr : ∀ c n, Ev.resumed c n ∉ thisRun cfg s fuel e := by
    obtain ⟨l, hl, hn⟩ := steps_new (startManager_spec fuel hs.spec.1 e).1
    have hl : happened cfg s fuel e = s.ev ++ l := hl
    rw [thisRun, hl, List.drop_left]
    exact hn
  change lastCheck (happened cfg s fuel e) = some true at hl
  rw [hsplit] at hl
  obtain ⟨pre, post, hp⟩ := Criterion.lastCheck_run hs.spec.1.check _ hr hl
  have hh : happened cfg s fuel e = (s.ev ++ pre) ++ .checked true :: post := by rw [hsplit, hp, List.append_assoc]
  have := (C122_answer_default ha _ true post hh).mp rfl
  rw [hh, finishedOf_append, List.length_append]
  push_cast
  omega

namespace DefaultCriterion

/-- What the criterion sees when it is called. -/
def viewsFrom (before : List Ev) : List Ev → List CView
  | [] => []
  | x :: t => if IsLook x = true then Criterion.seen before :: viewsFrom (before ++ [x]) t else viewsFrom (before ++ [x]) t

theorem viewsFrom_spec (l post : List Ev) {x : Ev} (hx : IsLook x = true) : ∀ before, ∃ rest,
    viewsFrom before (l ++ x :: post) = viewsFrom before l ++ Criterion.seen (before ++ l) :: rest ∧
    (viewsFrom before l).length = looks l := by
  induction l with
  | nil => intro before; exact ⟨viewsFrom (before ++ [x]) post, by simp [viewsFrom, hx], rfl⟩
  | cons y t ih =>
    intro before
    obtain ⟨rest, h1, h2⟩ := ih (before ++ [y])
    rw [List.append_assoc, List.singleton_append] at h1
    by_cases hy : IsLook y = true
    · refine ⟨rest, ?_, ?_⟩
      · rw [List.cons_append, viewsFrom, if_pos hy, viewsFrom, if_pos hy, h1]; rfl
      · rw [viewsFrom, if_pos hy, looks_cons hy, List.length_cons, h2]
    · refine ⟨rest, ?_, ?_⟩
      · rw [List.cons_append, viewsFrom, if_neg hy, viewsFrom, if_neg hy, h1]
      · rw [viewsFrom, if_neg hy, h2]; simp [looks, hy]

/-- Decidable form of `AnsweredInTurn`, for the examples. -/
def inTurnB (nk nc : Int) (ev : List Ev) : Bool := (List.range ev.length).all fun k =>
  match ev[k]? with
  | some (.checked b) => (kacSeq nk nc Latch.init (viewsFrom [] ev))[looks (ev.take k)]? == some b
  | _ => true

theorem answered_in_turn {nk nc : Int} {ev : List Ev} (h : inTurnB nk nc ev = true) : AnsweredInTurn nk nc ev := by
  refine ⟨viewsFrom [] ev, ?_⟩
  intro pre x post e hx
  obtain ⟨rest, h1, h2⟩ := viewsFrom_spec pre post hx []
  refine ⟨Criterion.seen pre, ?_, ⟨rfl, rfl, rfl, rfl, rfl⟩, ?_⟩
  · rw [e, h1, ← h2]; simp
  · rintro b rfl
    have := List.all_eq_true.mp h pre.length (by rw [e]; simp)
    have g : ev[pre.length]? = some (.checked b) := by rw [e]; simp
    have t : ev.take pre.length = pre := by rw [e, List.take_left]
    simp only [g, t, beq_iff_eq] at this
    exact this

/-- Optimizer 1 has converged, then a hunt ends optimizer 2, all before the next check, whose answer is still open. -/
def early : Env := start2 ++ [ch [r 1 3], u, nothing, files, b false, u, u, b false, u, u, b false, u, u, u, b false, u,
  u, u, sg (some (.done "x")), sg none, ch [r 2 5], b true, u, nothing, files, b false, u, b false, u, b false, d 1, d 2, u]

/-- With the default, `KillsAfterConvergence(0, 1)`, the run ends at this check. -/
def earlyEnds : Env := early ++ [b true, u, u, u, u, u, u, u, u]

/-- With `KillsAfterConvergence(1, 1)` it goes on. -/
def earlyGoes : Env := early ++ [b false, u, u, sel 1, u, u]

end DefaultCriterion

example : AnsweredInTurn 0 1 (happened cfg2 (init cfg2) 20 earlyEnds) ∧ ended cfg2 (init cfg2) 20 earlyEnds = some .regular ∧
    finishedOf (happened cfg2 (init cfg2) 20 earlyEnds) = [1] ∧
    checksOf (happened cfg2 (init cfg2) 20 earlyEnds) = [false, false, true] :=
  ⟨answered_in_turn (by decide +kernel), by decide +kernel, by decide +kernel, by decide +kernel⟩

/-- **C122, refuted as documented.** `KillsAfterConvergence(1, 1)`: optimizer 1 has converged, thereafter optimizer 2 was shut down; yet the answer
to the check which follows is `False`, and a new optimizer is created. The kill was before the check which saw the convergence. -/
theorem C122_kill_after_convergence_refuted : AnsweredInTurn 1 1 (happened cfg2 (init cfg2) 20 earlyGoes) ∧
    ∃ before after post, happened cfg2 (init cfg2) 20 earlyGoes = before ++ after ++ .checked false :: post ∧
      finishedOf before = [1] ∧ killedOf before = [] ∧ killedOf after = [2] ∧ newIdsOf post = [3] :=
  ⟨answered_in_turn (by decide +kernel), (happened cfg2 (init cfg2) 20 earlyGoes).take 17,
    ((happened cfg2 (init cfg2) 20 earlyGoes).drop 17).take 11, (happened cfg2 (init cfg2) 20 earlyGoes).drop 29,
    by decide +kernel, by decide +kernel, by decide +kernel, by decide +kernel, by decide +kernel⟩

end Glompo.Props
