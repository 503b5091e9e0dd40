import Verif.Model.Criterion
import Verif.Spec.Criterion
import Verif.Props.Combi
import Verif.Props.Convergence
import Verif.Props.Orders

/-! # C120: a run ends when the criterion it was given is met -/

namespace Glompo.Props

open Glompo.Spec Glompo.Manager Glompo.Props.Runs EndToEnd

namespace Criterion

/-- Work goes on only while the last check was not met, and checks see the results brought up to date. -/
theorem steps_open {cfg : Cfg} {A : Lab → Prop} {s t : State} (h : Steps cfg A s t) (i0 : Inv cfg s) :
    ∃ l, t.ev = s.ev ++ l ∧ ∀ pre x post, l = pre ++ x :: post →
      (GoesOn x → lastCheck (s.ev ++ pre) ≠ some true) ∧ ((∃ b, x = .checked b) → UpToDate (s.ev ++ pre) = true) := by
  induction h with
  | refl => exact ⟨[], by simp, fun pre x post e => by simp at e⟩
  | @tail t u lab h st ha ih =>
    obtain ⟨l, hl, hs⟩ := ih
    have it := h.inv i0
    have hc : t.converged = false → lastCheck t.ev ≠ some true := fun h e => by rw [it.chk e] at h; cases h
    have other : ∀ x, u.ev = t.ev ++ [x] → (GoesOn x → lastCheck t.ev ≠ some true) →
        ((∃ b, x = .checked b) → UpToDate t.ev = true) →
        ∃ l, u.ev = s.ev ++ l ∧ ∀ pre x post, l = pre ++ x :: post →
          (GoesOn x → lastCheck (s.ev ++ pre) ≠ some true) ∧ ((∃ b, x = .checked b) → UpToDate (s.ev ++ pre) = true) := by
      intro x hx h1 h2
      refine ⟨l ++ [x], by rw [hx, hl, List.append_assoc], fun pre y post e => ?_⟩
      rcases List.eq_nil_or_concat post with rfl | ⟨post', z, rfl⟩
      · obtain ⟨rfl, e'⟩ := List.append_inj' (s₁ := l) (t₁ := [x]) (s₂ := pre) (t₂ := [y]) (by simpa using e) rfl
        cases e'
        rw [← hl]
        exact ⟨h1, h2⟩
      · have e' : l ++ [x] = (pre ++ y :: post') ++ [z] := by simpa using e
        exact hs pre y post' (List.append_inj' e' rfl).1
    cases st with
    | askStop _ k h => exact other _ rfl (fun _ => hc h.2) fun ⟨b, e⟩ => by cases e
    | ask _ k a _ h => exact other _ rfl (fun _ => hc h.2) fun ⟨b, e⟩ => by cases e
    | newId _ h => exact other _ rfl (fun _ => hc h.2) fun ⟨b, e⟩ => by cases e
    | start _ i w _ _ _ _ _ h => exact other _ rfl (fun _ => hc h.2) fun ⟨b, e⟩ => by cases e
    | restart _ a b i w _ _ _ _ _ h => exact other _ rfl (fun _ => hc h) fun ⟨b, e⟩ => by cases e
    | verdict _ b c h _ => exact other _ rfl (fun _ => hc h.1) fun _ => h.2
    | plain _ x hx => exact other x rfl (fun h => by cases x <;> first | exact h.elim | cases hx) fun ⟨b, e⟩ => by subst e; cases hx
    | _ => first
      | exact ⟨l, hl, hs⟩
      | exact other _ rfl (fun h => h.elim) fun ⟨b, e⟩ => by cases e

/-- Value of a best evaluation against a target below `+inf`. -/
theorem best_target {x : Vec} {fx T : PyF} {i : Nat} {es : List IterRes} (h : IsBest x fx i es) (hT : T ≠ .pinf) :
    PyF.le fx T = true ↔ ∃ r ∈ es, PyF.le r.fx T = true := by
  constructor
  · intro hle
    rcases h with ⟨-, -, rfl, -⟩ | ⟨k, r, -, hk, -, rfl, -⟩
    · cases T <;> first | exact absurd rfl hT | cases hle
    · exact ⟨r, List.mem_of_getElem? hk, hle⟩
  · rintro ⟨r, hr, hle⟩
    have hlt := isBest_le h hr
    have hfin : PyF.lt r.fx .pinf = true := by
      cases hf : r.fx with
      | pinf => rw [hf] at hle; cases T <;> first | exact absurd rfl hT | cases hle
      | nan => rw [hf] at hle; cases T <;> cases hle
      | _ => rfl
    have hn : fx ≠ .nan := by
      rintro rfl
      rcases h with ⟨-, -, h, -⟩ | ⟨k, r0, ⟨r1, h1, -, h2, -⟩, hk, -, h, -⟩
      · cases h
      · rw [hk] at h1; cases h1; rw [← h] at h2; cases h2
    revert hlt hle hfin
    cases r.fx <;> cases fx <;> cases T <;> simp [PyF.le, PyF.lt] at hn hT ⊢
    intro h1 h2
    exact Rat.le_trans h2 h1

/-- The answer of one criterion. -/
theorem ask_meets {ev : List Ev} {c : Checker} {v : CView} (l : Latch) (hc : Countable c) (hv : Shows ev v)
    (hb : (acceptedOf ev = [] ∧ lastResult ev = none) ∨ ∃ x fx i, lastResult ev = some (x, fx, i) ∧ IsBest x fx i (acceptedOf ev)) :
    (c.ask v l).2 = true ↔ Meets ev c := by
  cases c with
  | maxFuncCalls n => simp [Checker.ask, Meets, hv.evals]
  | maxOptsStarted n => simp [Checker.ask, Meets, hv.created]
  | nOptConverged n => simp [Checker.ask, Meets, hv.converged]
  | maxKills n => simp [Checker.ask, Meets, hv.killed]
  | maxSeconds => exact absurd hc id
  | killsAfterConvergence => exact absurd hc id
  | targetCost t a =>
    rcases hb with ⟨h1, h2⟩ | ⟨x, fx, i, h1, h2⟩
    · simp [Checker.ask, Meets, hv.best, h1, h2]
    · simp only [Checker.ask, Meets, hv.best, h1, Option.map_some]
      exact best_target h2 hc

/-- The answer of a combination. -/
theorem call_meets {ev : List Ev} {chk : Nat → Checker} {c : Cond} {v : CView} (st : Cond.Last) (w : Latches)
    (hc : ∀ i ∈ leaves c, Countable (chk i)) (hv : Shows ev v)
    (hb : (acceptedOf ev = [] ∧ lastResult ev = none) ∨ ∃ x fx i, lastResult ev = some (x, fx, i) ∧ IsBest x fx i (acceptedOf ev)) :
    ∃ b, (c.call (askChecker chk v) st w).ans = .ok b ∧ (b = true ↔ MeetsAll chk ev c) := by
  induction c generalizing st w with
  | leaf i => exact ⟨_, rfl, ask_meets (w i) (hc i (by simp [leaves])) hv hb⟩
  | or i a b iha ihb =>
    obtain ⟨x, h1, h2⟩ := iha ((Cond.or i a b).reset st) w fun i hi => hc i (by simp [leaves, hi])
    simp only [Cond.call, h1, MeetsAll]
    cases x with
    | true => exact ⟨true, rfl, by simp [← h2]⟩
    | false =>
      obtain ⟨y, h3, h4⟩ := ihb (a.call (askChecker chk v) ((Cond.or i a b).reset st) w).last
        (a.call (askChecker chk v) ((Cond.or i a b).reset st) w).world
        fun i hi => hc i (by simp [leaves, hi])
      refine ⟨y, by simp only [h3], ?_⟩
      rw [h4, ← h2]; simp
  | and i a b iha ihb =>
    obtain ⟨x, h1, h2⟩ := iha ((Cond.and i a b).reset st) w fun i hi => hc i (by simp [leaves, hi])
    simp only [Cond.call, h1, MeetsAll]
    cases x with
    | false => exact ⟨false, rfl, by simp [← h2]⟩
    | true =>
      obtain ⟨y, h3, h4⟩ := ihb (a.call (askChecker chk v) ((Cond.and i a b).reset st) w).last
        (a.call (askChecker chk v) ((Cond.and i a b).reset st) w).world
        fun i hi => hc i (by simp [leaves, hi])
      refine ⟨y, by simp only [h3], ?_⟩
      rw [h4, ← h2]; simp

/-- The last answer is one of this run. -/
theorem lastCheck_run {old : List Ev} (h0 : lastCheck old = none) {b : Bool} : ∀ l, (∀ c n, Ev.resumed c n ∉ l) →
    lastCheck (old ++ l) = some b → ∃ pre post, l = pre ++ .checked b :: post := by
  refine snoc_induction (fun _ h => ?_) fun l x ih hr h => ?_
  · rw [List.append_nil, h0] at h; cases h
  · rw [← List.append_assoc, lastCheck_snoc] at h
    have go : lastCheck (old ++ l) = some b → ∃ pre post, l ++ [x] = pre ++ .checked b :: post := by
      intro h
      obtain ⟨p, q, e⟩ := ih (fun c n hm => hr c n (List.mem_append_left _ hm)) h
      exact ⟨p, q ++ [x], by rw [e]; simp⟩
    cases x with
    | checked b' => cases h; exact ⟨l, [], rfl⟩
    | resumed c n => exact absurd (by simp) (hr c n)
    | _ => exact go h

/-- What has been met stays met. -/
theorem meets_append {chk : Nat → Checker} {c : Cond} {ev : List Ev} (l : List Ev) (h : MeetsAll chk ev c) :
    MeetsAll chk (ev ++ l) c := by
  have one : ∀ k, Meets ev k → Meets (ev ++ l) k := by
    intro k hk
    cases k with
    | targetCost t a =>
      obtain ⟨r, hr, hle⟩ := hk
      exact ⟨r, by rw [acceptedOf_append]; exact List.mem_append_left _ hr, hle⟩
    | maxSeconds => exact hk
    | killsAfterConvergence => exact hk
    | _ =>
      simp only [Meets, acceptedOf, newIdsOf, finishedOf, killedOf, List.filterMap_append, List.length_append] at hk ⊢
      omega
  induction c with
  | leaf i => exact one _ h
  | or i a b iha ihb => exact h.imp iha ihb
  | and i a b iha ihb => exact ⟨iha h.1, ihb h.2⟩

end Criterion

open Criterion

variable {cfg : Cfg} {s : State} (hs : Startable cfg s) (fuel : Nat) {e : Env} {chk : Nat → Checker} {c : Cond}

include hs in
/-- **C120.** What a criterion sees of the manager at any moment are the numbers of evaluations accepted, of optimizers
created, converged and shut down, and the value of the last result. If nothing was lost on loading a checkpoint and the last
evaluation has been taken into account, as is so at every check (`C120_checks`), any combination of such criteria, called on
the manager, answers, and answers `True` exactly if it is met by what has happened. -/
theorem C120_answer (hL : Lossless (happened cfg s fuel e)) (hc : ∀ i ∈ leaves c, Countable (chk i)) (now : Rat)
    (tStart : Option Rat) (tUsed : Rat) :
    Shows (happened cfg s fuel e) ((moment cfg s fuel e).view now tStart tUsed) ∧
    (UpToDate (happened cfg s fuel e) = true → ∀ st w, ∃ b,
      (c.call (askChecker chk ((moment cfg s fuel e).view now tStart tUsed)) st w).ans = .ok b ∧
      (b = true ↔ MeetsAll chk (happened cfg s fuel e) c)) := by
  have inv := moment_inv hs fuel e
  have sh : Shows (happened cfg s fuel e) ((moment cfg s fuel e).view now tStart tUsed) :=
    ⟨inv.cnt, by show (moment cfg s fuel e).oCounter = (newIdsOf (moment cfg s fuel e).ev).length; rw [inv.ids, List.length_range'],
      inv.conv, congrArg List.length inv.vict, inv.res.2.1⟩
  exact ⟨sh, fun hu st w => call_meets st w hc sh ((result_ok _ (moment_good hs fuel e) hL).1 hu)⟩

include hs in
/-- **C120.** Each answer of the criterion in this run says truly whether it is met by what has happened before. -/
theorem C120_checks (hL : Lossless (happened cfg s fuel e)) (hc : ∀ i ∈ leaves c, Countable (chk i))
    (ha : AnsweredBy chk c s.ev (thisRun cfg s fuel e)) (pre : List Ev) (b : Bool) (post : List Ev)
    (hp : thisRun cfg s fuel e = pre ++ .checked b :: post) :
    UpToDate (s.ev ++ pre) = true ∧ (b = true ↔ MeetsAll chk (s.ev ++ pre) c) := by
  have hsplit := happened_split hs fuel e
  obtain ⟨l, hl, hg⟩ := steps_open (startManager_spec fuel hs.spec.1 e).1 hs.spec.1.inv
  have hl : happened cfg s fuel e = s.ev ++ l := hl
  have el : l = thisRun cfg s fuel e := by rw [thisRun, hl, List.drop_left]
  have hu := (hg pre _ post (by rw [el, hp])).2 ⟨b, rfl⟩
  have hh : happened cfg s fuel e = (s.ev ++ pre) ++ .checked b :: post := by rw [hsplit, hp, List.append_assoc]
  refine ⟨hu, ?_⟩
  obtain ⟨v, st, w, hv, hans⟩ := ha pre b post hp
  have g := moment_good hs fuel e
  have gp : AfterEach (Fine (moment cfg s fuel e).first) (s.ev ++ pre) :=
    fun p x q eq => g p x (q ++ .checked b :: post) (by
      show happened cfg s fuel e = _
      rw [hh, eq]; simp)
  obtain ⟨b', h1, h2⟩ := call_meets st w hc hv ((result_ok _ gp (lossless_prefix (by rw [← hh]; exact hL))).1 hu)
  rw [hans] at h1
  cases h1
  exact h2

include hs in
theorem Criterion.met_of_lastCheck (hL : Lossless (happened cfg s fuel e)) (hc : ∀ i ∈ leaves c, Countable (chk i))
    (ha : AnsweredBy chk c s.ev (thisRun cfg s fuel e)) (hl : lastCheck (happened cfg s fuel e) = some true) :
    MeetsAll chk (happened cfg s fuel e) c := by
  have hsplit := happened_split hs fuel e
  have hr : ∀ c n, Ev.resumed c n ∉ thisRun cfg s fuel e := by
    obtain ⟨l, hl, hn⟩ := steps_new (startManager_spec fuel hs.spec.1 e).1
    have hl : happened cfg s fuel e = s.ev ++ l := hl
    rw [thisRun, hl, List.drop_left]
    exact hn
  rw [hsplit] at hl
  obtain ⟨pre, post, hp⟩ := lastCheck_run hs.spec.1.check _ hr hl
  have := ((C120_checks hs fuel hL hc ha pre true post hp).2).mp rfl
  rw [hsplit, hp, ← List.append_assoc]
  exact meets_append _ this

include hs in
/-- **C120, only then.** If a run ends regularly, the criterion is met by what has happened, or at the end of the loop nobody was
running and the selector had answered `False`. -/
theorem C120_ends_only_if_met (hL : Lossless (happened cfg s fuel e)) (hc : ∀ i ∈ leaves c, Countable (chk i))
    (ha : AnsweredBy chk c s.ev (thisRun cfg s fuel e)) (he : ended cfg s fuel e = some .regular) :
    MeetsAll chk (happened cfg s fuel e) c ∨
      (∀ i, ¬ Running (happened cfg s fuel e) i) ∧ ∃ k, Ev.asked k .stop ∈ happened cfg s fuel e := by
  have sp := startManager_spec fuel hs.spec.1 e
  obtain ⟨-, -, hconv⟩ : Ending (some .regular) (moment cfg s fuel e) := by
    have := sp.2.1
    rwa [show (startManager cfg fuel s e).1 = _ from he] at this
  exact ((moment_inv hs fuel e).why hconv).imp (met_of_lastCheck hs fuel hL hc ha) id

include hs in
/-- **C120, then.** Once the criterion, whatever it is, has answered `True` in this run, the criterion and the selector are not
asked again, and no optimizer is created or started any more. -/
theorem C120_true_is_last (pre post : List Ev) (hp : thisRun cfg s fuel e = pre ++ .checked true :: post) :
    ∀ x ∈ post, ¬ GoesOn x := by
  obtain ⟨l, hl, hg⟩ := steps_open (startManager_spec fuel hs.spec.1 e).1 hs.spec.1.inv
  obtain ⟨l', hl', hn⟩ := steps_new (startManager_spec fuel hs.spec.1 e).1
  have hl : happened cfg s fuel e = s.ev ++ l := hl
  have hl' : happened cfg s fuel e = s.ev ++ l' := hl'
  have el : l = thisRun cfg s fuel e := by rw [thisRun, hl, List.drop_left]
  have el' : l' = thisRun cfg s fuel e := by rw [thisRun, hl', List.drop_left]
  rw [el, hp] at hg
  rw [el', hp] at hn
  have key : ∀ q z, post = q ++ z → lastCheck (s.ev ++ (pre ++ .checked true :: q)) = some true := by
    intro q
    refine snoc_induction (P := fun q => ∀ z, post = q ++ z → lastCheck (s.ev ++ (pre ++ .checked true :: q)) = some true) ?_
      (fun q x ih => ?_) q
    · intro z _
      rw [← List.append_assoc, lastCheck_snoc]
    · intro z hz
      have ih := ih ([x] ++ z) (by rw [hz]; simp)
      have e1 : s.ev ++ (pre ++ .checked true :: (q ++ [x])) = (s.ev ++ (pre ++ .checked true :: q)) ++ [x] := by simp
      rw [e1, lastCheck_snoc]
      cases x with
      | checked b' => exact absurd ih ((hg (pre ++ .checked true :: q) (.checked b') z (by rw [hz]; simp)).1 trivial)
      | resumed c' n' => exact absurd (by rw [hz]; simp) (hn c' n')
      | _ => exact ih
  intro x hx hgo
  obtain ⟨q, z, hz⟩ := List.append_of_mem hx
  exact (hg (pre ++ .checked true :: q) x z (by rw [hz]; simp)).1 hgo (key q _ hz)

include hs in
/-- **C120, then.** If the criterion is met by what has happened when it is asked, that is the last time it is asked in this
run: the selector is not asked again either, and no optimizer is created or started any more. -/
theorem C120_ends_if_met (hL : Lossless (happened cfg s fuel e)) (hc : ∀ i ∈ leaves c, Countable (chk i))
    (ha : AnsweredBy chk c s.ev (thisRun cfg s fuel e)) (pre : List Ev) (b : Bool) (post : List Ev)
    (hp : thisRun cfg s fuel e = pre ++ .checked b :: post) (hm : MeetsAll chk (s.ev ++ pre) c) : ∀ x ∈ post, ¬ GoesOn x := by
  have hb : b = true := ((C120_checks hs fuel hL hc ha pre b post hp).2).mpr hm
  subst hb
  exact C120_true_is_last hs fuel pre post hp

include hs in
/-- **C120, before the start.** If the manager says it was converged before it was started, nothing has been started, and the
criterion is met by what has happened, or the selector had answered `False`. -/
theorem C120_met_before (hL : Lossless (happened cfg s fuel e)) (hc : ∀ i ∈ leaves c, Countable (chk i))
    (ha : AnsweredBy chk c s.ev (thisRun cfg s fuel e)) (he : ended cfg s fuel e = some .metBefore) :
    startedOf (happened cfg s fuel e) = [] ∧
    (MeetsAll chk (happened cfg s fuel e) c ∨ ∃ k, Ev.asked k .stop ∈ happened cfg s fuel e) := by
  obtain ⟨h1, h2⟩ := (C27_loop_ends_for_a_reason hs fuel e).2.2.1 he
  refine ⟨h1, h2.imp (fun hl => ?_) id⟩
  exact met_of_lastCheck hs fuel hL hc ha hl

/-! ### Two runs -/

theorem Criterion.fresh_lossless (cfg : Cfg) (fuel : Nat) (e : Env) : Lossless (happened cfg (init cfg) fuel e) := by
  obtain ⟨l, hl, hn⟩ := steps_new (startManager_spec fuel (Startable.fresh cfg).spec.1 e).1
  have hl : happened cfg (init cfg) fuel e = [] ++ l := hl
  rw [hl]
  exact lossless_of_fresh hn

/-- What a criterion sees of a history. -/
def Criterion.seen (ev : List Ev) : CView :=
  { fCounter := (acceptedOf ev).length, oCounter := (newIdsOf ev).length, convCounter := (finishedOf ev).length
    kills := (killedOf ev).length, best := (lastResult ev).map (·.2.1), now := 0, tStart := none, tUsed := 0 }

/-- Decidable form of `AnsweredBy`, for the examples. -/
def Criterion.answeredB (chk : Nat → Checker) (c : Cond) (old run : List Ev) : Bool := (List.range run.length).all fun k =>
  match run[k]? with
  | some (.checked b) => decide ((c.call (askChecker chk (seen (old ++ run.take k))) (fun _ => none) fun _ => Latch.init).ans.toOption = some b)
  | _ => true

theorem Criterion.answered_of {chk : Nat → Checker} {c : Cond} {old run : List Ev} (h : answeredB chk c old run = true) :
    AnsweredBy chk c old run := by
  rintro pre b post rfl
  have := List.all_eq_true.mp h pre.length (by simp)
  simp only [List.getElem?_append_right (Nat.le_refl _), Nat.sub_self, List.getElem?_cons_zero, List.take_left,
    decide_eq_true_eq] at this
  refine ⟨seen (old ++ pre), fun _ => none, fun _ => Latch.init, ⟨rfl, rfl, rfl, rfl, rfl⟩, ?_⟩
  generalize (c.call (askChecker chk (seen (old ++ pre))) (fun _ => none) fun _ => Latch.init).ans = r at this
  cases r with
  | error x => cases this
  | ok y => cases this; rfl

/-- `MaxOptsStarted(9) | (MaxFuncCalls(2) & TargetCost(3))`. -/
def Criterion.chk3 : Nat → Checker
  | 0 => .maxOptsStarted 9
  | 1 => .maxFuncCalls 2
  | _ => .targetCost (.fin 3) (.fin 0)

def Criterion.c3 : Cond := .or 4 (.leaf 0) (.and 3 (.leaf 1) (.leaf 2))

example : Lossless (happened cfg2 (init cfg2) 20 demo) ∧ (∀ i ∈ leaves c3, Countable (chk3 i)) ∧
    AnsweredBy chk3 c3 (init cfg2).ev (thisRun cfg2 (init cfg2) 20 demo) ∧
    ended cfg2 (init cfg2) 20 demo = some .regular ∧
    ∃ pre post, thisRun cfg2 (init cfg2) 20 demo = pre ++ .checked true :: post ∧
      UpToDate (happened cfg2 (init cfg2) 20 demo) = true ∧ MeetsAll chk3 ((init cfg2).ev ++ pre) c3 := by
  have hcnt : ∀ i ∈ leaves c3, Countable (chk3 i) := by
    intro i hi
    simp [c3, leaves] at hi
    rcases hi with rfl | rfl | rfl <;> first | exact trivial | (show PyF.add _ _ ≠ _; decide)
  refine ⟨fresh_lossless cfg2 20 demo, hcnt, answered_of (by decide +kernel), by decide +kernel, ?_⟩
  · have h : Ev.checked true ∈ thisRun cfg2 (init cfg2) 20 demo := by decide +kernel
    obtain ⟨p, q, hq⟩ := List.append_of_mem h
    have ha : AnsweredBy chk3 c3 (init cfg2).ev (thisRun cfg2 (init cfg2) 20 demo) := answered_of (by decide +kernel)
    exact ⟨p, q, hq, by decide +kernel, ((C120_checks (Startable.fresh cfg2) 20 (fresh_lossless cfg2 20 demo) hcnt ha p true q hq).2).mp rfl⟩

/-- The criterion `MaxFuncCalls(0)`. -/
example : AnsweredBy (fun _ => .maxFuncCalls 0) (.leaf 0) (init cfg2).ev (thisRun cfg2 (init cfg2) 20 [b true]) ∧
    ended cfg2 (init cfg2) 20 [b true] = some .metBefore :=
  ⟨answered_of (by decide +kernel), by decide +kernel⟩

end Glompo.Props
