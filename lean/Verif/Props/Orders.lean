import Verif.Lemmas.OptimizerOrders
import Verif.Props.EndToEnd

/-! # C100, C101: why optimizers stop, and where injected solutions come from -/

namespace Glompo.Props

open Glompo.Spec Glompo.Manager Glompo.Props.Runs EndToEnd

namespace Orders

/-- Stop signals of the work before the end. -/
theorem work_stops {cfg : Cfg} {s t : State} (h : Steps cfg Lab.work s t) (i0 : Inv cfg s) :
    ∃ l, t.ev = s.ev ++ l ∧ ∀ pre i post, l = pre ++ Ev.stop i :: post →
      i ∈ killedOf (s.ev ++ pre) ∨ i ∈ forcedOf (s.ev ++ pre) ∨
      lastCheck (s.ev ++ pre) = some true ∧ Running (s.ev ++ pre) i := by
  induction h with
  | refl => exact ⟨[], by simp, fun pre i post e => by simp at e⟩
  | @tail t u lab h st ha ih =>
    obtain ⟨l, hl, hs⟩ := ih
    have it := h.inv i0
    have other : ∀ x, u.ev = t.ev ++ [x] → (∀ i, x = .stop i → i ∈ killedOf t.ev ∨ i ∈ forcedOf t.ev ∨
        lastCheck t.ev = some true ∧ Running t.ev i) → ∃ l, u.ev = s.ev ++ l ∧ ∀ pre i post, l = pre ++ Ev.stop i :: post →
        i ∈ killedOf (s.ev ++ pre) ∨ i ∈ forcedOf (s.ev ++ pre) ∨
        lastCheck (s.ev ++ pre) = some true ∧ Running (s.ev ++ pre) i := by
      intro x hx hi
      refine ⟨l ++ [x], by rw [hx, hl, List.append_assoc], fun pre i post e => ?_⟩
      rcases List.eq_nil_or_concat post with rfl | ⟨post', z, rfl⟩
      · obtain ⟨rfl, e'⟩ := List.append_inj' (s₁ := l) (t₁ := [x]) (s₂ := pre) (t₂ := [Ev.stop i]) (by simpa using e) rfl
        cases e'
        rw [← hl]
        exact hi i rfl
      · have e' : l ++ [x] = (pre ++ Ev.stop i :: post') ++ [z] := by simpa using e
        exact hs pre i post' (List.append_inj' e' rfl).1
    cases st with
    | stop _ i hi =>
      refine other _ rfl fun j hj => ?_
      cases hj
      rcases hi with hi | hi | ⟨hc, hal⟩
      · exact .inl (it.vict ▸ hi)
      · exact .inr (.inl hi)
      · have hrun : Running t.ev i := it.alive_iff.mp hal
        rcases it.why hc with hw | ⟨hw, -⟩
        · exact .inr (.inr ⟨hw, hrun⟩)
        · exact absurd hrun (hw i)
    | farewell => exact absurd ha id
    | plain _ x hx => exact other x rfl fun i e => by subst e; cases hx
    | _ => first
      | exact ⟨l, hl, hs⟩
      | exact other _ rfl fun i e => by cases e

/-- What `_stop_all_children` leaves in the record. -/
theorem closing_events {cfg : Cfg} {s t : State} (h : Steps cfg Lab.closing s t) :
    ∃ l, t.ev = s.ev ++ l ∧ ∀ x ∈ l, (∃ i, x = Ev.stop i) ∨ ∃ i, x = Ev.died i := by
  induction h with
  | refl => exact ⟨[], by simp, by simp⟩
  | @tail t u lab h st ha ih =>
    obtain ⟨l, hl, hs⟩ := ih
    have other : ∀ x, u.ev = t.ev ++ [x] → ((∃ i, x = Ev.stop i) ∨ ∃ i, x = Ev.died i) →
        ∃ l, u.ev = s.ev ++ l ∧ ∀ x ∈ l, (∃ i, x = Ev.stop i) ∨ ∃ i, x = Ev.died i := by
      intro x hx hi
      refine ⟨l ++ [x], by rw [hx, hl, List.append_assoc], fun y hy => ?_⟩
      rcases List.mem_append.mp hy with hy | hy
      · exact hs y hy
      · rw [List.mem_singleton.mp hy]; exact hi
    cases st with
    | die _ i => exact other _ rfl (.inr ⟨i, rfl⟩)
    | farewell _ i => exact other _ rfl (.inl ⟨i, rfl⟩)
    | plain _ x hx => cases x <;> first | (exact absurd ha id) | cases hx
    | _ => first
      | exact absurd ha id
      | exact ⟨l, hl, hs⟩

end Orders

open Orders

variable {cfg : Cfg} {s : State} (hs : Startable cfg s) (fuel : Nat) {e : Env} {q : QueueConc.State (IterRes ⊕ Nat)}
  {child : Nat → Child}

include hs in
/-- **C100.** Whatever happens, an optimizer is told to stop (or terminated) only for a reason: it was shut down before (by a
hunt, or by hand), it was to be ended by force, the convergence criterion is met, or the run is being wound up: then there is
nothing but stop signals and optimizers ending any more. -/
theorem C100_stops_have_a_reason (e : Env) : ∃ work closing, thisRun cfg s fuel e = work ++ closing ∧
    (∀ x ∈ closing, (∃ i, x = Ev.stop i) ∨ ∃ i, x = Ev.died i) ∧
    ∀ pre i post, work = pre ++ Ev.stop i :: post →
      i ∈ killedOf (s.ev ++ pre) ∨ i ∈ forcedOf (s.ev ++ pre) ∨
      lastCheck (s.ev ++ pre) = some true ∧ Running (s.ev ++ pre) i := by
  obtain ⟨m, h1, h2⟩ := startManager_split fuel hs.spec.1 e
  obtain ⟨l1, e1, g1⟩ := work_stops h1 hs.spec.1.inv
  obtain ⟨l2, e2, g2⟩ := closing_events h2
  refine ⟨l1, l2, ?_, g2, g1⟩
  have : happened cfg s fuel e = s.ev ++ (l1 ++ l2) := by
    rw [← List.append_assoc, ← e1]
    exact e2
  rw [thisRun, this, List.drop_left]

/-- **C101.** What an optimizer carries out in its whole life (saving, stopping, continuing, taking a solution), in its order,
are reactions to different messages of the manager. -/
theorem C101_only_orders (c : Child) :
    (c.did.filter Spec.Optimizer.isOrder).Sublist ((Spec.Optimizer.msgsOf c.env).map Spec.Optimizer.documented) := by
  obtain ⟨u, n, h1, h2, h3⟩ := Optimizer.obeys_minimize c.cfg c.code c.fuel ⟨c.env, []⟩
  have hd : c.did = n := h2
  have hu : c.env = u ++ _ := h1
  rw [hd, hu, Optimizer.msgsOf_append, List.map_append]
  exact h3.trans (List.sublist_append_left _ _)

/-- What an optimizer carries out was decided by the manager, at different events in the same order. -/
theorem Orders.orders_of_piped {ev : List Ev} {i : Nat} {c : Child} (h : Piped ev i c) :
    ∃ decided : List Ev, decided.Sublist ev ∧
      List.Forall₂ (Spec.Orders i) decided (c.did.filter Spec.Optimizer.isOrder) := by
  obtain ⟨sent, hsub, hall⟩ := h
  have key : ∀ (acts : List Optimizer.Ev) (msgs : List Optimizer.Msg) (sent : List Ev),
      List.Forall₂ (Sends i) sent msgs → acts.Sublist (msgs.map Spec.Optimizer.documented) →
      (∀ a ∈ acts, Spec.Optimizer.isOrder a = true) →
      ∃ decided : List Ev, decided.Sublist sent ∧ List.Forall₂ (Spec.Orders i) decided acts := by
    intro acts msgs sent h
    induction h generalizing acts with
    | nil =>
      intro h _
      rw [List.map_nil] at h
      rw [List.sublist_nil.mp h]
      exact ⟨[], List.Sublist.refl _, .nil⟩
    | @cons x m t ms hx ht ih =>
      intro h ho
      rw [List.map_cons] at h
      rcases List.sublist_cons_iff.mp h with h | ⟨r, rfl, h'⟩
      · obtain ⟨d, h1, h2⟩ := ih acts h ho
        exact ⟨d, h1.trans (List.sublist_cons_self _ _), h2⟩
      · obtain ⟨d, h1, h2⟩ := ih r h' fun a ha => ho a (List.mem_cons_of_mem _ ha)
        have hm := ho _ (List.mem_cons_self ..)
        refine ⟨x :: d, h1.cons₂ x, .cons ?_ h2⟩
        cases hx with
        | stop => exact .stop _
        | crash => exact .stop _
        | share x fx => exact .share x fx
        | pause => cases hm
        | save p => exact .save p
        | pass => exact .pass
  obtain ⟨d, h1, h2⟩ := key _ _ _ hall (C101_only_orders c) fun a ha => (List.mem_filter.mp ha).2
  exact ⟨d, h1.trans hsub, h2⟩

include hs in
/-- **C101.** Manager and optimizer together: what an optimizer carries out was decided by the manager in this run, different
actions at different events, in the same order. -/
theorem C101_decided_by_manager (i : Nat) (hp : Piped (thisRun cfg s fuel e) i (child i)) :
    ∃ decided : List Ev, decided.Sublist (thisRun cfg s fuel e) ∧
      List.Forall₂ (Spec.Orders i) decided ((child i).did.filter Spec.Optimizer.isOrder) :=
  Orders.orders_of_piped hp

theorem Orders.decided_mem {i : Nat} {l : List Ev} {acts : List Optimizer.Ev} (h : List.Forall₂ (Spec.Orders i) l acts)
    {a : Optimizer.Ev} (ha : a ∈ acts) : ∃ x ∈ l, Spec.Orders i x a := by
  induction h with
  | nil => cases ha
  | @cons x b _ _ hx _ ih =>
    rcases List.mem_cons.mp ha with rfl | ha
    · exact ⟨x, List.mem_cons_self .., hx⟩
    · obtain ⟨y, hy, ho⟩ := ih ha
      exact ⟨y, List.mem_cons_of_mem _ hy, ho⟩

include hs in
/-- **C101, partial.** Manager, queue and optimizers together: a solution an optimizer is given was found, with that value, by
another optimizer, and no evaluation in the log was better when it was sent. Missing: as long as no value below infinity is in the
log, the empty solution may be given (the code does that: C31). -/
theorem C101_injected_partial (hT : Together e q child) (i : Nat) (hp : Piped (thisRun cfg s fuel e) i (child i))
    (x fx : Optimizer.Arg) (hx : Optimizer.Ev.injected x fx ∈ (child i).did) :
    ∃ pre post x' fx', thisRun cfg s fuel e = pre ++ Ev.share i x' fx' :: post ∧ x = .vec x' ∧ fx = .num fx' ∧
      (∀ r ∈ loggedOf (s.ev ++ pre), PyF.lt r.fx fx' = false) ∧
      ((∃ r, r.x = x' ∧ r.fx = fx' ∧ r.optId ≠ i ∧ (r ∈ loggedOf s.ev ∨ r ∈ (child r.optId).made)) ∨
       (x' = [] ∧ fx' = .pinf ∧ ∀ r ∈ loggedOf (s.ev ++ pre), PyF.lt r.fx .pinf = false)) := by
  obtain ⟨d, h1, h2⟩ := C101_decided_by_manager hs fuel i hp
  obtain ⟨y, hy, ho⟩ := decided_mem h2 (List.mem_filter.mpr ⟨hx, rfl⟩)
  cases ho with
  | share x' fx' =>
    obtain ⟨pre, post, hsp⟩ := List.append_of_mem (h1.subset hy)
    have hall : happened cfg s fuel e = (s.ev ++ pre) ++ Ev.share i x' fx' :: post := by
      rw [happened_split hs fuel e, hsp, List.append_assoc]
    obtain ⟨-, -, ⟨b, hb, hne⟩, -, -⟩ := C31_sharing_partial hs fuel e _ _ i x' fx' hall
    refine ⟨pre, post, x', fx', hsp, rfl, rfl, fun r hr => isBest_le hb hr, ?_⟩
    rcases hb with ⟨hn, h0, h1, -⟩ | ⟨k, r, -, hk, rfl, rfl, rfl⟩
    · exact .inr ⟨h0, h1, fun r hr => hn r hr trivial⟩
    · left
      refine ⟨r, rfl, rfl, fun h => hne h.symm, ?_⟩
      have hno : ∀ c n, Ev.resumed c n ∉ pre := by
        obtain ⟨l, hl, hr⟩ := steps_new (startManager_spec fuel hs.spec.1 e).1
        have hl : happened cfg s fuel e = s.ev ++ l := hl
        rw [happened_split hs fuel e] at hl
        have hl := List.append_cancel_left hl
        intro c n hm
        refine hr c n ?_
        rw [← hl, hsp]
        exact List.mem_append_left _ hm
      have hr : r ∈ loggedOf (s.ev ++ pre) := List.mem_of_getElem? hk
      rw [loggedOf_append pre hno] at hr
      rcases List.mem_append.mp hr with hr | hr
      · exact .inl hr
      · right
        have : r ∈ acceptedOf (thisRun cfg s fuel e) := by
          rw [hsp, acceptedOf_append]
          exact List.mem_append_left _ hr
        exact (C99_first_evaluations hs fuel hT r.optId).subset (List.mem_filter.mpr ⟨this, by simp⟩)

include hs in
/-- **C101.** An optimizer stops on behalf of the manager only if the manager told it to in this run. -/
theorem C101_stopped (i : Nat) (hp : Piped (thisRun cfg s fuel e) i (child i)) (reason : Option Optimizer.Arg)
    (hx : Optimizer.Ev.stopped reason ∈ (child i).did) : Ev.stop i ∈ thisRun cfg s fuel e := by
  obtain ⟨d, h1, h2⟩ := C101_decided_by_manager hs fuel i hp
  obtain ⟨y, hy, ho⟩ := decided_mem h2 (List.mem_filter.mpr ⟨hx, rfl⟩)
  cases ho
  exact h1.subset hy

namespace Orders

/-- Reads its messages twice. -/
def listens : Optimizer.Routine where
  σ := Nat
  init := 2
  next
    | 0 => .ret
    | n + 1 => .check fun _ => n

/-- Optimizer 1 evaluates a point; optimizer 2 reads what the manager sends. -/
def pair (i : Nat) : Child :=
  { cfg := { optId := i, logDetailed := false, hasDetailed := false, stopDefault := true }
    code := if i = 2 then listens else once, fuel := 9
    env := if i = 1 then [.value (.fin 5), .unit] else
      if i = 2 then [.msg (.tuple 4 [.vec [5], .num (.fin 5)]), .quiet, .msg (.int 1), .unit, .quiet] else [] }

/-- The manager reads the evaluation, shares it, and stops at convergence. -/
def shares : Env := start2 ++ [ch [r 1 5], u, nothing, files, b false, u, u, b false, u, u, b false, u, u, u, b true, u,
  u, u, u, u, u, u, u]

theorem queue_one : ∃ q : QueueConc.State (IterRes ⊕ Nat), QueueConc.Reachable 10 3 q ∧
    q.received = [[(1, report)]] ∧ ∀ i, q.sent i = if i = 1 then [report] else [] := by
  have h0 : QueueConc.Reachable 10 3 (QueueConc.init 10 3 : QueueConc.State (IterRes ⊕ Nat)) := .init
  have h1 := h0.step _ _ (.nowaitSlow _ 1 report rfl rfl)
  have h2 := h1.step _ _ (.slowOk _ 1 report rfl (.inr (by decide)))
  have h3 := h2.step _ _ (.get _ _ _ rfl)
  refine ⟨_, h3, rfl, fun i => ?_⟩
  by_cases hi : i = 1
  · subst hi; rfl
  · simp [QueueConc.begin, QueueConc.goto, QueueConc.init, hi]

theorem pair_did (i : Nat) : (pair i).did =
    if i = 1 then [.evaluated [5] [.fin 5], .queued ⟨1, [5], .fin 5, []⟩] else
    if i = 2 then [.injected (.vec [5]) (.num (.fin 5)), .stopped none] else [] := by
  by_cases hi : i = 1
  · subst hi; decide +kernel
  · by_cases hj : i = 2
    · subst hj; decide +kernel
    · unfold pair Child.did
      simp only [if_neg hi, if_neg hj]
      rfl

theorem pair_together : ∃ q, Together shares q pair := by
  obtain ⟨q, h1, h2, h3⟩ := queue_one
  refine ⟨q, ⟨10, 3, h1⟩, fun i => rfl, fun i => ?_, fun i x hx => ?_, ⟨[], ?_⟩⟩
  · rw [h3, pair_did]
    by_cases hi : i = 1
    · simp [hi, Spec.Optimizer.queueOf, report]
    · by_cases hj : i = 2
      · simp [hj, Spec.Optimizer.queueOf]
      · simp [hi, hj, Spec.Optimizer.queueOf]
  · rw [pair_did] at hx
    by_cases hi : i = 1
    · rw [if_pos hi] at hx
      simp only [List.mem_cons, List.not_mem_nil, or_false] at hx
      rcases hx with rfl | rfl <;> rfl
    · by_cases hj : i = 2
      · rw [if_neg hi, if_pos hj] at hx
        simp only [List.mem_cons, List.not_mem_nil, or_false] at hx
        rcases hx with rfl | rfl <;> rfl
      · rw [if_neg hi, if_neg hj] at hx
        cases hx
  · rw [h2]
    decide +kernel

theorem pair_piped : Piped (thisRun cfg2 (init cfg2) 20 shares) 2 (pair 2) := by
  refine ⟨[.share 2 [5] (.fin 5), .stop 2], by decide +kernel, ?_⟩
  exact .cons (.share [5] (.fin 5)) (.cons .stop .nil)

/-- The hypotheses are met; optimizer 2 was given what optimizer 1 found, and stopped. -/
example : (∃ q, Together shares q pair) ∧ Piped (thisRun cfg2 (init cfg2) 20 shares) 2 (pair 2) ∧
    Optimizer.Ev.injected (.vec [5]) (.num (.fin 5)) ∈ (pair 2).did ∧ Optimizer.Ev.stopped none ∈ (pair 2).did ∧
    (pair 1).made = [⟨1, [5], .fin 5, []⟩] ∧ ended cfg2 (init cfg2) 20 shares = some .regular :=
  ⟨pair_together, pair_piped, by decide +kernel, by decide +kernel, by decide +kernel, by decide +kernel⟩

/-- A hunt kills optimizer 1, which is told to stop before the convergence criterion is met; an optimizer is ended by force; all
are told to stop at the end. -/
example : (∃ pre post, thisRun cfg2 (init cfg2) 20 demo = pre ++ Ev.stop 1 :: post ∧ Ev.killed 1 (some 2) ∈ pre ∧
      Ev.checked true ∉ pre) ∧
    Ev.stop 1 ∈ thisRun cfgForced (init cfgForced) 20 hangs ∧ Ev.forced 1 ∈ thisRun cfgForced (init cfgForced) 20 hangs ∧
    Ev.stop 2 ∈ thisRun cfg2 (init cfg2) 20 quiet :=
  ⟨⟨(thisRun cfg2 (init cfg2) 20 demo).takeWhile (· ≠ .stop 1), ((thisRun cfg2 (init cfg2) 20 demo).dropWhile (· ≠ .stop 1)).tail,
    by decide +kernel⟩, by decide +kernel, by decide +kernel, by decide +kernel⟩

/-- Optimizer 1 gets nan from the task; optimizer 2 reads what the manager sends. -/
def pairNan (i : Nat) : Child :=
  { cfg := { optId := i, logDetailed := false, hasDetailed := false, stopDefault := true }
    code := if i = 2 then listens else once, fuel := 9
    env := if i = 1 then [.value .nan, .unit] else
      if i = 2 then [.msg (.tuple 4 [.vec [], .num .pinf]), .quiet, .quiet] else [] }

/-- The manager reads this evaluation. -/
def sharesNan : Env := start2 ++ [ch [.res ⟨1, [5], .nan, []⟩], u, u, u]

theorem queue_single (m : IterRes ⊕ Nat) : ∃ q : QueueConc.State (IterRes ⊕ Nat), QueueConc.Reachable 10 3 q ∧
    q.received = [[(1, m)]] ∧ ∀ i, q.sent i = if i = 1 then [m] else [] := by
  have h0 : QueueConc.Reachable 10 3 (QueueConc.init 10 3 : QueueConc.State (IterRes ⊕ Nat)) := .init
  have h1 := h0.step _ _ (.nowaitSlow _ 1 m rfl rfl)
  have h2 := h1.step _ _ (.slowOk _ 1 m rfl (.inr (by show (0 : Nat) < 10; decide)))
  have h3 := h2.step _ _ (.get _ _ _ rfl)
  refine ⟨_, h3, rfl, fun i => ?_⟩
  by_cases hi : i = 1
  · subst hi; rfl
  · simp [QueueConc.begin, QueueConc.goto, QueueConc.init, hi]

theorem pairNan_did (i : Nat) : (pairNan i).did =
    if i = 1 then [.evaluated [5] [.nan], .queued ⟨1, [5], .nan, []⟩] else
    if i = 2 then [.injected (.vec []) (.num .pinf)] else [] := by
  by_cases hi : i = 1
  · subst hi; decide +kernel
  · by_cases hj : i = 2
    · subst hj; decide +kernel
    · unfold pairNan Child.did
      simp only [if_neg hi, if_neg hj]
      rfl

theorem pairNan_together : ∃ q, Together sharesNan q pairNan := by
  obtain ⟨q, h1, h2, h3⟩ := queue_single (.inl ⟨1, [5], .nan, []⟩)
  refine ⟨q, ⟨10, 3, h1⟩, fun i => rfl, fun i => ?_, fun i x hx => ?_, ⟨[], ?_⟩⟩
  · rw [h3, pairNan_did]
    by_cases hi : i = 1
    · simp [hi, Spec.Optimizer.queueOf]
    · by_cases hj : i = 2
      · simp [hj, Spec.Optimizer.queueOf]
      · simp [hi, hj, Spec.Optimizer.queueOf]
  · rw [pairNan_did] at hx
    by_cases hi : i = 1
    · rw [if_pos hi] at hx
      simp only [List.mem_cons, List.not_mem_nil, or_false] at hx
      rcases hx with rfl | rfl <;> rfl
    · by_cases hj : i = 2
      · rw [if_neg hi, if_pos hj] at hx
        simp only [List.mem_cons, List.not_mem_nil, or_false] at hx
        subst hx
        rfl
      · rw [if_neg hi, if_neg hj] at hx
        cases hx
  · rw [h2]
    decide +kernel

end Orders

/-- **C101, refuted.** The first evaluation is not a number: optimizer 2 is given a point which nobody evaluated, the empty one, with the value
infinity. -/
theorem C101_injected_refuted :
    (∃ q, Together sharesNan q pairNan) ∧ Piped (thisRun cfg2 (init cfg2) 20 sharesNan) 2 (pairNan 2) ∧
    Optimizer.Ev.injected (.vec []) (.num .pinf) ∈ (pairNan 2).did ∧
    loggedOf (init cfg2).ev = [] ∧ ∀ i, ∀ r ∈ (pairNan i).made, r.x ≠ [] ∧ r.fx ≠ .pinf := by
  refine ⟨pairNan_together, ⟨[.share 2 [] .pinf], by decide +kernel, .cons (.share [] .pinf) .nil⟩, by decide +kernel,
    by decide +kernel, fun i => ?_⟩
  by_cases hi : i = 1
  · subst hi; decide +kernel
  · by_cases hj : i = 2
    · subst hj; decide +kernel
    · unfold Child.made
      rw [pairNan_did, if_neg hi, if_neg hj]
      simp [Spec.Optimizer.evalsOf]

end Glompo.Props
