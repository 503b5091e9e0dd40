import Verif.Spec.Bundled
import Verif.Props.Selectors
import Verif.Props.Overshoot
import Verif.Props.Hunt

/-! # C137: the manager with a bundled selector and spawn control -/

namespace Glompo.Props

open Glompo.Spec Glompo.Manager Glompo.Props.Runs

namespace Bundles

open HuntPrompt (Pres)
open Overshoot (P Closed Quiet p_askSel p_event p_emit p_askUnit p_logOp p_modify p_askBool p_stopAll p_restartLoop)

/-- As many optimizers were created as chosen. -/
def Even (l : List Ev) : Prop := (proposals (repliesIn l)).length = (newIdsOf l).length

/-- Every choice of the selector is followed at once by the creation of the optimizer, and no optimizer is created otherwise. -/
def Steady (l : List Ev) (_ : List (Nat × Int)) : Prop :=
  Even l ∧ (∀ a k w c b, l = a ++ .asked k (.chosen w c) :: b → Even a) ∧
    ∀ a i b, l = a ++ .newId i :: b → ∃ a' k w c, a = a' ++ [.asked k (.chosen w c)]

theorem replies_append (a b : List Ev) : repliesIn (a ++ b) = repliesIn a ++ repliesIn b := by simp [repliesIn]

theorem proposals_append (a b : List Sel) : proposals (a ++ b) = proposals a ++ proposals b := by simp [proposals]

/-- Where an event of a longer list stands. -/
theorem snoc_split {l a b : List Ev} {x y : Ev} (h : l ++ [x] = a ++ y :: b) : (∃ b', l = a ++ y :: b') ∨ (a = l ∧ y = x) := by
  rcases List.eq_nil_or_concat b with rfl | ⟨b0, z, rfl⟩
  · obtain ⟨h1, h2⟩ := List.append_inj' (show l ++ [x] = a ++ [y] from h) rfl
    exact .inr ⟨h1.symm, by simpa using h2.symm⟩
  · have h' : l ++ [x] = (a ++ y :: b0) ++ [z] := by rw [h]; simp
    obtain ⟨h1, -⟩ := List.append_inj' h' rfl
    exact .inl ⟨b0, h1⟩

theorem quiet_even {l : List Ev} {x : Ev} (hx : Quiet x) (h : Even l) : Even (l ++ [x]) := by
  unfold Even at *
  rw [replies_append, proposals_append, newIdsOf_snoc, List.length_append, h, List.length_append]
  cases x with
  | newId i => cases hx
  | asked k a =>
    cases a with
    | chosen w c => cases hx
    | stop => simp [repliesIn, proposals, inWords]
    | nothing => simp [repliesIn, proposals, inWords]
  | _ => simp [repliesIn, proposals]

theorem steady_closed : Closed Steady where
  ev l ps x hx h := by
    refine ⟨quiet_even hx h.1, fun a k w c b e => ?_, fun a i b e => ?_⟩
    · rcases snoc_split e with ⟨b', e'⟩ | ⟨-, rfl⟩
      · exact h.2.1 a k w c b' e'
      · cases hx
    · rcases snoc_split e with ⟨b', e'⟩ | ⟨-, rfl⟩
      · exact h.2.2 a i b' e'
      · cases hx
  del l ps i h := h

theorem steady_both {l : List Ev} {ps ps' : List (Nat × Int)} (h : Steady l ps) (k w : Int) (c : String) (i : Nat) :
    Steady (l ++ [.asked k (.chosen w c)] ++ [.newId i]) ps' := by
  refine ⟨?_, fun a k' w' c' b e => ?_, fun a j b e => ?_⟩
  · have := h.1
    unfold Even at *
    rw [newIdsOf_snoc, newIdsOf_snoc, replies_append, replies_append, proposals_append, proposals_append]
    rw [List.length_append, List.length_append, this]
    simp [repliesIn, proposals, inWords]
  · rcases snoc_split e with ⟨b', e'⟩ | ⟨-, hy⟩
    · rcases snoc_split e' with ⟨b'', e''⟩ | ⟨rfl, -⟩
      · exact h.2.1 a k' w' c' b'' e''
      · exact h.1
    · cases hy
  · rcases snoc_split e with ⟨b', e'⟩ | ⟨rfl, -⟩
    · rcases snoc_split e' with ⟨b'', e''⟩ | ⟨-, hy⟩
      · exact h.2.2 a j b'' e''
      · cases hy
    · exact ⟨l, k, w, c, rfl⟩

variable {cfg : Cfg} {old : List Ev}

theorem p_setup (k : Int) : Pres (P old Steady) (setupNewOptimizer k) := by
  have hc := steady_closed
  unfold setupNewOptimizer
  refine Pres.bind (p_askSel hc) fun a => ?_
  cases a with
  | stop => nball
  | nothing => nball
  | chosen w c =>
    rintro s e ⟨l, h1, h2⟩
    have hrest : Pres (P old Steady) (do
        askUnit
        let s ← M.get
        logOp (.add s.oCounter c)
        M.modify fun s => { s with slotsOf := dictSet s.slotsOf s.oCounter w }
        pure (some (s.oCounter, w))) := by nball
    refine hrest _ e ⟨l ++ [.asked k (.chosen w c)] ++ [.newId (s.oCounter + 1)], ?_, steady_both h2 k w c _⟩
    · show (s.ev ++ [_]) ++ [_] = _
      rw [h1]
      simp only [List.append_assoc]

theorem p_startJob (i : Nat) (w : Int) : Pres (P old Steady) (startNewJob i w) := by
  have hc := steady_closed
  have hset : Pres (P old Steady) (M.modify fun s => { s with packs := dictSet s.packs i w }) := fun s _ ⟨l, h1, h2⟩ => ⟨l, h1, h2⟩
  unfold startNewJob
  nball

theorem p_fillLoop : ∀ n k b, Pres (P old Steady) (fillLoop cfg n k b)
  | 0, _, _ => Pres.pend
  | n + 1, k, b => by
    have hc := steady_closed
    have ih := p_fillLoop n
    rw [fillLoop]
    refine Pres.bind Pres.get fun st => ?_
    split
    · refine Pres.bind (p_setup _) fun a => ?_
      cases a with
      | none => exact Pres.pure _
      | some iw => exact Pres.bind (p_startJob _ _) fun _ => ih _ _
    · exact Pres.pure _

theorem p_fill (n : Nat) : Pres (P old Steady) (fillSlots cfg n) := by
  have hc := steady_closed
  have hl := p_fillLoop (cfg := cfg) (old := old) n
  unfold fillSlots
  nball
  all_goals exact hl _ _

theorem p_iteration (n : Nat) : Pres (P old Steady) (iteration cfg n) := by
  have hc := steady_closed
  have hf := p_fill (cfg := cfg) (old := old) n
  unfold iteration
  nball

theorem p_mainLoop (fuel : Nat) : ∀ n, Pres (P old Steady) (mainLoop cfg fuel n)
  | 0 => Pres.pend
  | n + 1 => by
    have hc := steady_closed
    have ih := p_mainLoop fuel n
    have hi := p_iteration (cfg := cfg) (old := old) fuel
    rw [mainLoop]
    nball

theorem p_tryBlock (n : Nat) : Pres (P old Steady) (tryBlock cfg n) := by
  have hc := steady_closed
  have hm := p_mainLoop (cfg := cfg) (old := old) n n
  unfold tryBlock
  nball

theorem p_afterCheck (n : Nat) (s : State) (e : Env) (h : P old Steady s) : P old Steady (afterCheck cfg n s e).2.1 := by
  have hc := steady_closed
  have h1 := p_tryBlock (cfg := cfg) (old := old) n s e h
  unfold afterCheck
  split
  · rename_i hm; rw [hm] at h1; exact h1
  · rename_i hm; rw [hm] at h1; exact h1
  · rename_i x s2 e2 hm
    rw [hm] at h1
    split
    · have h2 := p_stopAll (old := old) hc "GloMPO Crash" s2 e2 h1
      split
      · rename_i hm; rw [hm] at h2; exact h2
      · rename_i hm; rw [hm] at h2; exact h2
    · have h2 := p_stopAll (old := old) hc "User Interrupt" s2 e2 h1
      split
      · rename_i hm; rw [hm] at h2; exact h2
      · rename_i hm; rw [hm] at h2; exact h2

theorem p_start (n : Nat) (s : State) (e : Env) (h : P old Steady s) : P old Steady (startManager cfg n s e).2.1 := by
  have hc := steady_closed
  have h1 := p_askBool (old := old) hc s e h
  unfold startManager
  split
  · rename_i hm; rw [hm] at h1; exact h1
  · rename_i hm; rw [hm] at h1
    split
    · exact p_afterCheck n _ _ (h1.same rfl rfl)
    · exact h1
  · rename_i b s0 e1 hm; rw [hm] at h1
    split
    · exact h1.quiet hc (.checked b) trivial rfl rfl
    · exact p_afterCheck n _ _ (h1.quiet hc (.checked b) trivial rfl rfl)

/-- What a run has done is steady. -/
theorem steady_run (s : State) (fuel : Nat) (e : Env) : Steady (thisRun cfg s fuel e) [] := by
  have h0 : P s.ev Steady s := by
    refine ⟨[], by simp, rfl, fun a k w c b e => ?_, fun a i b e => ?_⟩ <;> · cases a <;> cases e
  obtain ⟨l, h1, h2⟩ := p_start (cfg := cfg) fuel s e h0
  have el : thisRun cfg s fuel e = l := by
    unfold thisRun happened moment
    rw [h1]; simp
  rw [el]
  exact h2

theorem questions_append (a b : List Ev) : ∀ old, questions old (a ++ b) = questions old a ++ questions (old ++ a) b := by
  induction a with
  | nil => intro old; simp [questions]
  | cons x t ih =>
    intro old
    rw [List.cons_append, questions.eq_def, questions.eq_def old (x :: t)]
    cases x <;> dsimp only <;> rw [ih, List.append_assoc] <;> rfl

theorem questions_length (l : List Ev) : ∀ old, (questions old l).length = (repliesIn l).length := by
  induction l with
  | nil => intro old; rfl
  | cons x t ih =>
    intro old
    rw [questions.eq_def]
    cases x <;> dsimp only <;> simp [ih, repliesIn]

/-- What the bundled selectors have in common: an optimizer is chosen only while spawning is allowed, from those given, and fits the slots. -/
theorem bundled_obey {opts : List AvailOpt} {allow : SelView → Bool} {sel : List Req → List Sel} (hb : Bundled opts allow sel) {reqs : List Req}
    {j : Nat} {r : Req} {o : AvailOpt} (hr : reqs[j]? = some r) (ha : (sel reqs)[j]? = some (.chosen o)) :
    allow r.view = true ∧ o ∈ opts ∧ o.workers ≤ r.slots := by
  cases hb with
  | cycle i =>
    induction reqs generalizing j i with
    | nil => simp at hr
    | cons q t ih =>
      have hsel : (Cycle.mk opts allow i).run (q :: t) = ((((Cycle.mk opts allow i).select q).1.run t).1, ((Cycle.mk opts allow i).select q).2 :: (((Cycle.mk opts allow i).select q).1.run t).2) := rfl
      dsimp only at ha ih
      rw [hsel] at ha
      cases j with
      | zero =>
        simp only [List.getElem?_cons_zero, Option.some.injEq] at hr ha
        subst hr
        simp only [Cycle.select] at ha
        split at ha
        · cases ha
        rename_i h1
        split at ha
        · cases ha
        split at ha
        · cases ha
        rename_i o' h3
        split at ha
        · cases ha
        rename_i h4
        cases ha
        exact ⟨by simpa using h1, List.mem_of_getElem? h3, by omega⟩
      | succ j =>
        simp only [List.getElem?_cons_succ] at hr ha
        obtain ⟨i', hi'⟩ : ∃ i', ((Cycle.mk opts allow i).select q).1 = Cycle.mk opts allow i' := by
          simp only [Cycle.select]
          split
          · exact ⟨_, rfl⟩
          split
          · exact ⟨_, rfl⟩
          split
          · exact ⟨_, rfl⟩
          split
          · exact ⟨_, rfl⟩
          · exact ⟨_, rfl⟩
        rw [hi'] at ha
        exact ih hr i' ha
  | chain ths g =>
    induction reqs generalizing j g with
    | nil => simp at hr
    | cons q t ih =>
      have hsel : (Chain.mk opts ths allow g).run (q :: t) = ((((Chain.mk opts ths allow g).select q).1.run t).1, ((Chain.mk opts ths allow g).select q).2 :: (((Chain.mk opts ths allow g).select q).1.run t).2) := rfl
      dsimp only at ha ih
      rw [hsel] at ha
      cases j with
      | zero =>
        simp only [List.getElem?_cons_zero, Option.some.injEq] at hr ha
        subst hr
        simp only [Chain.select] at ha
        split at ha
        · cases ha
        rename_i h1
        split at ha
        · cases ha
        rename_i o' h3
        split at ha
        · cases ha
        rename_i h4
        cases ha
        exact ⟨by simpa using h1, List.mem_of_getElem? h3, by omega⟩
      | succ j =>
        simp only [List.getElem?_cons_succ] at hr ha
        obtain ⟨i', hi'⟩ : ∃ i', ((Chain.mk opts ths allow g).select q).1 = Chain.mk opts ths allow i' := by
          simp only [Chain.select]
          split
          · exact ⟨_, rfl⟩
          split
          · exact ⟨_, rfl⟩
          split
          · exact ⟨_, rfl⟩
          · exact ⟨_, rfl⟩
        rw [hi'] at ha
        exact ih hr i' ha
  | random =>
    simp only [List.getElem?_map, hr, Option.map_some, Option.some.injEq] at ha
    have h := (C08_slots_respected opts allow [] [] r o).2.2 ha
    refine ⟨?_, h.2, h.1⟩
    simp only [randomSelect] at ha
    split at ha
    · cases ha
    · rename_i h1; simpa using h1

/-- The question before a choice. -/
theorem choice_obeys {opts : List AvailOpt} {allow : SelView → Bool} {sel : List Req → List Sel} (hb : Bundled opts allow sel)
    {old pre post : List Ev} {k w : Int} {c : String} (hsel : SelectedBy sel old (pre ++ .asked k (.chosen w c) :: post)) :
    allow (seenBySelector (old ++ pre)) = true ∧ AvailOpt.mk c w ∈ opts ∧ w ≤ k := by
  obtain ⟨reqs, hq, ha⟩ := hsel
  have hq' : (reqs.map fun r => (r.view, r.slots))[(questions old pre).length]? = some (seenBySelector (old ++ pre), k) := by
    rw [hq, questions_append]
    simp [questions]
  have ha' : (sel reqs)[(questions old pre).length]? = some (.chosen ⟨c, w⟩) := by
    rw [ha, replies_append, questions_length]
    simp [repliesIn, inWords]
  rw [List.getElem?_map, Option.map_eq_some_iff] at hq'
  obtain ⟨r, hr, hv⟩ := hq'
  have := bundled_obey hb hr ha'
  simp only [Prod.mk.injEq] at hv
  rw [hv.1, hv.2] at this
  exact this

/-- The views shown by the questions of a history never show fewer evaluations than before. -/
theorem questions_monotone (l : List Ev) : ∀ (old : List Ev) (reqs : List Req), (reqs.map fun r => (r.view, r.slots)) = questions old l →
    MonotoneReqs reqs ∧ ∀ r ∈ reqs, (acceptedOf old).length ≤ r.view.fCounter := by
  induction l with
  | nil => intro old reqs h; simp [questions] at h; subst h; simp [MonotoneReqs]
  | cons x t ih =>
    intro old reqs h
    have hle : (acceptedOf old).length ≤ (acceptedOf (old ++ [x])).length := by unfold acceptedOf; rw [List.filterMap_append]; simp
    have other : (reqs.map fun r => (r.view, r.slots)) = questions (old ++ [x]) t →
        MonotoneReqs reqs ∧ ∀ r ∈ reqs, (acceptedOf old).length ≤ r.view.fCounter := fun h' =>
      ⟨(ih _ reqs h').1, fun r hr => hle.trans ((ih _ reqs h').2 r hr)⟩
    cases x with
    | asked k a =>
      cases reqs with
      | nil => simp [MonotoneReqs]
      | cons q qs =>
        simp only [List.map_cons, questions, List.cons.injEq, Prod.mk.injEq] at h
        obtain ⟨⟨hv, -⟩, hq⟩ := h
        obtain ⟨h1, h2⟩ := ih _ qs hq
        have hqv : q.view.fCounter = (acceptedOf old).length := by rw [hv]; rfl
        refine ⟨?_, fun r hr => ?_⟩
        · cases qs with
          | nil => trivial
          | cons q' qs' => exact ⟨hqv ▸ hle.trans (h2 q' (by simp)), h1⟩
        · rcases List.mem_cons.mp hr with rfl | hr
          · exact hqv.ge
          · exact hle.trans (h2 r hr)
    | _ => exact other h

/-- The settings in force all through the run of a manager are its own. -/
theorem inForce_run {s : State} (hs : Startable cfg s) (fuel : Nat) (e : Env) {pre post : List Ev} (h : thisRun cfg s fuel e = pre ++ post) :
    inForce cfg s fuel e (s.ev ++ pre) = cfg := by
  have hsplit := EndToEnd.happened_split hs fuel e
  have hno : ∀ c n, Ev.resumed c n ∉ thisRun cfg s fuel e := by
    obtain ⟨l, hl, hr⟩ := EndToEnd.steps_new (startManager_spec fuel hs.spec.1 e).1
    have : happened cfg s fuel e = s.ev ++ l := hl
    rw [hsplit] at this
    rwa [List.append_cancel_left this]
  have hset : ∀ l : List Ev, (∀ c n, Ev.resumed c n ∉ l) → ∀ c0 l0, settings c0 (l0 ++ l) = settings c0 l0 := by
    intro l
    refine snoc_induction (P := fun l => (∀ c n, Ev.resumed c n ∉ l) → ∀ c0 l0, settings c0 (l0 ++ l) = settings c0 l0)
      (fun _ _ _ => by rw [List.append_nil]) (fun l x ih hl c0 l0 => ?_) l
    have ih := ih (fun c n hm => hl c n (by simp [hm])) c0 l0
    rw [← ih, ← List.append_assoc]
    cases x with
    | resumed c n => exact absurd (by simp) (hl c n)
    | _ => simp [settings]
  have e1 : inForce cfg s fuel e (s.ev ++ pre) = cfg := by
    have h4 : inForce cfg s fuel e (happened cfg s fuel e) = cfg := (moment_inv hs fuel e).set
    unfold inForce at h4 ⊢
    rw [hsplit, hset _ hno] at h4
    rw [hset pre fun c n hm => hno c n (by rw [h]; exact List.mem_append_left _ hm), h4]
  exact e1

end Bundles

open Bundles

variable {cfg : Cfg} {s : State} {opts : List AvailOpt} {allow : SelView → Bool} {sel : List Req → List Sel}

/-- C137. What the selector is taken to see is what the counters of the manager say, at any moment of any run. -/
theorem C137_seen (hs : Startable cfg s) (fuel : Nat) (e : Env) :
    seenBySelector (happened cfg s fuel e) = ⟨(moment cfg s fuel e).fCounter, (moment cfg s fuel e).oCounter⟩ := by
  have inv := moment_inv hs fuel e
  unfold seenBySelector
  have h1 : (acceptedOf (happened cfg s fuel e)).length = (moment cfg s fuel e).fCounter := inv.cnt.symm
  have h2 : newIdsOf (happened cfg s fuel e) = List.range' 1 (moment cfg s fuel e).oCounter := inv.ids
  rw [h1, h2, List.length_range']

/-- C137. With a bundled selector whose optimizers all have at least one worker, the manager is only ever given optimizers which fit the slots it
offers, each one of those configured; this is what the theorems about the worker slots (C18, C136) ask of the selector. -/
theorem C137_fits (fuel : Nat) (e : Env) (hb : Bundled opts allow sel) (hsel : SelectedBy sel s.ev (thisRun cfg s fuel e)) :
    (∀ slots w c, Ev.asked slots (.chosen w c) ∈ thisRun cfg s fuel e → AvailOpt.mk c w ∈ opts ∧ w ≤ slots) ∧
    ((∀ o ∈ opts, 1 ≤ o.workers) → SelectorPos (thisRun cfg s fuel e)) := by
  have h : ∀ slots w c, Ev.asked slots (.chosen w c) ∈ thisRun cfg s fuel e → AvailOpt.mk c w ∈ opts ∧ w ≤ slots := by
    intro k w c hm
    obtain ⟨a, b, e⟩ := List.append_of_mem hm
    rw [e] at hsel
    exact (choice_obeys hb hsel).2
  exact ⟨h, fun ho k w c hm => ⟨ho _ (h k w c hm).1, (h k w c hm).2⟩⟩

/-- C137. Whenever the manager creates an optimizer, the spawn control of the bundled selector allowed it in view of what had happened by then. -/
theorem C137_allowed (fuel : Nat) (e : Env) (hb : Bundled opts allow sel) (hsel : SelectedBy sel s.ev (thisRun cfg s fuel e))
    {pre post : List Ev} {i : Nat} (h : thisRun cfg s fuel e = pre ++ .newId i :: post) : allow (seenBySelector (s.ev ++ pre)) = true := by
  obtain ⟨a, k, w, c, rfl⟩ := (steady_run (cfg := cfg) s fuel e).2.2 pre i post h
  rw [h, List.append_assoc] at hsel
  have := (choice_obeys hb hsel).1
  have e1 : seenBySelector (s.ev ++ (a ++ [.asked k (.chosen w c)])) = seenBySelector (s.ev ++ a) := by
    unfold seenBySelector
    rw [← List.append_assoc, newIdsOf_snoc]
    simp [acceptedOf]
  rw [e1]
  exact this

/-- C137. With `IterSpawnStop(n)` no optimizer is created once `n` evaluations have been accepted. -/
theorem C137_IterSpawnStop (fuel : Nat) (e : Env) (n : Int) (hb : Bundled opts (iterSpawnStop n) sel)
    (hsel : SelectedBy sel s.ev (thisRun cfg s fuel e)) {pre post : List Ev} {i : Nat} (h : thisRun cfg s fuel e = pre ++ .newId i :: post) :
    ((acceptedOf (s.ev ++ pre)).length : Int) < n := by
  have := C137_allowed fuel e hb hsel h
  unfold iterSpawnStop at this
  by_contra hc
  rw [if_pos (show ((seenBySelector (s.ev ++ pre)).fCounter : Int) ≥ n from not_lt.mp hc)] at this
  cases this

/-- C137. With `NOptimizersSpawnStop(n)` never more than `n` optimizers are created, whatever the number of slots and however the run ends (a
manager loaded from a checkpoint with more of them creates no other). -/
theorem C137_NOptimizersSpawnStop (hs : Startable cfg s) (fuel : Nat) (e : Env) (n : Int) (hb : Bundled opts (nOptimizersSpawnStop n) sel)
    (hsel : SelectedBy sel s.ev (thisRun cfg s fuel e)) :
    ((newIdsOf (happened cfg s fuel e)).length : Int) ≤ max ((newIdsOf s.ev).length : Int) n := by
  have hal := fun pre i post => C137_allowed (pre := pre) (post := post) (i := i) fuel e hb hsel
  rw [EndToEnd.happened_split hs fuel e]
  generalize thisRun cfg s fuel e = l at *
  have key : ∀ a b, l = a ++ b → ((newIdsOf (s.ev ++ a)).length : Int) ≤ max ((newIdsOf s.ev).length : Int) n := by
    intro a
    refine snoc_induction (P := fun a => ∀ b, l = a ++ b → ((newIdsOf (s.ev ++ a)).length : Int) ≤ max ((newIdsOf s.ev).length : Int) n) ?_
      (fun a x ih => ?_) a
    · intro b _
      rw [List.append_nil]
      omega
    · intro b hl
      have ih := ih ([x] ++ b) (by rw [hl]; simp)
      rw [← List.append_assoc, newIdsOf_snoc]
      cases x with
      | newId i =>
        have := hal a i b (by rw [hl]; simp)
        unfold nOptimizersSpawnStop at this
        have hlt : ((newIdsOf (s.ev ++ a)).length : Int) < n := by
          by_contra hc
          rw [if_pos (show ((seenBySelector (s.ev ++ a)).oCounter : Int) ≥ n from not_lt.mp hc)] at this
          cases this
        simp only [List.length_append, List.length_singleton]
        push_cast
        omega
      | _ => simpa using ih
  exact key l [] (by simp)

/-- C137. With the cycle selector a new manager creates its optimizers in turn: every one was chosen by the selector, and the optimizer of id `i`
is the `(i - 1) % len(opts)`-th of those configured, whatever refusals came in between. -/
theorem C137_cycle (fuel : Nat) (e : Env) (hne : opts ≠ [])
    (hsel : SelectedBy (fun reqs => ((Cycle.init opts allow).run reqs).2) [] (happened cfg (init cfg) fuel e)) :
    (∀ i ∈ newIdsOf (happened cfg (init cfg) fuel e), ∃ cls, ChosenAs (happened cfg (init cfg) fuel e) i cls) ∧
    ∀ i pre k w cls post, happened cfg (init cfg) fuel e = pre ++ .asked k (.chosen w cls) :: .newId i :: post →
      opts[(i - 1) % opts.length]? = some ⟨cls, w⟩ := by
  have hst := steady_run (cfg := cfg) (init cfg) fuel e
  have hg := moment_good (Startable.fresh cfg) fuel e
  have hth : thisRun cfg (init cfg) fuel e = happened cfg (init cfg) fuel e := by
    have := EndToEnd.happened_split (Startable.fresh cfg) fuel e
    simpa [init] using this.symm
  rw [hth] at hst
  have hids : newIdsOf (happened cfg (init cfg) fuel e) = List.range' 1 (moment cfg (init cfg) fuel e).oCounter :=
    (moment_inv (Startable.fresh cfg) fuel e).ids
  generalize happened cfg (init cfg) fuel e = l at *
  refine ⟨fun i hi => ?_, fun i pre k w cls post h => ?_⟩
  · have hm : Ev.newId i ∈ l := by
      unfold newIdsOf at hi
      obtain ⟨x, hx, hxi⟩ := List.mem_filterMap.mp hi
      cases x <;> simp_all
    obtain ⟨a, b, hab⟩ := List.append_of_mem hm
    obtain ⟨a', k, w, c, rfl⟩ := hst.2.2 a i b hab
    exact ⟨c, a', k, w, b, by rw [hab]; simp⟩
  · have hev := hst.2.1 pre k w cls _ h
    have hi : i = (newIdsOf pre).length + 1 := by
      have h1 : newIdsOf l = newIdsOf pre ++ i :: newIdsOf post := by rw [h]; simp [newIdsOf]
      have h2 : (newIdsOf l)[(newIdsOf pre).length]? = some i := by rw [h1]; simp
      rw [hids, List.getElem?_range'] at h2
      · simp at h2; omega
      · have := congrArg List.length hids
        rw [h1] at this
        simp at this
        omega
    obtain ⟨reqs, -, ha⟩ := hsel
    have hp : (proposals ((Cycle.init opts allow).run reqs).2)[i - 1]? = some ⟨cls, w⟩ := by
      dsimp only at ha
      have hj : i - 1 = (proposals (repliesIn pre)).length := by unfold Bundles.Even at hev; omega
      rw [ha, h, replies_append, proposals_append, hj]
      simp [repliesIn, inWords, proposals]
    exact C09_round_robin opts allow reqs (i - 1) ⟨cls, w⟩ hne hp

/-- C137. So it is in the run of any manager, new or loaded from a checkpoint, if the selector is in the state in which it had proposed as many
optimizers as were created when the run began (`hist` are the requests it had by then): the cycle goes on where it was. -/
theorem C137_cycle_resumed (hs : Startable cfg s) (fuel : Nat) (e : Env) (hne : opts ≠ []) (hist : List Req)
    (hk : (proposals ((Cycle.init opts allow).run hist).2).length = (newIdsOf s.ev).length)
    (hsel : SelectedBy (fun reqs => (((Cycle.init opts allow).run hist).1.run reqs).2) s.ev (thisRun cfg s fuel e)) :
    ∀ i pre k w cls post, thisRun cfg s fuel e = pre ++ .asked k (.chosen w cls) :: .newId i :: post →
      opts[(i - 1) % opts.length]? = some ⟨cls, w⟩ := by
  have hst := steady_run (cfg := cfg) s fuel e
  have hsplit := EndToEnd.happened_split hs fuel e
  have hids : newIdsOf (happened cfg s fuel e) = List.range' 1 (moment cfg s fuel e).oCounter := (moment_inv hs fuel e).ids
  rw [hsplit] at hids
  generalize thisRun cfg s fuel e = l at *
  intro i pre k w cls post h
  have hn : 0 < opts.length := List.length_pos_iff.mpr hne
  have hev := hst.2.1 pre k w cls _ h
  have hi : i = (newIdsOf s.ev).length + (newIdsOf pre).length + 1 := by
    have h1 : newIdsOf (s.ev ++ l) = (newIdsOf s.ev ++ newIdsOf pre) ++ i :: newIdsOf post := by rw [h]; simp [newIdsOf]
    have h2 : (newIdsOf (s.ev ++ l))[(newIdsOf s.ev).length + (newIdsOf pre).length]? = some i := by
      rw [h1, ← List.length_append]; simp
    rw [hids, List.getElem?_range'] at h2
    · simp at h2; omega
    · have := congrArg List.length hids
      rw [h1] at this
      simp at this
      omega
  have hstate := cycle_state opts.length hn hist (Cycle.init opts allow) 0 rfl rfl
  obtain ⟨reqs, -, ha⟩ := hsel
  dsimp only at ha
  have hp : (proposals (((Cycle.init opts allow).run hist).1.run reqs).2)[(newIdsOf pre).length]? = some ⟨cls, w⟩ := by
    unfold Bundles.Even at hev
    rw [ha, h, replies_append, proposals_append, ← hev]
    simp [repliesIn, inWords, proposals]
  have hc := cycle_run opts.length hn reqs ((Cycle.init opts allow).run hist).1 (newIdsOf s.ev).length (by rw [hstate]; rfl)
    (by rw [hstate, hk]; simp) _ _ hp
  rw [hstate] at hc
  have e1 : i - 1 = (newIdsOf s.ev).length + (newIdsOf pre).length := by omega
  rw [e1]
  exact hc

/-- C137. With the chain selector and ascending thresholds a new manager goes through the configured optimizers in order: there is a stage for each
question put to the selector, which never goes back and never skips, and an optimizer created is the one configured for the stage, which never
exceeds the number of thresholds reached by the evaluations accepted until then. -/
theorem C137_chain (fuel : Nat) (e : Env) {ths : List PyF} {c : Chain} (hc : Chain.init opts ths allow = some c)
    (hth : ths.Pairwise fun a b => PyF.le a b = true)
    (hsel : SelectedBy (fun reqs => (c.run reqs).2) [] (happened cfg (init cfg) fuel e)) :
    ∃ stages : List Nat, stages.length = (questions [] (happened cfg (init cfg) fuel e)).length ∧
      (∀ k a b, stages[k]? = some a → stages[k + 1]? = some b → a ≤ b ∧ b ≤ a + 1) ∧
      ∀ pre k w cls post, happened cfg (init cfg) fuel e = pre ++ .asked k (.chosen w cls) :: post →
        ∃ j, stages[(questions [] pre).length]? = some j ∧ j ≤ reached ths (acceptedOf pre).length ∧ opts[j]? = some ⟨cls, w⟩ := by
  obtain ⟨reqs, hq, ha⟩ := hsel
  generalize happened cfg (init cfg) fuel e = l at *
  have hm := (questions_monotone l [] reqs hq).1
  dsimp only at ha
  rw [C10_chain_answers opts ths allow c hc hth reqs hm] at ha
  obtain ⟨h1, h2⟩ := C10_stages ths allow reqs hm
  refine ⟨chainStages ths allow 0 reqs, ?_, h1, fun pre k w cls post h => ?_⟩
  · rw [chainStages_length, ← hq, List.length_map]
  · have hq' : (reqs.map fun r => (r.view, r.slots))[(questions [] pre).length]? = some (seenBySelector pre, k) := by
      rw [hq, h, questions_append]
      simp [questions]
    rw [List.getElem?_map, Option.map_eq_some_iff] at hq'
    obtain ⟨r, hr, hv⟩ := hq'
    simp only [Prod.mk.injEq] at hv
    have ha' : (List.zipWith (chainAnswer opts allow) reqs (chainStages ths allow 0 reqs))[(questions [] pre).length]? =
        some (.chosen ⟨cls, w⟩) := by
      rw [ha, h, replies_append, questions_length]
      simp [repliesIn, inWords]
    rw [List.getElem?_zipWith, hr] at ha'
    cases hj : (chainStages ths allow 0 reqs)[(questions [] pre).length]? with
    | none => rw [hj] at ha'; cases ha'
    | some j =>
      rw [hj] at ha'
      refine ⟨j, rfl, ?_, ?_⟩
      · have := h2 _ j r hj hr
        rw [hv.1] at this
        exact this
      · simp only [Option.some.injEq, chainAnswer] at ha'
        split at ha'
        · split at ha'
          · rename_i o ho
            split at ha'
            · cases ha'; exact ho
            · cases ha'
          · cases ha'
        · cases ha'

/-- C137. A manager with a bundled selector whose optimizers have no negative number of workers never has more workers running than `max_jobs`,
whether it is new or loaded from a checkpoint (the selectors of the earlier runs are to have chosen only optimizers which fit, too). -/
theorem C137_slots (hs : Startable cfg s) (fuel : Nat) (e : Env) (hb : Bundled opts allow sel) (ho : ∀ o ∈ opts, 0 ≤ o.workers)
    (hold : SelectorFits s.ev) (hsel : SelectedBy sel s.ev (thisRun cfg s fuel e)) (hj : 0 ≤ cfg.maxJobs) {pre post : List Ev}
    (h : thisRun cfg s fuel e = pre ++ post) : load (s.ev ++ pre) ≤ cfg.maxJobs := by
  have hsplit := EndToEnd.happened_split hs fuel e
  have hf : SelectorFits (happened cfg s fuel e) := by
    intro k w c hm
    rw [hsplit] at hm
    rcases List.mem_append.mp hm with hm | hm
    · exact hold k w c hm
    · obtain ⟨a, b, e⟩ := List.append_of_mem hm
      rw [e] at hsel
      exact ⟨ho _ (choice_obeys hb hsel).2.1, (choice_obeys hb hsel).2.2⟩
  obtain ⟨h1, -, -⟩ := C18_slots_never_oversubscribed hs fuel e hf
  have e1 := inForce_run hs fuel e h
  have := h1 (s.ev ++ pre) post (by rw [hsplit, h, List.append_assoc])
  rw [e1] at this
  exact this hj

/-- Three slots. -/
def cfgT3 : Cfg := { cfg2 with maxJobs := 3 }

/-- Two optimizers of different classes are chosen for three slots; then the selector answers that no more are to be started. -/
def turns : Env := [b false, u, u, ⟨[], .sel (.chosen 1 "A")⟩, u, u, u, ⟨[], .sel (.chosen 1 "B")⟩, u, u, u, no, u, sg none, sg none,
  ch [r 1 5], u, u]

/-- What is configured: two optimizers. -/
def optsAB : List AvailOpt := [⟨"A", 1⟩, ⟨"B", 1⟩]

/-- The hypotheses are met in a run with the cycle selector and `NOptimizersSpawnStop(2)`; two optimizers are created although three slots are
there. -/
example : SelectedBy (fun reqs => ((Cycle.init optsAB (nOptimizersSpawnStop 2)).run reqs).2) [] (happened cfgT3 (init cfgT3) 20 turns) ∧
    Bundled optsAB (nOptimizersSpawnStop 2) (fun reqs => ((Cycle.init optsAB (nOptimizersSpawnStop 2)).run reqs).2) ∧
    newIdsOf (happened cfgT3 (init cfgT3) 20 turns) = [1, 2] ∧ ChosenAs (happened cfgT3 (init cfgT3) 20 turns) 2 "B" :=
  ⟨⟨[⟨⟨0, 0⟩, 3, 0⟩, ⟨⟨0, 1⟩, 2, 0⟩, ⟨⟨0, 2⟩, 1, 0⟩], by decide +kernel, by decide +kernel⟩, .cycle (-1), by decide +kernel,
    (happened cfgT3 (init cfgT3) 20 turns).take 4, 2, 1, (happened cfgT3 (init cfgT3) 20 turns).drop 6, by decide +kernel⟩

/-- The same with the random selector. -/
example : SelectedBy (fun reqs => reqs.map (randomSelect optsAB (nOptimizersSpawnStop 2))) [] (happened cfgT3 (init cfgT3) 20 turns) :=
  ⟨[⟨⟨0, 0⟩, 3, 0⟩, ⟨⟨0, 1⟩, 2, 1⟩, ⟨⟨0, 2⟩, 1, 0⟩], by decide +kernel, by decide +kernel⟩

/-- With the chain selector and `IterSpawnStop(1)`, which has no more optimizers started once a result is in. -/
example : SelectedBy (fun reqs => ((Chain.mk [⟨"O", 1⟩] [] (iterSpawnStop 1) 0).run reqs).2) [] (happened cfg2 (init cfg2) 20 quiet) :=
  ⟨[⟨⟨0, 0⟩, 2, 0⟩, ⟨⟨0, 1⟩, 1, 0⟩], by decide +kernel, by decide +kernel⟩

/-- An optimizer with two workers is chosen for three slots, then there is none for the slot left; after a result there is one. -/
def stagesRun : Env := [b false, u, u, ⟨[], .sel (.chosen 2 "A")⟩, u, u, u, ⟨[], .sel .nothing⟩, u, sg none, ch [r 1 3], nothing, files, b false,
  u, u, b false, u, u, b false, u, u, ⟨[], .sel (.chosen 1 "B")⟩, u, u]

/-- With the chain selector and a threshold at the first evaluation: the second type is created in the second stage. -/
example : ∃ c, Chain.init [⟨"A", 2⟩, ⟨"B", 1⟩] [.fin 1] alwaysSpawn = some c ∧
    SelectedBy (fun reqs => (c.run reqs).2) [] (happened cfgT3 (init cfgT3) 20 stagesRun) ∧
    newIdsOf (happened cfgT3 (init cfgT3) 20 stagesRun) = [1, 2] ∧ ([.fin 1] : List PyF).Pairwise fun a b => PyF.le a b = true :=
  ⟨_, rfl, ⟨[⟨⟨0, 0⟩, 3, 0⟩, ⟨⟨0, 1⟩, 1, 0⟩, ⟨⟨1, 1⟩, 1, 0⟩], by decide +kernel, by decide +kernel⟩, by decide +kernel, by simp⟩

/-- A manager loaded from a checkpoint with two optimizers, of which only the first could be loaded. -/
def lostM : State := loadFirst cfgH (startManager cfgH 20 (init cfgH) lossyCk).2.1 [(1, true), (2, false)]

/-- The first goes on, and a third is created. -/
def thirdRun : Env := [b false, u, u, u, ⟨[], .sel (.chosen 1 "C")⟩, u, u, u]

/-- What is configured: the third is of another class. -/
def optsOOC : List AvailOpt := [⟨"O", 1⟩, ⟨"O", 1⟩, ⟨"C", 1⟩]

/-- The requests of the first run. -/
def histOO : List Req := [⟨⟨0, 0⟩, 2, 0⟩, ⟨⟨0, 1⟩, 1, 0⟩]

/-- The hypotheses of `C137_cycle_resumed` and `C137_slots` are met by a loaded manager which creates another optimizer. -/
example : Startable cfgH lostM ∧
    (proposals ((Cycle.init optsOOC alwaysSpawn).run histOO).2).length = (newIdsOf lostM.ev).length ∧
    SelectedBy (fun reqs => (((Cycle.init optsOOC alwaysSpawn).run histOO).1.run reqs).2) lostM.ev (thisRun cfgH lostM 20 thirdRun) ∧
    newIdsOf (thisRun cfgH lostM 20 thirdRun) = [3] ∧ SelectorPos lostM.ev :=
  ⟨startable_loadFirst cfgH cfgH _ 20 lossyCk _ (Startable.fresh cfgH) (by decide +kernel), by decide +kernel,
    ⟨[⟨⟨2, 2⟩, 1, 0⟩], by decide +kernel, by decide +kernel⟩, by decide +kernel, selectorPos_of_fitB (by decide +kernel)⟩

end Glompo.Props
