import Verif.Spec.Overshoot
import Verif.Props.HuntPrompt
import Verif.Props.Criterion

/-! # C136: how far the number of optimizers overshoots its limit -/

namespace Glompo.Props

open Glompo.Spec Glompo.Manager Glompo.Props.Runs

namespace Overshoot

open HuntPrompt (Pres handler)

/-- A fact about what has happened in this run and about the slots of the optimizers known. -/
def P (old : List Ev) (R : List Ev → List (Nat × Int) → Prop) (s : State) : Prop := ∃ l, s.ev = old ++ l ∧ R l s.packs

/-- Events other than the choice and the creation of an optimizer. -/
def Quiet : Ev → Prop
  | .newId _ => False
  | .asked _ (.chosen _ _) => False
  | _ => True

/-- A fact which other events do not change, nor does forgetting optimizers. -/
structure Closed (R : List Ev → List (Nat × Int) → Prop) : Prop where
  ev : ∀ l ps x, Quiet x → R l ps → R (l ++ [x]) ps
  del : ∀ l ps i, R l ps → R l (dictDel ps i)

variable {cfg : Cfg} {old : List Ev} {R : List Ev → List (Nat × Int) → Prop}

theorem P.same {s t : State} (h : P old R s) (h1 : t.ev = s.ev) (h2 : t.packs = s.packs) : P old R t := by unfold P; rw [h1, h2]; exact h

theorem P.quiet {s t : State} (h : P old R s) (hc : Closed R) (x : Ev) (hx : Quiet x) (h1 : t.ev = s.ev ++ [x]) (h2 : t.packs = s.packs) :
    P old R t := by
  obtain ⟨l, e, r⟩ := h
  exact ⟨l ++ [x], by rw [h1, e, List.append_assoc], h2 ▸ hc.ev l _ x hx r⟩

variable (hc : Closed R)
include hc

theorem j_die : ∀ (d : List Nat) (s : State), P old R s → P old R (die d s)
  | [], _, h => h
  | i :: t, s, h => by
    rw [die]
    refine j_die t _ ?_
    split
    · exact h.quiet hc (.died i) trivial rfl rfl
    · exact h

theorem p_observe : Pres (P old R) observe := by
  intro s e h
  unfold observe
  split
  · exact h
  · split
    · exact j_die hc _ _ h
    · exact j_die hc _ _ h

omit hc in
theorem p_modify {f : State → State} (h1 : ∀ s, (f s).ev = s.ev) (h2 : ∀ s, (f s).packs = s.packs) : Pres (P old R) (M.modify f) :=
  fun s _ h => h.same (h1 s) (h2 s)

theorem p_del (i : Nat) : Pres (P old R) (M.modify fun s => { s with packs := dictDel s.packs i }) := by
  rintro s - ⟨l, e, r⟩
  exact ⟨l, e, hc.del _ _ i r⟩

theorem p_event {f : State → State} (h : ∀ s, ∃ x, (f s).ev = s.ev ++ [x] ∧ (f s).packs = s.packs ∧ Quiet x) : Pres (P old R) (M.modify f) := by
  intro s _ hs
  obtain ⟨x, h1, h2, h3⟩ := h s
  exact hs.quiet hc x h3 h1 h2

theorem p_emit (x : Ev) (hx : Quiet x) : Pres (P old R) (emit x) := p_event hc fun _ => ⟨x, rfl, rfl, hx⟩

omit hc in
theorem p_logOp (op : Logger.Op) : Pres (P old R) (logOp op) := by
  intro s e h
  unfold logOp
  split
  · exact h.same rfl rfl
  · exact h.same rfl rfl

/-- One step of a proof that a piece of the program keeps the fact. -/
macro "nb1" : tactic => `(tactic| first
  | assumption
  | with_reducible exact Pres.pure _ | with_reducible exact Pres.mpure _ | with_reducible exact Pres.throw _ | with_reducible exact Pres.pend
  | with_reducible exact Pres.get | with_reducible exact p_observe (by assumption)
  | with_reducible exact p_logOp _
  | ((with_reducible refine p_emit (by assumption) _ ?_); exact trivial)
  | ((with_reducible refine p_modify ?_ ?_) <;> intro _ <;> rfl)
  | with_reducible exact p_del (by assumption) _
  | ((with_reducible refine p_event (by assumption) ?_); exact fun _ => ⟨_, rfl, rfl, trivial⟩)
  | (with_reducible refine Pres.bind ?_ fun _ => ?_)
  | (with_reducible refine Pres.ite ?_ ?_)
  | (with_reducible refine Pres.forEach (fun _ => ?_) _)
  | (with_reducible refine Pres.tryCatch ?_ fun x n hn => ?_)
  | split)

macro "nball" : tactic => `(tactic| repeat' nb1)

theorem p_askUnit : Pres (P old R) askUnit := by unfold askUnit; nball
theorem p_askBool : Pres (P old R) askBool := by unfold askBool; nball
theorem p_askSel : Pres (P old R) askSel := by unfold askSel; nball
theorem p_askSig : Pres (P old R) askSig := by unfold askSig; nball
theorem p_askChunk : Pres (P old R) askChunk := by unfold askChunk; nball
theorem p_askNames : Pres (P old R) askNames := by unfold askNames; nball
theorem p_askFiles : Pres (P old R) askFiles := by unfold askFiles; nball

macro_rules | `(tactic| nb1) => `(tactic| first | with_reducible exact p_askUnit (by assumption) | with_reducible exact p_askBool (by assumption) | with_reducible exact p_askSel (by assumption) | with_reducible exact p_askSig (by assumption) | with_reducible exact p_askChunk (by assumption) | with_reducible exact p_askNames (by assumption) | with_reducible exact p_askFiles (by assumption))

macro_rules | `(tactic| nb1) => `(tactic| with_reducible exact HuntPrompt.handler ‹_›)

theorem p_isAlive (i : Nat) : Pres (P old R) (isAlive i) := by unfold isAlive; nball
theorem p_draw : Pres (P old R) draw := by unfold draw; nball
omit hc in
theorem p_putEnd (i : Nat) (w : String) : Pres (P old R) (putEnd i w) := by unfold putEnd; nball

macro_rules | `(tactic| nb1) => `(tactic| first | with_reducible exact p_isAlive (by assumption) _ | with_reducible exact p_draw (by assumption) | with_reducible exact p_putEnd _ _)

theorem p_finish (i : Nat) (m : String) : Pres (P old R) (finish i m) := by unfold finish; nball
theorem p_shutdown (i : Nat) (h : Option Nat) (m : String) : Pres (P old R) (shutdownJob i h m) := by unfold shutdownJob; nball

macro_rules | `(tactic| nb1) => `(tactic| first | with_reducible exact p_finish (by assumption) _ _ | with_reducible exact p_shutdown (by assumption) _ _ _)

theorem p_checkSignals (i : Nat) : Pres (P old R) (checkSignals i) := by unfold checkSignals; nball

theorem p_huntLoop (h : Nat) : ∀ js vs, Pres (P old R) (huntLoop h js vs)
  | [], _ => Pres.pure _
  | v :: t, vs => by
    have ih := p_huntLoop h t
    rw [huntLoop]
    nball
    all_goals exact ih _

theorem p_shareLoop (b : BestIter) : ∀ js, Pres (P old R) (shareLoop b js)
  | [] => Pres.pure _
  | i :: t => by
    have ih := p_shareLoop b t
    rw [shareLoop]
    nball

theorem p_extraNames (r : IterRes) : Pres (P old R) (extraNames r) := by unfold extraNames; nball

theorem p_record (r : IterRes) (ns : List String) : Pres (P old R) (record r ns) := by
  intro s e h
  unfold record
  dsimp only
  split
  · exact h
  · split
    · exact h.quiet hc (.accepted r) trivial rfl rfl
    · exact h.same rfl rfl

theorem p_update : Pres (P old R) (updateBestResult cfg) := by
  have h := p_shareLoop (old := old) hc
  unfold updateBestResult; nball
  all_goals exact h _ _

macro_rules | `(tactic| nb1) => `(tactic| first | with_reducible exact p_checkSignals (by assumption) _ | with_reducible exact p_extraNames (by assumption) _ | with_reducible exact p_record (by assumption) _ _ | with_reducible exact p_update (by assumption))

theorem p_startHunt (h : Nat) : Pres (P old R) (startHunt h) := by
  have h := p_huntLoop (old := old) hc
  unfold startHunt; nball
  all_goals exact h _ _ _

macro_rules | `(tactic| nb1) => `(tactic| with_reducible exact p_startHunt (by assumption) _)

theorem p_huntIfDue : Pres (P old R) (huntIfDue cfg) := by unfold huntIfDue; nball

macro_rules | `(tactic| nb1) => `(tactic| with_reducible exact p_huntIfDue (by assumption))

theorem p_chunkLoop : ∀ ms t, Pres (P old R) (chunkLoop cfg ms t)
  | [], _ => Pres.pure _
  | m :: ms, t => by
    have ih := p_chunkLoop ms
    simp only [chunkLoop]
    nball
    all_goals exact ih _

theorem p_resultsLoop (mr : Option Nat) : ∀ n t, Pres (P old R) (resultsLoop cfg mr n t)
  | 0, _ => Pres.pend
  | n + 1, t => by
    have ih := p_resultsLoop mr n
    have hk := p_chunkLoop (cfg := cfg) (old := old) hc
    simp only [resultsLoop]
    nball
    all_goals first | exact ih _ | exact hk _ _

theorem p_process (n : Nat) (mr : Option Nat) : Pres (P old R) (processResults cfg n mr) := p_resultsLoop hc _ _ _

theorem p_stopFile (f : Option Nat) : Pres (P old R) (stopFile f) := by unfold stopFile; nball

macro_rules | `(tactic| nb1) => `(tactic| first | with_reducible exact p_process (by assumption) _ _ | with_reducible exact p_stopFile (by assumption) _)

theorem p_manualShutdowns : Pres (P old R) manualShutdowns := by unfold manualShutdowns; nball

theorem p_pauseLoop : ∀ js acc, Pres (P old R) (pauseLoop js acc)
  | [], _ => Pres.pure _
  | i :: t, acc => by
    have ih := p_pauseLoop t
    rw [pauseLoop]
    nball
    all_goals exact ih _

theorem p_replyLoop : ∀ js h, Pres (P old R) (replyLoop js h)
  | [], _ => Pres.pure _
  | i :: t, h => by
    have ih := p_replyLoop t
    rw [replyLoop]
    nball
    all_goals exact ih _

theorem p_waitLoop (fuel k : Nat) : ∀ n h, Pres (P old R) (waitLoop cfg fuel k n h)
  | 0, _ => Pres.pend
  | n + 1, h => by
    have ih := p_waitLoop fuel k n
    have hr := p_replyLoop (old := old) hc
    rw [waitLoop]
    nball
    all_goals first | exact ih _ | exact hr _ _

theorem p_saveLoop (skip : List Nat) : ∀ js, Pres (P old R) (saveLoop skip js)
  | [] => Pres.pure _
  | i :: t => by
    have ih := p_saveLoop skip t
    rw [saveLoop]
    nball

theorem p_clearedLoop : ∀ n js, Pres (P old R) (clearedLoop n js)
  | _, [] => by unfold clearedLoop; exact Pres.pure _
  | 0, _ :: _ => Pres.pend
  | n + 1, i :: t => by
    have ih := p_clearedLoop n
    rw [clearedLoop]
    nball
    all_goals exact ih _

theorem p_filesLoop : ∀ js, Pres (P old R) (filesLoop js)
  | [] => Pres.pure _
  | _ :: t => by
    have ih := p_filesLoop t
    rw [filesLoop]
    nball

theorem p_resumeLoop : ∀ js, Pres (P old R) (resumeLoop js)
  | [] => Pres.pure _
  | i :: t => by
    have ih := p_resumeLoop t
    rw [resumeLoop]
    nball

theorem p_stopLoop : ∀ js, Pres (P old R) (stopLoop js)
  | [] => Pres.pure _
  | i :: t => by
    have ih := p_stopLoop t
    rw [stopLoop]
    nball

macro_rules | `(tactic| nb1) => `(tactic| first | with_reducible exact p_manualShutdowns (by assumption) | with_reducible exact p_pauseLoop (by assumption) _ _ | with_reducible exact p_waitLoop (by assumption) _ _ _ _ | with_reducible exact p_saveLoop (by assumption) _ _ | with_reducible exact p_clearedLoop (by assumption) _ _ | with_reducible exact p_filesLoop (by assumption) _ | with_reducible exact p_resumeLoop (by assumption) _ | with_reducible exact p_stopLoop (by assumption) _)

theorem p_ckptOpts (n : Nat) : Pres (P old R) (checkpointOptimizers cfg n) := by unfold checkpointOptimizers; nball

macro_rules | `(tactic| nb1) => `(tactic| with_reducible exact p_ckptOpts (by assumption) _)

theorem p_checkpoint (n : Nat) : Pres (P old R) (checkpoint cfg n) := by unfold checkpoint; nball

macro_rules | `(tactic| nb1) => `(tactic| with_reducible exact p_checkpoint (by assumption) _)

theorem p_manualCkpts (n : Nat) : Pres (P old R) (manualCheckpoints cfg n) := by unfold manualCheckpoints; nball
theorem p_inspectDead (i : Nat) : Pres (P old R) (inspectDead i) := by unfold inspectDead; nball
theorem p_inspectHanging (i : Nat) : Pres (P old R) (inspectHanging cfg i) := by unfold inspectHanging; nball
theorem p_inspectZombie (i : Nat) : Pres (P old R) (inspectZombie cfg i) := by unfold inspectZombie; nball

macro_rules | `(tactic| nb1) => `(tactic| first | with_reducible exact p_manualCkpts (by assumption) _ | with_reducible exact p_inspectDead (by assumption) _ | with_reducible exact p_inspectHanging (by assumption) _ | with_reducible exact p_inspectZombie (by assumption) _ )

theorem p_inspect : Pres (P old R) (inspectChildren cfg) := by unfold inspectChildren; nball
theorem p_purge : Pres (P old R) purge := by unfold purge; nball

macro_rules | `(tactic| nb1) => `(tactic| first | with_reducible exact p_inspect (by assumption) | with_reducible exact p_purge (by assumption))

theorem p_stopRecord (w : String) (i : Nat) : Pres (P old R) (stopRecord w i) := by unfold stopRecord; nball

macro_rules | `(tactic| nb1) => `(tactic| with_reducible exact p_stopRecord (by assumption) _ _)

theorem p_stopAll (w : String) : Pres (P old R) (stopAllChildren w) := by unfold stopAllChildren; nball

theorem p_restartLoop : ∀ ps, Pres (P old R) (restartLoop ps)
  | [] => Pres.pure _
  | (i, w) :: t => by
    have ih := p_restartLoop t
    rw [restartLoop]
    nball

macro_rules | `(tactic| nb1) => `(tactic| first | with_reducible exact p_stopAll (by assumption) _ | with_reducible exact p_restartLoop (by assumption) _)

omit hc in
/-- The criterion has been asked often enough so far, at most `k` optimizers were created since the last time, and the slots of the optimizers are
not negative, provided the selector offers only optimizers with at least one worker. -/
def Few (cfg : Cfg) (k : Int) (l : List Ev) (ps : List (Nat × Int)) : Prop :=
  SelectorPos l → (∀ a b, l = a ++ b → (createdSince a : Int) ≤ max cfg.maxJobs 0) ∧ (createdSince l : Int) ≤ k ∧ ∀ p ∈ ps, 0 ≤ p.2

omit hc in
/-- The same when an optimizer with `w` workers was chosen. -/
def FewW (cfg : Cfg) (k w : Int) (l : List Ev) (ps : List (Nat × Int)) : Prop :=
  Few cfg k l ps ∧ ∃ n c, Ev.asked n (.chosen w c) ∈ l

omit hc

theorem createdSince_snoc (ev : List Ev) (x : Ev) :
    createdSince (ev ++ [x]) = match x with | .checked _ => 0 | .newId _ => createdSince ev + 1 | _ => createdSince ev := by
  cases x <;> simp [createdSince, List.foldl_append]

theorem selPos_left {a b : List Ev} (h : SelectorPos (a ++ b)) : SelectorPos a := fun n w c hm => h n w c (by simp [hm])

theorem few_snoc {k k' : Int} {l : List Ev} {ps : List (Nat × Int)} {x : Ev} (h : Few cfg k l ps)
    (h1 : SelectorPos (l ++ [x]) → (createdSince l : Int) ≤ k → (createdSince (l ++ [x]) : Int) ≤ k' ∧ (createdSince (l ++ [x]) : Int) ≤ max (max cfg.maxJobs 0) (createdSince l)) :
    Few cfg k' (l ++ [x]) ps := by
  intro hp
  obtain ⟨a1, a2, a3⟩ := h (selPos_left hp)
  obtain ⟨b1, b2⟩ := h1 hp a2
  refine ⟨fun a b e => ?_, b1, a3⟩
  rcases List.eq_nil_or_concat b with rfl | ⟨b0, z, rfl⟩
  · have e : l ++ [x] = a := by simpa using e
    subst e
    have := a1 l [] (by simp)
    omega
  · have e' : l ++ [x] = (a ++ b0) ++ [z] := by rw [e]; simp
    obtain ⟨rfl, -⟩ := List.append_inj' e' rfl
    exact a1 a b0 rfl

theorem quiet_le (l : List Ev) (x : Ev) (hx : Quiet x) : createdSince (l ++ [x]) ≤ createdSince l := by
  rw [createdSince_snoc]; cases x <;> first | exact le_refl _ | exact Nat.zero_le _ | cases hx

theorem mem_dictDel {ps : List (Nat × Int)} {i : Nat} {p : Nat × Int} (h : p ∈ dictDel ps i) : p ∈ ps := by
  unfold dictDel at h
  exact List.mem_of_mem_filter h

theorem few_closed (k : Int) : Closed (Few cfg k) where
  ev l ps x hx h := few_snoc h fun _ h => by
    have := quiet_le l x hx
    omega
  del l ps i h hp := by
    obtain ⟨a, b, c⟩ := h hp
    exact ⟨a, b, fun p hm => c p (mem_dictDel hm)⟩

theorem fewW_closed (k w : Int) : Closed (FewW cfg k w) where
  ev l ps x hx h := ⟨(few_closed k).ev l ps x hx h.1, by obtain ⟨n, c, m⟩ := h.2; exact ⟨n, c, by simp [m]⟩⟩
  del l ps i h := ⟨(few_closed k).del l ps i h.1, h.2⟩

/-- A fact that a piece of the program ensures for every value it answers; however it ends another fact holds. -/
def Tri {α : Type} (p : State → Prop) (m : M α) (q : α → State → Prop) (r : State → Prop) : Prop :=
  ∀ s e, p s → (∀ a, (m s e).1 = .ok a → q a (m s e).2.1) ∧ r (m s e).2.1

theorem Tri.bind {α β : Type} {p : State → Prop} {m : M α} {q : α → State → Prop} {f : α → M β} {q' : β → State → Prop} {r : State → Prop}
    (h : Tri p m q r) (g : ∀ a, Tri (q a) (f a) q' r) : Tri p (m >>= f) q' r := by
  intro s e hs
  obtain ⟨h1, h2⟩ := h s e hs
  change (∀ a, (M.bind m f s e).1 = .ok a → q' a (M.bind m f s e).2.1) ∧ r (M.bind m f s e).2.1
  unfold M.bind
  cases hm : m s e with
  | mk o t =>
    obtain ⟨s', e'⟩ := t
    rw [hm] at h1 h2
    cases o with
    | ok a => exact g a s' e' (h1 a rfl)
    | raised x => exact ⟨fun a ha => (by cases ha), h2⟩
    | pending => exact ⟨fun a ha => (by cases ha), h2⟩

theorem Tri.pres {α : Type} {p r : State → Prop} {m : M α} (h : Pres p m) (hr : ∀ s, p s → r s) : Tri p m (fun _ => p) r :=
  fun s e hs => ⟨fun _ _ => h s e hs, hr _ (h s e hs)⟩

theorem Tri.mono {α : Type} {p p' r r' : State → Prop} {q q' : α → State → Prop} {m : M α} (h : Tri p m q r) (h1 : ∀ s, p' s → p s)
    (h2 : ∀ a s, q a s → q' a s) (h3 : ∀ s, r s → r' s) : Tri p' m q' r' :=
  fun s e hs => ⟨fun a ha => h2 a _ ((h s e (h1 s hs)).1 a ha), h3 _ (h s e (h1 s hs)).2⟩

theorem Tri.get {p r : State → Prop} (hr : ∀ s, p s → r s) : Tri p M.get (fun a s => p s ∧ a = s) r :=
  fun s e hs => ⟨fun a ha => by cases ha; exact ⟨hs, rfl⟩, hr s hs⟩

/-- The bound which holds at any moment. -/
def top (cfg : Cfg) : Int := max cfg.maxJobs 0

theorem few_top {k : Int} {l : List Ev} {ps : List (Nat × Int)} (h : Few cfg k l ps) : Few cfg (top cfg) l ps := fun hp =>
  ⟨(h hp).1, (h hp).1 l [] (by simp), (h hp).2.2⟩

theorem p_top {k : Int} {s : State} (h : P old (Few cfg k) s) : P old (Few cfg (top cfg)) s := by
  obtain ⟨l, e, r⟩ := h; exact ⟨l, e, few_top r⟩

theorem pW_top {k w : Int} {s : State} (h : P old (FewW cfg k w) s) : P old (Few cfg (top cfg)) s := by
  obtain ⟨l, e, r⟩ := h; exact ⟨l, e, few_top r.1⟩

/-- The new optimizer is one more. -/
theorem t_setup {k : Int} (h : k < cfg.maxJobs) :
    Tri (P old (Few cfg k)) (setupNewOptimizer (cfg.maxJobs - k))
      (fun a s => match a with | none => P old (Few cfg k) s | some (_, w) => P old (FewW cfg (k + 1) w) s) (P old (Few cfg (top cfg))) := by
  unfold setupNewOptimizer
  refine Tri.bind (Tri.pres (p_askSel (few_closed k)) fun _ => p_top) fun a => ?_
  cases a with
  | stop =>
    refine Tri.bind (q := fun _ => P old (Few cfg k)) (Tri.pres (p_event (few_closed k) fun _ => ⟨_, rfl, rfl, trivial⟩) fun _ => p_top) fun _ => ?_
    exact fun s e hs => ⟨fun a ha => by cases ha; exact hs, p_top hs⟩
  | nothing =>
    refine Tri.bind (q := fun _ => P old (Few cfg k)) (Tri.pres (p_emit (few_closed k) _ trivial) fun _ => p_top) fun _ => ?_
    exact fun s e hs => ⟨fun a ha => by cases ha; exact hs, p_top hs⟩
  | chosen w c =>
    refine Tri.bind (q := fun _ => P old (FewW cfg k w)) ?_ fun _ => ?_
    · rintro s e ⟨l, h1, h2⟩
      have : P old (FewW cfg k w) (emit (.asked (cfg.maxJobs - k) (.chosen w c)) s e).2.1 :=
        ⟨l ++ [.asked (cfg.maxJobs - k) (.chosen w c)], by show s.ev ++ _ = _; rw [h1, List.append_assoc],
          few_snoc h2 fun _ h0 => by rw [createdSince_snoc]; dsimp only; omega, cfg.maxJobs - k, c, by simp⟩
      exact ⟨fun _ _ => this, pW_top this⟩
    refine Tri.bind (q := fun _ => P old (FewW cfg (k + 1) w)) ?_ fun _ => ?_
    · rintro s e ⟨l, h1, h2, n, c', h3⟩
      have : P old (FewW cfg (k + 1) w)
          (M.modify (fun s => { s with oCounter := s.oCounter + 1, ev := s.ev ++ [.newId (s.oCounter + 1)] }) s e).2.1 := by
        refine ⟨l ++ [.newId (s.oCounter + 1)], by show s.ev ++ _ = _; rw [h1, List.append_assoc], ?_, n, c', by simp [h3]⟩
        refine few_snoc h2 fun _ h0 => ?_
        rw [createdSince_snoc]
        dsimp only
        push_cast
        omega
      exact ⟨fun _ _ => this, pW_top this⟩
    refine Tri.bind (Tri.pres (p_askUnit (fewW_closed _ _)) fun _ => pW_top) fun _ => ?_
    refine Tri.bind (Tri.get fun _ => pW_top) fun st => ?_
    refine Tri.bind (q := fun _ => P old (FewW cfg (k + 1) w)) ((Tri.pres (p_logOp _) fun _ => pW_top).mono (fun _ h => h.1) (fun _ _ h => h) fun _ h => h) fun _ => ?_
    refine Tri.bind (q := fun _ => P old (FewW cfg (k + 1) w)) (Tri.pres (p_modify (fun _ => rfl) fun _ => rfl) fun _ => pW_top) fun _ => ?_
    exact fun s e hs => ⟨fun a ha => by cases ha; exact hs, pW_top hs⟩

theorem p_startNew (k w : Int) (i : Nat) : Pres (P old (FewW cfg k w)) (startNewJob i w) := by
  have hc := fewW_closed (cfg := cfg) k w
  have hset : Pres (P old (FewW cfg k w)) (M.modify fun s => { s with packs := dictSet s.packs i w }) := by
    rintro s - ⟨l, h1, h2, n, c, h3⟩
    refine ⟨l, h1, fun hp => ?_, n, c, h3⟩
    obtain ⟨a1, a2, a3⟩ := h2 hp
    refine ⟨a1, a2, fun p hm => ?_⟩
    rcases mem_dictSet hm with h | h
    · exact a3 p h
    · have := (hp n w c h3).1
      subst h
      show 0 ≤ w
      omega
  unfold startNewJob
  nball

/-- While slots are filled, no more optimizers are created than slots are taken. -/
theorem t_fillLoop : ∀ n k b, Tri (P old (Few cfg k)) (fillLoop cfg n k b) (fun _ => P old (Few cfg (top cfg))) (P old (Few cfg (top cfg)))
  | 0, _, _ => fun s e hs => ⟨fun a ha => (by cases ha), p_top hs⟩
  | n + 1, k, b => by
    rw [fillLoop]
    refine Tri.bind (Tri.get fun _ => p_top) fun st => ?_
    split
    · rename_i hk
      refine Tri.bind ((t_setup hk.1).mono (fun _ h => h.1) (fun _ _ h => h) fun _ h => h) fun a => ?_
      cases a with
      | none => exact fun s e hs => ⟨fun a ha => p_top hs, p_top hs⟩
      | some iw =>
        obtain ⟨i, w⟩ := iw
        refine Tri.bind (Tri.pres (p_startNew _ _ _) fun _ => pW_top) fun _ => ?_
        refine (t_fillLoop n (k + w) true).mono ?_ (fun _ _ h => h) fun _ h => h
        rintro s ⟨l, h1, h2, m, c, h3⟩
        refine ⟨l, h1, fun hp => ?_⟩
        obtain ⟨a1, a2, a3⟩ := h2 hp
        have := (hp m w c h3).1
        exact ⟨a1, by omega, a3⟩
    · exact fun s e hs => ⟨fun a ha => p_top hs.1, p_top hs.1⟩

theorem sum_nonneg' : ∀ l : List Int, (∀ x ∈ l, 0 ≤ x) → 0 ≤ l.sum
  | [], _ => by simp
  | x :: t, h => by
    have := sum_nonneg' t fun y hy => h y (by simp [hy])
    have := h x (by simp)
    simp only [List.sum_cons]; omega

theorem t_fill (n : Nat) : Tri (P old (Few cfg 0)) (fillSlots cfg n) (fun _ => P old (Few cfg (top cfg))) (P old (Few cfg (top cfg))) := by
  unfold fillSlots
  refine Tri.bind (Tri.pres (p_askUnit (few_closed _)) fun _ => p_top) fun _ => ?_
  refine Tri.bind (Tri.get fun _ => p_top) fun st => ?_
  dsimp only
  split
  · exact fun s e hs => ⟨fun a ha => (by cases ha), p_top hs.1⟩
  · refine Tri.bind ((t_fillLoop n st.livingSlots.sum false).mono ?_ (fun _ _ h => h) fun _ h => h) fun b => ?_
    · rintro s ⟨⟨l, h1, h2⟩, rfl⟩
      refine ⟨l, h1, fun hp => ?_⟩
      obtain ⟨a1, a2, a3⟩ := h2 hp
      refine ⟨a1, ?_, a3⟩
      have : 0 ≤ st.livingSlots.sum := by
        apply sum_nonneg'
        intro x hx
        unfold State.livingSlots at hx
        obtain ⟨p, hp, rfl⟩ := List.mem_map.mp hx
        exact a3 p (List.mem_of_mem_filter hp)
      omega
    · have hc := few_closed (cfg := cfg) (top cfg)
      refine (Tri.pres ?_ fun _ h => h)
      nball

theorem t_iteration (n : Nat) : Tri (P old (Few cfg 0)) (iteration cfg n) (fun _ => P old (Few cfg 0)) (P old (Few cfg (top cfg))) := by
  have hc := few_closed (cfg := cfg) (top cfg)
  have h0 := few_closed (cfg := cfg) 0
  unfold iteration
  refine Tri.bind (t_fill n) fun _ => ?_
  refine Tri.bind (Tri.pres Pres.get fun _ h => h) fun _ => ?_
  refine Tri.bind (Tri.pres (by nball) fun _ h => h) fun _ => ?_
  refine Tri.bind (Tri.pres (by nball) fun _ h => h) fun _ => ?_
  refine Tri.bind (Tri.pres (by nball) fun _ h => h) fun _ => ?_
  refine Tri.bind (Tri.pres (by nball) fun _ h => h) fun _ => ?_
  refine Tri.bind (Tri.pres (by nball) fun _ h => h) fun _ => ?_
  refine Tri.bind (Tri.pres (by nball) fun _ h => h) fun _ => ?_
  refine Tri.bind (Tri.pres (by nball) fun _ h => h) fun _ => ?_
  refine Tri.bind (Tri.pres Pres.get fun _ h => h) fun _ => ?_
  dsimp only
  refine Tri.bind (Tri.pres (by nball) fun _ h => h) fun b => ?_
  refine Tri.bind (q := fun _ => P old (Few cfg 0)) ?_ fun _ => ?_
  · rintro s e ⟨l, h1, h2⟩
    have : ∀ f : State → State, (f s).ev = s.ev ++ [.checked b] → (f s).packs = s.packs → P old (Few cfg 0) (M.modify f s e).2.1 := by
      intro f e1 e2
      refine ⟨l ++ [.checked b], by show (f s).ev = _; rw [e1, h1, List.append_assoc], ?_⟩
      show Few cfg 0 _ (f s).packs
      rw [e2]
      refine few_snoc h2 fun _ _ => ?_
      rw [createdSince_snoc]
      dsimp only
      constructor <;> omega
    exact ⟨fun _ _ => this _ rfl rfl, p_top (this _ rfl rfl)⟩
  · refine Tri.pres ?_ fun _ => p_top
    nball

theorem t_mainLoop (fuel : Nat) : ∀ n, Tri (P old (Few cfg 0)) (mainLoop cfg fuel n) (fun _ => P old (Few cfg (top cfg))) (P old (Few cfg (top cfg)))
  | 0 => fun s e hs => ⟨fun a ha => (by cases ha), p_top hs⟩
  | n + 1 => by
    have h0 := few_closed (cfg := cfg) 0
    rw [mainLoop]
    refine Tri.bind (Tri.pres Pres.get fun _ => p_top) fun st => ?_
    split
    · exact (Tri.pres (by nball) fun _ => p_top).mono (fun _ h => h) (fun _ _ => p_top) fun _ h => h
    · exact Tri.bind (t_iteration fuel) fun _ => t_mainLoop fuel n

theorem t_tryBlock (n : Nat) : Tri (P old (Few cfg 0)) (tryBlock cfg n) (fun _ => P old (Few cfg (top cfg))) (P old (Few cfg (top cfg))) := by
  have hc := few_closed (cfg := cfg) (top cfg)
  have h0 := few_closed (cfg := cfg) 0
  unfold tryBlock
  refine Tri.bind (Tri.pres (p_askUnit h0) fun _ => p_top) fun _ => ?_
  refine Tri.bind (Tri.pres Pres.get fun _ => p_top) fun st => ?_
  have hrest : Tri (P old (Few cfg 0)) (do
      mainLoop cfg n n
      if cfg.checkpointing = true ∧ cfg.checkpointAtConv = true then checkpoint cfg n else pure ()
      stopAllChildren "GloMPO Convergence") (fun _ => P old (Few cfg (top cfg))) (P old (Few cfg (top cfg))) := by
    refine Tri.bind (t_mainLoop n n) fun _ => ?_
    refine Tri.pres ?_ fun _ h => h
    nball
  dsimp only
  split
  · exact Tri.bind (Tri.pres (p_restartLoop h0 _) fun _ => p_top) fun _ => hrest
  · exact hrest

theorem p_afterCheck (n : Nat) (s : State) (e : Env) (h : P old (Few cfg 0) s) : P old (Few cfg (top cfg)) (afterCheck cfg n s e).2.1 := by
  have hc := few_closed (cfg := cfg) (top cfg)
  have h1 := (t_tryBlock (cfg := cfg) (old := old) n s e h).2
  unfold afterCheck
  split
  · rename_i hm; rw [hm] at h1; exact h1
  · rename_i hm; rw [hm] at h1; exact h1
  · rename_i x s2 e2 hm
    rw [hm] at h1
    split
    · have h2 := p_stopAll (old := old) hc "GloMPO Crash" s2 e2 h1
      split
      · rename_i hm; rw [hm] at h2; exact h2
      · rename_i hm; rw [hm] at h2; exact h2
    · have h2 := p_stopAll (old := old) hc "User Interrupt" s2 e2 h1
      split
      · rename_i hm; rw [hm] at h2; exact h2
      · rename_i hm; rw [hm] at h2; exact h2

theorem p_start (n : Nat) (s : State) (e : Env) (h : P old (Few cfg 0) s) : P old (Few cfg (top cfg)) (startManager cfg n s e).2.1 := by
  have hc := few_closed (cfg := cfg) 0
  have h1 := p_askBool (old := old) hc s e h
  unfold startManager
  split
  · rename_i hm; rw [hm] at h1; exact p_top h1
  · rename_i hm; rw [hm] at h1
    split
    · exact p_afterCheck n _ _ (h1.same rfl rfl)
    · exact p_top h1
  · rename_i b s0 e1 hm; rw [hm] at h1
    split
    · exact p_top (h1.quiet hc (.checked b) trivial rfl rfl)
    · exact p_afterCheck n _ _ (h1.quiet hc (.checked b) trivial rfl rfl)

/-- The slots given to the optimizers of a checkpoint are not negative. -/
theorem packs_loaded {k : Saved} {found : List (Nat × Bool)} {saved : List Saved} {s : State} (h : loadCheckpoint cfg k found saved = .ok s)
    (inv : Inv cfg s) (hp : SelectorPos s.ev) : ∀ p ∈ s.packs, 0 ≤ p.2 := by
  unfold loadCheckpoint at h
  split at h
  · cases h
  rename_i want hwant
  split at h
  · cases h
  rename_i slots hslots
  split at h
  · cases h
  simp only [Except.ok.injEq] at h
  obtain ⟨-, hw⟩ := demand_mem hwant
  obtain ⟨-, -, ha⟩ := apportion_facts hslots
  have hsub : (Init.rebuild found slots).Sublist slots := List.filter_sublist
  intro p hm
  have hm' : p ∈ slots := hsub.subset (by rw [← h] at hm; exact hm)
  rcases ha with e | h1
  · obtain ⟨n, c, hn⟩ := inv.chosen p (by rw [← h]; exact hw p (e ▸ hm'))
    have := (hp _ _ _ hn).1
    omega
  · have := h1 p hm'
    omega

theorem packs_nonneg {s : State} (hs : Startable cfg s) (hp : SelectorPos s.ev) : ∀ p ∈ s.packs, 0 ≤ p.2 := by
  have inv := hs.spec.1.inv
  cases hs with
  | fresh => simp [init]
  | setup _ fuel e e' _ h =>
    have hc : Closed fun (_ : List Ev) (ps : List (Nat × Int)) => ps = [] := ⟨fun _ _ _ _ h => h, fun _ _ _ h => by subst h; rfl⟩
    obtain ⟨-, -, hk⟩ := p_checkpoint (cfg := cfg) (old := []) hc fuel (init cfg) e ⟨[], rfl, rfl⟩
    rw [h] at hk
    dsimp only at hk
    rw [hk]; simp
  | loaded cfg₀ _ s₀ _ fuel e k found h1 h2 h3 h4 => exact packs_loaded h4 inv hp
  | loadedSetup cfg₀ _ _ fuel e k found h1 h2 h3 => exact packs_loaded h3 inv hp

end Overshoot

open Overshoot

variable {cfg : Cfg} {s : State}

/-- C136. In any run of a manager new or loaded, at any moment and however it ends, at most `max_jobs` optimizers have been created since the
convergence criterion was last asked (or since the run began). The selector is to choose optimizers with at least one worker which fit. -/
theorem C136_between (hs : Startable cfg s) (fuel : Nat) (e : Env) (hp : SelectorPos (happened cfg s fuel e)) {pre post : List Ev}
    (h : thisRun cfg s fuel e = pre ++ post) : (createdSince pre : Int) ≤ max cfg.maxJobs 0 := by
  have hsplit := EndToEnd.happened_split hs fuel e
  have h0 : P s.ev (Few cfg 0) s := by
    refine ⟨[], by simp, fun _ => ⟨fun a b e => ?_, by simp [createdSince], packs_nonneg hs ?_⟩⟩
    · have : a = [] := by
        cases a with
        | nil => rfl
        | cons x t => simp at e
      subst this
      simp [createdSince]
    · rw [hsplit] at hp
      exact selPos_left hp
  obtain ⟨l, h1, h2⟩ := p_start (cfg := cfg) fuel s e h0
  have el : thisRun cfg s fuel e = l := by
    unfold thisRun happened moment
    rw [h1]; simp
  refine (h2 fun n w c hm => hp n w c ?_).1 pre post (el ▸ h)
  rw [hsplit, el]
  exact List.mem_append_right _ hm

/-- C136. So a limit on the number of optimizers is overshot by less than `max_jobs`: if the criterion answers `True` whenever at least `n ≥ 1`
optimizers have been created, then no more than `n - 1 + max_jobs` optimizers are ever created, however the run ends. A manager loaded from
a checkpoint creates at most `max_jobs` beyond those it had, if these were `n` already. -/
theorem C136_overshoot (hs : Startable cfg s) (fuel : Nat) (e : Env) (hp : SelectorPos (happened cfg s fuel e)) (n : Nat)
    (hn : StopsAtCreated n s.ev (thisRun cfg s fuel e)) :
    ((newIdsOf (happened cfg s fuel e)).length : Int) ≤ max (newIdsOf s.ev).length (n - 1) + max cfg.maxJobs 0 := by
  have hsplit := EndToEnd.happened_split hs fuel e
  have hb := fun pre post => C136_between hs fuel e hp (pre := pre) (post := post)
  have hlast := fun pre post => C120_true_is_last hs fuel (e := e) pre post
  rw [hsplit]
  generalize thisRun cfg s fuel e = l at *
  have key : ∀ a b, l = a ++ b → Ev.checked true ∉ a →
      ((newIdsOf (s.ev ++ a)).length : Int) ≤ max (newIdsOf s.ev).length (n - 1) + createdSince a := by
    intro a
    refine snoc_induction (P := fun a => ∀ b, l = a ++ b → Ev.checked true ∉ a →
      ((newIdsOf (s.ev ++ a)).length : Int) ≤ max (newIdsOf s.ev).length (n - 1) + createdSince a) ?_ (fun a x ih => ?_) a
    · intro b _ _
      simp [createdSince]
    · intro b hl hx
      have ih := ih ([x] ++ b) (by rw [hl]; simp) fun h => hx (by simp [h])
      rw [← List.append_assoc, newIdsOf_snoc, createdSince_snoc]
      cases x with
      | checked b' =>
        by_cases hc : n ≤ (newIdsOf (s.ev ++ a)).length
        · have := hn a b' b (by rw [hl]; simp) hc
          subst this
          exact absurd (by simp) hx
        · simp
          omega
      | newId i =>
        simp only [List.length_append]
        push_cast
        simp only [List.length_singleton]
        push_cast
        omega
      | _ => simpa using ih
  by_cases hm : Ev.checked true ∈ l
  · obtain ⟨p, q, hq⟩ := List.append_of_mem hm
    have hnp : Ev.checked true ∉ p := by
      intro h
      obtain ⟨p1, p2, h1⟩ := List.append_of_mem h
      exact hlast p1 (p2 ++ .checked true :: q) (by rw [hq, h1]; simp) (.checked true) (by simp) trivial
    have h1 := key p _ hq hnp
    have h2 := hb p _ hq
    have h3 : ∀ q', (∀ x ∈ q', ¬ GoesOn x) → newIdsOf (s.ev ++ (p ++ [.checked true]) ++ q') = newIdsOf (s.ev ++ p) := by
      intro q'
      refine snoc_induction (P := fun q' => (∀ x ∈ q', ¬ GoesOn x) → newIdsOf (s.ev ++ (p ++ [.checked true]) ++ q') = newIdsOf (s.ev ++ p)) ?_
        (fun q' x ih => ?_) q'
      · intro _
        rw [List.append_nil, ← List.append_assoc, newIdsOf_snoc]; simp
      · intro h
        have ih := ih fun y hy => h y (by simp [hy])
        rw [← List.append_assoc, newIdsOf_snoc, ih]
        have := h x (by simp)
        cases x <;> first | rfl | exact absurd trivial this | simp
    have e1 : s.ev ++ l = s.ev ++ (p ++ [.checked true]) ++ q := by rw [hq]; simp
    rw [e1, h3 q (hlast p q hq)]
    omega
  · have h1 := key l [] (by simp) hm
    have h2 := hb l [] (by simp)
    omega

/-- C136. In particular for `MaxOptsStarted(n)`, alone or in any combination of criteria which it suffices to meet: a new manager creates at most
`n - 1 + max_jobs` optimizers. -/
theorem C136_MaxOptsStarted (fuel : Nat) (e : Env) (hp : SelectorPos (happened cfg (init cfg) fuel e)) (n : Nat) (hn : 1 ≤ n) (hj : 0 ≤ cfg.maxJobs)
    {chk : Nat → Checker} {c : Cond} (hc : ∀ i ∈ leaves c, Countable (chk i)) (ha : AnsweredBy chk c (init cfg).ev (thisRun cfg (init cfg) fuel e))
    (hi : ∀ ev, n ≤ (newIdsOf ev).length → MeetsAll chk ev c) :
    ((newIdsOf (happened cfg (init cfg) fuel e)).length : Int) ≤ n - 1 + cfg.maxJobs := by
  have h := C136_overshoot (Startable.fresh cfg) fuel e hp n fun pre b post h0 h1 =>
    ((C120_checks (Startable.fresh cfg) fuel (Criterion.fresh_lossless cfg fuel e) hc ha pre b post h0).2).mpr (hi _ h1)
  have : (newIdsOf (init cfg).ev).length = 0 := rfl
  omega

/-- C136. With two slots and `MaxOptsStarted(1)` two optimizers are created: the hypotheses are met by this run, which creates as many optimizers as the bound allows; so the limit itself is not kept. -/
theorem C136_limit_refuted : SelectorPos (happened cfg2 (init cfg2) 20 quiet) ∧
    AnsweredBy (fun _ => .maxOptsStarted 1) (.leaf 0) (init cfg2).ev (thisRun cfg2 (init cfg2) 20 quiet) ∧
    ended cfg2 (init cfg2) 20 quiet = some .regular ∧ (newIdsOf (happened cfg2 (init cfg2) 20 quiet)).length = 2 ∧ cfg2.maxJobs = 2 :=
  ⟨selectorPos_of_fitB (by decide +kernel), Criterion.answered_of (by decide +kernel), by decide +kernel, by decide +kernel, rfl⟩

end Glompo.Props
