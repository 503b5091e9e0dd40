import Verif.Model.Manager

/-!
# What is seen later does not change what has been done; Ctrl-C ends every piece of the program

`Ext m`: if the piece `m` has ended with the observations `pre`, it ends in the same way when more follow; if it is waiting
for an observation and that is Ctrl-C, it ends at once with that exception (without a scope, see `draw`).
-/

namespace Glompo.Manager

open M

/-- Ctrl-C. -/
abbrev ctrlC : Exc := .env .keyboardInterrupt

structure Ext {α : Type} (m : M α) : Prop where
  keep : ∀ s e, s.visual = false → (m s e).2.1.visual = false
  cont : ∀ s pre ext, s.visual = false → (m s pre).1 ≠ .pending →
    m s (pre ++ ext) = ((m s pre).1, (m s pre).2.1, (m s pre).2.2 ++ ext)
  wait : ∀ s pre, s.visual = false → (m s pre).1 = .pending →
    (∀ ext, m s (pre ++ ext) = (.pending, (m s pre).2.1, (m s pre).2.2 ++ ext)) ∨
    ∀ o post, o.ans = .raise .keyboardInterrupt →
      m s (pre ++ o :: post) = (.raised ctrlC, die o.deaths (m s pre).2.1, post)

section rules
variable {α β : Type}

theorem Ext.pure (a : α) : Ext (Pure.pure a : M α) :=
  ⟨fun _ _ h => h, fun _ _ _ _ _ => rfl, fun _ _ _ h => by cases h⟩

theorem Ext.throw (x : Exc) : Ext (M.throw x : M α) :=
  ⟨fun _ _ h => h, fun _ _ _ _ _ => rfl, fun _ _ _ h => by cases h⟩

theorem Ext.pend : Ext (M.pend : M α) :=
  ⟨fun _ _ h => h, fun _ _ _ _ h => absurd rfl h, fun _ _ _ _ => .inl fun _ => rfl⟩

theorem Ext.get : Ext M.get := ⟨fun _ _ h => h, fun _ _ _ _ _ => rfl, fun _ _ _ h => by cases h⟩

theorem Ext.modify (f : State → State) (h : ∀ s, (f s).visual = s.visual) : Ext (M.modify f) :=
  ⟨fun s _ hv => (h s).trans hv, fun _ _ _ _ _ => rfl, fun _ _ _ h => by cases h⟩

theorem Ext.bind {m : M α} {f : α → M β} (hm : Ext m) (hf : ∀ a, Ext (f a)) : Ext (Bind.bind m f : M β) := by
  have eq : ∀ s e, (Bind.bind m f : M β) s e = M.bind m f s e := fun _ _ => rfl
  refine ⟨fun s e hv => ?_, fun s pre ext hv => ?_, fun s pre hv => ?_⟩
  · rw [eq]
    have k := hm.keep s e hv
    unfold M.bind
    generalize m s e = r at k ⊢
    obtain ⟨o, s', e'⟩ := r
    cases o with
    | ok a => exact (hf a).keep s' e' k
    | raised x => exact k
    | pending => exact k
  · rw [eq, eq]
    have k := hm.keep s pre hv
    have c := hm.cont s pre ext hv
    unfold M.bind
    generalize m s pre = r at k c ⊢
    obtain ⟨o, s', e'⟩ := r
    cases o with
    | ok a =>
      rw [c (by simp)]
      exact (hf a).cont s' e' ext k
    | raised x => intro _; rw [c (by simp)]
    | pending => intro h; exact absurd rfl h
  · simp only [eq]
    have k := hm.keep s pre hv
    have c := fun ext => hm.cont s pre ext hv
    have w := hm.wait s pre hv
    unfold M.bind
    generalize m s pre = r at k c w ⊢
    obtain ⟨o, s', e'⟩ := r
    cases o with
    | ok a =>
      intro h
      refine ((hf a).wait s' e' k h).imp (fun h ext => ?_) fun h o post ho => ?_
      · rw [c ext (by simp)]; exact h ext
      · rw [c _ (by simp)]; exact h o post ho
    | raised x => intro h; cases h
    | pending =>
      intro _
      refine (w rfl).imp (fun h ext => ?_) fun h o post ho => ?_
      · rw [h ext]
      · rw [h o post ho]

theorem Ext.tryCatch {m : M α} {h : Exc → Option (M α)} (hm : Ext m) (hn : h ctrlC = none)
    (hh : ∀ x k, h x = some k → Ext k) : Ext (M.tryCatch m h) := by
  refine ⟨fun s e hv => ?_, fun s pre ext hv => ?_, fun s pre hv => ?_⟩
  · have k := hm.keep s e hv
    unfold M.tryCatch
    generalize m s e = r at k ⊢
    obtain ⟨o, s', e'⟩ := r
    cases o with
    | raised x =>
      simp only []
      cases hx : h x with
      | none => exact k
      | some k' => exact (hh x k' hx).keep s' e' k
    | ok a => exact k
    | pending => exact k
  · have k := hm.keep s pre hv
    have c := hm.cont s pre ext hv
    unfold M.tryCatch
    generalize m s pre = r at k c ⊢
    obtain ⟨o, s', e'⟩ := r
    cases o with
    | raised x =>
      rw [c (by simp)]
      simp only []
      cases hx : h x with
      | none => exact fun _ => rfl
      | some k' => exact (hh x k' hx).cont s' e' ext k
    | ok a => intro _; rw [c (by simp)]
    | pending => intro h; exact absurd rfl h
  · have k := hm.keep s pre hv
    have c := fun ext => hm.cont s pre ext hv
    have w := hm.wait s pre hv
    unfold M.tryCatch
    generalize m s pre = r at k c w ⊢
    obtain ⟨o, s', e'⟩ := r
    cases o with
    | raised x =>
      simp only []
      cases hx : h x with
      | none => intro h; cases h
      | some k' =>
        intro hp
        refine ((hh x k' hx).wait s' e' k hp).imp (fun h ext => ?_) fun h o post ho => ?_
        · rw [c ext (by simp)]; simp only [hx]; exact h ext
        · rw [c _ (by simp)]; simp only [hx]; exact h o post ho
    | ok a => intro h; cases h
    | pending =>
      intro _
      refine (w rfl).imp (fun h ext => ?_) fun h o post ho => ?_
      · rw [h ext]
      · rw [h o post ho]; simp only [hn]

theorem Ext.forEach {f : β → M Unit} (hf : ∀ b, Ext (f b)) : ∀ l, Ext (M.forEach l f)
  | [] => Ext.pure ()
  | b :: t => Ext.bind (hf b) fun _ => Ext.forEach hf t

end rules

theorem die_visual : ∀ (l : List Nat) (s : State), (die l s).visual = s.visual
  | [], _ => rfl
  | i :: t, s => by
    unfold die
    rw [die_visual t]
    split <;> rfl

theorem ext_observe : Ext observe := by
  refine ⟨fun s e hv => ?_, fun s pre ext hv => ?_, fun s pre hv => ?_⟩
  · unfold observe
    cases e with
    | nil => exact hv
    | cons o t => simp only []; split <;> exact (die_visual _ _).trans hv
  · cases pre with
    | nil => intro h; exact absurd rfl h
    | cons o t => intro _; simp only [observe, List.cons_append]; split <;> rfl
  · cases pre with
    | nil => intro _; exact .inr fun o post ho => by simp [observe, ho]
    | cons o t =>
      intro h
      simp only [observe] at h
      split at h <;> cases h

/-- Known pieces. -/
syntax "ext_known" : tactic
/-- Goes through a piece of the program. -/
macro "ext_go" : tactic => `(tactic| repeat' (first
  | with_reducible exact Ext.pure _ | with_reducible exact Ext.pend | with_reducible exact Ext.throw _
  | with_reducible exact Ext.get
  | with_reducible exact Ext.modify _ fun _ => rfl
  | ext_known
  | with_reducible refine Ext.bind ?_ fun _ => ?_
  | with_reducible refine Ext.forEach (fun _ => ?_) _
  | dsimp only
  | split))

macro_rules | `(tactic| ext_known) => `(tactic| with_reducible exact ext_observe)

theorem ext_askUnit : Ext askUnit := by unfold askUnit; ext_go
macro_rules | `(tactic| ext_known) => `(tactic| with_reducible exact ext_askUnit)
theorem ext_askBool : Ext askBool := by unfold askBool; ext_go
macro_rules | `(tactic| ext_known) => `(tactic| with_reducible exact ext_askBool)
theorem ext_askSel : Ext askSel := by unfold askSel; ext_go
macro_rules | `(tactic| ext_known) => `(tactic| with_reducible exact ext_askSel)
theorem ext_askSig : Ext askSig := by unfold askSig; ext_go
macro_rules | `(tactic| ext_known) => `(tactic| with_reducible exact ext_askSig)
theorem ext_askChunk : Ext askChunk := by unfold askChunk; ext_go
macro_rules | `(tactic| ext_known) => `(tactic| with_reducible exact ext_askChunk)
theorem ext_askNames : Ext askNames := by unfold askNames; ext_go
macro_rules | `(tactic| ext_known) => `(tactic| with_reducible exact ext_askNames)
theorem ext_askFiles : Ext askFiles := by unfold askFiles; ext_go
macro_rules | `(tactic| ext_known) => `(tactic| with_reducible exact ext_askFiles)

theorem ext_emit (x : Ev) : Ext (emit x) := Ext.modify _ fun _ => rfl
macro_rules | `(tactic| ext_known) => `(tactic| with_reducible exact ext_emit _)
theorem ext_isAlive (i : Nat) : Ext (isAlive i) := by unfold isAlive; ext_go
macro_rules | `(tactic| ext_known) => `(tactic| with_reducible exact ext_isAlive _)

theorem draw_blind {s : State} (hv : s.visual = false) (e : Env) : draw s e = (.ok (), s, e) := by
  show (if s.visual = true then _ else _ : M Unit) s e = _
  rw [if_neg (by simp [hv])]
  rfl

theorem ext_draw : Ext draw :=
  ⟨fun s e hv => by rw [draw_blind hv]; exact hv, fun s pre ext hv _ => by rw [draw_blind hv, draw_blind hv],
    fun s pre hv h => by rw [draw_blind hv] at h; cases h⟩
macro_rules | `(tactic| ext_known) => `(tactic| with_reducible exact ext_draw)

theorem ext_logOp (op : Logger.Op) : Ext (logOp op) := by
  refine ⟨fun s e hv => ?_, fun s pre ext hv => ?_, fun s pre hv => ?_⟩ <;> unfold logOp
  · split <;> exact hv
  · intro _; split <;> rfl
  · intro h; split at h <;> cases h
macro_rules | `(tactic| ext_known) => `(tactic| with_reducible exact ext_logOp _)

theorem ext_putEnd (i : Nat) (w : String) : Ext (putEnd i w) := by unfold putEnd; ext_go
macro_rules | `(tactic| ext_known) => `(tactic| with_reducible exact ext_putEnd _ _)
theorem ext_setup (k : Int) : Ext (setupNewOptimizer k) := by unfold setupNewOptimizer; ext_go
macro_rules | `(tactic| ext_known) => `(tactic| with_reducible exact ext_setup _)
theorem ext_startNewJob (i : Nat) (w : Int) : Ext (startNewJob i w) := by unfold startNewJob; ext_go
macro_rules | `(tactic| ext_known) => `(tactic| with_reducible exact ext_startNewJob _ _)
theorem ext_fillLoop (cfg : Cfg) (n : Nat) : ∀ k b, Ext (fillLoop cfg n k b) := by
  induction n with
  | zero => exact fun _ _ => Ext.pend
  | succ n ih =>
    intro k b; unfold fillLoop; ext_go
    all_goals exact ih _ _
macro_rules | `(tactic| ext_known) => `(tactic| with_reducible exact ext_fillLoop _ _ _ _)
theorem ext_fillSlots (cfg : Cfg) (fuel : Nat) : Ext (fillSlots cfg fuel) := by unfold fillSlots; ext_go
macro_rules | `(tactic| ext_known) => `(tactic| with_reducible exact ext_fillSlots _ _)
theorem ext_finish (i : Nat) (m : String) : Ext (finish i m) := by unfold finish; ext_go
macro_rules | `(tactic| ext_known) => `(tactic| with_reducible exact ext_finish _ _)
theorem ext_checkSignals (i : Nat) : Ext (checkSignals i) := by unfold checkSignals; ext_go
macro_rules | `(tactic| ext_known) => `(tactic| with_reducible exact ext_checkSignals _)
theorem ext_shutdownJob (i : Nat) (h : Option Nat) (w : String) : Ext (shutdownJob i h w) := by unfold shutdownJob; ext_go
macro_rules | `(tactic| ext_known) => `(tactic| with_reducible exact ext_shutdownJob _ _ _)
theorem ext_huntLoop (h : Nat) (l : List Nat) : ∀ vs, Ext (huntLoop h l vs) := by
  induction l with
  | nil => exact fun _ => Ext.pure _
  | cons v t ih =>
    intro vs; unfold huntLoop; ext_go
    all_goals exact ih _
macro_rules | `(tactic| ext_known) => `(tactic| with_reducible exact ext_huntLoop _ _ _)
theorem ext_startHunt (h : Nat) : Ext (startHunt h) := by unfold startHunt; ext_go
macro_rules | `(tactic| ext_known) => `(tactic| with_reducible exact ext_startHunt _)
theorem ext_shareLoop (b : BestIter) (l : List Nat) : Ext (shareLoop b l) := by
  induction l with
  | nil => exact Ext.pure _
  | cons v t ih =>
    unfold shareLoop; ext_go
    all_goals exact ih
macro_rules | `(tactic| ext_known) => `(tactic| with_reducible exact ext_shareLoop _ _)
theorem ext_updateBestResult (cfg : Cfg) : Ext (updateBestResult cfg) := by unfold updateBestResult; ext_go
macro_rules | `(tactic| ext_known) => `(tactic| with_reducible exact ext_updateBestResult _)
theorem ext_extraNames (r : IterRes) : Ext (extraNames r) := by unfold extraNames; ext_go
macro_rules | `(tactic| ext_known) => `(tactic| with_reducible exact ext_extraNames _)

theorem ext_record (r : IterRes) (names : List String) : Ext (record r names) := by
  have h : ∀ s, ∃ o s', (∀ e, record r names s e = (o, s', e)) ∧ s'.visual = s.visual ∧ o ≠ .pending := by
    intro s
    unfold record
    dsimp only
    generalize (if s.log.hasIterHistory r.optId then _ else _ : Logger × Option _ × List _) = o
    split
    · exact ⟨.raised .keyError, _, fun _ => rfl, rfl, by simp⟩
    · split
      · exact ⟨.ok (), _, fun _ => rfl, rfl, by simp⟩
      · exact ⟨.raised .keyError, _, fun _ => rfl, rfl, by simp⟩
  refine ⟨fun s e hv => ?_, fun s pre ext hv => ?_, fun s pre hv => ?_⟩ <;> obtain ⟨o, s', h, h1, h2⟩ := h s
  · rw [h]; exact h1.trans hv
  · rw [h, h]; exact fun _ => rfl
  · rw [h]; exact fun hp => absurd hp h2
macro_rules | `(tactic| ext_known) => `(tactic| with_reducible exact ext_record _ _)

theorem ext_huntIfDue (cfg : Cfg) : Ext (huntIfDue cfg) := by unfold huntIfDue; ext_go
macro_rules | `(tactic| ext_known) => `(tactic| with_reducible exact ext_huntIfDue _)
theorem ext_chunkLoop (cfg : Cfg) (l : List Msg) : ∀ t, Ext (chunkLoop cfg l t) := by
  induction l with
  | nil => exact fun _ => Ext.pure _
  | cons m ms ih =>
    intro t; unfold chunkLoop; ext_go
    all_goals exact ih _
macro_rules | `(tactic| ext_known) => `(tactic| with_reducible exact ext_chunkLoop _ _ _)
theorem ext_resultsLoop (cfg : Cfg) (k : Option Nat) (n : Nat) : ∀ t, Ext (resultsLoop cfg k n t) := by
  induction n with
  | zero => exact fun _ => Ext.pend
  | succ n ih =>
    intro t; unfold resultsLoop; ext_go
    all_goals exact ih _
macro_rules | `(tactic| ext_known) => `(tactic| with_reducible exact ext_resultsLoop _ _ _ _)
theorem ext_processResults (cfg : Cfg) (fuel : Nat) (k : Option Nat) : Ext (processResults cfg fuel k) := by
  unfold processResults; ext_go
macro_rules | `(tactic| ext_known) => `(tactic| with_reducible exact ext_processResults _ _ _)

theorem ext_stopFile (f : Option Nat) : Ext (stopFile f) := by
  unfold stopFile; ext_go
  refine Ext.tryCatch ?_ (by simp) fun x k hx => ?_
  · ext_go
  · split at hx <;> cases hx
    exact Ext.pure _
macro_rules | `(tactic| ext_known) => `(tactic| with_reducible exact ext_stopFile _)
theorem ext_manualShutdowns : Ext manualShutdowns := by
  unfold manualShutdowns
  exact Ext.bind ext_askFiles fun _ => Ext.forEach ext_stopFile _
macro_rules | `(tactic| ext_known) => `(tactic| with_reducible exact ext_manualShutdowns)

theorem ext_pauseLoop (l : List Nat) : ∀ acc, Ext (pauseLoop l acc) := by
  induction l with
  | nil => exact fun _ => Ext.pure _
  | cons v t ih =>
    intro acc; unfold pauseLoop; ext_go
    all_goals exact ih _
macro_rules | `(tactic| ext_known) => `(tactic| with_reducible exact ext_pauseLoop _ _)
theorem ext_replyLoop (l : List Nat) : ∀ h, Ext (replyLoop l h) := by
  induction l with
  | nil => exact fun _ => Ext.pure _
  | cons v t ih =>
    intro h; unfold replyLoop; ext_go
    all_goals exact ih _
macro_rules | `(tactic| ext_known) => `(tactic| with_reducible exact ext_replyLoop _ _)
theorem ext_waitLoop (cfg : Cfg) (fuel k : Nat) (n : Nat) : ∀ h, Ext (waitLoop cfg fuel k n h) := by
  induction n with
  | zero => exact fun _ => Ext.pend
  | succ n ih =>
    intro h; unfold waitLoop; ext_go
    all_goals exact ih _
macro_rules | `(tactic| ext_known) => `(tactic| with_reducible exact ext_waitLoop _ _ _ _ _)
theorem ext_saveLoop (skip l : List Nat) : Ext (saveLoop skip l) := by
  induction l with
  | nil => exact Ext.pure _
  | cons v t ih =>
    unfold saveLoop; ext_go
    all_goals exact ih
macro_rules | `(tactic| ext_known) => `(tactic| with_reducible exact ext_saveLoop _ _)
theorem ext_clearedLoop (n : Nat) : ∀ l, Ext (clearedLoop n l) := by
  induction n with
  | zero =>
    intro l
    cases l with
    | nil => exact Ext.pure _
    | cons => exact Ext.pend
  | succ n ih =>
    intro l
    cases l with
    | nil => exact Ext.pure _
    | cons =>
      unfold clearedLoop; ext_go
      all_goals exact ih _
macro_rules | `(tactic| ext_known) => `(tactic| with_reducible exact ext_clearedLoop _ _)
theorem ext_filesLoop (l : List Nat) : Ext (filesLoop l) := by
  induction l with
  | nil => exact Ext.pure _
  | cons v t ih =>
    unfold filesLoop; ext_go
    all_goals exact ih
macro_rules | `(tactic| ext_known) => `(tactic| with_reducible exact ext_filesLoop _)
theorem ext_checkpointOptimizers (cfg : Cfg) (fuel : Nat) : Ext (checkpointOptimizers cfg fuel) := by
  unfold checkpointOptimizers; ext_go
macro_rules | `(tactic| ext_known) => `(tactic| with_reducible exact ext_checkpointOptimizers _ _)
theorem ext_resumeLoop (l : List Nat) : Ext (resumeLoop l) := by
  induction l with
  | nil => exact Ext.pure _
  | cons v t ih =>
    unfold resumeLoop; ext_go
    all_goals exact ih
macro_rules | `(tactic| ext_known) => `(tactic| with_reducible exact ext_resumeLoop _)
theorem ext_stopLoop (l : List Nat) : Ext (stopLoop l) := by
  induction l with
  | nil => exact Ext.pure _
  | cons v t ih =>
    unfold stopLoop; ext_go
    all_goals exact ih
macro_rules | `(tactic| ext_known) => `(tactic| with_reducible exact ext_stopLoop _)

theorem ext_checkpoint (cfg : Cfg) (fuel : Nat) : Ext (checkpoint cfg fuel) := by
  unfold checkpoint; ext_go
  refine Ext.tryCatch ?_ (by simp) fun x k hx => ?_
  · ext_go
  · split at hx <;> cases hx
    exact Ext.pure _
macro_rules | `(tactic| ext_known) => `(tactic| with_reducible exact ext_checkpoint _ _)
theorem ext_manualCheckpoints (cfg : Cfg) (fuel : Nat) : Ext (manualCheckpoints cfg fuel) := by
  unfold manualCheckpoints; ext_go
macro_rules | `(tactic| ext_known) => `(tactic| with_reducible exact ext_manualCheckpoints _ _)
theorem ext_inspectDead (i : Nat) : Ext (inspectDead i) := by unfold inspectDead; ext_go
macro_rules | `(tactic| ext_known) => `(tactic| with_reducible exact ext_inspectDead _)
theorem ext_inspectHanging (cfg : Cfg) (i : Nat) : Ext (inspectHanging cfg i) := by unfold inspectHanging; ext_go
macro_rules | `(tactic| ext_known) => `(tactic| with_reducible exact ext_inspectHanging _ _)
theorem ext_inspectZombie (cfg : Cfg) (i : Nat) : Ext (inspectZombie cfg i) := by unfold inspectZombie; ext_go
macro_rules | `(tactic| ext_known) => `(tactic| with_reducible exact ext_inspectZombie _ _)
theorem ext_inspectChildren (cfg : Cfg) : Ext (inspectChildren cfg) := by unfold inspectChildren; ext_go
macro_rules | `(tactic| ext_known) => `(tactic| with_reducible exact ext_inspectChildren _)
theorem ext_purge : Ext purge := by unfold purge; ext_go
macro_rules | `(tactic| ext_known) => `(tactic| with_reducible exact ext_purge)
theorem ext_iteration (cfg : Cfg) (fuel : Nat) : Ext (iteration cfg fuel) := by unfold iteration; ext_go
macro_rules | `(tactic| ext_known) => `(tactic| with_reducible exact ext_iteration _ _)
theorem ext_mainLoop (cfg : Cfg) (fuel : Nat) (n : Nat) : Ext (mainLoop cfg fuel n) := by
  induction n with
  | zero => exact Ext.pend
  | succ n ih =>
    unfold mainLoop; ext_go
    all_goals exact ih
macro_rules | `(tactic| ext_known) => `(tactic| with_reducible exact ext_mainLoop _ _ _)
theorem ext_stopRecord (w : String) (i : Nat) : Ext (stopRecord w i) := by unfold stopRecord; ext_go
macro_rules | `(tactic| ext_known) => `(tactic| with_reducible exact ext_stopRecord _ _)
theorem ext_stopAllChildren (w : String) : Ext (stopAllChildren w) := by
  have h : ∀ (x : Exc) (k : M Unit), (if x.isException = true then some (Pure.pure ()) else none) = some k → Ext k := by
    intro x k hx
    split at hx <;> cases hx
    exact Ext.pure _
  unfold stopAllChildren
  exact Ext.bind Ext.get fun s => Ext.bind (Ext.tryCatch (ext_stopLoop _) rfl h) fun _ =>
    Ext.bind (Ext.tryCatch ext_askUnit rfl h) fun _ => Ext.forEach (ext_stopRecord w) _
macro_rules | `(tactic| ext_known) => `(tactic| with_reducible exact ext_stopAllChildren _)
theorem ext_restartLoop (l : List (Nat × Int)) : Ext (restartLoop l) := by
  induction l with
  | nil => exact Ext.pure _
  | cons p t ih =>
    obtain ⟨i, w⟩ := p
    unfold restartLoop; ext_go
    all_goals exact ih
macro_rules | `(tactic| ext_known) => `(tactic| with_reducible exact ext_restartLoop _)
theorem ext_tryBlock (cfg : Cfg) (fuel : Nat) : Ext (tryBlock cfg fuel) := by unfold tryBlock; ext_go
macro_rules | `(tactic| ext_known) => `(tactic| with_reducible exact ext_tryBlock _ _)

/-! ### Stopping everything -/

/-- What happens while everything is stopped: stop signals, and processes terminate. -/
def Winding : Ev → Prop
  | .stop _ => True
  | .died _ => True
  | _ => False

/-- The piece adds only such events. -/
def Winds {α : Type} (m : M α) : Prop := ∀ s e, ∃ new, (m s e).2.1.ev = s.ev ++ new ∧ ∀ x ∈ new, Winding x

theorem winding_die : ∀ (l : List Nat) (s : State), ∃ new, (die l s).ev = s.ev ++ new ∧ ∀ x ∈ new, Winding x
  | [], s => ⟨[], by simp [die], by simp⟩
  | i :: t, s => by
    unfold die
    split
    · obtain ⟨new, h1, h2⟩ := winding_die t { s with dead := i :: s.dead, ev := s.ev ++ [.died i] }
      refine ⟨.died i :: new, by simp [h1], fun x hx => ?_⟩
      rcases List.mem_cons.mp hx with rfl | hx
      · trivial
      · exact h2 x hx
    · exact winding_die t s

theorem Winds.pure {α : Type} (a : α) : Winds (Pure.pure a : M α) := fun s e => ⟨[], by simp [Pure.pure, M.pure], by simp⟩

theorem Winds.same {α : Type} {m : M α} (h : ∀ s e, (m s e).2.1.ev = s.ev) : Winds m :=
  fun s e => ⟨[], by simp [h], by simp⟩

theorem Winds.bind {α β : Type} {m : M α} {f : α → M β} (hm : Winds m) (hf : ∀ a, Winds (f a)) :
    Winds (Bind.bind m f : M β) := by
  intro s e
  show ∃ new, (M.bind m f s e).2.1.ev = _ ∧ _
  obtain ⟨new, h1, h2⟩ := hm s e
  unfold M.bind
  generalize m s e = r at h1 ⊢
  obtain ⟨o, s', e'⟩ := r
  cases o with
  | ok a =>
    obtain ⟨new', h3, h4⟩ := hf a s' e'
    refine ⟨new ++ new', ?_, fun x hx => (List.mem_append.mp hx).elim (h2 x) (h4 x)⟩
    have h1' : s'.ev = s.ev ++ new := h1
    simp only []
    rw [h3, h1', List.append_assoc]
  | raised x => exact ⟨new, h1, h2⟩
  | pending => exact ⟨new, h1, h2⟩

theorem Winds.tryCatch {α : Type} {m : M α} {h : Exc → Option (M α)} (hm : Winds m) (hh : ∀ x k, h x = some k → Winds k) :
    Winds (M.tryCatch m h) := by
  intro s e
  obtain ⟨new, h1, h2⟩ := hm s e
  unfold M.tryCatch
  generalize m s e = r at h1 ⊢
  obtain ⟨o, s', e'⟩ := r
  cases o with
  | ok a => exact ⟨new, h1, h2⟩
  | pending => exact ⟨new, h1, h2⟩
  | raised x =>
    simp only []
    cases hx : h x with
    | none => exact ⟨new, h1, h2⟩
    | some k =>
      obtain ⟨new', h3, h4⟩ := hh x k hx s' e'
      refine ⟨new ++ new', ?_, fun x hx => (List.mem_append.mp hx).elim (h2 x) (h4 x)⟩
      have h1' : s'.ev = s.ev ++ new := h1
      simp only []
      rw [h3, h1', List.append_assoc]

theorem Winds.forEach {β : Type} {f : β → M Unit} (hf : ∀ b, Winds (f b)) : ∀ l, Winds (M.forEach l f)
  | [] => Winds.pure ()
  | b :: t => Winds.bind (hf b) fun _ => Winds.forEach hf t

theorem winds_observe : Winds observe := by
  intro s e
  unfold observe
  split
  · exact ⟨[], by simp, by simp⟩
  · split <;> exact winding_die _ _

theorem winds_get : Winds M.get := Winds.same fun _ _ => rfl
theorem winds_pend {α : Type} : Winds (M.pend : M α) := Winds.same fun _ _ => rfl

theorem winds_askUnit : Winds askUnit := by
  refine Winds.bind winds_observe fun a => ?_
  split
  · exact Winds.pure ()
  · exact winds_pend

theorem winds_isAlive (i : Nat) : Winds (isAlive i) :=
  Winds.bind winds_askUnit fun _ => Winds.bind winds_get fun _ => Winds.pure _

theorem winds_stopLoop (l : List Nat) : Winds (stopLoop l) := by
  induction l with
  | nil => exact Winds.pure _
  | cons v t ih =>
    refine Winds.bind (winds_isAlive v) fun a => ?_
    split
    · refine Winds.bind (fun s e => ⟨[.stop v], rfl, ?_⟩) fun _ => ih
      intro x hx
      rw [List.mem_singleton.mp hx]
      trivial
    · exact ih

theorem winds_logOp (op : Logger.Op) : Winds (logOp op) := Winds.same fun s e => by
  unfold logOp
  split <;> rfl

theorem winds_stopRecord (w : String) (i : Nat) : Winds (stopRecord w i) := by
  have tail : Winds (do
      let al ← isAlive i
      if al = true then askUnit else Pure.pure ()) := by
    refine Winds.bind (winds_isAlive i) fun a => ?_
    split
    · exact winds_askUnit
    · exact Winds.pure _
  refine Winds.bind winds_get fun s => ?_
  split
  · exact tail
  · refine Winds.bind (Winds.same fun _ _ => rfl) fun _ => Winds.bind ?_ fun _ => tail
    exact Winds.bind (winds_logOp _) fun _ => winds_logOp _

theorem winds_stopAllChildren (w : String) : Winds (stopAllChildren w) := by
  have h : ∀ (x : Exc) (k : M Unit), (if x.isException = true then some (Pure.pure ()) else none) = some k → Winds k := by
    intro x k hx
    split at hx <;> cases hx
    exact Winds.pure _
  exact Winds.bind winds_get fun s => Winds.bind (Winds.tryCatch (winds_stopLoop _) h) fun _ =>
    Winds.bind (Winds.tryCatch winds_askUnit h) fun _ => Winds.forEach (winds_stopRecord w) _

/-- Ctrl-C ends the stopping of everything at once. -/
theorem stopAll_interrupted (w : String) (s : State) {o : Obs} (ho : o.ans = .raise .keyboardInterrupt) (post : Env) :
    (stopAllChildren w s (o :: post)).1 = .raised ctrlC := by
  show (M.bind _ _ s (o :: post)).1 = _
  unfold M.bind
  have : ∀ s, observe s (o :: post) = (.raised ctrlC, die o.deaths s, post) := fun s => by simp [observe, ho]
  have ask : ∀ s, askUnit s (o :: post) = (.raised ctrlC, die o.deaths s, post) := fun s => by
    show M.bind observe _ s (o :: post) = _
    unfold M.bind
    rw [this]
  show (M.bind _ _ s (o :: post)).1 = _
  unfold M.bind
  cases hp : s.packs.map (·.1) with
  | nil =>
    simp only [M.tryCatch, stopLoop]
    show (M.bind _ _ s (o :: post)).1 = _
    unfold M.bind
    simp only [M.tryCatch, ask]
    rfl
  | cons i t =>
    have : stopLoop (i :: t) s (o :: post) = (.raised ctrlC, die o.deaths s, post) := by
      show M.bind (isAlive i) _ s (o :: post) = _
      unfold M.bind
      have : isAlive i s (o :: post) = (.raised ctrlC, die o.deaths s, post) := by
        show M.bind askUnit _ s (o :: post) = _
        unfold M.bind
        rw [ask]
      rw [this]
    simp only [M.tryCatch, this]
    rfl

/-- Nothing goes wrong and nothing is learnt. -/
def calm : Obs := ⟨[], .unit⟩

/-- If nothing goes wrong the piece comes to an end. -/
def Ends {α : Type} (m : M α) : Prop := ∀ s, s.visual = false → ∃ n, (m s (List.replicate n calm)).1 ≠ .pending ∧
  (m s (List.replicate n calm)).2.2 = []

theorem Ends.now {α : Type} {m : M α} (h : ∀ s, (m s []).1 ≠ .pending ∧ (m s []).2.2 = []) : Ends m := fun s _ => ⟨0, h s⟩

theorem Ends.bind {α β : Type} {m : M α} {f : α → M β} (he : Ext m) (hm : Ends m) (hf : ∀ a, Ends (f a)) :
    Ends (Bind.bind m f : M β) := by
  intro s hv
  obtain ⟨n, h1, h2⟩ := hm s hv
  have c := fun ext => he.cont s (List.replicate n calm) ext hv h1
  have k := he.keep s (List.replicate n calm) hv
  have eq : ∀ e, (Bind.bind m f : M β) s e = M.bind m f s e := fun _ => rfl
  generalize hr : m s (List.replicate n calm) = r at c h1 h2 k
  obtain ⟨o, s', e'⟩ := r
  cases o with
  | ok a =>
    obtain ⟨n', h3, h4⟩ := hf a s' k
    refine ⟨n + n', ?_⟩
    simp only at h2
    rw [eq]
    unfold M.bind
    rw [← List.replicate_append_replicate, c, h2]
    exact ⟨h3, h4⟩
  | raised x =>
    refine ⟨n, ?_⟩
    rw [eq]
    unfold M.bind
    rw [hr]
    exact ⟨by simp, h2⟩
  | pending => exact absurd rfl h1

theorem Ends.tryCatch {α : Type} {m : M α} {h : Exc → Option (M α)} (he : Ext m) (hm : Ends m)
    (hh : ∀ x k, h x = some k → Ends k) : Ends (M.tryCatch m h) := by
  intro s hv
  obtain ⟨n, h1, h2⟩ := hm s hv
  have c := fun ext => he.cont s (List.replicate n calm) ext hv h1
  have k := he.keep s (List.replicate n calm) hv
  generalize hr : m s (List.replicate n calm) = r at c h1 h2 k
  obtain ⟨o, s', e'⟩ := r
  cases o with
  | ok a =>
    refine ⟨n, ?_⟩
    unfold M.tryCatch
    rw [hr]
    exact ⟨by simp, h2⟩
  | raised x =>
    cases hx : h x with
    | none =>
      refine ⟨n, ?_⟩
      unfold M.tryCatch
      rw [hr]
      simp only [hx]
      exact ⟨by simp, h2⟩
    | some k' =>
      obtain ⟨n', h3, h4⟩ := hh x k' hx s' k
      refine ⟨n + n', ?_⟩
      simp only at h2
      unfold M.tryCatch
      rw [← List.replicate_append_replicate, c, h2]
      simp only [hx]
      exact ⟨h3, h4⟩
  | pending => exact absurd rfl h1

theorem Ends.forEach {β : Type} {f : β → M Unit} (he : ∀ b, Ext (f b)) (hf : ∀ b, Ends (f b)) : ∀ l, Ends (M.forEach l f)
  | [] => Ends.now fun _ => ⟨by simp [M.forEach, M.pure], rfl⟩
  | b :: t => Ends.bind (he b) (hf b) fun _ => Ends.forEach he hf t

theorem ends_pure {α : Type} (a : α) : Ends (Pure.pure a : M α) := Ends.now fun _ => ⟨by simp [Pure.pure, M.pure], rfl⟩
theorem ends_get : Ends M.get := Ends.now fun _ => ⟨by simp [M.get], rfl⟩
theorem ends_modify (f : State → State) : Ends (M.modify f) := Ends.now fun _ => ⟨by simp [M.modify], rfl⟩
theorem ends_askUnit : Ends askUnit := fun s _ => ⟨1, by
  show (M.bind observe _ s [calm]).1 ≠ _ ∧ (M.bind observe _ s [calm]).2.2 = []
  simp [M.bind, observe, calm, Pure.pure, M.pure]⟩
theorem ends_isAlive (i : Nat) : Ends (isAlive i) :=
  Ends.bind ext_askUnit ends_askUnit fun _ => Ends.bind Ext.get ends_get fun _ => ends_pure _
theorem ends_stopLoop (l : List Nat) : Ends (stopLoop l) := by
  induction l with
  | nil => exact ends_pure _
  | cons v t ih =>
    refine Ends.bind (ext_isAlive v) (ends_isAlive v) fun a => ?_
    split
    · exact Ends.bind (ext_emit _) (ends_modify _) fun _ => ih
    · exact ih
theorem ends_logOp (op : Logger.Op) : Ends (logOp op) := Ends.now fun s => by
  unfold logOp
  split <;> simp
theorem ends_stopRecord (w : String) (i : Nat) : Ends (stopRecord w i) := by
  have tail : Ends (do
      let al ← isAlive i
      if al = true then askUnit else Pure.pure ()) := by
    refine Ends.bind (ext_isAlive i) (ends_isAlive i) fun a => ?_
    split
    · exact ends_askUnit
    · exact ends_pure _
  refine Ends.bind Ext.get ends_get fun s => ?_
  split
  · exact tail
  · refine Ends.bind (Ext.modify _ fun _ => rfl) (ends_modify _) fun _ => Ends.bind (ext_putEnd i w) ?_ fun _ => tail
    exact Ends.bind (ext_logOp _) (ends_logOp _) fun _ => ends_logOp _
theorem ends_stopAllChildren (w : String) : Ends (stopAllChildren w) := by
  have h : ∀ (x : Exc) (k : M Unit), (if x.isException = true then some (Pure.pure ()) else none) = some k → Ends k := by
    intro x k hx
    split at hx <;> cases hx
    exact ends_pure _
  have h' : ∀ (x : Exc) (k : M Unit), (if x.isException = true then some (Pure.pure ()) else none) = some k → Ext k := by
    intro x k hx
    split at hx <;> cases hx
    exact Ext.pure _
  exact Ends.bind Ext.get ends_get fun s => Ends.bind (Ext.tryCatch (ext_stopLoop _) rfl h')
    (Ends.tryCatch (ext_stopLoop _) (ends_stopLoop _) h) fun _ =>
    Ends.bind (Ext.tryCatch ext_askUnit rfl h') (Ends.tryCatch ext_askUnit ends_askUnit h) fun _ =>
      Ends.forEach (ext_stopRecord w) (ends_stopRecord w) _

/-! ### The run -/

/-- What Ctrl-C does to a run `run` (a function of the observations) at the moment `pre`. -/
structure Broken (run : Env → Option Reason × State × Env) (pre : Env) (o : Obs) : Prop where
  events : ∀ post, ∃ new, (run (pre ++ o :: post)).2.1.ev = (run pre).2.1.ev ++ new ∧ ∀ x ∈ new, Winding x
  reason : ∀ post r, (run (pre ++ o :: post)).1 = some r → r = .userInterrupt ∨
    ∃ x, r = .crash x ∧ ∀ ext r', (run (pre ++ ext)).1 = some r' → r' = .crash x
  twice : ∀ o' post, o'.ans = .raise .keyboardInterrupt → (run (pre ++ o :: o' :: post)).1 ≠ none
  calm : ∃ n, (run (pre ++ o :: List.replicate n calm)).1 ≠ none

theorem closing_broken (w : String) (r : Reason) (run : Env → Option Reason × State × Env) (pre : Env) (s : State) (e : Env)
    (hv : s.visual = false)
    (hrun : ∀ ext, run (pre ++ ext) = match stopAllChildren w s (e ++ ext) with
      | (.pending, s3, e3) => (none, s3, e3)
      | (_, s3, e3) => (some r, s3, e3))
    (hr : r = .userInterrupt ∨ ∃ x, r = .crash x)
    (h0 : (run pre).1 = none) (hw : ∃ ext, (run (pre ++ ext)).1 ≠ none) {o : Obs}
    (ho : o.ans = .raise .keyboardInterrupt) : Broken run pre o := by
  have ex := ext_stopAllChildren w
  have hp := hrun []
  rw [List.append_nil, List.append_nil] at hp
  have w' := ex.wait s e hv
  have key : (stopAllChildren w s e).1 = .pending ∧ (run pre).2.1 = (stopAllChildren w s e).2.1 := by
    generalize stopAllChildren w s e = q at hp
    obtain ⟨a, s3, e3⟩ := q
    cases a with
    | pending => rw [hp]; exact ⟨rfl, rfl⟩
    | ok a => rw [hp] at h0; cases h0
    | raised x => rw [hp] at h0; cases h0
  rcases w' key.1 with h | h
  · obtain ⟨ext, hext⟩ := hw
    rw [hrun, h ext] at hext
    exact absurd rfl hext
  · have all : ∀ post, run (pre ++ o :: post) = (some r, die o.deaths (run pre).2.1, post) := fun post => by
      rw [hrun, h o post ho, key.2]
    refine ⟨fun post => ?_, fun post r' hr' => ?_, fun o' post _ => ?_, 0, ?_⟩
    · rw [all]; exact winding_die _ _
    · rw [all] at hr'
      cases hr'
      refine hr.imp_right fun ⟨x, hx⟩ => ⟨x, hx, fun ext r' hr' => ?_⟩
      rw [hrun] at hr'
      subst hx
      generalize stopAllChildren w s (e ++ ext) = q at hr'
      obtain ⟨a, s3, e3⟩ := q
      cases a with
      | pending => cases hr'
      | ok a => cases hr'; rfl
      | raised x => cases hr'; rfl
    · rw [all]; simp
    · rw [all]; simp

theorem afterCheck_broken (cfg : Cfg) (fuel : Nat) (s : State) (e : Env) (hv : s.visual = false)
    (h0 : (afterCheck cfg fuel s e).1 = none) (hw : ∃ ext, (afterCheck cfg fuel s (e ++ ext)).1 ≠ none) {o : Obs}
    (ho : o.ans = .raise .keyboardInterrupt) : Broken (afterCheck cfg fuel s) e o := by
  have ex := ext_tryBlock cfg fuel
  have k := ex.keep s e hv
  have c := fun ext => ex.cont s e ext hv
  have w := ex.wait s e hv
  generalize hr : tryBlock cfg fuel s e = r at k c w
  obtain ⟨a, s2, e2⟩ := r
  cases a with
  | ok a =>
    exfalso
    unfold afterCheck at h0
    rw [hr] at h0
    cases h0
  | raised x =>
    by_cases hx : x.isException = true
    · refine closing_broken "GloMPO Crash" (.crash x) _ e s2 e2 k (fun ext => ?_) (.inr ⟨x, rfl⟩) h0 hw ho
      unfold afterCheck
      rw [c ext (by simp)]
      simp only [hx, if_true]
      rfl
    · refine closing_broken "User Interrupt" .userInterrupt _ e s2 e2 k (fun ext => ?_) (.inl rfl) h0 hw ho
      unfold afterCheck
      rw [c ext (by simp)]
      simp only [hx]
      rfl
  | pending =>
    rcases w rfl with h | h
    · obtain ⟨ext, hext⟩ := hw
      unfold afterCheck at hext
      rw [h ext] at hext
      exact absurd rfl hext
    · have hs : (afterCheck cfg fuel s e).2.1 = s2 := by unfold afterCheck; rw [hr]
      have all : ∀ post, afterCheck cfg fuel s (e ++ o :: post) =
          match stopAllChildren "User Interrupt" (die o.deaths s2) post with
          | (.pending, s3, e3) => (none, s3, e3)
          | (_, s3, e3) => (some .userInterrupt, s3, e3) := fun post => by
        unfold afterCheck
        rw [h o post ho]
        rfl
      refine ⟨fun post => ?_, fun post r' hr' => ?_, fun o' post ho' => ?_, ?_⟩
      · obtain ⟨n1, h1, h2⟩ := winding_die o.deaths s2
        obtain ⟨n2, h3, h4⟩ := winds_stopAllChildren "User Interrupt" (die o.deaths s2) post
        refine ⟨n1 ++ n2, ?_, fun x hx => (List.mem_append.mp hx).elim (h2 x) (h4 x)⟩
        rw [all, hs, ← List.append_assoc, ← h1, ← h3]
        split <;> rename_i heq <;> rw [heq]
      · rw [all] at hr'
        generalize stopAllChildren "User Interrupt" (die o.deaths s2) post = q at hr'
        obtain ⟨a, s3, e3⟩ := q
        cases a with
        | pending => cases hr'
        | ok a => cases hr'; exact .inl rfl
        | raised x => cases hr'; exact .inl rfl
      · rw [all]
        have hi := stopAll_interrupted "User Interrupt" (die o.deaths s2) ho' post
        generalize stopAllChildren "User Interrupt" (die o.deaths s2) (o' :: post) = q at hi
        obtain ⟨a, s3, e3⟩ := q
        cases hi
        simp
      · obtain ⟨n, hn, _⟩ := ends_stopAllChildren "User Interrupt" (die o.deaths s2) ((die_visual _ _).trans k)
        refine ⟨n, ?_⟩
        rw [all]
        generalize stopAllChildren "User Interrupt" (die o.deaths s2) (List.replicate n calm) = q at hn
        obtain ⟨a, s3, e3⟩ := q
        cases a with
        | pending => exact absurd rfl hn
        | ok a => simp
        | raised x => simp

theorem startManager_broken (cfg : Cfg) (fuel : Nat) (s : State) (pre : Env) (hv : s.visual = false) (hne : pre ≠ [])
    (h0 : (startManager cfg fuel s pre).1 = none) (hw : ∃ ext, (startManager cfg fuel s (pre ++ ext)).1 ≠ none) {o : Obs}
    (ho : o.ans = .raise .keyboardInterrupt) : Broken (startManager cfg fuel s) pre o := by
  have ex := ext_askBool
  have k := ex.keep s pre hv
  have c := fun ext => ex.cont s pre ext hv
  have w := ex.wait s pre hv
  have red : ∀ s1 e1, s1.visual = false → (∀ ext, startManager cfg fuel s (pre ++ ext) = afterCheck cfg fuel s1 (e1 ++ ext)) →
      Broken (startManager cfg fuel s) pre o := by
    intro s1 e1 hv1 h
    have h' := h []
    rw [List.append_nil, List.append_nil] at h'
    have b := afterCheck_broken cfg fuel s1 e1 hv1 (by rw [← h']; exact h0)
      (by obtain ⟨ext, hext⟩ := hw; exact ⟨ext, by rw [← h ext]; exact hext⟩) ho
    refine ⟨fun post => ?_, fun post r hr => ?_, fun o' post ho' => ?_, ?_⟩
    · rw [h, h']; exact b.events post
    · rw [h] at hr
      refine (b.reason post r hr).imp_right fun ⟨x, hx, hh⟩ => ⟨x, hx, fun ext r' hr' => hh ext r' ?_⟩
      rw [← h]; exact hr'
    · rw [h]; exact b.twice o' post ho'
    · obtain ⟨n, hn⟩ := b.calm
      exact ⟨n, by rw [h]; exact hn⟩
  generalize hr : askBool s pre = r at k c w
  obtain ⟨a, s2, e2⟩ := r
  cases a with
  | pending =>
    exfalso
    obtain ⟨ext, hext⟩ := hw
    cases pre with
    | nil => exact hne rfl
    | cons p t =>
      rcases w rfl with h | h
      · unfold startManager at hext
        rw [h ext] at hext
        exact absurd rfl hext
      · have := h o [] ho
        have hlen : ∀ e, (askBool s (p :: e)).2.2 = e := by
          intro e
          show (M.bind observe _ s (p :: e)).2.2 = e
          unfold M.bind observe
          obtain ⟨d, a⟩ := p
          cases a <;> rfl
        have h2 := hlen (t ++ [o])
        rw [List.cons_append] at this
        rw [this] at h2
        cases t <;> cases h2
  | raised x =>
    by_cases hx : x.isException = true
    · refine red { s2 with converged := false } e2 k fun ext => ?_
      unfold startManager
      rw [c ext (by simp)]
      simp only [hx, if_true]
    · exfalso
      unfold startManager at h0
      rw [hr] at h0
      simp [hx] at h0
  | ok b =>
    by_cases hb : (b || (s2.packs.isEmpty && !s2.spawning)) = true
    · exfalso
      unfold startManager at h0
      rw [hr] at h0
      simp only [hb, if_true] at h0
      cases h0
    · refine red { s2 with converged := false, ev := s2.ev ++ [.checked b] } e2 k fun ext => ?_
      unfold startManager
      rw [c ext (by simp)]
      simp only [hb]
      rfl

theorem load_visual {cfg : Cfg} {k : Saved} {found : List (Nat × Bool)} {saved : List Saved} {s : State}
    (h : loadCheckpoint cfg k found saved = .ok s) : s.visual = cfg.visual := by
  unfold loadCheckpoint at h
  split at h
  · cases h
  · split at h
    · cases h
    · split at h
      · cases h
      · cases h; rfl

theorem startable_blind {cfg : Cfg} {s : State} (h : Startable cfg s) (hv : cfg.visual = false) : s.visual = false := by
  induction h with
  | fresh => exact hv
  | setup cfg fuel e e' s h =>
    have := (ext_checkpoint cfg fuel).keep (init cfg) e hv
    rw [h] at this
    exact this
  | loaded cfg₀ cfg s₀ s fuel e k found _ _ _ h => exact (load_visual h).trans hv
  | loadedSetup cfg₀ cfg s fuel e k found _ _ h => exact (load_visual h).trans hv

end Glompo.Manager
