import Verif.Spec.HuntPrompt
import Verif.Props.HuntAll

/-! # C129: hunts are not put off -/

namespace Glompo.Props

open Glompo.Spec Glompo.Manager Glompo.Props.Runs

namespace HuntPrompt

/-- Nothing was put off, and the counters have not lost evaluations. -/
def J (cfg : Cfg) (old : List Ev) (s : State) : Prop :=
  s.lastHunt + sinceHunt s.ev ≤ s.fCounter ∧ ∃ l, s.ev = old ++ l ∧ Prompt cfg old l

/-- Events which neither begin nor require a hunt. -/
def Quiet : Ev → Prop
  | .updated _ _ _ => False
  | .hunt _ => False
  | .accepted _ => False
  | _ => True

theorem sinceHunt_snoc (ev : List Ev) (x : Ev) :
    sinceHunt (ev ++ [x]) = match x with | .hunt _ => 0 | .accepted _ => sinceHunt ev + 1 | _ => sinceHunt ev := by
  cases x <;> simp [sinceHunt, List.foldl_append]

theorem prompt_snoc {cfg : Cfg} {old l : List Ev} (h : Prompt cfg old l) (x : Ev)
    (hx : ∀ y f i, x = .updated y f i → 0 < i → cfg.hunting = true → ¬ cfg.huntFrequency ≤ sinceHunt (old ++ l)) :
    Prompt cfg old (l ++ [x]) := by
  intro a y f i b e h0 h1 h2
  rcases List.eq_nil_or_concat b with rfl | ⟨b0, z, rfl⟩
  · have := List.append_inj' e rfl
    obtain ⟨rfl, e2⟩ := this
    exact absurd h2 (hx y f i (by simpa using e2) h0 h1)
  · have e' : l ++ [x] = (a ++ .updated y f i :: b0) ++ [z] := by rw [e]; simp
    obtain ⟨rfl, -⟩ := List.append_inj' e' rfl
    obtain ⟨b', rfl⟩ := h a y f i b0 rfl h0 h1 h2
    exact ⟨b' ++ [z], by simp⟩

variable {cfg : Cfg} {old : List Ev}

theorem J.same {s t : State} (h : J cfg old s) (h1 : t.ev = s.ev) (h2 : t.lastHunt = s.lastHunt) (h3 : t.fCounter = s.fCounter) :
    J cfg old t := by unfold J; rw [h1, h2, h3]; exact h

theorem J.quiet {s t : State} (h : J cfg old s) (x : Ev) (hx : Quiet x) (h1 : t.ev = s.ev ++ [x]) (h2 : t.lastHunt = s.lastHunt)
    (h3 : t.fCounter = s.fCounter) : J cfg old t := by
  obtain ⟨h, l, e, p⟩ := h
  unfold J
  rw [h1, h2, h3]
  refine ⟨?_, l ++ [x], by rw [e, List.append_assoc], prompt_snoc p x ?_⟩
  · rw [sinceHunt_snoc]; cases x <;> first | exact h | cases hx
  · rintro y f i rfl; cases hx

/-- A piece of the program keeps a fact, however it ends. -/
def Pres {α : Type} (P : State → Prop) (m : M α) : Prop := ∀ s e, P s → P (m s e).2.1

namespace Pres

variable {P : State → Prop} {α β : Type}

theorem pure (a : α) : Pres P (pure a : M α) := fun _ _ h => h
theorem mpure (a : α) : Pres P (M.pure a : M α) := fun _ _ h => h
theorem throw (x : Exc) : Pres P (M.throw x : M α) := fun _ _ h => h
theorem pend : Pres P (M.pend : M α) := fun _ _ h => h
theorem get : Pres P M.get := fun _ _ h => h

theorem mbind {m : M α} {f : α → M β} (h : Pres P m) (g : ∀ a, Pres P (f a)) : Pres P (M.bind m f) := by
  intro s e hs
  have h1 := h s e hs
  unfold M.bind
  cases hm : m s e with
  | mk o r =>
    obtain ⟨s', e'⟩ := r
    rw [hm] at h1
    cases o with
    | ok a => exact g a s' e' h1
    | raised x => exact h1
    | pending => exact h1

theorem bind {m : M α} {f : α → M β} (h : Pres P m) (g : ∀ a, Pres P (f a)) : Pres P (m >>= f) := mbind h g

theorem ite {c : Prop} [Decidable c] {m k : M α} (h : Pres P m) (g : Pres P k) : Pres P (if c then m else k) := by
  split
  · exact h
  · exact g

theorem tryCatch {m : M α} {k : Exc → Option (M α)} (h : Pres P m) (g : ∀ x n, k x = some n → Pres P n) : Pres P (M.tryCatch m k) := by
  intro s e hs
  have h1 := h s e hs
  unfold M.tryCatch
  cases hm : m s e with
  | mk o r =>
    obtain ⟨s', e'⟩ := r
    rw [hm] at h1
    cases o with
    | ok a => exact h1
    | pending => exact h1
    | raised x =>
      dsimp only
      cases hk : k x with
      | none => exact h1
      | some n => exact g x n hk s' e' h1

theorem forEach {f : β → M Unit} (h : ∀ b, Pres P (f b)) : ∀ l, Pres P (M.forEach l f)
  | [] => fun _ _ h => h
  | b :: t => mbind (h b) fun _ => forEach h t

end Pres

theorem j_die : ∀ (d : List Nat) (s : State), J cfg old s → J cfg old (die d s)
  | [], _, h => h
  | i :: t, s, h => by
    rw [die]
    refine j_die t _ ?_
    split
    · exact h.quiet (.died i) trivial rfl rfl rfl
    · exact h

theorem p_observe : Pres (J cfg old) observe := by
  intro s e h
  unfold observe
  split
  · exact h
  · split
    · exact j_die _ _ h
    · exact j_die _ _ h

theorem p_modify {f : State → State} (h1 : ∀ s, (f s).ev = s.ev) (h2 : ∀ s, (f s).lastHunt = s.lastHunt)
    (h3 : ∀ s, (f s).fCounter = s.fCounter) : Pres (J cfg old) (M.modify f) := fun s _ h => h.same (h1 s) (h2 s) (h3 s)

theorem p_event {f : State → State}
    (h : ∀ s, ∃ x, (f s).ev = s.ev ++ [x] ∧ (f s).lastHunt = s.lastHunt ∧ (f s).fCounter = s.fCounter ∧ Quiet x) : Pres (J cfg old) (M.modify f) := by
  intro s _ hs
  obtain ⟨x, h1, h2, h3, h4⟩ := h s
  exact hs.quiet x h4 h1 h2 h3

theorem p_emit (x : Ev) (hx : Quiet x) : Pres (J cfg old) (emit x) := p_event fun _ => ⟨x, rfl, rfl, rfl, hx⟩

theorem p_logOp (op : Logger.Op) : Pres (J cfg old) (logOp op) := by
  intro s e h
  unfold logOp
  split
  · exact h.same rfl rfl rfl
  · exact h.same rfl rfl rfl

/-- One step of a proof that a piece of the program keeps `J`. -/
macro "p1" : tactic => `(tactic| first
  | assumption
  | with_reducible exact Pres.pure _ | with_reducible exact Pres.mpure _ | with_reducible exact Pres.throw _ | with_reducible exact Pres.pend
  | with_reducible exact Pres.get | with_reducible exact p_observe
  | with_reducible exact p_logOp _
  | ((with_reducible refine p_emit _ ?_); exact trivial)
  | ((with_reducible refine p_modify ?_ ?_ ?_) <;> intro _ <;> rfl)
  | ((with_reducible refine p_event ?_); exact fun _ => ⟨_, rfl, rfl, rfl, trivial⟩)
  | (with_reducible refine Pres.bind ?_ fun _ => ?_)
  | (with_reducible refine Pres.ite ?_ ?_)
  | (with_reducible refine Pres.forEach (fun _ => ?_) _)
  | (with_reducible refine Pres.tryCatch ?_ fun x n hn => ?_)
  | split)

macro "pall" : tactic => `(tactic| repeat' p1)

theorem p_askUnit : Pres (J cfg old) askUnit := by unfold askUnit; pall
theorem p_askBool : Pres (J cfg old) askBool := by unfold askBool; pall
theorem p_askSel : Pres (J cfg old) askSel := by unfold askSel; pall
theorem p_askSig : Pres (J cfg old) askSig := by unfold askSig; pall
theorem p_askChunk : Pres (J cfg old) askChunk := by unfold askChunk; pall
theorem p_askNames : Pres (J cfg old) askNames := by unfold askNames; pall
theorem p_askFiles : Pres (J cfg old) askFiles := by unfold askFiles; pall

macro_rules | `(tactic| p1) => `(tactic| first | with_reducible exact p_askUnit | with_reducible exact p_askBool | with_reducible exact p_askSel | with_reducible exact p_askSig | with_reducible exact p_askChunk | with_reducible exact p_askNames | with_reducible exact p_askFiles)

theorem handler {c : Prop} [Decidable c] {P : State → Prop} {n : M Unit} (h : (if c then some (pure ()) else none) = some n) : Pres P n := by
  split at h
  · cases h; exact Pres.pure _
  · cases h

macro_rules | `(tactic| p1) => `(tactic| with_reducible exact handler ‹_›)

theorem p_isAlive (i : Nat) : Pres (J cfg old) (isAlive i) := by unfold isAlive; pall
theorem p_draw : Pres (J cfg old) draw := by unfold draw; pall
theorem p_putEnd (i : Nat) (w : String) : Pres (J cfg old) (putEnd i w) := by unfold putEnd; pall

macro_rules | `(tactic| p1) => `(tactic| first | with_reducible exact p_isAlive _ | with_reducible exact p_draw | with_reducible exact p_putEnd _ _)

theorem p_setupNew (k : Int) : Pres (J cfg old) (setupNewOptimizer k) := by unfold setupNewOptimizer; pall
theorem p_startNew (i : Nat) (w : Int) : Pres (J cfg old) (startNewJob i w) := by unfold startNewJob; pall
theorem p_finish (i : Nat) (m : String) : Pres (J cfg old) (finish i m) := by unfold finish; pall
theorem p_shutdown (i : Nat) (h : Option Nat) (m : String) : Pres (J cfg old) (shutdownJob i h m) := by unfold shutdownJob; pall

macro_rules | `(tactic| p1) => `(tactic| first | with_reducible exact p_setupNew _ | with_reducible exact p_startNew _ _ | with_reducible exact p_finish _ _ | with_reducible exact p_shutdown _ _ _)

theorem p_fillLoop (c : Cfg) : ∀ n k b, Pres (J cfg old) (fillLoop c n k b)
  | 0, _, _ => Pres.pend
  | n + 1, k, b => by
    have ih := p_fillLoop c n
    rw [fillLoop]
    pall
    exact ih _ _

theorem p_fillSlots (c : Cfg) (n : Nat) : Pres (J cfg old) (fillSlots c n) := by
  have h := p_fillLoop (cfg := cfg) (old := old) c n
  unfold fillSlots; pall
  exact h _ _

theorem p_checkSignals (i : Nat) : Pres (J cfg old) (checkSignals i) := by unfold checkSignals; pall

theorem p_huntLoop (h : Nat) : ∀ js vs, Pres (J cfg old) (huntLoop h js vs)
  | [], _ => Pres.pure _
  | v :: t, vs => by
    have ih := p_huntLoop h t
    rw [huntLoop]
    pall
    all_goals exact ih _

theorem p_shareLoop (b : BestIter) : ∀ js, Pres (J cfg old) (shareLoop b js)
  | [] => Pres.pure _
  | i :: t => by
    have ih := p_shareLoop b t
    rw [shareLoop]
    pall

theorem p_extraNames (r : IterRes) : Pres (J cfg old) (extraNames r) := by unfold extraNames; pall

theorem p_record (r : IterRes) (ns : List String) : Pres (J cfg old) (record r ns) := by
  intro s e h
  unfold record
  dsimp only
  split
  · exact h
  · obtain ⟨h0, l, e1, p⟩ := h
    split
    · refine ⟨?_, l ++ [.accepted r], ?_, prompt_snoc p _ (by rintro y f i ⟨⟩)⟩
      · show s.lastHunt + sinceHunt (s.ev ++ [.accepted r]) ≤ s.fCounter + 1
        rw [sinceHunt_snoc]
        show s.lastHunt + (sinceHunt s.ev + 1) ≤ _
        omega
      · show s.ev ++ [.accepted r] = _
        rw [e1, List.append_assoc]
    · exact ⟨Nat.le_succ_of_le h0, l, e1, p⟩

/-- The result has just been renewed. -/
def Renewed (cfg : Cfg) (old : List Ev) (t : State) : Prop :=
  ∃ s x f i c, J cfg old s ∧ t.ev = s.ev ++ [.updated x f i] ∧ t.result.origin = some (i, c) ∧ t.lastHunt = s.lastHunt ∧ t.fCounter = s.fCounter

theorem p_update {s t : State} {e e' : Env} {o : Out Unit} (h : J cfg old s) (hh : updateBestResult cfg s e = (o, t, e')) :
    (o = .ok () ∧ Renewed cfg old t) ∨ ((∀ u, o ≠ .ok u) ∧ J cfg old t) := by
  unfold updateBestResult at hh
  change M.bind M.get _ s e = _ at hh
  unfold M.bind M.get at hh
  dsimp only at hh
  split at hh
  · change M.bind (shareLoop s.log.best (s.packs.map (·.1))) _ s e = _ at hh
    have hj := p_shareLoop (cfg := cfg) (old := old) s.log.best (s.packs.map (·.1)) s e h
    unfold M.bind at hh
    split at hh
    · rename_i a s1 e1 hm
      rw [hm] at hj
      cases hh
      exact .inl ⟨rfl, s1, _, _, _, _, hj, rfl, rfl, rfl, rfl⟩
    · rename_i x s1 e1 hm
      rw [hm] at hj
      cases hh
      exact .inr ⟨by simp, hj⟩
    · rename_i s1 e1 hm
      rw [hm] at hj
      cases hh
      exact .inr ⟨by simp, hj⟩
  · cases hh
    exact .inl ⟨rfl, s, _, _, _, _, h, rfl, rfl, rfl, rfl⟩

theorem p_huntIfDue : Pres (J cfg old) (huntIfDue cfg) := by
  intro s e h
  show J cfg old (M.bind (updateBestResult cfg) _ s e).2.1
  unfold M.bind
  cases hm : updateBestResult cfg s e with
  | mk o r =>
  obtain ⟨t, e'⟩ := r
  rcases p_update h hm with ⟨rfl, s1, x, f, i, c, hj, h1, h2, h3, h4⟩ | ⟨ho, hj⟩
  · show J cfg old (M.bind M.get _ t e').2.1
    unfold M.bind M.get
    dsimp only
    rw [h2]
    dsimp only
    obtain ⟨j0, l, j1, j2⟩ := hj
    split
    · show J cfg old (M.bind (M.modify _) _ t e').2.1
      unfold M.bind M.modify
      dsimp only
      refine (Pres.bind Pres.get fun a => p_huntLoop i _ _) _ e' ?_
      refine ⟨?_, l ++ [.updated x f i] ++ [.hunt i], ?_, ?_⟩
      · show t.fCounter + sinceHunt (t.ev ++ [.hunt i]) ≤ t.fCounter
        rw [sinceHunt_snoc]; exact le_refl _
      · show t.ev ++ [.hunt i] = _
        rw [h1, j1]; simp
      · intro a y g k b e0 k0 k1 k2
        rcases List.eq_nil_or_concat b with rfl | ⟨b0, z, rfl⟩
        · have := List.append_inj' e0 rfl
          simp at this
        · have e' : l ++ [.updated x f i] ++ [Ev.hunt i] = (a ++ .updated y g k :: b0) ++ [z] := by rw [e0]; simp
          obtain ⟨e2, e3⟩ := List.append_inj' e' rfl
          rcases List.eq_nil_or_concat b0 with rfl | ⟨b1, z1, rfl⟩
          · obtain ⟨-, e4⟩ := List.append_inj' e2 rfl
            simp at e3 e4
            obtain ⟨-, -, rfl⟩ := e4
            exact ⟨[], by simp [← e3]⟩
          · have e' : l ++ [.updated x f i] = (a ++ .updated y g k :: b1) ++ [z1] := by rw [e2]; simp
            obtain ⟨rfl, -⟩ := List.append_inj' e' rfl
            obtain ⟨b', rfl⟩ := j2 a y g k b1 rfl k0 k1 k2
            exact ⟨b' ++ [z1] ++ [z], by simp⟩
    · rename_i hd
      show J cfg old t
      refine ⟨?_, l ++ [.updated x f i], by rw [h1, j1, List.append_assoc], prompt_snoc j2 _ ?_⟩
      · rw [h1, h3, h4, sinceHunt_snoc]; exact j0
      · rintro y g k e0 k0 k1 k2
        cases e0
        apply hd
        refine ⟨k0, k1, ?_⟩
        rw [h3, h4]
        rw [j1] at j0
        have := (Int.ofNat_le.mpr j0)
        push_cast at this
        show cfg.huntFrequency ≤ _
        omega
  · cases o with
    | ok u => exact absurd rfl (ho u)
    | raised x => exact hj
    | pending => exact hj

macro_rules | `(tactic| p1) => `(tactic| first | with_reducible exact p_checkSignals _ | with_reducible exact p_extraNames _ | with_reducible exact p_record _ _ | with_reducible exact p_huntIfDue)

theorem p_chunkLoop : ∀ ms t, Pres (J cfg old) (chunkLoop cfg ms t)
  | [], _ => Pres.pure _
  | m :: ms, t => by
    have ih := p_chunkLoop ms
    simp only [chunkLoop]
    pall
    all_goals exact ih _

theorem p_resultsLoop (mr : Option Nat) : ∀ n t, Pres (J cfg old) (resultsLoop cfg mr n t)
  | 0, _ => Pres.pend
  | n + 1, t => by
    have ih := p_resultsLoop mr n
    have hc := p_chunkLoop (cfg := cfg) (old := old)
    simp only [resultsLoop]
    pall
    all_goals first | exact ih _ | exact hc _ _

theorem p_process (n : Nat) (mr : Option Nat) : Pres (J cfg old) (processResults cfg n mr) := p_resultsLoop _ _ _

theorem p_stopFile (f : Option Nat) : Pres (J cfg old) (stopFile f) := by unfold stopFile; pall

macro_rules | `(tactic| p1) => `(tactic| first | with_reducible exact p_process _ _ | with_reducible exact p_stopFile _)

theorem p_manualShutdowns : Pres (J cfg old) manualShutdowns := by unfold manualShutdowns; pall

theorem p_pauseLoop : ∀ js acc, Pres (J cfg old) (pauseLoop js acc)
  | [], _ => Pres.pure _
  | i :: t, acc => by
    have ih := p_pauseLoop t
    rw [pauseLoop]
    pall
    all_goals exact ih _

theorem p_replyLoop : ∀ js h, Pres (J cfg old) (replyLoop js h)
  | [], _ => Pres.pure _
  | i :: t, h => by
    have ih := p_replyLoop t
    rw [replyLoop]
    pall
    all_goals exact ih _

theorem p_waitLoop (fuel k : Nat) : ∀ n h, Pres (J cfg old) (waitLoop cfg fuel k n h)
  | 0, _ => Pres.pend
  | n + 1, h => by
    have ih := p_waitLoop fuel k n
    have hr := p_replyLoop (cfg := cfg) (old := old)
    rw [waitLoop]
    pall
    all_goals first | exact ih _ | exact hr _ _

theorem p_saveLoop (skip : List Nat) : ∀ js, Pres (J cfg old) (saveLoop skip js)
  | [] => Pres.pure _
  | i :: t => by
    have ih := p_saveLoop skip t
    rw [saveLoop]
    pall

theorem p_clearedLoop : ∀ n js, Pres (J cfg old) (clearedLoop n js)
  | _, [] => by unfold clearedLoop; exact Pres.pure _
  | 0, _ :: _ => Pres.pend
  | n + 1, i :: t => by
    have ih := p_clearedLoop n
    rw [clearedLoop]
    pall
    all_goals exact ih _

theorem p_filesLoop : ∀ js, Pres (J cfg old) (filesLoop js)
  | [] => Pres.pure _
  | _ :: t => by
    have ih := p_filesLoop t
    rw [filesLoop]
    pall

theorem p_resumeLoop : ∀ js, Pres (J cfg old) (resumeLoop js)
  | [] => Pres.pure _
  | i :: t => by
    have ih := p_resumeLoop t
    rw [resumeLoop]
    pall

theorem p_stopLoop : ∀ js, Pres (J cfg old) (stopLoop js)
  | [] => Pres.pure _
  | i :: t => by
    have ih := p_stopLoop t
    rw [stopLoop]
    pall

macro_rules | `(tactic| p1) => `(tactic| first | with_reducible exact p_manualShutdowns | with_reducible exact p_pauseLoop _ _ | with_reducible exact p_waitLoop _ _ _ _ | with_reducible exact p_saveLoop _ _ | with_reducible exact p_clearedLoop _ _ | with_reducible exact p_filesLoop _ | with_reducible exact p_resumeLoop _ | with_reducible exact p_stopLoop _)

theorem p_ckptOpts (n : Nat) : Pres (J cfg old) (checkpointOptimizers cfg n) := by unfold checkpointOptimizers; pall

macro_rules | `(tactic| p1) => `(tactic| with_reducible exact p_ckptOpts _)

theorem p_checkpoint (n : Nat) : Pres (J cfg old) (checkpoint cfg n) := by unfold checkpoint; pall

macro_rules | `(tactic| p1) => `(tactic| with_reducible exact p_checkpoint _)

theorem p_manualCkpts (n : Nat) : Pres (J cfg old) (manualCheckpoints cfg n) := by unfold manualCheckpoints; pall
theorem p_inspectDead (i : Nat) : Pres (J cfg old) (inspectDead i) := by unfold inspectDead; pall
theorem p_inspectHanging (i : Nat) : Pres (J cfg old) (inspectHanging cfg i) := by unfold inspectHanging; pall
theorem p_inspectZombie (i : Nat) : Pres (J cfg old) (inspectZombie cfg i) := by unfold inspectZombie; pall

macro_rules | `(tactic| p1) => `(tactic| first | with_reducible exact p_manualCkpts _ | with_reducible exact p_inspectDead _ | with_reducible exact p_inspectHanging _ | with_reducible exact p_inspectZombie _ | with_reducible exact p_fillSlots _ _)

theorem p_inspect : Pres (J cfg old) (inspectChildren cfg) := by unfold inspectChildren; pall
theorem p_purge : Pres (J cfg old) purge := by unfold purge; pall

macro_rules | `(tactic| p1) => `(tactic| first | with_reducible exact p_inspect | with_reducible exact p_purge)

theorem p_iteration (n : Nat) : Pres (J cfg old) (iteration cfg n) := by unfold iteration; pall

theorem p_mainLoop (fuel : Nat) : ∀ n, Pres (J cfg old) (mainLoop cfg fuel n)
  | 0 => Pres.pend
  | n + 1 => by
    have ih := p_mainLoop fuel n
    have hi := p_iteration (cfg := cfg) (old := old) fuel
    rw [mainLoop]
    pall

theorem p_stopRecord (w : String) (i : Nat) : Pres (J cfg old) (stopRecord w i) := by unfold stopRecord; pall

macro_rules | `(tactic| p1) => `(tactic| with_reducible exact p_stopRecord _ _)

theorem p_stopAll (w : String) : Pres (J cfg old) (stopAllChildren w) := by unfold stopAllChildren; pall

theorem p_restartLoop : ∀ ps, Pres (J cfg old) (restartLoop ps)
  | [] => Pres.pure _
  | (i, w) :: t => by
    have ih := p_restartLoop t
    rw [restartLoop]
    pall

macro_rules | `(tactic| p1) => `(tactic| first | with_reducible exact p_mainLoop _ _ | with_reducible exact p_stopAll _ | with_reducible exact p_restartLoop _)

theorem p_tryBlock (n : Nat) : Pres (J cfg old) (tryBlock cfg n) := by unfold tryBlock; pall

theorem p_afterCheck (n : Nat) (s : State) (e : Env) (h : J cfg old s) : J cfg old (afterCheck cfg n s e).2.1 := by
  have h1 := p_tryBlock (cfg := cfg) (old := old) n s e h
  unfold afterCheck
  split
  · rename_i hm; rw [hm] at h1; exact h1
  · rename_i hm; rw [hm] at h1; exact h1
  · rename_i x s2 e2 hm
    rw [hm] at h1
    split
    · have h2 := p_stopAll (cfg := cfg) (old := old) "GloMPO Crash" s2 e2 h1
      split
      · rename_i hm; rw [hm] at h2; exact h2
      · rename_i hm; rw [hm] at h2; exact h2
    · have h2 := p_stopAll (cfg := cfg) (old := old) "User Interrupt" s2 e2 h1
      split
      · rename_i hm; rw [hm] at h2; exact h2
      · rename_i hm; rw [hm] at h2; exact h2

theorem p_start (n : Nat) (s : State) (e : Env) (h : J cfg old s) : J cfg old (startManager cfg n s e).2.1 := by
  have h1 := p_askBool (cfg := cfg) (old := old) s e h
  unfold startManager
  split
  · rename_i hm; rw [hm] at h1; exact h1
  · rename_i hm; rw [hm] at h1
    split
    · exact p_afterCheck n _ _ (h1.same rfl rfl rfl)
    · exact h1
  · rename_i b s0 e1 hm; rw [hm] at h1
    split
    · exact h1.quiet (.checked b) trivial rfl rfl rfl
    · exact p_afterCheck n _ _ (h1.quiet (.checked b) trivial rfl rfl rfl)

/-- An evaluation is accepted only when the result has been renewed since the last one. -/
theorem steps_renewed {cfg : Cfg} {A : Lab → Prop} {s t : State} (h : Steps cfg A s t) :
    ∃ l, t.ev = s.ev ++ l ∧ ∀ pre r post, l = pre ++ .accepted r :: post → UpToDate (s.ev ++ pre) = true := by
  induction h with
  | refl => exact ⟨[], by simp, fun pre x post e => by simp at e⟩
  | @tail t u lab h st ha ih =>
    obtain ⟨l, hl, hs⟩ := ih
    have other : ∀ x, u.ev = t.ev ++ [x] → (∀ r, x = .accepted r → UpToDate t.ev = true) →
        ∃ l, u.ev = s.ev ++ l ∧ ∀ pre r post, l = pre ++ .accepted r :: post → UpToDate (s.ev ++ pre) = true := by
      intro x hx h1
      refine ⟨l ++ [x], by rw [hx, hl, List.append_assoc], fun pre y post e => ?_⟩
      rcases List.eq_nil_or_concat post with rfl | ⟨post', z, rfl⟩
      · obtain ⟨rfl, e'⟩ := List.append_inj' (s₁ := l) (t₁ := [x]) (s₂ := pre) (t₂ := [.accepted y]) (by simpa using e) rfl
        rw [← hl]
        exact h1 y (by simpa using e')
      · have e' : l ++ [x] = (pre ++ .accepted y :: post') ++ [z] := by simpa using e
        exact hs pre y post' (List.append_inj' e' rfl).1
    cases st with
    | acceptOld _ r _ _ h => exact other _ rfl fun _ _ => h
    | acceptNew _ r _ _ _ _ h => exact other _ rfl fun _ _ => h
    | plain _ x hx => exact other x rfl fun r e => by subst e; cases hx
    | _ => first
      | exact ⟨l, hl, hs⟩
      | exact other _ rfl fun r e => by cases e

end HuntPrompt

open HuntPrompt in
/-- C129. The result is renewed after every evaluation accepted, before the next is. -/
theorem C129_renewed {cfg : Cfg} {s0 : State} (hs : Startable cfg s0) (fuel : Nat) (e : Env) {pre post : List Ev} {r : IterRes}
    (h : thisRun cfg s0 fuel e = pre ++ .accepted r :: post) : UpToDate (s0.ev ++ pre) = true := by
  obtain ⟨l, h1, h2⟩ := steps_renewed (startManager_spec fuel hs.spec.1 e).1
  have : thisRun cfg s0 fuel e = l := by
    unfold thisRun happened moment
    rw [h1]; simp
  exact h2 pre r post (this ▸ h)

example : ∃ pre r post, thisRun cfg2 (init cfg2) 20 demo = pre ++ .accepted r :: post ∧ r.optId = 2 :=
  ⟨(thisRun cfg2 (init cfg2) 20 demo).take 13, ⟨2, [3], .fin 3, []⟩, (thisRun cfg2 (init cfg2) 20 demo).drop 14, by decide +kernel, rfl⟩

open HuntPrompt in
/-- C129. Hunts are not put off: whenever, in any run of a manager new or loaded, up to any moment and however it ends, the result is renewed (as it
is after every evaluation accepted), its finder is known, there are hunting conditions and so many evaluations were accepted since the last
hunt, then the next thing to happen is a hunt by the finder. -/
theorem C129_not_put_off {cfg : Cfg} {s0 : State} (hs : Startable cfg s0) (fuel : Nat) (e : Env) :
    Prompt cfg s0.ev (thisRun cfg s0 fuel e) := by
  have h0 : J cfg s0.ev s0 := by
    refine ⟨le_of_eq hs.spec.1.inv.hunt, [], by simp, ?_⟩
    intro a x f i b e
    simp at e
  obtain ⟨-, l, h1, h2⟩ := p_start (cfg := cfg) fuel s0 e h0
  have : thisRun cfg s0 fuel e = l := by
    unfold thisRun happened moment
    rw [h1]; simp
  rw [this]; exact h2

/-- The second evaluation of the run `demo` makes a hunt due. -/
example : (thisRun cfg2 (init cfg2) 20 demo)[15]? = some (.updated [3] (.fin 3) 2) ∧ (thisRun cfg2 (init cfg2) 20 demo)[16]? = some (.hunt 2) ∧
    sinceHunt ((init cfg2).ev ++ (thisRun cfg2 (init cfg2) 20 demo).take 15) = 2 ∧ cfg2.hunting = true ∧ cfg2.huntFrequency = 2 := by
  decide +kernel

end Glompo.Props
