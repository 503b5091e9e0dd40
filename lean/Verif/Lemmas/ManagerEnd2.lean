import Verif.Lemmas.ManagerEnd

/-! # Every ending recorded is a true one, and none is left out -/

namespace Glompo.Manager

open M Glompo.Spec
open Glompo.Logger (Op)

/-- An ending of optimizer `i` is recorded. -/
def Noted (s : State) (i : Nat) : Prop := ∃ v, v ∈ metaWrites s.ops i "end_cond"

/-- What is kept in a session. -/
structure Kept (b : Prop) (s : State) : Prop where
  why : ∀ i v, Op.putMeta i "end_cond" v ∈ s.ops → TrueEnding s.ev i v
  vict : ∀ i ∈ s.victims, ∃ h, Ev.killed i h ∈ s.ev
  faith : Faith s.log s.ops
  saved : ∀ k ∈ s.saved, (∀ i v, Op.putMeta i "end_cond" v ∈ k.ops → TrueEnding k.ev i v) ∧
    (∀ i ∈ k.victims, ∃ h, Ev.killed i h ∈ k.ev) ∧ Faith k.log k.ops
  held : b → ∀ i ∈ launchedOf s.ev, i ∈ s.packs.map (·.1) ∨ Noted s i

/-- The endings of all who are buried are recorded. -/
def AllEnds (b : Prop) (s : State) : Prop := b → ∀ i ∈ s.graveyard, Noted s i

/-- The same but for optimizer `j`. -/
def EndsBut (b : Prop) (j : Nat) (s : State) : Prop := b → ∀ i ∈ s.graveyard, i ≠ j → Noted s i

/-- The record has grown. -/
structure More (s t : State) : Prop where
  ev : ∀ x ∈ s.ev, x ∈ t.ev
  noted : ∀ i, Noted s i → Noted t i

variable {b : Prop} {α β : Type}

theorem More.refl (s : State) : More s s := ⟨fun _ h => h, fun _ h => h⟩
theorem More.trans {s t u : State} (h : More s t) (h' : More t u) : More s u := ⟨fun x hx => h'.ev x (h.ev x hx), fun i hi => h'.noted i (h.noted i hi)⟩
/-- Further events. -/
theorem More.of {s t : State} {l : List Ev} (h : t.ev = s.ev ++ l) (ho : t.ops = s.ops) : More s t :=
  ⟨fun x hx => by rw [h]; exact List.mem_append_left _ hx, fun i ⟨v, hv⟩ => ⟨v, by rw [ho]; exact hv⟩⟩

def Safe (b : Prop) (P : State → Prop) (m : M α) (Q : α → State → Prop) : Prop :=
  ∀ s e, (b → Mild e) → Kept b s → P s →
    Kept b (m s e).2.1 ∧ (b → Mild (m s e).2.2) ∧ More s (m s e).2.1 ∧ (∀ a, (m s e).1 = .ok a → Q a (m s e).2.1) ∧
    ∀ x, (m s e).1 = .raised x → (b → x ≠ .env .valueError) ∧ (x = .ckpt → AllEnds b (m s e).2.1)

/-! ### Rules -/

theorem Hush.noted {s t : State} (h : Hush s t) {i : Nat} (hn : Noted s i) : Noted t i := by
  obtain ⟨l, hl, -⟩ := h.ops
  obtain ⟨v, hv⟩ := hn
  exact ⟨v, by rw [hl]; exact metaWrites_grow hv⟩

theorem Hush.mem {s t : State} (h : Hush s t) {x : Ev} (hx : x ∈ s.ev) : x ∈ t.ev := by
  obtain ⟨l, hl, -⟩ := h.ev
  rw [hl]; exact List.mem_append_left _ hx

theorem Hush.more {s t : State} (h : Hush s t) : More s t := ⟨fun _ => h.mem, fun _ => h.noted⟩

theorem Hush.kept {s t : State} (h : Hush s t) (k : Kept b s) : Kept b t := by
  obtain ⟨l, hl, hl'⟩ := h.ops
  obtain ⟨le, he, he'⟩ := h.ev
  refine ⟨fun i v hv => ?_, fun i hi => ?_, h.faith k.faith, fun k' hk => k.saved k' (h.saved ▸ hk), fun hb i hi => ?_⟩
  · rw [hl] at hv
    rcases List.mem_append.mp hv with hv | hv
    · exact (k.why i v hv).mono fun _ => h.mem
    · exact absurd ⟨i, v, rfl⟩ (hl' _ hv)
  · rw [h.vict] at hi
    obtain ⟨x, hx⟩ := k.vict i hi
    exact ⟨x, h.mem hx⟩
  · rw [he, launchedOf_append, he', List.append_nil] at hi
    exact (k.held hb i hi).imp (h.packs i) h.noted

theorem Hush.ends {s t : State} (h : Hush s t) (hn : AllEnds b s) : AllEnds b t := fun hb i hi => h.noted (hn hb i (h.grave ▸ hi))

theorem Hush.endsBut {s t : State} {j : Nat} (h : Hush s t) (hn : EndsBut b j s) : EndsBut b j t :=
  fun hb i hi hj => h.noted (hn hb i (h.grave ▸ hi) hj)

theorem AllEnds.but {s : State} (h : AllEnds b s) (j : Nat) : EndsBut b j s := fun hb i hi _ => h hb i hi

theorem EndsBut.all {s : State} {j : Nat} (h : EndsBut b j s) (hj : Noted s j) : AllEnds b s := fun hb i hi => by
  by_cases e : i = j
  · subst e; exact hj
  · exact h hb i hi e

/-- A piece which concerns no ending, and what it keeps. `P` need not imply `AllEnds` if the piece does not raise `CheckpointingError`. -/
theorem Still.safe {m : M α} (h : Still m) {P : State → Prop} (hP : ∀ s t, Hush s t → P s → P t) (hE : ∀ s, P s → AllEnds b s) :
    Safe b P m (fun _ => P) := fun s e c k p => by
  obtain ⟨h1, h2, h3⟩ := h s e
  exact ⟨h1.kept k, fun hb => h2 (c hb), h1.more, fun _ _ => hP _ _ h1 p,
    fun x hx => ⟨fun hb => h3 x hx (c hb), fun _ => h1.ends (hE s p)⟩⟩

theorem Still.safe' {m : M α} (h : Still m) (hn : ∀ s e, (m s e).1 ≠ .raised .ckpt) {P : State → Prop} (hP : ∀ s t, Hush s t → P s → P t) :
    Safe b P m (fun _ => P) := fun s e c k p => by
  obtain ⟨h1, h2, h3⟩ := h s e
  exact ⟨h1.kept k, fun hb => h2 (c hb), h1.more, fun _ _ => hP _ _ h1 p,
    fun x hx => ⟨fun hb => h3 x hx (c hb), fun hc => absurd (hc ▸ hx) (hn s e)⟩⟩

theorem Still.plain {m : M α} (h : Still m) : Safe b (AllEnds b) m (fun _ => AllEnds b) := h.safe (fun _ _ q => q.ends) fun _ h => h

theorem Safe.pure (a : α) {P : State → Prop} {Q : α → State → Prop} (h : ∀ s, P s → Q a s) : Safe b P (Pure.pure a : M α) Q :=
  fun s _ c k p => ⟨k, c, More.refl s, fun a' h' => by cases h'; exact h s p, fun x h => by cases h⟩

theorem Safe.get {P : State → Prop} : Safe b P M.get (fun a s => a = s ∧ P s) :=
  fun s _ c k p => ⟨k, c, More.refl s, fun a' h' => by cases h'; exact ⟨rfl, p⟩, fun x h => by cases h⟩

theorem Safe.modify {f : State → State} {P : State → Prop} {Q : Unit → State → Prop}
    (h : ∀ s, Kept b s → P s → Kept b (f s) ∧ More s (f s) ∧ Q () (f s)) : Safe b P (M.modify f) Q :=
  fun s _ c k p => ⟨(h s k p).1, c, (h s k p).2.1, fun a' h' => by cases h'; exact (h s k p).2.2, fun x h => by cases h⟩

theorem Safe.bind {m : M α} {f : α → M β} {P : State → Prop} {Q : α → State → Prop} {R : β → State → Prop} (hm : Safe b P m Q)
    (hf : ∀ a, Safe b (Q a) (f a) R) : Safe b P (Bind.bind m f : M β) R := by
  intro s e c k p
  show Kept b (M.bind m f s e).2.1 ∧ (b → Mild (M.bind m f s e).2.2) ∧ More s (M.bind m f s e).2.1 ∧
    (∀ a, (M.bind m f s e).1 = .ok a → R a (M.bind m f s e).2.1) ∧
    ∀ x, (M.bind m f s e).1 = .raised x → (b → x ≠ .env .valueError) ∧ (x = .ckpt → AllEnds b (M.bind m f s e).2.1)
  obtain ⟨h1, h2, h3, h4, h5⟩ := hm s e c k p
  unfold M.bind
  generalize m s e = r at h1 h2 h3 h4 h5 ⊢
  obtain ⟨o, s', e'⟩ := r
  cases o with
  | ok a =>
    obtain ⟨k1, k2, k3, k4, k5⟩ := hf a s' e' h2 h1 (h4 a rfl)
    exact ⟨k1, k2, h3.trans k3, k4, k5⟩
  | raised x =>
    refine ⟨h1, h2, h3, fun _ ha => ?_, fun y hy => h5 y ?_⟩
    · cases ha
    · cases hy; rfl
  | pending =>
    refine ⟨h1, h2, h3, fun _ ha => ?_, fun y hy => ?_⟩
    · cases ha
    · cases hy

theorem Safe.pre {m : M α} {P P' : State → Prop} {Q : α → State → Prop} (h : Safe b P m Q) (hp : ∀ s, P' s → P s) : Safe b P' m Q :=
  fun s e c k p => h s e c k (hp s p)

theorem Safe.post {m : M α} {P : State → Prop} {Q Q' : α → State → Prop} (h : Safe b P m Q) (hq : ∀ a s, Q a s → Q' a s) : Safe b P m Q' :=
  fun s e c k p => by
    obtain ⟨h1, h2, h3, h4, h5⟩ := h s e c k p
    exact ⟨h1, h2, h3, fun a ha => hq _ _ (h4 a ha), h5⟩

/-- What is kept by every growth of the record. -/
theorem Safe.frame {m : M α} {P : State → Prop} {Q : α → State → Prop} {F : State → Prop} (h : Safe b P m Q)
    (hF : ∀ s t : State, More s t → F s → F t) : Safe b (fun s => P s ∧ F s) m (fun a s => Q a s ∧ F s) :=
  fun s e c k p => by
    obtain ⟨h1, h2, h3, h4, h5⟩ := h s e c k p.1
    exact ⟨h1, h2, h3, fun a ha => ⟨h4 a ha, hF _ _ h3 p.2⟩, h5⟩

theorem Safe.forEach {γ : Type} {f : γ → M Unit} {P : State → Prop} : ∀ {l : List γ}, (∀ x ∈ l, Safe b P (f x) (fun _ => P)) →
    Safe b P (M.forEach l f) (fun _ => P)
  | [], _ => Safe.pure () fun _ h => h
  | x :: t, h => by
    unfold M.forEach
    exact Safe.bind (h x List.mem_cons_self) fun _ => Safe.forEach fun y hy => h y (List.mem_cons_of_mem _ hy)

theorem Safe.seq {m : M α} {f : α → M β} (hm : Safe b (AllEnds b) m (fun _ => AllEnds b))
    (hf : ∀ a, Safe b (AllEnds b) (f a) (fun _ => AllEnds b)) : Safe b (AllEnds b) (Bind.bind m f : M β) (fun _ => AllEnds b) := Safe.bind hm hf

/-- Known pieces. -/
syntax "sf_known" : tactic
/-- Goes through a piece of the program which keeps `AllEnds`. -/
macro "sf_go" : tactic => `(tactic| repeat' (first
  | with_reducible exact Safe.pure _ fun _ h => h
  | sf_known
  | ((with_reducible refine Still.plain ?_); (st_go; done))
  | with_reducible refine Safe.seq ?_ fun _ => ?_
  | dsimp only
  | split))

/-! ### Endings -/

/-- An ending may be recorded if it is true. -/
theorem safe_putEnd (i : Nat) (v : String) :
    Safe b (fun s => TrueEnding s.ev i v ∧ EndsBut b i s) (putEnd i v) (fun _ s => EndsBut b i s ∧ Noted s i) := by
  unfold putEnd
  refine Safe.bind (Q := fun _ s => TrueEnding s.ev i v ∧ EndsBut b i s)
    (Still.safe' (still_logOp (by simp [IsEnd])) ?_ fun s t q p => ⟨p.1.mono fun _ => q.mem, q.endsBut p.2⟩) fun _ => ?_
  · intro s e
    unfold logOp
    split <;> simp
  · intro s e c k p
    have hk : Kept b { s with log := (s.log.step (.putMeta i "end_cond" v)).1, ops := s.ops ++ [.putMeta i "end_cond" v] } := by
      refine ⟨fun j w hw => ?_, k.vict, faith_step k.faith _, k.saved, fun hb j hj => ?_⟩
      · rcases List.mem_append.mp hw with hw | hw
        · exact k.why j w hw
        · simp at hw
          obtain ⟨rfl, rfl⟩ := hw
          exact p.1
      · refine (k.held hb j hj).imp id ?_
        rintro ⟨w, hw⟩
        exact ⟨w, metaWrites_grow hw⟩
    unfold logOp
    generalize hl : s.log.step (.putMeta i "end_cond" v) = r at hk ⊢
    obtain ⟨l, o⟩ := r
    cases o with
    | none =>
      refine ⟨hk, c, ⟨fun _ h => h, fun j ⟨w, hw⟩ => ⟨w, metaWrites_grow hw⟩⟩, fun _ _ => ⟨fun hb j hj hi => ?_, ?_⟩, fun x h => by cases h⟩
      · obtain ⟨w, hw⟩ := p.2 hb j hj hi
        exact ⟨w, metaWrites_grow hw⟩
      · have : i ∈ added s.ops := by
          simp only [Logger.step, Logger.putMetadata] at hl
          split at hl
          · cases hl
          · rename_i st hst
            exact (k.faith i st.metadata (by simp [md, hst])).1
        exact ⟨v, metaWrites_put this⟩
    | some y => exact ⟨hk, c, ⟨fun _ h => h, fun j ⟨w, hw⟩ => ⟨w, metaWrites_grow hw⟩⟩, fun _ h => (by cases h), fun x h => by cases h; simp⟩

theorem mem_addTo {l : List Nat} {i j : Nat} : j ∈ addTo l i ↔ j ∈ l ∨ j = i := by
  unfold addTo
  split
  · exact ⟨.inl, fun h => h.elim id fun h => h ▸ ‹_›⟩
  · simp

/-- Burial with an event. -/
theorem kept_bury {s : State} {i : Nat} {x : Ev} {vs : List Nat} (hx : launchedOf [x] = []) (k : Kept b s)
    (hv : ∀ j ∈ vs, j ∈ s.victims ∨ (j = i ∧ ∃ h, x = .killed i h)) {n : Nat} :
    Kept b { s with graveyard := addTo s.graveyard i, victims := vs, convCounter := n, ev := s.ev ++ [x] } := by
  refine ⟨fun j w hw => (k.why j w hw).mono fun y hy => List.mem_append_left _ hy, fun j hj => ?_, k.faith, k.saved, fun hb j hj => ?_⟩
  · rcases hv j hj with h | ⟨rfl, h, rfl⟩
    · obtain ⟨y, hy⟩ := k.vict j h
      exact ⟨y, List.mem_append_left _ hy⟩
    · exact ⟨h, by simp⟩
  · have hj' : j ∈ launchedOf s.ev := by
      have : j ∈ launchedOf (s.ev ++ [x]) := hj
      rwa [launchedOf_append, hx, List.append_nil] at this
    exact k.held hb j hj'

theorem endsBut_bury {s : State} {i : Nat} (h : EndsBut b i s) {t : State} (ht : t.graveyard = addTo s.graveyard i) (ho : t.ops = s.ops) : EndsBut b i t := by
  intro hb j hj hi
  rw [ht, mem_addTo] at hj
  obtain ⟨v, hv⟩ := h hb j (hj.resolve_right hi) hi
  exact ⟨v, by rw [ho]; exact hv⟩

theorem safe_finish (i : Nat) (msg : String) : Safe b (AllEnds b) (finish i msg) (fun _ => AllEnds b) := by
  unfold finish
  refine Safe.bind (Q := fun _ s => TrueEnding s.ev i msg ∧ EndsBut b i s) ?_ fun _ => Safe.bind (safe_putEnd i msg) fun _ => ?_
  · exact Safe.modify fun s k p => ⟨(hush_ev s rfl).kept k, More.of rfl rfl, .said _ (by simp),
      ((hush_ev s rfl).ends p).but i⟩
  · refine Safe.modify fun s k p => ⟨kept_bury (vs := s.victims) rfl k fun j hj => .inl hj, More.of rfl rfl, ?_⟩
    exact EndsBut.all (endsBut_bury p.1 rfl rfl) p.2
macro_rules | `(tactic| sf_known) => `(tactic| with_reducible exact safe_finish _ _)

theorem safe_checkSignals (i : Nat) : Safe b (AllEnds b) (checkSignals i) (fun _ => AllEnds b) := by
  unfold checkSignals
  refine Safe.bind (Still.plain Still.get) fun s => ?_
  split
  · sf_go
  · refine Safe.bind (Still.plain still_askSig) fun o => ?_
    split <;> sf_go
macro_rules | `(tactic| sf_known) => `(tactic| with_reducible exact safe_checkSignals _)

/-- The actions between burial and record. -/
theorem safe_askUnit' {P : State → Prop} (hP : ∀ s t, Hush s t → P s → P t) : Safe b P askUnit (fun _ => P) := by
  refine Still.safe' still_askUnit (fun s e => ?_) hP
  unfold askUnit observe
  cases e with
  | nil => simp [Bind.bind, M.bind]
  | cons o t =>
    simp only [Bind.bind, M.bind]
    cases o.ans <;> simp [Pure.pure, M.pure, M.pend]

theorem safe_shutdownJob (i : Nat) (h : Option Nat) (r : String) : Safe b (AllEnds b) (shutdownJob i h r) (fun _ => AllEnds b) := by
  unfold shutdownJob
  have hq : ∀ s t : State, Hush s t → (Ev.killed i h ∈ s.ev ∧ EndsBut b i s) → (Ev.killed i h ∈ t.ev ∧ EndsBut b i t) :=
    fun s t q p => ⟨q.mem p.1, q.endsBut p.2⟩
  refine Safe.bind (Q := fun _ s => Ev.killed i h ∈ s.ev ∧ EndsBut b i s) ?_ fun _ => Safe.bind (safe_askUnit' hq) fun _ =>
    Safe.bind (Q := fun _ s => Ev.killed i h ∈ s.ev ∧ EndsBut b i s) ?_ fun _ => ?_
  · refine Safe.modify fun s k p => ⟨kept_bury (n := s.convCounter) (x := .killed i h) (vs := addTo s.victims i) rfl k fun j hj => ?_,
      More.of rfl rfl, by simp, endsBut_bury (p.but i) rfl rfl⟩
    exact (mem_addTo.mp hj).imp id fun e => ⟨e, h, rfl⟩
  · exact Safe.modify fun s k p => ⟨(hush_ev s rfl).kept k, More.of rfl rfl, hq _ _ (hush_ev s rfl) p⟩
  · refine Safe.bind ((safe_putEnd i (killText h r)).pre fun s p => ⟨?_, p.2⟩) fun _ => (Still.plain still_draw).pre fun s p => p.1.all p.2
    have := TrueEnding.killed (i := i) h r p.1
    cases h <;> exact this
macro_rules | `(tactic| sf_known) => `(tactic| with_reducible exact safe_shutdownJob _ _ _)

theorem safe_huntLoop (hunter : Nat) (l vs : List Nat) : Safe b (AllEnds b) (huntLoop hunter l vs) (fun _ => AllEnds b) := by
  induction l generalizing vs with
  | nil => unfold huntLoop; sf_go
  | cons v t ih =>
    unfold huntLoop
    sf_go <;> exact ih _
macro_rules | `(tactic| sf_known) => `(tactic| with_reducible exact safe_huntLoop _ _ _)

theorem safe_startHunt (hunter : Nat) : Safe b (AllEnds b) (startHunt hunter) (fun _ => AllEnds b) := by unfold startHunt; sf_go
macro_rules | `(tactic| sf_known) => `(tactic| with_reducible exact safe_startHunt _)

theorem safe_huntIfDue (cfg : Cfg) : Safe b (AllEnds b) (huntIfDue cfg) (fun _ => AllEnds b) := by unfold huntIfDue; sf_go
macro_rules | `(tactic| sf_known) => `(tactic| with_reducible exact safe_huntIfDue _)

theorem safe_chunkLoop (cfg : Cfg) (l : List Msg) (t : Tally) : Safe b (AllEnds b) (chunkLoop cfg l t) (fun _ => AllEnds b) := by
  induction l generalizing t with
  | nil => unfold chunkLoop; sf_go
  | cons m ms ih =>
    unfold chunkLoop
    sf_go <;> exact ih _
macro_rules | `(tactic| sf_known) => `(tactic| with_reducible exact safe_chunkLoop _ _ _)

theorem safe_resultsLoop (cfg : Cfg) (k : Option Nat) (n : Nat) (t : Tally) : Safe b (AllEnds b) (resultsLoop cfg k n t) (fun _ => AllEnds b) := by
  induction n generalizing t with
  | zero => unfold resultsLoop; sf_go
  | succ n ih =>
    unfold resultsLoop
    cases k <;> sf_go <;> exact ih _
theorem safe_processResults (cfg : Cfg) (fuel : Nat) (k : Option Nat) : Safe b (AllEnds b) (processResults cfg fuel k) (fun _ => AllEnds b) :=
  safe_resultsLoop _ _ _ _
macro_rules | `(tactic| sf_known) => `(tactic| with_reducible exact safe_processResults _ _ _)

theorem safe_stopFile (f : Option Nat) : Safe b (AllEnds b) (stopFile f) (fun _ => AllEnds b) := by
  unfold stopFile
  split
  · sf_go
  · refine Safe.bind (Still.plain Still.get) fun s => ?_
    split
    · sf_go
    · rename_i i _
      have h : Safe b (AllEnds b) (do askUnit; shutdownJob i none "User STOP file intervention.") (fun _ => AllEnds b) := by sf_go
      intro s e c k p
      obtain ⟨h1, h2, h3, h4, h5⟩ := h s e c k p
      unfold M.tryCatch
      generalize (do askUnit; shutdownJob i none "User STOP file intervention." : M Unit) s e = r at h1 h2 h3 h4 h5 ⊢
      obtain ⟨o, s', e'⟩ := r
      cases o with
      | ok a => exact ⟨h1, h2, h3, h4, h5⟩
      | pending => exact ⟨h1, h2, h3, h4, h5⟩
      | raised x =>
        simp only
        by_cases hx : x = .env .valueError
        · have hb : ¬ b := fun hb => (h5 x rfl).1 hb hx
          simp only [hx, if_true]
          exact ⟨h1, h2, h3, fun _ _ hb' => absurd hb' hb, fun x h => by cases h⟩
        · simp only [hx, if_false]
          exact ⟨h1, h2, h3, h4, h5⟩
macro_rules | `(tactic| sf_known) => `(tactic| with_reducible exact safe_stopFile _)

theorem safe_manualShutdowns : Safe b (AllEnds b) manualShutdowns (fun _ => AllEnds b) := by
  unfold manualShutdowns
  exact Safe.bind (Still.plain still_askFiles) fun fs => Safe.forEach fun f _ => safe_stopFile f
macro_rules | `(tactic| sf_known) => `(tactic| with_reducible exact safe_manualShutdowns)

/-! ### Checkpoints -/

theorem safe_replyLoop (l : List Nat) (h : Shake) : Safe b (AllEnds b) (replyLoop l h) (fun _ => AllEnds b) := by
  induction l generalizing h with
  | nil => unfold replyLoop; sf_go
  | cons i t ih =>
    unfold replyLoop
    sf_go <;> exact ih _
macro_rules | `(tactic| sf_known) => `(tactic| with_reducible exact safe_replyLoop _ _)

theorem safe_waitLoop (cfg : Cfg) (fuel k n : Nat) (h : Shake) : Safe b (AllEnds b) (waitLoop cfg fuel k n h) (fun _ => AllEnds b) := by
  induction n generalizing h with
  | zero => unfold waitLoop; sf_go
  | succ n ih =>
    unfold waitLoop
    sf_go <;> exact ih _
macro_rules | `(tactic| sf_known) => `(tactic| with_reducible exact safe_waitLoop _ _ _ _ _)

theorem safe_checkpointOptimizers (cfg : Cfg) (fuel : Nat) : Safe b (AllEnds b) (checkpointOptimizers cfg fuel) (fun _ => AllEnds b) := by
  unfold checkpointOptimizers
  sf_go

theorem safe_checkpoint (cfg : Cfg) (fuel : Nat) : Safe b (AllEnds b) (checkpoint cfg fuel) (fun _ => AllEnds b) := by
  have body : Safe b (AllEnds b) (do
      askUnit
      let s1 ← M.get
      let files ← checkpointOptimizers cfg fuel
      modify fun s2 => { s2 with saved := s2.saved ++ [snapshot s1 s2 files] }
      draw
      let built ← askBool
      if built = true then pure () else throw .ckpt) (fun _ => AllEnds b) := by
    refine Safe.bind (Still.plain still_askUnit) fun _ => Safe.bind (Q := fun a s => AllEnds b s ∧
      ((∀ i v, Op.putMeta i "end_cond" v ∈ a.ops → TrueEnding s.ev i v) ∧ Faith a.log a.ops)) ?_ fun s1 => ?_
    · exact fun s e c k p => ⟨k, c, More.refl s, fun a h => by cases h; exact ⟨p, k.why, k.faith⟩, fun x h => by cases h⟩
    refine Safe.bind ((safe_checkpointOptimizers cfg fuel).frame
      (F := fun s => (∀ i v, Op.putMeta i "end_cond" v ∈ s1.ops → TrueEnding s.ev i v) ∧ Faith s1.log s1.ops)
      fun s t h p => ⟨fun i v hv => (p.1 i v hv).mono h.ev, p.2⟩) fun files => ?_
    refine Safe.bind (Q := fun _ => AllEnds b) (Safe.modify fun s k p => ⟨⟨k.why, k.vict, k.faith, fun k' hk => ?_, k.held⟩, ⟨fun _ h => h, fun _ h => h⟩, p.1⟩) fun _ => ?_
    · rcases List.mem_append.mp hk with hk | hk
      · exact k.saved k' hk
      · simp at hk
        subst hk
        exact ⟨p.2.1, k.vict, p.2.2⟩
    · sf_go
  unfold checkpoint
  refine Safe.bind (Still.plain (still_emit rfl)) fun _ => Safe.bind (Still.plain still_askUnit) fun _ => Safe.bind (Q := fun _ => AllEnds b) ?_ fun _ => ?_
  · intro s e c k p
    obtain ⟨h1, h2, h3, h4, h5⟩ := body s e c k p
    unfold M.tryCatch
    generalize (do
      askUnit
      let s1 ← M.get
      let files ← checkpointOptimizers cfg fuel
      modify fun s2 => { s2 with saved := s2.saved ++ [snapshot s1 s2 files] }
      draw
      let built ← askBool
      if built = true then pure () else throw .ckpt : M Unit) s e = r at h1 h2 h3 h4 h5 ⊢
    obtain ⟨o, s', e'⟩ := r
    cases o with
    | ok a => exact ⟨h1, h2, h3, h4, h5⟩
    | pending => exact ⟨h1, h2, h3, h4, h5⟩
    | raised x =>
      simp only
      by_cases hx : x = .ckpt ∧ cfg.raiseCkptFail = false
      · simp only [hx, and_self, if_true]
        exact ⟨h1, h2, h3, fun _ _ => (h5 x rfl).2 hx.1, fun x h => by cases h⟩
      · simp only [hx, if_false]
        exact ⟨h1, h2, h3, h4, h5⟩
  · sf_go
macro_rules | `(tactic| sf_known) => `(tactic| with_reducible exact safe_checkpoint _ _)

theorem safe_manualCheckpoints (cfg : Cfg) (fuel : Nat) : Safe b (AllEnds b) (manualCheckpoints cfg fuel) (fun _ => AllEnds b) := by
  unfold manualCheckpoints; sf_go
macro_rules | `(tactic| sf_known) => `(tactic| with_reducible exact safe_manualCheckpoints _ _)

/-! ### New optimizers -/

theorem mem_keys_set {l : List (Nat × Int)} {i j : Nat} {w : Int} : j ∈ (dictSet l i w).map (·.1) ↔ j ∈ l.map (·.1) ∨ j = i := by
  induction l with
  | nil => simp [dictSet]
  | cons p t ih =>
    obtain ⟨k, v⟩ := p
    unfold dictSet
    split
    · rename_i h
      have h : k = i := by simpa using h
      subst h
      simp only [List.map_cons, List.mem_cons]
      tauto
    · simp only [List.map_cons, List.mem_cons, ih]
      tauto

theorem mem_keys_del {l : List (Nat × Int)} {i j : Nat} (h : j ∈ l.map (·.1)) (hn : j ≠ i) : j ∈ (dictDel l i).map (·.1) := by
  simp only [dictDel, List.mem_map, List.mem_filter] at h ⊢
  obtain ⟨p, hp, rfl⟩ := h
  exact ⟨p, ⟨hp, by simpa using hn⟩, rfl⟩

theorem safe_startNewJob (i : Nat) (w : Int) : Safe b (AllEnds b) (startNewJob i w) (fun _ => AllEnds b) := by
  unfold startNewJob
  refine Safe.bind (Still.plain still_askUnit) fun _ => Safe.bind (Q := fun _ s => i ∈ s.packs.map (·.1) ∧ AllEnds b s)
    (Safe.modify fun s k p => ?_) fun _ => Safe.bind (Still.safe still_askUnit (fun s t q p => ⟨q.packs i p.1, q.ends p.2⟩) fun _ p => p.2) fun _ =>
    Safe.bind (Q := fun _ => AllEnds b) (Safe.modify fun s k p => ?_) fun _ => Still.plain still_draw
  · exact ⟨⟨k.why, k.vict, k.faith, k.saved, fun hb j hj => (k.held hb j hj).imp (fun h => mem_keys_set.mpr (.inl h)) id⟩, ⟨fun _ h => h, fun _ h => h⟩,
      mem_keys_set.mpr (.inr rfl), p⟩
  · refine ⟨⟨fun j v hv => (k.why j v hv).mono fun _ h => List.mem_append_left _ h, fun j hj => (k.vict j hj).imp fun _ h => List.mem_append_left _ h,
      k.faith, k.saved, fun hb j hj => ?_⟩, More.of rfl rfl, p.2⟩
    have : j ∈ launchedOf (s.ev ++ [.started i w]) := hj
    rw [launchedOf_append] at this
    rcases List.mem_append.mp this with h | h
    · exact k.held hb j h
    · have : j = i := by simpa [launchedOf] using h
      subst this
      exact .inl p.1
macro_rules | `(tactic| sf_known) => `(tactic| with_reducible exact safe_startNewJob _ _)

theorem safe_fillLoop (cfg : Cfg) (n : Nat) (c : Int) (st : Bool) : Safe b (AllEnds b) (fillLoop cfg n c st) (fun _ => AllEnds b) := by
  induction n generalizing c st with
  | zero => unfold fillLoop; sf_go
  | succ n ih =>
    unfold fillLoop
    sf_go <;> exact ih _ _
macro_rules | `(tactic| sf_known) => `(tactic| with_reducible exact safe_fillLoop _ _ _ _)

theorem safe_fillSlots (cfg : Cfg) (fuel : Nat) : Safe b (AllEnds b) (fillSlots cfg fuel) (fun _ => AllEnds b) := by
  unfold fillSlots; sf_go
macro_rules | `(tactic| sf_known) => `(tactic| with_reducible exact safe_fillSlots _ _)

/-! ### Inspection -/

theorem logOp_ckpt (op : Op) (s : State) (e : Env) : (logOp op s e).1 ≠ .raised .ckpt := by
  unfold logOp
  split <;> simp

/-- The record of an ending after a burial with its event `x`. -/
theorem safe_close (i : Nat) (x : Ev) (m v : String) (hv : ∀ ev, x ∈ ev → TrueEnding ev i v) :
    Safe b (fun s => x ∈ s.ev ∧ EndsBut b i s) (do logOp (.putMsg i m); putEnd i v) (fun _ => AllEnds b) := by
  refine Safe.bind (Still.safe' (still_logOp (by simp [IsEnd])) (logOp_ckpt _) (P := fun s => x ∈ s.ev ∧ EndsBut b i s)
    fun s t q p => ⟨q.mem p.1, q.endsBut p.2⟩) fun _ => ?_
  exact ((safe_putEnd i v).pre fun s p => ⟨hv _ p.1, p.2⟩).post fun _ s p => p.1.all p.2

theorem safe_inspectDead (i : Nat) : Safe b (AllEnds b) (inspectDead i) (fun _ => AllEnds b) := by
  unfold inspectDead
  refine Safe.seq (Still.plain Still.get) fun s => ?_
  split
  case isFalse => sf_go
  refine Safe.seq (Still.plain (still_isAlive i)) fun al => ?_
  split
  case isFalse => sf_go
  refine Safe.seq (Still.plain still_askBool) fun x => ?_
  refine Safe.bind (Q := fun _ s => AllEnds b s ∧ Ev.exited i x ∈ s.ev)
    (Safe.modify fun s k p => ⟨(hush_ev s rfl).kept k, More.of rfl rfl, (hush_ev s rfl).ends p, by simp⟩) fun _ => ?_
  split
  · rename_i hx
    subst hx
    refine Safe.bind ((safe_checkSignals i).frame (F := fun s => Ev.exited i true ∈ s.ev) fun s t h => h.ev _) fun found => ?_
    split
    · refine Safe.bind (Q := fun _ s => Ev.exited i true ∈ s.ev ∧ EndsBut b i s) ?_ fun _ =>
        safe_close i (.exited i true) _ _ fun ev h => .silent h
      exact Safe.modify fun s k p => ⟨kept_bury (vs := s.victims) rfl k fun j hj => .inl hj, More.of rfl rfl, List.mem_append_left _ p.2,
        endsBut_bury (p.1.but i) rfl rfl⟩
    · exact Safe.pure _ fun s p => p.1
  · rename_i hx
    have hx : x = false := by simpa using hx
    subst hx
    refine Safe.bind (Q := fun _ s => Ev.exited i false ∈ s.ev ∧ EndsBut b i s) ?_ fun _ =>
        safe_close i (.exited i false) _ _ fun ev h => .failed h
    exact Safe.modify fun s k p => ⟨kept_bury (n := s.convCounter) (vs := s.victims) rfl k fun j hj => .inl hj, More.of rfl rfl,
      List.mem_append_left _ p.2, endsBut_bury (p.1.but i) rfl rfl⟩
macro_rules | `(tactic| sf_known) => `(tactic| with_reducible exact safe_inspectDead _)

theorem safe_inspectHanging (cfg : Cfg) (i : Nat) : Safe b (AllEnds b) (inspectHanging cfg i) (fun _ => AllEnds b) := by
  unfold inspectHanging
  refine Safe.seq (Still.plain (still_isAlive i)) fun al => Safe.seq (Still.plain still_askBool) fun late =>
    Safe.bind (Q := fun _ s => AllEnds b s ∧ Ev.overdue i late ∈ s.ev)
      (Safe.modify fun s k p => ⟨(hush_ev s rfl).kept k, More.of rfl rfl, (hush_ev s rfl).ends p, by simp⟩) fun _ =>
    Safe.bind (Q := fun _ s => AllEnds b s ∧ Ev.overdue i late ∈ s.ev) (Safe.get.post fun _ _ p => p.2) fun s => ?_
  split
  · rename_i hc
    have hl : late = true := hc.2.1
    subst hl
    refine Safe.bind (Q := fun _ s => (Ev.overdue i true ∈ s.ev ∧ Ev.forced i ∈ s.ev) ∧ EndsBut b i s) ?_ fun _ => ?_
    · exact Safe.modify fun s k p => ⟨kept_bury (n := s.convCounter) (vs := s.victims) rfl k fun j hj => .inl hj, More.of rfl rfl,
        ⟨List.mem_append_left _ p.2, by simp⟩, endsBut_bury (p.1.but i) rfl rfl⟩
    · refine Safe.bind (Still.safe' (still_logOp (by simp [IsEnd])) (logOp_ckpt _) (P := fun s => (Ev.overdue i true ∈ s.ev ∧ Ev.forced i ∈ s.ev) ∧ EndsBut b i s)
        fun s t q p => ⟨⟨q.mem p.1.1, q.mem p.1.2⟩, q.endsBut p.2⟩) fun _ =>
        Safe.bind ((safe_putEnd i _).pre fun s p => ⟨.forced ⟨p.1.1, .inl p.1.2⟩, p.2⟩) fun _ => ?_
      exact Safe.pre (P := AllEnds b) (by sf_go) fun s p => p.1.all p.2
  · exact Safe.pure _ fun s p => p.1
macro_rules | `(tactic| sf_known) => `(tactic| with_reducible exact safe_inspectHanging _ _)

theorem safe_inspectZombie (cfg : Cfg) (i : Nat) : Safe b (AllEnds b) (inspectZombie cfg i) (fun _ => AllEnds b) := by
  unfold inspectZombie
  refine Safe.bind (Q := fun a s => (i ∈ a.victims → ∃ h, Ev.killed i h ∈ s.ev) ∧ AllEnds b s) ?_ fun a => ?_
  · exact fun s e c k p => ⟨k, c, More.refl s, fun a h => by cases h; exact ⟨k.vict i, p⟩, fun x h => by cases h⟩
  split
  · rename_i hi
    have hq : ∀ s t : State, Hush s t → ((∃ h, Ev.killed i h ∈ s.ev) ∧ AllEnds b s) → (∃ h, Ev.killed i h ∈ t.ev) ∧ AllEnds b t :=
      fun s t q p => ⟨p.1.imp fun _ => q.mem, q.ends p.2⟩
    refine Safe.pre (P := fun s => (∃ h, Ev.killed i h ∈ s.ev) ∧ AllEnds b s) ?_ fun s p => ⟨p.1 hi.1, p.2⟩
    refine Safe.bind (Still.safe (still_isAlive i) hq fun _ p => p.2) fun al => Safe.bind (Still.safe still_askBool hq fun _ p => p.2) fun late => ?_
    refine Safe.bind (Q := fun _ s => Ev.overdue i late ∈ s.ev ∧ (∃ h, Ev.killed i h ∈ s.ev) ∧ AllEnds b s)
      (Safe.modify fun s k p => ⟨(hush_ev s rfl).kept k, More.of rfl rfl, by simp, hq _ _ (hush_ev s rfl) p⟩) fun _ => ?_
    have hq' : ∀ s t : State, Hush s t → (Ev.overdue i late ∈ s.ev ∧ (∃ h, Ev.killed i h ∈ s.ev) ∧ AllEnds b s) →
        (Ev.overdue i late ∈ t.ev ∧ (∃ h, Ev.killed i h ∈ t.ev) ∧ AllEnds b t) := fun s t q p => ⟨q.mem p.1, hq s t q p.2⟩
    split
    · rename_i hc
      refine Safe.bind (Still.safe still_askUnit hq' fun _ p => p.2.2) fun _ => Safe.bind (Still.safe (still_emit rfl) hq' fun _ p => p.2.2) fun _ =>
        Safe.bind (Still.safe (still_logOp (by simp [IsEnd])) hq' fun _ p => p.2.2) fun _ => ?_
      exact ((safe_putEnd i _).pre fun s p => ⟨.forced ⟨hc.2.1 ▸ p.1, .inr p.2.1⟩, p.2.2.but i⟩).post fun _ s p => p.1.all p.2
    · exact Safe.pure _ fun s p => p.2.2
  · exact Safe.pure _ fun s p => p.2
macro_rules | `(tactic| sf_known) => `(tactic| with_reducible exact safe_inspectZombie _ _)

theorem safe_inspectChildren (cfg : Cfg) : Safe b (AllEnds b) (inspectChildren cfg) (fun _ => AllEnds b) := by
  unfold inspectChildren
  exact Safe.seq (Still.plain Still.get) fun s => Safe.forEach fun i _ => by sf_go
macro_rules | `(tactic| sf_known) => `(tactic| with_reducible exact safe_inspectChildren _)

theorem safe_purge : Safe b (AllEnds b) purge (fun _ => AllEnds b) := by
  unfold purge
  refine Safe.seq (Still.plain Still.get) fun _ => Safe.forEach fun i _ => Safe.seq (Still.plain (still_isAlive i)) fun al =>
    Safe.bind Safe.get fun a => ?_
  split
  · rename_i h
    refine Safe.modify fun s k p => ⟨⟨k.why, k.vict, k.faith, k.saved, fun hb j hj => ?_⟩, ⟨fun _ h => h, fun _ h => h⟩, p.2⟩
    by_cases hji : j = i
    · subst hji
      exact .inr (p.2 hb j (p.1 ▸ h.2))
    · exact (k.held hb j hj).imp (fun hm => mem_keys_del hm hji) id
  · exact Safe.pure _ fun s p => p.2
macro_rules | `(tactic| sf_known) => `(tactic| with_reducible exact safe_purge)

/-! ### The whole run -/

theorem safe_iteration (cfg : Cfg) (fuel : Nat) : Safe b (AllEnds b) (iteration cfg fuel) (fun _ => AllEnds b) := by
  unfold iteration
  refine Safe.seq (safe_fillSlots cfg fuel) fun _ => Safe.seq (Still.plain Still.get) fun _ => Safe.seq
    (Safe.forEach fun i _ => by sf_go) fun _ => ?_
  sf_go

theorem safe_mainLoop (cfg : Cfg) (fuel n : Nat) : Safe b (AllEnds b) (mainLoop cfg fuel n) (fun _ s => AllEnds b s ∧ Ev.loopEnd ∈ s.ev) := by
  induction n with
  | zero =>
    unfold mainLoop
    exact fun s e c k p => ⟨k, c, More.refl s, fun a h => (by cases h), fun x h => by cases h⟩
  | succ n ih =>
    unfold mainLoop
    refine Safe.bind (Still.plain Still.get) fun s => ?_
    split
    · exact Safe.modify fun s k p => ⟨(hush_ev s rfl).kept k, More.of rfl rfl, (hush_ev s rfl).ends p, by simp⟩
    · exact Safe.bind (safe_iteration cfg fuel) fun _ => ih

/-! ### The end of a run -/

/-- From `s` to `t` no optimizer was started, and the only endings recorded have the text `w`. -/
structure Grow (w : String) (s t : State) : Prop where
  ev : ∃ l, t.ev = s.ev ++ l ∧ launchedOf l = []
  ops : ∃ l, t.ops = s.ops ++ l ∧ ∀ i v, Op.putMeta i "end_cond" v ∈ l → v = w
  saved : t.saved = s.saved
  faith : Faith s.log s.ops → Faith t.log t.ops

variable {w : String}

theorem Hush.tail {s t : State} (h : Hush s t) : Grow w s t := by
  obtain ⟨l, hl, hl'⟩ := h.ops
  exact ⟨h.ev, ⟨l, hl, fun i v hv => absurd ⟨i, v, rfl⟩ (hl' _ hv)⟩, h.saved, h.faith⟩

theorem Grow.trans {s t u : State} (h : Grow w s t) (h' : Grow w t u) : Grow w s u := by
  obtain ⟨l, e1, e2⟩ := h.ev
  obtain ⟨l', e1', e2'⟩ := h'.ev
  obtain ⟨o, o1, o2⟩ := h.ops
  obtain ⟨o', o1', o2'⟩ := h'.ops
  exact ⟨⟨l ++ l', by rw [e1', e1, List.append_assoc], by rw [launchedOf_append, e2, e2', List.append_nil]⟩,
    ⟨o ++ o', by rw [o1', o1, List.append_assoc], fun i v hv => (List.mem_append.mp hv).elim (o2 i v) (o2' i v)⟩,
    h'.saved.trans h.saved, fun f => h'.faith (h.faith f)⟩

def Tail (w : String) (m : M α) : Prop := ∀ s e, Grow w s (m s e).2.1

theorem Still.tail {m : M α} (h : Still m) : Tail w m := fun s e => (h s e).1.tail

theorem Tail.bind {m : M α} {f : α → M β} (hm : Tail w m) (hf : ∀ a, Tail w (f a)) : Tail w (Bind.bind m f : M β) := by
  intro s e
  show Grow w s (M.bind m f s e).2.1
  have h := hm s e
  unfold M.bind
  generalize m s e = r at h ⊢
  obtain ⟨o, s', e'⟩ := r
  cases o with
  | ok a => exact h.trans (hf a s' e')
  | raised x => exact h
  | pending => exact h

theorem Tail.forEach {γ : Type} {f : γ → M Unit} : ∀ {l : List γ}, (∀ x ∈ l, Tail w (f x)) → Tail w (M.forEach l f)
  | [], _ => Still.tail (Still.pure ())
  | x :: t, h => by
    unfold M.forEach
    exact Tail.bind (h x List.mem_cons_self) fun _ => Tail.forEach fun y hy => h y (List.mem_cons_of_mem _ hy)

theorem tail_putEnd (i : Nat) : Tail w (putEnd i w) := by
  unfold putEnd
  refine Tail.bind (Still.tail (still_logOp (by simp [IsEnd]))) fun _ s e => ?_
  have : Grow w s { s with log := (s.log.step (.putMeta i "end_cond" w)).1, ops := s.ops ++ [.putMeta i "end_cond" w] } :=
    ⟨⟨[], by simp, rfl⟩, ⟨_, rfl, fun j v hv => by simp at hv; exact hv.2⟩, rfl, fun f => faith_step f _⟩
  unfold logOp
  generalize s.log.step (.putMeta i "end_cond" w) = r at this ⊢
  obtain ⟨l, o⟩ := r
  cases o <;> exact this

theorem tail_grave (i : Nat) : Tail w (M.modify fun s => { s with graveyard := addTo s.graveyard i }) :=
  fun _ _ => ⟨⟨[], by simp [M.modify], rfl⟩, ⟨[], by simp [M.modify], by simp⟩, rfl, id⟩

theorem tail_stopRecord (i : Nat) : Tail w (stopRecord w i) := by
  unfold stopRecord
  refine Tail.bind (Still.tail Still.get) fun s => ?_
  have hr : Still (do let al ← isAlive i; if al = true then askUnit else pure ()) := by st_go
  split
  · exact Still.tail hr
  · exact Tail.bind (tail_grave i) fun _ => Tail.bind (tail_putEnd i) fun _ => Still.tail hr

theorem still_caught {m : M Unit} (h : Still m) : Still (M.tryCatch m fun x => if x.isException = true then some (pure ()) else none) :=
  Still.tryCatch h fun x k hk => by
    split at hk <;> cases hk
    exact Still.pure _

theorem tail_stopAllChildren : Tail w (stopAllChildren w) := by
  unfold stopAllChildren
  exact Tail.bind (Still.tail Still.get) fun s => Tail.bind (Still.tail (still_caught (still_stopLoop _))) fun _ =>
    Tail.bind (Still.tail (still_caught still_askUnit)) fun _ => Tail.forEach fun i _ => tail_stopRecord i

/-- When the run is over every optimizer still known gets an ending, if it has none. -/
theorem safe_stopRecord (i : Nat) : Safe b (fun s => AllEnds b s ∧ Ev.loopEnd ∈ s.ev) (stopRecord "GloMPO Convergence" i)
    (fun _ s => (AllEnds b s ∧ Ev.loopEnd ∈ s.ev) ∧ Noted s i) := by
  have hq : ∀ s t : State, Hush s t → ((AllEnds b s ∧ Ev.loopEnd ∈ s.ev) ∧ Noted s i) → ((AllEnds b t ∧ Ev.loopEnd ∈ t.ev) ∧ Noted t i) :=
    fun s t q p => ⟨⟨q.ends p.1.1, q.mem p.1.2⟩, q.noted p.2⟩
  have hr : Still (do let al ← isAlive i; if al = true then askUnit else pure ()) := by st_go
  have hr' := Still.safe (b := b) hr hq fun s p => p.1.1
  unfold stopRecord
  refine Safe.bind (Q := fun a s => a = s ∧ Faith s.log s.ops ∧ AllEnds b s ∧ Ev.loopEnd ∈ s.ev) ?_ fun a => ?_
  · exact fun s e c k p => ⟨k, c, More.refl s, fun a h => by cases h; exact ⟨rfl, k.faith, p⟩, fun x h => by cases h⟩
  split
  · rename_i v t hv ht
    refine hr'.pre fun s p => ⟨p.2.2, ?_⟩
    rw [p.1] at hv
    simp only [Logger.getMetadata] at hv
    split at hv
    · cases hv
    · rename_i st hst
      split at hv
      · cases hv
      · rename_i v' hv'
        exact ⟨v', (p.2.1 i st.metadata (by simp [md, hst])).2 v' hv'⟩
  · refine Safe.bind (Q := fun _ s => EndsBut b i s ∧ Ev.loopEnd ∈ s.ev) (Safe.modify fun s k p => ?_) fun _ => ?_
    · exact ⟨⟨k.why, k.vict, k.faith, k.saved, k.held⟩, ⟨fun _ h => h, fun _ h => h⟩, endsBut_bury (p.2.2.1.but i) rfl rfl, p.2.2.2⟩
    · refine Safe.bind (((safe_putEnd i "GloMPO Convergence").frame (F := fun s => Ev.loopEnd ∈ s.ev) fun s t h => h.ev _).pre
        fun s p => ⟨⟨.over p.2, p.1⟩, p.2⟩) fun _ => hr'.pre fun s p => ⟨⟨p.1.1.all p.1.2, p.2⟩, p.1.2⟩

theorem safe_stopRecords (l : List Nat) : Safe b (fun s => AllEnds b s ∧ Ev.loopEnd ∈ s.ev) (M.forEach l (stopRecord "GloMPO Convergence"))
    (fun _ s => ∀ i ∈ l, Noted s i) := by
  induction l with
  | nil => exact Safe.pure _ fun _ _ => by simp
  | cons i t ih =>
    unfold M.forEach
    refine Safe.bind (safe_stopRecord i) fun _ => (ih.frame (F := fun s => Noted s i) fun s t h => h.noted i).post fun _ s p => ?_
    intro j hj
    rcases List.mem_cons.mp hj with rfl | hj
    · exact p.2
    · exact p.1 j hj

theorem safe_stopAllChildren : Safe b (fun s => AllEnds b s ∧ Ev.loopEnd ∈ s.ev) (stopAllChildren "GloMPO Convergence")
    (fun _ s => b → ∀ i ∈ launchedOf s.ev, Noted s i) := by
  intro s e c k p
  have hq : ∀ s t : State, Hush s t → (AllEnds b s ∧ Ev.loopEnd ∈ s.ev) → (AllEnds b t ∧ Ev.loopEnd ∈ t.ev) :=
    fun s t q p => ⟨q.ends p.1, q.mem p.2⟩
  have S : Safe b (fun t => t = s ∧ AllEnds b t ∧ Ev.loopEnd ∈ t.ev) (stopAllChildren "GloMPO Convergence")
      (fun _ t => ∀ i ∈ s.packs.map (·.1), Noted t i) := by
    unfold stopAllChildren
    refine Safe.bind Safe.get fun a => ?_
    refine Safe.pre (P := fun t => a = s ∧ AllEnds b t ∧ Ev.loopEnd ∈ t.ev) ?_ fun t p => ⟨p.1.trans p.2.1, p.2.2⟩
    have hq' : ∀ u t : State, Hush u t → (a = s ∧ AllEnds b u ∧ Ev.loopEnd ∈ u.ev) → (a = s ∧ AllEnds b t ∧ Ev.loopEnd ∈ t.ev) :=
      fun u t q p => ⟨p.1, hq u t q p.2⟩
    refine Safe.bind (Still.safe (still_caught (still_stopLoop _)) hq' fun t p => p.2.1) fun _ =>
      Safe.bind (Still.safe (still_caught still_askUnit) hq' fun t p => p.2.1) fun _ => ?_
    intro t e' c' k' p'
    obtain ⟨rfl, p'⟩ := p'
    exact safe_stopRecords _ t e' c' k' p'
  obtain ⟨h1, h2, h3, h4, h5⟩ := S s e c k ⟨rfl, p⟩
  refine ⟨h1, h2, h3, fun a ha hb i hi => ?_, h5⟩
  obtain ⟨l, hl, hl'⟩ := (tail_stopAllChildren (w := "GloMPO Convergence") s e).ev
  rw [hl, launchedOf_append, hl', List.append_nil] at hi
  exact (k.held hb i hi).elim (h4 a ha i) (h3.noted i)

theorem safe_tryBlock (cfg : Cfg) (fuel : Nat) : Safe b (AllEnds b) (tryBlock cfg fuel) (fun _ s => b → ∀ i ∈ launchedOf s.ev, Noted s i) := by
  unfold tryBlock
  have hm : Safe b (AllEnds b) (do
      mainLoop cfg fuel fuel
      if cfg.checkpointing = true ∧ cfg.checkpointAtConv = true then checkpoint cfg fuel else pure ()
      stopAllChildren "GloMPO Convergence") (fun _ s => b → ∀ i ∈ launchedOf s.ev, Noted s i) := by
    refine Safe.bind (safe_mainLoop cfg fuel fuel) fun _ => ?_
    dsimp only
    split
    · exact Safe.bind ((safe_checkpoint cfg fuel).frame (F := fun s => Ev.loopEnd ∈ s.ev) fun s t h => h.ev _) fun _ => safe_stopAllChildren
    · exact safe_stopAllChildren
  refine Safe.bind (Still.plain still_askUnit) fun _ => Safe.bind (Still.plain Still.get) fun s => ?_
  dsimp only at hm ⊢
  by_cases hr : s.restart = true
  · rw [if_pos hr]
    exact Safe.bind (Still.plain (still_restartLoop _)) fun _ => hm
  · rw [if_neg hr]
    exact hm

/-- What holds when `start_manager` is done, or interrupted at any moment. -/
structure Fair (b : Prop) (o : Option Reason) (s : State) : Prop where
  why : ∀ i v, Op.putMeta i "end_cond" v ∈ s.ops → TrueEnding s.ev i v ∨ (v = "GloMPO Crash" ∧ (o = none ∨ ∃ x, o = some (.crash x))) ∨
    (v = "User Interrupt" ∧ (o = none ∨ o = some .userInterrupt))
  faith : Faith s.log s.ops
  saved : ∀ k ∈ s.saved, (∀ i v, Op.putMeta i "end_cond" v ∈ k.ops → TrueEnding k.ev i v) ∧
    (∀ i ∈ k.victims, ∃ h, Ev.killed i h ∈ k.ev) ∧ Faith k.log k.ops
  all : b → o = some .regular → ∀ i ∈ launchedOf s.ev, Noted s i

theorem Kept.fair {o : Option Reason} {s : State} (k : Kept b s) (ho : o ≠ some .regular) : Fair b o s :=
  ⟨fun i v h => .inl (k.why i v h), k.faith, k.saved, fun _ h => absurd h ho⟩

theorem Grow.why {s t : State} (g : Grow w s t) (k : Kept b s) {i : Nat} {v : String} (h : Op.putMeta i "end_cond" v ∈ t.ops) :
    TrueEnding t.ev i v ∨ v = w := by
  obtain ⟨l, hl, hl'⟩ := g.ops
  obtain ⟨l2, he, -⟩ := g.ev
  rw [hl] at h
  rcases List.mem_append.mp h with h | h
  · exact .inl ((k.why i v h).mono fun _ hx => by rw [he]; exact List.mem_append_left _ hx)
  · exact .inr (hl' i v h)

theorem fair_afterCheck (cfg : Cfg) (fuel : Nat) (s : State) (e : Env) (c : b → Mild e) (k : Kept b s) (p : AllEnds b s) :
    Fair b (afterCheck cfg fuel s e).1 (afterCheck cfg fuel s e).2.1 := by
  obtain ⟨h1, -, -, h4, -⟩ := safe_tryBlock cfg fuel s e c k p
  unfold afterCheck
  generalize tryBlock cfg fuel s e = r at h1 h4 ⊢
  obtain ⟨o, s', e'⟩ := r
  cases o with
  | ok a => exact ⟨fun i v h => .inl (h1.why i v h), h1.faith, h1.saved, fun hb _ => h4 a rfl hb⟩
  | pending => exact h1.fair (by simp)
  | raised x =>
    simp only []
    split
    · have g := tail_stopAllChildren (w := "GloMPO Crash") s' e'
      generalize stopAllChildren "GloMPO Crash" s' e' = r at g ⊢
      obtain ⟨o, s3, e3⟩ := r
      have hs : ∀ o' : Option Reason, (o' = none ∨ ∃ x, o' = some (.crash x)) → Fair b o' s3 := fun o' ho =>
        ⟨fun i v h => (g.why h1 h).imp id fun hv => .inl ⟨hv, ho⟩, g.faith h1.faith, by rw [g.saved]; exact h1.saved,
          fun _ h => by subst h; simp at ho⟩
      cases o
      · exact hs _ (.inr ⟨x, rfl⟩)
      · exact hs _ (.inr ⟨x, rfl⟩)
      · exact hs _ (.inl rfl)
    · have g := tail_stopAllChildren (w := "User Interrupt") s' e'
      generalize stopAllChildren "User Interrupt" s' e' = r at g ⊢
      obtain ⟨o, s3, e3⟩ := r
      have hs : ∀ o' : Option Reason, (o' = none ∨ o' = some .userInterrupt) → Fair b o' s3 := fun o' ho =>
        ⟨fun i v h => (g.why h1 h).imp id fun hv => .inr ⟨hv, ho⟩, g.faith h1.faith, by rw [g.saved]; exact h1.saved,
          fun _ h => by subst h; simp at ho⟩
      cases o
      · exact hs _ (.inr rfl)
      · exact hs _ (.inr rfl)
      · exact hs _ (.inl rfl)

theorem fair_start (cfg : Cfg) (fuel : Nat) (s : State) (e : Env) (c : b → Mild e) (k : Kept b s) (p : AllEnds b s) :
    Fair b (startManager cfg fuel s e).1 (startManager cfg fuel s e).2.1 := by
  obtain ⟨h1, h2, -⟩ := still_askBool s e
  unfold startManager
  generalize askBool s e = r at h1 h2 ⊢
  obtain ⟨o, s', e'⟩ := r
  have k' := h1.kept k
  have p' := h1.ends p
  have c' : b → Mild e' := fun hb => h2 (c hb)
  cases o with
  | pending => exact k'.fair (by simp)
  | raised x =>
    simp only []
    split
    · exact fair_afterCheck cfg fuel _ _ c' ⟨k'.why, k'.vict, k'.faith, k'.saved, k'.held⟩ p'
    · exact k'.fair (by simp)
  | ok a =>
    simp only []
    have q : Hush s' { s' with ev := s'.ev ++ [.checked a] } := hush_ev s' rfl
    have k2 := q.kept k'
    split
    · exact Kept.fair (b := b) ⟨k2.why, k2.vict, k2.faith, k2.saved, k2.held⟩ (by simp)
    · exact fair_afterCheck cfg fuel _ _ c' ⟨k2.why, k2.vict, k2.faith, k2.saved, k2.held⟩ (q.ends p')

theorem kept_init (cfg : Cfg) : Kept b (init cfg) :=
  ⟨fun i v h => by simp [init] at h, fun i h => by simp [init] at h, fun i m h => by simp [init, md, Logger.init, dictGet] at h, fun k h => by simp [init] at h,
    fun _ i h => by simp [init, launchedOf] at h⟩

theorem allEnds_init (cfg : Cfg) : AllEnds b (init cfg) := fun _ i h => by simp [init] at h

theorem allEnds_false {s : State} : AllEnds False s := fun h => h.elim

theorem kept_resume {cfg : Cfg} {k : Saved} {found : List (Nat × Bool)} {saved : List Saved} {s : State}
    (h : loadCheckpoint cfg k found saved = .ok s) (hk : k ∈ saved)
    (hs : ∀ k ∈ saved, (∀ i v, Op.putMeta i "end_cond" v ∈ k.ops → TrueEnding k.ev i v) ∧
      (∀ i ∈ k.victims, ∃ h, Ev.killed i h ∈ k.ev) ∧ Faith k.log k.ops) : Kept False s := by
  unfold loadCheckpoint at h
  split at h
  · cases h
  · split at h
    · cases h
    · split at h
      · cases h
      · cases h
        obtain ⟨h1, h2, h3⟩ := hs k hk
        exact ⟨fun i v hv => (h1 i v hv).mono fun _ hx => List.mem_append_left _ hx, fun i hi => (h2 i hi).imp fun _ hx => List.mem_append_left _ hx,
          h3, hs, fun hb => hb.elim⟩

theorem kept_startable {cfg : Cfg} {s : State} (hs : Startable cfg s) : Kept False s := by
  induction hs with
  | fresh cfg => exact kept_init cfg
  | setup cfg fuel e e' s h =>
    have := (safe_checkpoint cfg fuel (init cfg) e (b := False) (fun h => h.elim) (kept_init cfg) allEnds_false).1
    rw [h] at this; exact this
  | loaded cfg₀ cfg s₀ s fuel e k found _ hk _ h ih =>
    exact kept_resume h hk (fair_start cfg₀ fuel s₀ e (fun h => h.elim) ih allEnds_false).saved
  | loadedSetup cfg₀ cfg s fuel e k found hk _ h =>
    exact kept_resume h hk (safe_checkpoint cfg₀ fuel (init cfg₀) e (b := False) (fun h => h.elim) (kept_init cfg₀) allEnds_false).1.saved

end Glompo.Manager
