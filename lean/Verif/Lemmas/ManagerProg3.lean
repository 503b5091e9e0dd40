import Verif.Lemmas.ManagerResume
import Verif.Lemmas.ManagerCkpt

/-! The pieces of the manager's program perform only atomic changes, concluded. -/

namespace Glompo.Manager

open Glompo.Spec
open Glompo.Logger (Op)

variable {cfg : Cfg}

/-! ### Checkpoints -/

/-- What a piece records can be added to what it does. -/
theorem Walk.emits {α : Type} {A : Lab → Prop} {P : State → Prop} {m : M α} {Q : α → State → Prop} {E : Exc → State → Prop}
    {C : Ev → Prop} {S : State → α → List Ev → State → Prop} (h : Walk cfg A P m Q E) (he : Em m C S) :
    Walk cfg A P m (fun a t => Q a t ∧ ∃ s l, Inv cfg s ∧ P s ∧ Adds s t l ∧ (∀ x ∈ l, C x) ∧ S s a l t) E := by
  intro s e i p
  obtain ⟨h1, h2, h3⟩ := h s e i p
  obtain ⟨l, g1, g2, g3⟩ := he s e
  exact ⟨h1, fun a ha => ⟨h2 a ha, s, l, i, p, g1, g2, g3 a ha⟩, h3⟩

theorem side_told {R : State → Prop} {x : Ev} (hk : Keeps cfg Lab.side R) (hl : Lab.side (.ev x)) {P : State → Prop}
    (hs : ∀ s, Inv cfg s → P s → Step cfg (.ev x) s { s with ev := s.ev ++ [x] }) :
    Walk cfg Lab.side (fun s => R s ∧ P s) (emit x) (fun _ => R) E1 :=
  Walk.modify (fun s i p => ⟨_, hs s i p.2, hl⟩) fun s i p _ => hk _ _ _ (hs s i p.2) hl i p.1

theorem keeps_seen (i : Nat) : Keeps cfg Lab.died (fun s => SeenRunning s.ev i) := keeps_died fun s j _ h => by
  obtain ⟨a, b, h1, h2, h3⟩ := h
  refine ⟨a, b ++ [.died j], by simp [h1], h2, fun x hx => ?_⟩
  rcases List.mem_append.mp hx with hx | hx
  · exact h3 x hx
  · exact ⟨j, List.mem_singleton.mp hx⟩

theorem walk_pauseLoop {R : State → Prop} (hR : Keeps cfg Lab.side R) (ids : List Nat) :
    ∀ acc, Walk cfg Lab.side (fun s => R s ∧ (∀ i ∈ ids, i ∈ s.packs.map (·.1)) ∧ ∀ i ∈ acc, i ∈ s.packs.map (·.1))
      (pauseLoop ids acc) (fun l s => (R s ∧ ∀ i ∈ l, i ∈ s.packs.map (·.1)) ∧ l.Sublist (acc ++ ids)) E1 := by
  induction ids with
  | nil => intro acc; exact Walk.pure fun _ _ h => ⟨⟨h.1, h.2.2⟩, by simp⟩
  | cons i t ih =>
    intro acc
    simp only [pauseLoop]
    have hk : Keeps cfg Lab.side (fun s => R s ∧ (∀ j ∈ i :: t, j ∈ s.packs.map (·.1)) ∧
        ∀ j ∈ acc, j ∈ s.packs.map (·.1)) := hR.and ((side_keys _).and (side_keys _))
    refine Walk.bind (side_isAlive (hk.mono died_side) i) fun al => ?_
    refine Walk.ite (fun ha => ?_) fun _ => (ih acc).conseq (fun s _ p =>
      ⟨p.1.1, fun j hj => p.1.2.1 j (List.mem_cons_of_mem _ hj), p.1.2.2⟩)
      (fun l s _ p => ⟨p.1, p.2.trans (by simp)⟩) fun _ _ _ p => p
    refine Walk.bind (side_told hk trivial (x := .pauseReq i) fun s _ p => .pauseReq s i (p.symm.trans ha)) fun _ => ?_
    refine (ih _).conseq (fun s _ p => ⟨p.1, fun j hj => p.2.1 j (List.mem_cons_of_mem _ hj), fun j hj => ?_⟩)
      (fun l s _ p => ⟨p.1, by simpa using p.2⟩) fun _ _ _ p => p
    rcases List.mem_append.mp hj with h | h
    · exact p.2.2 j h
    · rw [List.mem_singleton.mp h]; exact p.2.1 i List.mem_cons_self

/-- While a checkpoint is being taken. -/
def Ck (s : State) : Prop := ckptFree s.ev = false ∧ Settled s

theorem side_ck : Keeps cfg Lab.side Ck := (keeps_ckpting fun _ h => h).and side_settled

theorem walk_replyLoop (ids : List Nat) : ∀ h, Walk cfg Lab.side
    (fun s => Ck s ∧ (∀ i ∈ ids, i ∈ s.packs.map (·.1)) ∧ ∀ i ∈ h.wait, i ∈ s.packs.map (·.1)) (replyLoop ids h)
    (fun h' s => Ck s ∧ ∀ i ∈ h'.wait, i ∈ s.packs.map (·.1)) E1 := by
  induction ids with
  | nil => intro acc; exact Walk.pure fun _ _ h => ⟨h.1, h.2.2⟩
  | cons i t ih =>
    intro h
    simp only [replyLoop]
    have hk : Keeps cfg Lab.side (fun s => Ck s ∧ (∀ j ∈ i :: t, j ∈ s.packs.map (·.1)) ∧
        ∀ j ∈ h.wait, j ∈ s.packs.map (·.1)) := side_ck.and ((side_keys _).and (side_keys _))
    refine Walk.bind (side_isAlive (hk.mono died_side) i) fun al => ?_
    refine Walk.ite (fun _ => ?_) fun _ => (ih _).pre fun s _ p =>
      ⟨p.1.1, fun j hj => p.1.2.1 j (List.mem_cons_of_mem _ hj), fun j hj => p.1.2.2 j (List.mem_filter.mp hj).1⟩
    refine Walk.bind ((side_askSig (hk.mono died_side)).pre fun s _ p => p.1) fun o => ?_
    match o with
    | none => exact (ih _).pre fun s _ p => ⟨p.1, fun j hj => p.2.1 j (List.mem_cons_of_mem _ hj), p.2.2⟩
    | some .eof => exact Walk.throw fun s _ p => ⟨by simp, ⟨by simp, by simp⟩, why_ckpt p.1.1 (by simp)⟩
    | some (.note _ _) => exact Walk.throw fun s _ p => ⟨by simp, ⟨by simp, by simp⟩, why_ckpt p.1.1 (by simp)⟩
    | some .unknown => exact Walk.throw fun s _ p => ⟨by simp, ⟨by simp, by simp⟩, why_ckpt p.1.1 (by simp)⟩
    | some .paused =>
      exact Walk.bind (side_draw (hk.mono died_side)) fun _ => (ih _).pre fun s _ p =>
        ⟨p.1, fun j hj => p.2.1 j (List.mem_cons_of_mem _ hj), fun j hj => p.2.2 j (List.mem_filter.mp hj).1⟩
    | some (.done msg) =>
      refine Walk.bind (((walk_finish i msg).frame hk).conseq (fun s _ p => ⟨⟨p.2.1 i List.mem_cons_self, .inr p.1.1⟩, p⟩)
        (fun _ s _ p => p.2) fun x s _ p => p.1) fun _ => ?_
      exact (ih _).pre fun s _ p => ⟨p.1, fun j hj => p.2.1 j (List.mem_cons_of_mem _ hj), p.2.2⟩

theorem proc_ckpting : Keeps cfg Lab.proc (fun s => ckptFree s.ev = false) := keeps_ckpting fun _ h => h

theorem walk_processResults_ck (fuel : Nat) (k : Option Nat) (l : List Nat) : Walk cfg Lab.proc
    (fun s => Ck s ∧ ∀ i ∈ l, i ∈ s.packs.map (·.1)) (processResults cfg fuel k)
    (fun _ s => Ck s ∧ ∀ i ∈ l, i ∈ s.packs.map (·.1)) E1 :=
  ((walk_processResults' fuel k).frame (proc_ckpting.and (proc_keys l))).conseq
    (fun s _ p => ⟨⟨p.1.2, p.1.1⟩, p.1.1, p.2⟩) (fun _ s _ p => ⟨⟨p.2.1, p.1⟩, p.2.2⟩) fun _ _ _ p => p.1

theorem walk_waitLoop (fuel k : Nat) (n : Nat) : ∀ h, Walk cfg Lab.proc
    (fun s => Ck s ∧ ∀ i ∈ h.wait, i ∈ s.packs.map (·.1)) (waitLoop cfg fuel k n h) (fun _ => Ck) E1 := by
  induction n with
  | zero => intro h; exact Walk.pend
  | succ n ih =>
    intro h
    simp only [waitLoop]
    refine Walk.ite (fun _ => Walk.pure fun s _ p => p.1) fun _ => ?_
    have hk : Keeps cfg Lab.side (fun s => Ck s ∧ ∀ i ∈ h.wait, i ∈ s.packs.map (·.1)) := side_ck.and (side_keys _)
    refine Walk.bind ((side_askBool (hk.mono died_side)).mono side_proc) fun full => ?_
    refine Walk.ite (fun _ => ?_) fun _ => ?_
    · refine Walk.bind (walk_processResults_ck fuel _ h.wait) fun t => ?_
      refine Walk.bind (Q := fun h' s => h'.wait = h.wait ∧ Ck s ∧ ∀ i ∈ h.wait, i ∈ s.packs.map (·.1))
        (Walk.pure fun s _ p => ⟨rfl, p⟩) fun h' => ?_
      refine Walk.bind (((walk_replyLoop h'.wait h').mono side_proc).pre fun s _ p => ?_) fun h'' => ih h''
      rw [p.1]; exact ⟨p.2.1, p.2.2, p.2.2⟩
    · refine Walk.bind (Q := fun h' s => h'.wait = h.wait ∧ Ck s ∧ ∀ i ∈ h.wait, i ∈ s.packs.map (·.1))
        (Walk.pure fun s _ p => ⟨rfl, p⟩) fun h' => ?_
      refine Walk.bind (((walk_replyLoop h'.wait h').mono side_proc).pre fun s _ p => ?_) fun h'' => ih h''
      rw [p.1]; exact ⟨p.2.1, p.2.2, p.2.2⟩

theorem walk_saveLoop {R : State → Prop} (hR : Keeps cfg Lab.side R) (skip ids : List Nat) :
    Walk cfg Lab.side R (saveLoop skip ids) (fun _ => R) E1 := by
  induction ids with
  | nil => exact Walk.pure fun _ _ h => h
  | cons i t ih =>
    simp only [saveLoop]
    refine Walk.bind (side_isAlive (hR.mono died_side) i) fun al => ?_
    refine Walk.ite (fun ha => Walk.ite (fun _ => ?_) fun _ => ?_) fun _ => ih.pre fun s _ p => p.1
    · exact Walk.bind ((side_draw ((hR.mono died_side).and (keeps_seen i))).pre fun s inv p =>
        ⟨p.1, s.ev, [], by simp, inv.running (p.2.symm.trans ha), by simp⟩) fun _ =>
        Walk.bind (side_told hR trivial (x := .save i) fun s _ p => .save s i p) fun _ => ih
    · exact Walk.bind (side_told hR trivial (x := .pass i) fun s _ p => .pass s i (p.symm.trans ha)) fun _ => ih

theorem walk_clearedLoop {R : State → Prop} (hR : Keeps cfg Lab.side R) (n : Nat) :
    ∀ ids, Walk cfg Lab.side R (clearedLoop n ids) (fun _ => R) E1 := by
  induction n with
  | zero =>
    intro ids
    cases ids with
    | nil => exact Walk.pure fun _ _ h => h
    | cons i t => exact Walk.pend
  | succ n ih =>
    intro ids
    cases ids with
    | nil => exact Walk.pure fun _ _ h => h
    | cons i t =>
      simp only [clearedLoop]
      exact Walk.bind (side_askBool (hR.mono died_side)) fun _ => Walk.ite (fun _ => ih _) fun _ => ih _

theorem walk_filesLoop (ids : List Nat) : Walk cfg Lab.side Ck (filesLoop ids) (fun _ => Ck) E0 := by
  induction ids with
  | nil => exact Walk.pure fun _ _ h => h
  | cons i t ih =>
    simp only [filesLoop]
    refine Walk.bind ((side_askBool (side_ck.mono died_side)).exc fun x s _ p => E1.e0 p) fun b => ?_
    exact Walk.ite (fun _ => ih) fun _ => Walk.throw fun s _ p => ⟨fun _ => p.2, ⟨by simp, by simp⟩, why_ckpt p.1 (by simp)⟩

theorem walk_checkpointOptimizers (fuel : Nat) (s1 : State) : Walk cfg Lab.proc (fun s => s1 = s ∧ Ck s)
    (checkpointOptimizers cfg fuel) (fun l s => Ck s ∧ l.Sublist (s1.packs.map (·.1))) E0 := by
  refine Walk.bind (Q := fun a s => a = s ∧ a = s1 ∧ Ck s) (Walk.get fun s _ p => ⟨rfl, p.1.symm, p.2⟩) fun a => ?_
  refine Walk.bind (((walk_pauseLoop (side_ck.and (Keeps.const (p := a = s1))) _ _).mono side_proc).conseq
    (fun s _ p => ⟨⟨p.2.2, p.2.1⟩, fun i hi => p.1 ▸ hi, fun i hi => by simp at hi⟩)
    (Q' := fun l s => (Ck s ∧ ∀ i ∈ l, i ∈ s.packs.map (·.1)) ∧ l.Sublist (s1.packs.map (·.1)))
    (fun l s _ p => ⟨⟨p.1.1.1, p.1.2⟩, by have := p.2; rw [p.1.1.2] at this; simpa using this⟩)
    fun x s _ p => E1.e0 p) fun messaged => ?_
  by_cases hm : messaged.Sublist (s1.packs.map (·.1))
  · have rest : Walk cfg Lab.proc (fun s => Ck s ∧ ∀ i ∈ messaged, i ∈ s.packs.map (·.1)) (do
        let h ← waitLoop cfg fuel messaged.length fuel ⟨[], messaged, messaged⟩
        let t ← processResults cfg fuel none
        let skip := h.skip ++ t.closed ++ t.victims
        let empty ← askBool
        if empty = false then M.throw .queueNotEmpty
        else
          askUnit
          saveLoop skip messaged
          clearedLoop fuel h.living
          filesLoop (messaged.filter fun i => decide (i ∉ skip))
          pure (messaged.filter fun i => decide (i ∉ skip)))
        (fun l s => Ck s ∧ l.Sublist (s1.packs.map (·.1))) E0 := by
      refine Walk.bind (((walk_waitLoop fuel messaged.length fuel ⟨[], messaged, messaged⟩).exc fun x s _ p => E1.e0 p).pre
        fun s _ p => p) fun h => ?_
      refine Walk.bind (Q := fun _ => Ck) ((walk_processResults_ck fuel none []).conseq (fun s _ p => ⟨p, by simp⟩)
        (fun _ _ _ p => p.1) fun x s _ p => E1.e0 p) fun t => ?_
      refine Walk.bind (((side_askBool (side_ck.mono died_side)).mono side_proc).exc fun x s _ p => E1.e0 p) fun b => ?_
      refine Walk.ite (fun _ => Walk.throw fun s _ p => ⟨by simp, ⟨by simp, by simp⟩, why_ckpt p.1 (by simp)⟩) fun _ => ?_
      refine Walk.bind (((side_askUnit (side_ck.mono died_side)).mono side_proc).exc fun x s _ p => E1.e0 p) fun _ => ?_
      refine Walk.bind (((walk_saveLoop side_ck _ _).mono side_proc).exc fun x s _ p => E1.e0 p) fun _ => ?_
      refine Walk.bind (((walk_clearedLoop side_ck _ _).mono side_proc).exc fun x s _ p => E1.e0 p) fun _ => ?_
      exact Walk.bind ((walk_filesLoop _).mono side_proc) fun _ =>
        Walk.pure fun s _ p => ⟨p, List.filter_sublist.trans hm⟩
    exact rest.pre fun s _ p => p.1
  · exact fun s e i p => absurd p.2 hm

theorem walk_resumeLoop {R : State → Prop} (hR : Keeps cfg Lab.side R) (ids : List Nat) :
    Walk cfg Lab.side R (resumeLoop ids) (fun _ => R) E1 := by
  induction ids with
  | nil => exact Walk.pure fun _ _ h => h
  | cons i t ih =>
    simp only [resumeLoop]
    refine Walk.bind (side_isAlive (hR.mono died_side) i) fun al => ?_
    refine Walk.ite (fun ha => ?_) fun _ => ih.pre fun s _ p => p.1
    exact Walk.bind (side_told hR trivial (x := .resume i) fun s _ p => .resume s i (p.symm.trans ha)) fun _ => ih

theorem walk_stopLoop {R : State → Prop} (hR : Keeps cfg Lab.side R) (hc : ∀ s, R s → s.converged = true) (ids : List Nat) :
    Walk cfg Lab.side R (stopLoop ids) (fun _ => R) E1 := by
  induction ids with
  | nil => exact Walk.pure fun _ _ h => h
  | cons i t ih =>
    simp only [stopLoop]
    refine Walk.bind (side_isAlive (hR.mono died_side) i) fun al => ?_
    refine Walk.ite (fun ha => ?_) fun _ => ih.pre fun s _ p => p.1
    have hs : ∀ s, R s ∧ al = s.alive i → i ∈ s.victims ∨ i ∈ forcedOf s.ev ∨ s.converged = true ∧ s.alive i = true :=
      fun s p => .inr (.inr ⟨hc s p.1, p.2.symm.trans ha⟩)
    exact Walk.bind (Q := fun _ => R) (Walk.modify (fun s _ p => ⟨_, .stop s i (hs s p), trivial⟩)
      fun s inv p _ => hR _ _ _ (.stop s i (hs s p)) trivial inv p.1) fun _ => ih

/-- Labels of checkpoints. -/
def Lab.ckpt : Lab → Prop
  | .ev .ckptBegin => True
  | .ev .ckptEnd => True
  | .store => True
  | l => l.proc

theorem proc_ckpt : ∀ l, Lab.proc l → Lab.ckpt l := by
  intro l h; cases l with
  | ev x => cases x <;> first | exact trivial | exact absurd h id
  | _ => first | exact trivial | exact absurd h id

theorem ckpt_spawnOk : Keeps cfg Lab.ckpt (SpawnOk cfg) := keeps_spawnOk (fun _ h => h) fun h => h
theorem ckpt_ckpting : Keeps cfg Lab.ckpt (fun s => ckptFree s.ev = false) := keeps_ckpting fun _ h => h

theorem keeps_fresh : Keeps cfg Lab.died Fresh := keeps_died fun s i _ h => by
  intro x hx
  have e : sinceCkpt (s.ev ++ [.died i]) = sinceCkpt s.ev ++ [.died i] := sinceCkpt_snoc _ _ (by simp)
  rw [show _ = sinceCkpt s.ev ++ [.died i] from e] at hx
  rcases List.mem_append.mp hx with hx | hx
  · exact h x hx
  · exact ⟨i, List.mem_singleton.mp hx⟩

theorem Inv.held {s : State} (inv : Inv cfg s) {i : Nat} (h : s.alive i = true) : i ∈ s.packs.map (·.1) := by
  obtain ⟨⟨w, hw⟩, hd⟩ := inv.running h
  have : (i, w) ∈ s.packs.filter fun p => s.alive p.1 := by
    rw [inv.living]; exact List.mem_filter.mpr ⟨hw, by simpa using hd⟩
  exact List.mem_map.mpr ⟨_, (List.mem_filter.mp this).1, rfl⟩

theorem walk_checkpoint (fuel : Nat) : Walk cfg Lab.ckpt Settled (checkpoint cfg fuel) (fun _ => Ck) E0 := by
  unfold checkpoint
  have hB : Keeps cfg Lab.died (fun s => Ck s ∧ Begun s ∧ Fresh s) := (side_ck.mono died_side).and (keeps_begun.and keeps_fresh)
  have ask : Walk cfg Lab.ckpt (fun s => Ck s ∧ Begun s ∧ Fresh s) askUnit (fun _ s => Ck s ∧ Begun s ∧ Fresh s) E0 :=
    ((side_askUnit hB).mono fun l h => proc_ckpt l (side_proc l h)).exc fun x s _ p => E1.e0 p
  refine Walk.bind (Q := fun _ s => Ck s ∧ Begun s ∧ Fresh s)
    (Walk.modify (fun s _ p => ⟨_, .plain s .ckptBegin rfl, trivial⟩) fun s inv p _ => ⟨⟨?_, ?_, ?_⟩, ⟨s.ev, [], rfl, by simp, ?_⟩, ?_⟩)
    fun _ => ?_
  · show ckptFree (s.ev ++ [_]) = false
    rw [ckptFree_snoc]
  · show UpToDate (s.ev ++ [_]) = true
    rw [UpToDate_snoc]; exact p.1
  · show inHand (s.ev ++ [_]) = none
    rw [inHand_snoc]; exact p.2
  · show loggedOf (s.ev ++ [_]) = loggedOf s.ev
    rw [loggedOf_snoc]
  · intro x hx
    have : sinceCkpt (s.ev ++ [.ckptBegin]) = [] := by simp [sinceCkpt, List.foldl_append]
    rw [show _ = [] from this] at hx; cases hx
  refine Walk.bind ask fun _ => ?_
  have side : ∀ {α : Type} {m : M α}, Walk cfg Lab.side Ck m (fun _ => Ck) E1 → Walk cfg Lab.ckpt Ck m (fun _ => Ck) E0 :=
    fun h => (h.mono fun l h => proc_ckpt l (side_proc l h)).exc fun x s _ p => E1.e0 p
  refine Walk.bind (Q := fun _ => Ck) ?_ fun _ => ?_
  · have body : Walk cfg Lab.ckpt (fun s => Ck s ∧ Begun s ∧ Fresh s) (do
        askUnit
        let s1 ← M.get
        let files ← checkpointOptimizers cfg fuel
        M.modify fun s2 => { s2 with saved := s2.saved ++ [snapshot s1 s2 files] }
        draw
        let built ← askBool
        if built = true then pure () else M.throw .ckpt) (fun _ => Ck) E0 := by
      refine Walk.bind ask fun _ => ?_
      refine Walk.bind (Q := fun s1 s => (s1 = s ∧ Ck s) ∧ (Inv cfg s1 ∧ Begun s1 ∧ Fresh s1) ∧ Past s1 s)
        (Walk.get fun s inv p => ⟨⟨rfl, p.1⟩, ⟨inv, p.2⟩, past_refl s⟩) fun s1 => ?_
      refine Walk.bind ((((walk_checkpointOptimizers fuel s1).emits (em_checkpointOptimizers cfg fuel)).frame
        (Keeps.const.and (keeps_past s1))).mono proc_ckpt |>.exc fun _ _ _ p => p.1) fun files => ?_
      refine Walk.bind (Q := fun _ => Ck) (Walk.modify (fun s inv p => ⟨_, .store s _
        (resumable_snapshot p.2.1.1 inv p.2.1.2.1 p.2.2 p.1.1.1.2 (p.1.1.2.nodup p.2.1.1.nodup) fun i hi => p.1.1.2.subset hi)
        ?_, trivial⟩) fun s _ p _ => p.1.1.1) fun _ => ?_
      · obtain ⟨⟨-, s', l, -, ⟨rfl, -⟩, ha, hl, hsh⟩, ⟨i1, -, hf⟩, -⟩ := p
        exact handShake hf ha hl (fun i => inv.alive_iff.symm) (fun i hi => i1.held hi) hsh
      refine Walk.bind (side (side_draw (side_ck.mono died_side))) fun _ => ?_
      refine Walk.bind (side (side_askBool (side_ck.mono died_side))) fun b => ?_
      exact Walk.ite (fun _ => Walk.pure fun _ _ h => h) fun _ => Walk.throw fun s _ p => ⟨fun _ => p.2, ⟨by simp, by simp⟩, why_ckpt p.1 (by simp)⟩
    have body' := (body.frame ckpt_ckpting).conseq (P' := fun s => Ck s ∧ Begun s ∧ Fresh s) (Q' := fun _ => Ck)
      (E' := fun x s => E0 x s ∧ ckptFree s.ev = false) (fun s _ p => ⟨p, p.1.1⟩) (fun _ s _ p => p.1) fun _ _ _ p => p
    refine Walk.tryCatch body' (fun x k hx => ?_) fun x _ s _ h => h.1
    split at hx
    · rename_i hc
      cases hx; exact Walk.pure fun _ _ h => ⟨h.2, h.1.1 hc.1⟩
    · cases hx
  refine Walk.bind (Q := fun a s => a = s ∧ Inv cfg a ∧ Ck s) (Walk.get fun s inv p => ⟨rfl, inv, p⟩) fun a => ?_
  dsimp only
  -- those alive at the end were alive at the beginning, and are told to stop, if at all, and to go on
  have close : ∀ {s : State} {l : List Ev}, Adds a s l → (∀ x ∈ l, Closing x) → (∀ i ∈ a.packs.map (·.1), s.alive i = true →
      Ev.resume i ∈ l ∧ (s.converged = true → Ev.stop i ∈ l)) → Inv cfg a →
      Step cfg (.ev .ckptEnd) s { s with ev := s.ev ++ [.ckptEnd] } := by
    intro s l ha hl h i1
    refine .ckptEnd s fun i hi => ?_
    have e : sinceCkpt s.ev = sinceCkpt a.ev ++ l := by
      rw [ha.ev, sinceCkpt_append _ _ fun x hx => by rintro rfl; exact hl _ hx]
    have := h i (i1.held (ha.alive hi)) hi
    rw [e]
    exact ⟨List.mem_append_right _ this.1, fun hc => List.mem_append_right _ (this.2 hc)⟩
  have fin : Walk cfg Lab.ckpt (fun s => Ck s ∧ ∃ l, Inv cfg a ∧ Adds a s l ∧ (∀ x ∈ l, Closing x) ∧
      ∀ i ∈ a.packs.map (·.1), s.alive i = true → Ev.resume i ∈ l ∧ (s.converged = true → Ev.stop i ∈ l))
      (emit .ckptEnd) (fun _ => Ck) E0 :=
    Walk.modify (fun s inv ⟨_, l, i1, ha, hl, h⟩ => ⟨_, close ha hl h i1, trivial⟩) fun s inv ⟨p, _⟩ _ => by
      refine ⟨?_, ?_, ?_⟩
      · show ckptFree (s.ev ++ [_]) = false
        rw [ckptFree_snoc]; exact p.1
      · show UpToDate (s.ev ++ [_]) = true
        rw [UpToDate_snoc]; exact p.2.1
      · show inHand (s.ev ++ [_]) = none
        rw [inHand_snoc]; exact p.2.2
  have hres : ∀ {P R : State → Prop}, Keeps cfg Lab.side R → (∀ s, P s → Ck s ∧ R s) →
      Walk cfg Lab.ckpt P (resumeLoop (a.packs.map (·.1)))
      (fun _ t => (Ck t ∧ R t) ∧ ∃ s l, Inv cfg s ∧ P s ∧ Adds s t l ∧ (∀ x ∈ l, Closing x) ∧
        ∀ i ∈ a.packs.map (·.1), t.alive i = true → Ev.resume i ∈ l) E0 := fun {P R} hR hP =>
    ((((walk_resumeLoop (side_ck.and hR) _).pre fun s _ p => hP s p).mono fun l h => proc_ckpt l (side_proc l h)).exc
      fun x s _ p => E1.e0 p).emits (em_resumeLoop _)
  refine Walk.ite (fun hc => ?_) fun hc => ?_
  · have hstop := ((walk_stopLoop (side_ck.and (keeps_converged (cfg := cfg) (fun _ h => h) fun h => h)) (fun s p => p.2)
      (a.packs.map (·.1))).pre (P' := fun s => a = s ∧ Inv cfg a ∧ Ck s) fun s _ p => ⟨p.2.2, p.1 ▸ hc⟩).emits (em_stopLoop _)
    refine Walk.bind ((hstop.mono fun l h => proc_ckpt l (side_proc l h)).conseq
      (Q' := fun _ t => Ck t ∧ ∃ l, Inv cfg a ∧ Adds a t l ∧ (∀ x ∈ l, Closing x) ∧
        ∀ i ∈ a.packs.map (·.1), t.alive i = true → Ev.stop i ∈ l) (fun s _ p => p)
      (fun _ t _ p => ?_) fun x s _ p => E1.e0 p) fun _ => ?_
    · obtain ⟨⟨p, -⟩, s, l, -, ⟨rfl, i1, -⟩, ha, hl, h⟩ := p
      exact ⟨p, l, i1, ha, hl, h⟩
    · refine Walk.bind (hres Keeps.triv fun s p => ⟨p.1, trivial⟩) fun _ => fin.pre fun t _ p => ?_
      obtain ⟨⟨p, -⟩, s, l', -, ⟨-, l, i1, ha, hl, h⟩, ha', hl', h'⟩ := p
      exact ⟨p, l ++ l', i1, ha.trans ha', fun x hx => (List.mem_append.mp hx).elim (hl x) (hl' x), fun i hi hal =>
        ⟨List.mem_append_right _ (h' i hi hal), fun _ => List.mem_append_left _ (h i hi (ha'.alive hal))⟩⟩
  · have hk : Keeps cfg Lab.side (fun s => s.converged = false) := by
      intro lab s t st ha inv hr
      cases st <;> first | exact hr | exact absurd ha id
    refine Walk.bind (hres (P := fun s => a = s ∧ Inv cfg a ∧ Ck s) hk fun s p => ⟨p.2.2, by
      rw [← p.1]; simpa using hc⟩) fun _ => fin.pre fun t _ p => ?_
    obtain ⟨⟨p, hcf⟩, s, l, -, ⟨rfl, i1, -⟩, ha, hl, h⟩ := p
    exact ⟨p, l, i1, ha, hl, fun i hi hal => ⟨h i hi hal, fun e => by rw [hcf] at e; cases e⟩⟩

theorem walk_manualCheckpoints (fuel : Nat) : Walk cfg Lab.ckpt Settled
    (manualCheckpoints cfg fuel) (fun _ => Settled) E0 := by
  refine Walk.bind (((side_askBool (side_settled.mono died_side)).mono fun l h => proc_ckpt l (side_proc l h)).exc fun x s _ p => E1.e0 p) fun _ => ?_
  exact Walk.ite (fun _ => (walk_checkpoint fuel).post fun _ _ _ p => p.2) fun _ => Walk.pure fun _ _ h => h

/-! ### Children -/

theorem walk_checkSignals' (i : Nat) : Walk cfg Lab.side (MayFinish i) (checkSignals i)
    (fun b s => b = false → MayFinish i s) E1 := by
  unfold checkSignals
  refine Walk.bind (Q := fun a s => MayFinish i s) (Walk.get fun s _ h => h) fun a => ?_
  refine Walk.ite (fun _ => Walk.pure fun _ _ h _ => h) fun hg => ?_
  refine Walk.bind (side_askSig (keeps_mayFinish died_noGrave died_side i)) fun o => ?_
  match o with
  | none => exact Walk.pure fun _ _ h _ => h
  | some .eof => exact Walk.pure fun _ _ h _ => h
  | some (.done msg) =>
    exact Walk.bind (walk_finish i msg) fun _ => Walk.bind (side_draw Keeps.triv) fun _ =>
      Walk.pure fun _ _ _ e => by cases e
  | some (.note msg tb) =>
    refine Walk.bind (side_putMsg i msg (fun s inv p => inv.keys i p.1) (keeps_mayFinish quiet_noGrave quiet_side i)) fun _ => ?_
    exact Walk.bind (Walk.modify (Q := fun _ _ => True) (fun s _ _ => ⟨_, .report s i tb, trivial⟩) fun _ _ _ _ => trivial) fun _ =>
      Walk.bind (side_draw Keeps.triv) fun _ => Walk.pure fun _ _ _ e => by cases e
  | some .paused => exact Walk.pure fun _ _ _ e => by cases e
  | some .unknown => exact Walk.pure fun _ _ _ e => by cases e

theorem walk_putMsgEnd (i : Nat) (m why : String) : Walk cfg Lab.side (fun s => i ∈ added s.ops)
    (do logOp (.putMsg i m); putEnd i why) (fun _ _ => True) E1 :=
  Walk.bind (side_putMsg i m (fun _ _ h => h) (keeps_added i)) fun _ =>
    (side_putEnd i why (fun _ _ h => h) (keeps_added i)).post fun _ _ _ _ => trivial

theorem walk_inspectDead (i : Nat) : Walk cfg Lab.side (fun s => i ∈ s.packs.map (·.1)) (inspectDead i)
    (fun _ _ => True) E1 := by
  unfold inspectDead
  refine Walk.bind (Q := fun a s => a = s ∧ i ∈ s.packs.map (·.1)) (Walk.get fun s _ h => ⟨rfl, h⟩) fun a => ?_
  refine Walk.ite (fun hg => ?_) fun _ => Walk.pure fun _ _ _ => trivial
  have hk := keeps_mayFinish (cfg := cfg) died_noGrave died_side i
  refine Walk.bind ((side_isAlive hk i).pre fun s _ p => ⟨p.2, .inl (p.1 ▸ hg)⟩) fun al => ?_
  refine Walk.ite (fun _ => ?_) fun _ => Walk.pure fun _ _ _ => trivial
  refine Walk.bind ((side_askBool hk).pre fun s _ p => p.1) fun b => ?_
  refine Walk.bind (Q := fun _ => MayFinish i) (Walk.modify (fun s _ _ => ⟨_, .plain s (.exited i b) rfl, trivial⟩) fun s _ h _ =>
    ⟨h.1, h.2.imp id fun h => by rw [ckptFree_snoc]; exact h⟩) fun _ => ?_
  refine Walk.ite (fun _ => ?_) fun _ => ?_
  · refine Walk.bind (walk_checkSignals' i) fun found => ?_
    refine Walk.ite (fun hf => ?_) fun _ => Walk.pure fun _ _ _ => trivial
    refine Walk.bind (Q := fun _ s => i ∈ added s.ops) ?_ fun _ => walk_putMsgEnd i _ _
    exact Walk.modify (fun s _ h => ⟨_, .finish s i (h hf).1 (h hf).2, trivial⟩) fun s inv h _ => inv.keys i (h hf).1
  · refine Walk.bind (Q := fun _ s => i ∈ added s.ops) ?_ fun _ => walk_putMsgEnd i _ _
    exact Walk.modify (fun s _ h => ⟨_, .fail s i, trivial⟩) fun s inv h _ => inv.keys i h.1

theorem walk_inspectHanging (i : Nat) : Walk cfg Lab.side (fun s => i ∈ s.packs.map (·.1)) (inspectHanging cfg i)
    (fun _ _ => True) E1 := by
  unfold inspectHanging
  refine Walk.bind (side_isAlive ((side_key i).mono died_side) i) fun al => ?_
  refine Walk.bind ((side_askBool ((side_key i).mono died_side)).pre fun _ _ h => h.1) fun late => ?_
  refine Walk.bind (Q := fun _ s => i ∈ s.packs.map (·.1)) (Walk.modify (fun s _ _ => ⟨_, .plain s (.overdue i late) rfl, trivial⟩) fun s _ h _ => h) fun _ => ?_
  refine Walk.bind (Q := fun a s => a = s ∧ i ∈ s.packs.map (·.1)) (Walk.get fun s _ h => ⟨rfl, h⟩) fun a => ?_
  refine Walk.ite (fun hc => ?_) fun _ => Walk.pure fun _ _ _ => trivial
  have hk : ∀ {A : Lab → Prop}, Keeps cfg A (fun s => i ∈ forcedOf s.ev ∧ i ∈ added s.ops) := (keeps_forced i).and (keeps_added i)
  refine Walk.bind (Q := fun _ s => i ∈ forcedOf s.ev ∧ i ∈ added s.ops) (Walk.modify (fun s _ h => ⟨_, .force s i hc.2.2.1 hc.2.2.2.2 h.2
    (by rw [← h.1]; exact hc.2.2.2.1), trivial⟩) fun s inv h _ => ⟨mem_forced.mpr (by simp), inv.keys i h.2⟩) fun _ => ?_
  refine Walk.bind (side_putMsg i _ (fun _ _ p => p.2) hk) fun _ => ?_
  refine Walk.bind (side_putEnd i _ (fun _ _ p => p.2) hk) fun _ => ?_
  refine Walk.bind (side_askUnit hk) fun _ => ?_
  exact (side_stop i hk fun s p => .inr (.inl p.1)).post fun _ _ _ _ => trivial

theorem walk_inspectZombie (i : Nat) : Walk cfg Lab.side (fun s => i ∈ s.packs.map (·.1)) (inspectZombie cfg i)
    (fun _ _ => True) E1 := by
  unfold inspectZombie
  refine Walk.bind (Q := fun a s => a = s ∧ i ∈ added s.ops) (Walk.get fun s inv h => ⟨rfl, inv.keys i h⟩) fun a => ?_
  have hk : ∀ {A : Lab → Prop}, Keeps cfg A (fun s => i ∈ s.victims ∧ i ∈ added s.ops) := (keeps_victim i).and (keeps_added i)
  refine Walk.ite (fun hv => ?_) fun _ => Walk.pure fun _ _ _ => trivial
  refine Walk.bind ((side_isAlive hk i).pre fun s _ p => ⟨p.1 ▸ hv.1, p.2⟩) fun al => ?_
  refine Walk.bind ((side_askBool hk).pre fun _ _ p => p.1) fun late => ?_
  refine Walk.bind (Q := fun _ s => i ∈ s.victims ∧ i ∈ added s.ops) (Walk.modify (fun s _ _ => ⟨_, .plain s (.overdue i late) rfl, trivial⟩) fun s _ h _ => h) fun _ => ?_
  refine Walk.ite (fun _ => ?_) fun _ => Walk.pure fun _ _ _ => trivial
  refine Walk.bind (side_askUnit hk) fun _ => ?_
  refine Walk.bind (side_stop i hk fun s p => .inl p.1) fun _ => ?_
  exact (walk_putMsgEnd i _ _).pre fun _ _ p => p.2

theorem walk_inspectChildren : Walk cfg Lab.side (fun _ => True) (inspectChildren cfg) (fun _ _ => True) E1 := by
  unfold inspectChildren
  refine Walk.bind (Q := fun a s => a = s) (Walk.get fun s _ h => rfl) fun a => ?_
  refine (Walk.forEach (P := fun s => ∀ i ∈ a.packs.map (·.1), i ∈ s.packs.map (·.1)) fun i hi => ?_).conseq
    (fun s _ p j hj => p ▸ hj) (fun _ _ _ _ => trivial) fun _ _ _ h => h
  have : Walk cfg Lab.side (fun s => i ∈ s.packs.map (·.1)) (do
      inspectDead i
      inspectHanging cfg i
      inspectZombie cfg i) (fun _ _ => True) E1 :=
    Walk.bind (((walk_inspectDead i).frame (side_key i)).conseq (fun s _ p => ⟨p, p⟩) (fun _ s _ p => p.2)
      fun _ _ _ p => p.1) fun _ => Walk.bind (((walk_inspectHanging i).frame (side_key i)).conseq (fun s _ p => ⟨p, p⟩) (fun _ s _ p => p.2)
        fun _ _ _ p => p.1) fun _ => walk_inspectZombie i
  exact (this.frame (side_keys _)).conseq (fun s _ p => ⟨p i hi, p⟩) (fun _ s _ p => p.2) fun _ _ _ p => p.1

/-- Every label but the end of the loop and burials at the end. -/
def Lab.iter : Lab → Prop
  | .ev .loopEnd => False
  | .bury => False
  | .farewell => False
  | _ => True

theorem proc_iter : ∀ l, Lab.proc l → Lab.iter l := by
  intro l h; cases l with
  | ev x => cases x <;> first | exact trivial | exact absurd h id
  | _ => first | exact trivial | exact absurd h id

theorem fill_iter : ∀ l, Lab.fill l → Lab.iter l := by
  intro l h; cases l with
  | ev x => cases x <;> first | exact trivial | exact absurd h id
  | _ => first | exact trivial | exact absurd h id

theorem ckpt_iter : ∀ l, Lab.ckpt l → Lab.iter l := by
  intro l h; cases l with
  | ev x => cases x <;> first | exact trivial | exact absurd h id
  | _ => first | exact trivial | exact absurd h id

theorem side_iter : ∀ l, Lab.side l → Lab.iter l := fun l h => proc_iter l (side_proc l h)

/-- Deaths and removals. -/
def Lab.gone : Lab → Prop
  | .ev (.died _) => True
  | .purge => True
  | _ => False

theorem died_gone : ∀ l, Lab.died l → Lab.gone l := by
  intro l h; cases l with
  | ev x => cases x <;> first | exact trivial | exact absurd h id
  | _ => exact absurd h id

theorem gone_iter : ∀ l, Lab.gone l → Lab.iter l := by
  intro l h; cases l with
  | ev x => cases x <;> first | exact trivial | exact absurd h id
  | _ => first | exact trivial | exact absurd h id

theorem walk_purge : Walk cfg Lab.gone (fun _ => True) purge (fun _ _ => True) E1 := by
  unfold purge
  refine Walk.bind (Q := fun _ _ => True) (Walk.get fun s _ h => trivial) fun a => ?_
  refine Walk.forEach fun i _ => ?_
  refine Walk.bind ((walk_isAlive Keeps.triv (fun x s _ => e1_env) i).mono died_gone) fun al => ?_
  refine Walk.bind (Q := fun a s => a = s ∧ al = s.alive i) (Walk.get fun s _ h => ⟨rfl, h.2⟩) fun a => ?_
  refine Walk.ite (fun hc => ?_) fun _ => Walk.pure fun _ _ _ => trivial
  exact Walk.modify (fun s _ h => ⟨_, .purge s i (h.2 ▸ hc.1) (h.1 ▸ hc.2), trivial⟩) fun _ _ _ _ => trivial

theorem fill_settled : Keeps cfg Lab.fill Settled :=
  (keeps_upToDate fun _ h => h).and (keeps_inHand _ (fun _ h => h) (fun _ h => h) fun _ h => h)
theorem gone_settled : Keeps cfg Lab.gone Settled :=
  (keeps_upToDate fun _ h => h).and (keeps_inHand _ (fun _ h => h) (fun _ h => h) fun _ h => h)
theorem gone_spawnOk : Keeps cfg Lab.gone (SpawnOk cfg) := keeps_spawnOk (fun _ h => h) fun h => h

theorem walk_signals (ids : List Nat) : Walk cfg Lab.side (fun s => ∀ i ∈ ids, i ∈ s.packs.map (·.1))
    (M.forEach ids fun i => do let _ ← checkSignals i) (fun _ _ => True) E1 := by
  refine (Walk.forEach (P := fun s => ∀ i ∈ ids, i ∈ s.packs.map (·.1)) fun i hi => ?_).conseq
    (fun s _ p => p) (fun _ _ _ _ => trivial) fun _ _ _ h => h
  have : Walk cfg Lab.side (fun s => i ∈ s.packs.map (·.1)) (do let _ ← checkSignals i) (fun _ _ => True) E1 :=
    Walk.bind (walk_checkSignals i) fun _ => Walk.pure fun _ _ _ => trivial
  exact (this.frame (side_keys _)).conseq (fun s _ p => ⟨p i hi, p⟩) (fun _ s _ p => p.2) fun _ _ _ p => p.1

/-- Nobody is running. -/
def Idle (s : State) : Prop := s.livingSlots.length = 0

theorem keeps_idle {A : Lab → Prop} (hA : ∀ i w, ¬ A (.ev (.started i w))) (hB : ∀ i w, ¬ A (.ev (.restarted i w)))
    (hA' : ¬ A .pack) : Keeps cfg A Idle := by
  intro lab s t st ha inv hr
  have no : ∀ p ∈ s.packs, s.alive p.1 = false := by
    simpa [Idle, State.livingSlots] using hr
  have mk : ∀ t : State, (∀ p ∈ t.packs, p ∈ s.packs) → (∀ i, s.alive i = false → t.alive i = false) → Idle t := by
    intro t h1 h2
    simp only [Idle, State.livingSlots, List.length_map, List.length_eq_zero_iff, List.filter_eq_nil_iff]
    intro p hp
    simp [h2 _ (no p (h1 p hp))]
  cases st with
  | die _ i h =>
    refine mk _ (fun p hp => hp) fun j hj => ?_
    simp only [State.alive, Bool.and_eq_false_iff, decide_eq_false_iff_not, Bool.not_eq_false',
      decide_eq_true_eq] at hj ⊢
    exact hj.imp id fun h => List.mem_cons_of_mem _ h
  | start _ i w => exact absurd ha (hA i w)
  | restart _ _ _ i w => exact absurd ha (hB i w)
  | addPack => exact absurd ha hA'
  | purge _ i h h' => exact mk _ (fun p hp => (List.mem_filter.mp hp).1) fun i h => h
  | _ => exact hr

theorem Walk.with {α : Type} {A B : Lab → Prop} {m : M α} {E E' : Exc → State → Prop} {P R : State → Prop}
    {Q : α → State → Prop}
    (h : Walk cfg A P m Q E) (hk : Keeps cfg A R) (ha : ∀ l, A l → B l) (he : ∀ x s, E x s → E' x s) :
    Walk cfg B (fun s => P s ∧ R s) m (fun _ s => R s) E' :=
  ((h.frame hk).mono ha).conseq (fun _ _ p => p) (fun _ _ _ p => p.2) fun _ _ _ p => he _ _ p.1

/-- At the start of a pass. -/
def Ready (cfg : Cfg) (s : State) : Prop :=
  (Settled s ∧ SpawnOk cfg s) ∧ (ckptFree s.ev = true → sinceCheck s.ev = 0)

theorem walk_checkpoint_ready (fuel : Nat) : Walk cfg Lab.iter (Ready cfg) (checkpoint cfg fuel) (fun _ => Ready cfg) E2 :=
  ((walk_checkpoint (cfg := cfg) fuel).frame ckpt_spawnOk).mono ckpt_iter |>.conseq (fun _ _ p => p.1)
    (fun _ _ _ p => ⟨⟨p.1.2, p.2⟩, fun h => by rw [p.1.1] at h; cases h⟩) fun _ _ _ p => p.1.e2

theorem keeps_ready_died : Keeps cfg Lab.died (Ready cfg) := by
  refine ((side_settled.and (proc_spawnOk.mono side_proc)).mono died_side).and ?_
  intro lab s t st ha inv hr
  cases st with
  | die _ i hi =>
    intro h
    show sinceCheck (s.ev ++ [_]) = 0
    rw [sinceCheck_snoc]
    exact hr (free_snoc h)
  | plain _ x hx => cases x <;> simp [Plain] at hx <;> exact absurd ha id
  | _ => exact absurd ha id

theorem keeps_open {A : Lab → Prop} (hA : ∀ b, ¬ A (.ev (.checked b))) : Keeps cfg A (fun s => s.converged = false) := by
  intro lab s t st ha inv hr
  cases st with
  | verdict _ b => exact absurd ha (hA b)
  | setConverged => rfl
  | _ => exact hr

theorem walk_iteration (fuel : Nat) : Walk cfg Lab.iter (fun s => Ready cfg s ∧ s.converged = false)
    (iteration cfg fuel) (fun _ => Ready cfg) E2 := by
  unfold iteration
  have side2 : Keeps cfg Lab.side (fun s => (Settled s ∧ SpawnOk cfg s) ∧ s.converged = false ∧ Unasked s.ev) :=
    (side_settled.and (proc_spawnOk.mono side_proc)).and ((keeps_open fun _ h => h).and (keeps_unasked fun _ h => h))
  have side3 : Keeps cfg Lab.side (fun s => ((Settled s ∧ SpawnOk cfg s) ∧ s.converged = false ∧ Unasked s.ev) ∧ Cnt 0 s) :=
    side2.and ((tell_cnt 0).mono side_tell)
  have e1 : ∀ x s, E1 x s → E2 x s := fun x s h => h.e2
  refine Walk.bind (Q := fun _ s => ((Settled s ∧ SpawnOk cfg s) ∧ s.converged = false ∧ Unasked s.ev) ∧ Cnt 0 s) ?_ fun _ => ?_
  · refine (((walk_fillSlots fuel).frame ((fill_settled.and fill_open).and (keeps_cnt 0 (fun _ h => h) fun _ h => h))).mono
      fill_iter).conseq (fun s _ p => ⟨⟨p.1.1.2, p.2⟩, ⟨p.1.1.1, p.2⟩, fun h => ⟨p.2, Nat.le_of_eq (p.1.2 h)⟩⟩)
      (fun _ s _ p => ⟨⟨⟨p.2.1.1, p.1.1⟩, p.2.1.2, p.1.2⟩, p.2.2⟩) fun _ _ _ p => p.1.1
  refine Walk.bind (Q := fun a s => a = s ∧ ((Settled s ∧ SpawnOk cfg s) ∧ s.converged = false ∧ Unasked s.ev) ∧ Cnt 0 s) (Walk.get fun s _ p => ⟨rfl, p⟩) fun a => ?_
  refine Walk.bind (((walk_signals _).with side3 side_iter e1).pre fun s _ p => ⟨fun i hi => p.1 ▸ hi, p.2⟩) fun _ => ?_
  refine Walk.bind (Q := fun _ s => (Settled s ∧ SpawnOk cfg s) ∧ s.converged = false ∧ Unasked s.ev)
    ((((walk_processResults fuel).frame (proc_spawnOk.and ((keeps_open fun _ h => h).and (keeps_unasked fun _ h => h)))).mono proc_iter).conseq
      (fun s _ p => ⟨⟨p.1.1.1, p.2⟩, p.1.1.2, p.1.2⟩)
      (fun _ _ _ p => ⟨⟨p.1, p.2.1⟩, p.2.2⟩) fun _ _ _ p => e1 _ _ p.1) fun _ => ?_
  refine Walk.bind ((walk_manualShutdowns.with side2 side_iter e1).pre fun s _ p => ⟨p.1.1.2, p⟩) fun _ => ?_
  refine Walk.bind (Q := fun _ s => (Settled s ∧ SpawnOk cfg s) ∧ s.converged = false ∧ Unasked s.ev)
    ((((walk_manualCheckpoints fuel).frame (ckpt_spawnOk.and ((keeps_open fun _ h => h).and (keeps_unasked fun _ h => h)))).mono ckpt_iter).conseq
      (fun _ _ p => ⟨p.1.1, p.1.2, p.2⟩) (fun _ _ _ p => ⟨⟨p.1, p.2.1⟩, p.2.2⟩) fun _ _ _ p => p.1.e2) fun _ => ?_
  refine Walk.bind ((walk_inspectChildren.with side2 side_iter e1).pre fun s _ p => ⟨trivial, p⟩) fun _ => ?_
  refine Walk.bind ((walk_purge.with ((gone_settled.and gone_spawnOk).and ((keeps_open fun _ h => h).and (keeps_unasked fun _ h => h))) gone_iter e1).pre fun s _ p => ⟨trivial, p⟩) fun _ => ?_
  have hU : Keeps cfg Lab.died (fun s => (Settled s ∧ SpawnOk cfg s) ∧ s.converged = false ∧ Unasked s.ev) := side2.mono died_side
  refine Walk.bind (((side_askUnit hU).mono side_iter).exc fun _ _ _ p => p.e2) fun _ => ?_
  refine Walk.bind (Q := fun a s => ((Settled s ∧ SpawnOk cfg s) ∧ s.converged = false ∧ Unasked s.ev) ∧ (a.livingSlots.length = 0 → Idle s))
    (Walk.get fun s _ p => ⟨p, id⟩) fun a => ?_
  dsimp only
  have hI : Keeps cfg Lab.died (fun s => a.livingSlots.length = 0 → Idle s) := fun lab s t st ha i hr h =>
    keeps_idle (fun _ _ h => h) (fun _ _ h => h) (fun h => h) lab s t st ha i (hr h)
  refine Walk.bind (((side_askBool (hU.and hI)).mono side_iter).exc fun _ _ _ p => p.e2) fun b => ?_
  refine Walk.bind (Q := fun _ => Ready cfg)
    (Walk.modify (fun s _ p => ⟨_, .verdict s b _ ⟨p.1.2.1, p.1.1.1.1⟩ p.1.2.2 ?_ ?_, trivial⟩) fun s inv p _ => ?_) fun _ => ?_
  · intro h; simp [h]
  · intro h
    simp only [Bool.or_eq_true, Bool.and_eq_true, decide_eq_true_eq, Bool.not_eq_true'] at h
    exact h.imp id fun h => ⟨p.2 h.1, h.2⟩
  · refine ⟨⟨⟨?_, ?_⟩, fun h0 hp n hn => ?_⟩, fun _ => ?_⟩
    · show UpToDate (s.ev ++ [_]) = true
      rw [UpToDate_snoc]; exact p.1.1.1.1
    · show inHand (s.ev ++ [_]) = none
      rw [inHand_snoc]; exact p.1.1.1.2
    · rw [sinceCrash_snoc] at hn
      exact p.1.1.2 h0 (pos_snoc hp) n hn
    · show sinceCheck (s.ev ++ [_]) = 0
      rw [sinceCheck_snoc]
  have hR : Keeps cfg Lab.died (Ready cfg) := keeps_ready_died
  refine Walk.bind (((side_askUnit hR).mono side_iter).exc fun _ _ _ p => p.e2) fun _ => ?_
  refine Walk.ite (fun _ => ?_) fun _ => Walk.pure fun _ _ h => h
  refine Walk.bind (((side_askBool hR).mono side_iter).exc fun _ _ _ p => p.e2) fun b => ?_
  refine Walk.ite (fun _ => ?_) fun _ => Walk.pure fun _ _ h => h
  exact walk_checkpoint_ready fuel

/-- Any label. -/
def Lab.any (_ : Lab) : Prop := True

/-- Any label but that of the last stop signals. -/
def Lab.work : Lab → Prop
  | .farewell => False
  | _ => True

theorem iter_work : ∀ l, Lab.iter l → Lab.work l := by
  intro l h; cases l <;> first | exact trivial | exact absurd h id

theorem ckpt_work : ∀ l, Lab.ckpt l → Lab.work l := by
  intro l h; cases l <;> first | exact trivial | exact absurd h id

theorem side_work : ∀ l, Lab.side l → Lab.work l := by
  intro l h; cases l <;> first | exact trivial | exact absurd h id

theorem walk_mainLoop (fuel n : Nat) : Walk cfg Lab.work (Ready cfg) (mainLoop cfg fuel n)
    (fun _ s => Settled s ∧ Ev.loopEnd ∈ session s.ev ∧ s.converged = true) E2 := by
  induction n with
  | zero => exact Walk.pend
  | succ n ih =>
    simp only [mainLoop]
    refine Walk.bind (Q := fun a s => a = s ∧ Ready cfg s) (Walk.get fun s _ p => ⟨rfl, p⟩) fun a => ?_
    refine Walk.ite (fun hc => ?_) fun hc => Walk.bind (((walk_iteration fuel).mono iter_work).pre
      fun s _ p => ⟨p.2, by rw [← p.1]; simpa using hc⟩) fun _ => ih
    refine Walk.modify (fun s _ p => ⟨_, .loopEnd s (p.1 ▸ hc), trivial⟩) fun s _ p _ => ⟨⟨?_, ?_⟩, by simp [session_snoc], p.1 ▸ hc⟩
    · show UpToDate (s.ev ++ [_]) = true
      rw [UpToDate_snoc]; exact p.2.1.1.1
    · show inHand (s.ev ++ [_]) = none
      rw [inHand_snoc]; exact p.2.1.1.2

/-- Labels of `_stop_all_children`. -/
def Lab.closing : Lab → Prop
  | .ev (.died _) => True
  | .farewell => True
  | .quiet => True
  | .bury => True
  | _ => False

theorem died_closing : ∀ l, Lab.died l → Lab.closing l := by
  intro l h; cases l with
  | ev x => cases x <;> first | exact trivial | exact absurd h id
  | _ => exact absurd h id

theorem quiet_closing : ∀ l, Lab.isQuiet l → Lab.closing l := by
  intro l h; cases l <;> first | exact trivial | exact absurd h id

theorem closing_settled : Keeps cfg Lab.closing Settled :=
  (keeps_upToDate fun _ h => h).and (keeps_inHand _ (fun _ h => h) (fun _ h => h) fun _ h => h)

theorem closing_why (x : Exc) : Keeps cfg Lab.closing (Why x) := by
  intro lab s t st ha inv hr
  have hs : startedOf t.ev = startedOf s.ev ∧ inHand t.ev = inHand s.ev ∧ (∀ y ∈ s.ev, y ∈ t.ev) ∧ t.first = s.first := by
    cases st with
    | plain _ y hy => cases y <;> simp [Plain] at hy <;> exact absurd ha id
    | _ => first
      | exact absurd ha id
      | exact ⟨rfl, rfl, fun _ h => h, rfl⟩
      | exact ⟨by rw [startedOf_snoc], by rw [inHand_snoc], fun _ h => List.mem_append_left _ h, rfl⟩
  refine ⟨fun e => ?_, fun e => hs.2.2.1 _ (hr.2 e)⟩
  rw [hs.1, hs.2.1, hs.2.2.2]
  exact (hr.1 e).imp (fun ⟨h, i, hi⟩ => ⟨h, i, hs.2.2.1 _ hi⟩) id

theorem closing_e2 (x : Exc) : Keeps cfg Lab.closing (E2 x) := by
  have h1 : Keeps cfg Lab.closing (fun s => s.crashed = true) := by
    intro lab s t st ha inv hr
    cases st with
    | report => exact absurd ha id
    | _ => exact hr
  intro lab s t st ha inv hr
  exact ⟨fun e => h1 _ _ _ st ha inv (hr.1 e), fun e => keeps_idle (fun _ _ h => h) (fun _ _ h => h) (fun h => h) _ _ _ st ha inv (hr.2.1 e),
    closing_why x _ _ _ st ha inv hr.2.2⟩

/-- Exceptions of `_stop_all_children`. -/
def ET (x : Exc) (s : State) : Prop := (x ≠ .crashLoop ∧ x ≠ .notEnoughSlots) ∧ Why x s

theorem et_env {x : Err} {s : State} : ET (.env x) s := ⟨by simp, why_env⟩

theorem closing_askUnit : Walk cfg Lab.closing (fun _ => True) askUnit (fun _ _ => True) ET :=
  (walk_askUnit Keeps.triv fun x s _ => et_env).mono died_closing

theorem closing_isAlive (i : Nat) : Walk cfg Lab.closing (fun _ => True) (isAlive i) (fun _ _ => True) ET :=
  ((walk_isAlive Keeps.triv (fun x s _ => et_env) i).mono died_closing).post fun _ _ _ _ => trivial

theorem alive_key (inv : Inv cfg s) {j : Nat} (h : s.alive j = true) : j ∈ s.packs.map (·.1) := by
  simp only [State.alive, Bool.and_eq_true, decide_eq_true_eq, Bool.not_eq_true', decide_eq_false_iff_not] at h
  obtain ⟨p, hp, rfl⟩ := List.mem_map.mp ((inv.startedP j).mp h.1)
  have : p ∈ s.packs.filter fun p => s.alive p.1 := by
    rw [inv.living, List.mem_filter]
    exact ⟨hp, by simpa using fun hh => h.2 ((inv.dead _).mpr hh)⟩
  exact List.mem_map.mpr ⟨p, (List.mem_filter.mp this).1, rfl⟩

/-- If optimizer `i` is running, the present manager told it to stop. -/
def Told (i : Nat) (s : State) : Prop := s.alive i = true → Ev.stop i ∈ session s.ev

theorem keeps_notAlive {A : Lab → Prop} (i : Nat) (hA : ∀ i w, ¬ A (.ev (.started i w)))
    (hB : ∀ i w, ¬ A (.ev (.restarted i w))) : Keeps cfg A (fun s => s.alive i = false) := by
  intro lab s t st ha inv hr
  cases st with
  | die _ j h =>
    simp only [State.alive, Bool.and_eq_false_iff, decide_eq_false_iff_not, Bool.not_eq_false', decide_eq_true_eq] at hr ⊢
    exact hr.imp id fun h => List.mem_cons_of_mem _ h
  | start _ i w => exact absurd ha (hA i w)
  | restart _ _ _ i w => exact absurd ha (hB i w)
  | _ => exact hr

theorem keeps_told {A : Lab → Prop} (i : Nat) (hA : ∀ i w, ¬ A (.ev (.started i w)))
    (hB : ∀ i w, ¬ A (.ev (.restarted i w))) : Keeps cfg A (Told i) := by
  intro lab s t st ha inv hr h
  have : s.alive i = true := by
    cases h' : s.alive i with
    | true => rfl
    | false => rw [keeps_notAlive i hA hB _ _ _ st ha inv h'] at h; cases h
  exact keeps_session (A := A) _ _ _ _ st ha inv (hr this)

theorem closing_told (i : Nat) : Keeps cfg Lab.closing (Told i) := keeps_told i (fun _ _ h => h) fun _ _ h => h

/-- Exceptions from outside. -/
def EE (x : Exc) (_ : State) : Prop := ∃ y, x = .env y

theorem closing_stopLoop (ids : List Nat) : Walk cfg Lab.closing (fun _ => True) (stopLoop ids)
    (fun _ s => ∀ i ∈ ids, Told i s) EE := by
  induction ids with
  | nil => exact Walk.pure fun _ _ h i hi => by cases hi
  | cons i t ih =>
    simp only [stopLoop]
    have ih' := (ih.frame (closing_told (cfg := cfg) i)).exc fun _ _ _ p => p.1
    have al := (walk_isAlive (cfg := cfg) (E := EE) Keeps.triv (fun x s _ => ⟨x, rfl⟩) i).mono died_closing
    refine Walk.bind al fun al => ?_
    refine Walk.ite (fun ha => ?_) fun ha => ?_
    · refine Walk.bind (Q := fun _ s => Told i s) (Walk.modify (fun s _ _ => ⟨_, .farewell s i, trivial⟩)
        fun _ _ _ _ _ => by simp [session_snoc]) fun _ => ?_
      refine ih'.conseq (fun s _ p => ⟨trivial, p⟩) (fun _ s _ p j hj => ?_) fun _ _ _ p => p
      rcases List.mem_cons.mp hj with rfl | hj
      · exact p.2
      · exact p.1 j hj
    · refine ih'.conseq (fun s _ p => ⟨trivial, fun h => absurd (p.2.trans h) ha⟩) (fun _ s _ p j hj => ?_) fun _ _ _ p => p
      rcases List.mem_cons.mp hj with rfl | hj
      · exact p.2
      · exact p.1 j hj

theorem closing_added (i : Nat) : Keeps cfg Lab.closing (fun s => i ∈ added s.ops) := keeps_added i

theorem closing_putEnd (i : Nat) (why : String) :
    Walk cfg Lab.closing (fun s => i ∈ added s.ops) (putEnd i why) (fun _ _ => True) ET := by
  have h : ∀ k v, k ≠ "opt_type" → Walk cfg Lab.closing (fun s => i ∈ added s.ops) (logOp (.putMeta i k v)) (fun _ s => i ∈ added s.ops) ET := fun k v hkv =>
    (walk_note (fun _ _ => .inl ⟨_, _, _, rfl⟩) (by simp [hkv]) (keeps_added i) fun s inv hr h1 _ _ l ops =>
      ⟨⟨by simp, by simp⟩, fun _ => .inl (inv.gone hr (h1 i k v rfl)), by simp⟩).mono quiet_closing
  exact Walk.bind (h _ _ (by simp)) fun _ => (h _ _ (by simp)).post fun _ _ _ _ => trivial

theorem walk_stopRecord (why : String) (i : Nat) :
    Walk cfg Lab.closing (fun s => i ∈ added s.ops) (stopRecord why i) (fun _ _ => True) ET := by
  unfold stopRecord
  refine Walk.bind (Q := fun _ s => i ∈ added s.ops) (Walk.get fun s _ p => p) fun a => ?_
  dsimp only
  have tail : Walk cfg Lab.closing (fun _ => True) (do
      let al ← isAlive i
      if al = true then askUnit else pure ()) (fun _ _ => True) ET :=
    Walk.bind (closing_isAlive i) fun _ => Walk.ite (fun _ => closing_askUnit) fun _ => Walk.pure fun _ _ _ => trivial
  have rec' : Walk cfg Lab.closing (fun s => i ∈ added s.ops) (do
      M.modify fun s => { s with graveyard := addTo s.graveyard i }
      putEnd i why
      let al ← isAlive i
      if al = true then askUnit else pure ()) (fun _ _ => True) ET := by
    refine Walk.bind (Q := fun _ s => i ∈ added s.ops) (Walk.modify (fun s _ _ => ⟨_, .bury s i, trivial⟩) fun _ _ h _ => h) fun _ => ?_
    exact Walk.bind (closing_putEnd i why) fun _ => tail
  cases a.log.getMetadata i "end_cond" <;> cases a.log.getMetadata i "t_stop"
  · exact rec'
  · exact rec'
  · exact rec'
  · exact tail.pre fun _ _ _ => trivial

/-- What `_stop_all_children` does after the signals. -/
def afterStop (why : String) (ids : List Nat) : M Unit := do
  M.tryCatch askUnit fun x => if x.isException = true then some (pure ()) else none
  M.forEach ids (stopRecord why)

theorem walk_afterStop (why : String) (ids : List Nat) :
    Walk cfg Lab.closing (fun s => ∀ i ∈ ids, i ∈ added s.ops) (afterStop why ids) (fun _ _ => True) ET := by
  have hk : Keeps cfg Lab.closing (fun s => ∀ i ∈ ids, i ∈ added s.ops) := keeps_all fun i => closing_added i
  refine Walk.bind (Q := fun _ s => ∀ i ∈ ids, i ∈ added s.ops) ((Walk.tryCatch closing_askUnit (fun x k hx => ?_) fun _ _ _ _ h => h).frame hk |>.conseq
    (fun _ _ p => ⟨trivial, p⟩) (fun _ _ _ p => p.2) fun _ _ _ p => p.1) fun _ => ?_
  · split at hx
    · cases hx; exact Walk.pure fun _ _ _ => trivial
    · cases hx
  exact (Walk.forEach fun i hi => ((walk_stopRecord why i).frame hk).conseq (fun s _ p => ⟨p i hi, p⟩) (fun _ _ _ p => p.2)
    fun _ _ _ p => p.1).post fun _ _ _ _ => trivial

theorem walk_stopAllChildren (why : String) :
    Walk cfg Lab.closing (fun _ => True) (stopAllChildren why) (fun _ _ => True) ET := by
  refine Walk.bind (Q := fun a s => ∀ i ∈ a.packs.map (·.1), i ∈ added s.ops) (Walk.get fun s inv p => inv.keys) fun a => ?_
  refine Walk.bind (Q := fun _ s => ∀ i ∈ a.packs.map (·.1), i ∈ added s.ops) ((Walk.tryCatch (P := fun _ => True) (Q := fun _ _ => True)
    (E := ET) ((closing_stopLoop _).post fun _ _ _ _ => trivial) (fun x k hx => ?_) fun x _ s _ h => ?_).frame
    (keeps_all fun i => closing_added i) |>.conseq (fun _ _ p => ⟨trivial, p⟩) (fun _ _ _ p => p.2) fun _ _ _ p => p.1) fun _ => walk_afterStop why _
  · split at hx
    · cases hx; exact Walk.pure fun _ _ _ => trivial
    · cases hx
  · obtain ⟨y, rfl⟩ := h; exact et_env

/-- Without exceptions from outside every running optimizer was told to stop. -/
theorem stopAll_told (why : String) {s : State} {e : Env} (i : Inv cfg s) (h0 : raisesOf e = 0)
    (hp : (stopAllChildren why s e).1 ≠ .pending) : ∀ j, Told j (stopAllChildren why s e).2.1 := by
  intro j
  have W := walk_stopAllChildren (cfg := cfg) why s e i trivial
  by_cases hj : s.alive j = true
  · have hk : j ∈ s.packs.map (·.1) := alive_key i hj
    obtain ⟨h1, h2, h3, h4⟩ := closing_stopLoop (cfg := cfg) (s.packs.map (·.1)) s e i trivial
    have eq : stopAllChildren why s e = M.bind (M.tryCatch (stopLoop (s.packs.map (·.1))) fun x =>
        if x.isException = true then some (pure ()) else none) (fun _ => afterStop why (s.packs.map (·.1))) s e := rfl
    rw [eq] at hp ⊢
    unfold M.bind M.tryCatch at hp ⊢
    generalize stopLoop (s.packs.map (·.1)) s e = r at h1 h2 h3 h4 hp
    obtain ⟨o, s', e'⟩ := r
    cases o with
    | ok u =>
      have W := walk_afterStop (cfg := cfg) why (s.packs.map (·.1)) s' e' (h1.inv i)
        ((keeps_all fun i => closing_added i).steps h1 i i.keys)
      exact (closing_told j).steps W.1 (h1.inv i) (h2 u rfl j hk)
    | pending => exact absurd rfl hp
    | raised x =>
      obtain ⟨y, rfl⟩ := h3 x rfl
      exact absurd (h4.2 y rfl) (by omega)
  · have hj : s.alive j = false := by simpa using hj
    intro h
    rw [(keeps_notAlive (cfg := cfg) (A := Lab.closing) j (fun _ _ h => h) fun _ _ h => h).steps W.1 i hj] at h
    cases h

theorem bind_assoc' {α β γ : Type} (m : M α) (f : α → M β) (g : β → M γ) :
    M.bind (M.bind m f) g = M.bind m fun a => M.bind (f a) g := by
  funext s e
  unfold M.bind
  generalize m s e = r
  obtain ⟨o, s', e'⟩ := r
  cases o <;> rfl

/-- The optimizers `rem` are still to be started anew. -/
def Launch (cfg : Cfg) (rem : List (Nat × Int)) (s : State) : Prop :=
  (Ready cfg s ∧ s.converged = false) ∧ (∃ a, s.packs = a ++ rem) ∧ (∀ p ∈ rem, p.1 ∉ s.startedP) ∧
  (∀ p ∈ rem, (∃ k c, Ev.asked k (.chosen p.2 c) ∈ s.ev) ∨ 1 ≤ p.2) ∧
  (rem ≠ [] → SelectorFits s.ev → load s.ev + (rem.map (·.2)).sum ≤ cfg.maxJobs)

theorem keeps_launch (rem : List (Nat × Int)) : Keeps cfg Lab.died (Launch cfg rem) := by
  intro lab s t st ha inv hr
  obtain ⟨⟨h1, h2⟩, h3, h4, h5, h6⟩ := hr
  have hR := keeps_ready_died lab s t st ha inv h1
  cases st with
  | die _ i hi =>
    refine ⟨⟨hR, h2⟩, h3, h4, fun p hp => (h5 p hp).imp (fun ⟨k, c, h⟩ => ⟨k, c, List.mem_append_left _ h⟩) id, ?_⟩
    intro hn hf
    have := load_died inv (fits_snoc hf) i
    have := h6 hn (fits_snoc hf)
    show load (s.ev ++ [_]) + _ ≤ _
    omega
  | plain _ x hx => cases x <;> simp [Plain] at hx <;> exact absurd ha id
  | _ => exact absurd ha id

theorem ready_snoc {s t : State} {x : Ev} (h : Ready cfg s) (he : t.ev = s.ev ++ [x]) (h1 : t.lastSpawn = s.lastSpawn)
    (h2 : t.fCounter = s.fCounter) (h3 : t.oCounter = s.oCounter) (hu : UpToDate t.ev = UpToDate s.ev)
    (hi : inHand t.ev = inHand s.ev) (hc : sinceCrash t.ev = sinceCrash s.ev)
    (hs : ckptFree t.ev = true → sinceCheck t.ev = 0) : Ready cfg t := by
  refine ⟨⟨⟨hu.trans h.1.1.1, hi.trans h.1.1.2⟩, fun h0 hp n hn => ?_⟩, hs⟩
  rw [h1, h2, h3]
  exact h.1.2 h0 (pos_snoc (he ▸ hp)) n (hc ▸ hn)

theorem walk_restartLoop (rem : List (Nat × Int)) : Walk cfg Lab.work (Launch cfg rem) (restartLoop rem)
    (fun _ s => Ready cfg s ∧ ∀ p ∈ rem, Ev.restarted p.1 p.2 ∈ session s.ev) E2 := by
  induction rem with
  | nil => exact Walk.pure fun _ _ h => ⟨h.1.1, fun p hp => by cases hp⟩
  | cons p t ih =>
    obtain ⟨i, w⟩ := p
    simp only [restartLoop]
    refine Walk.bind (((side_askUnit (keeps_launch _)).mono side_work).exc fun _ _ _ p => p.e2) fun _ => ?_
    have hload : ∀ s, Inv cfg s → Launch cfg ((i, w) :: t) s → SelectorFits s.ev →
        load s.ev + (w + (t.map (·.2)).sum) ≤ cfg.maxJobs ∧ 0 ≤ (t.map (·.2)).sum := by
      intro s inv h hf
      have hl := h.2.2.2.2 (by simp) hf
      have hn : ∀ p ∈ t, 0 ≤ p.2 := fun p hp => by
        rcases h.2.2.2.1 p (List.mem_cons_of_mem _ hp) with ⟨k, c, hh⟩ | hh
        · exact (hf k p.2 c hh).1
        · omega
      have h0 := sum_filter_le t (fun _ => false) hn
      simp only [List.filter_false, List.map_nil, List.sum_nil] at h0
      simp only [List.map_cons, List.sum_cons] at hl
      exact ⟨hl, h0⟩
    refine Walk.bind (Q := fun _ s => Launch cfg t s ∧ Ev.restarted i w ∈ session s.ev)
      (Walk.modify (fun s inv h => ?_) fun s inv h _ => ⟨?_, by simp [session_snoc]⟩) fun _ =>
      (ih.frame (keeps_session _)).conseq (fun _ _ p => p) (fun _ s _ p => ⟨p.1.1, fun q hq => ?_⟩) fun _ _ _ p => p.1
    · obtain ⟨a, ha⟩ := h.2.1
      refine ⟨_, .restart s a t i w ha (h.2.2.1 _ List.mem_cons_self) (fun p hp => h.2.2.1 p (List.mem_cons_of_mem _ hp))
        (h.2.2.2.1 _ List.mem_cons_self) (fun hf => ?_) h.1.2, trivial⟩
      have := hload s inv h hf
      omega
    · obtain ⟨a, ha⟩ := h.2.1
      have hi : i ∉ s.startedP := h.2.2.1 _ List.mem_cons_self
      have hnd : (s.packs.map (·.1)).Nodup := inv.nodup
      refine ⟨⟨ready_snoc (s := s) h.1.1 rfl rfl rfl rfl (by rw [UpToDate_snoc]) (by rw [inHand_snoc])
        (by rw [sinceCrash_snoc]) (fun hc => ?_), h.1.2⟩, ⟨a ++ [(i, w)], by simp [ha]⟩, fun p hp => ?_, fun p hp => ?_, fun _ hf => ?_⟩
      · rw [sinceCheck_snoc]; exact h.1.1.2 (free_snoc hc)
      · simp only [List.mem_cons, not_or]
        refine ⟨fun e => ?_, h.2.2.1 p (List.mem_cons_of_mem _ hp)⟩
        rw [ha, List.map_append, List.map_cons] at hnd
        have := (List.nodup_append.mp hnd).2.1
        exact (List.nodup_cons.mp this).1 (List.mem_map.mpr ⟨p, hp, e⟩)
      · exact (h.2.2.2.1 p (List.mem_cons_of_mem _ hp)).imp (fun ⟨k, c, hh⟩ => ⟨k, c, List.mem_append_left _ hh⟩) id
      · have hl := (hload s inv h (fits_snoc hf)).1
        have hd : i ∉ diedOf s.ev := fun hd => hi (inv.deadStarted i ((inv.dead i).mpr hd))
        have e : load (s.ev ++ [Ev.restarted i w]) = load s.ev + w := by
          simp [load, startedOf_snoc, diedOf_snoc, List.filter_append, hd]
        show load (s.ev ++ [Ev.restarted i w]) + _ ≤ _
        rw [e]; omega
    · rcases List.mem_cons.mp hq with rfl | hq
      · exact p.2
      · exact p.1.2 q hq

/-- The loop of `start_manager` with what precedes it. -/
def loopPart (cfg : Cfg) (fuel : Nat) : M Unit :=
  M.bind askUnit fun _ => M.bind M.get fun s =>
    M.bind (if s.restart = true then restartLoop s.packs else pure ()) fun _ => mainLoop cfg fuel fuel

theorem walk_tryBlock (fuel : Nat) : Walk cfg Lab.any (fun s => Launch cfg s.packs s) (tryBlock cfg fuel)
    (fun _ s => Settled s ∧ Ev.loopEnd ∈ session s.ev ∧ s.converged = true) E2 ∧ (∀ s e, Inv cfg s → Launch cfg s.packs s → raisesOf e = 0 →
      (tryBlock cfg fuel s e).1 = .ok () → ∀ j, Told j (tryBlock cfg fuel s e).2.1) ∧
      ∀ s e, Inv cfg s → Launch cfg s.packs s →
        ∃ m, Steps cfg Lab.work s m ∧ Steps cfg Lab.closing m (tryBlock cfg fuel s e).2.1 := by
  have hU : Keeps cfg Lab.died (fun s => Launch cfg s.packs s) := by
    intro lab s t st ha inv hr
    have := keeps_launch s.packs lab s t st ha inv hr
    cases st with
    | die _ i hi => exact this
    | plain _ x hx => cases x <;> simp [Plain] at hx <;> exact absurd ha id
    | _ => exact absurd ha id
  have fin : Walk cfg Lab.any (fun s => Settled s ∧ Ev.loopEnd ∈ session s.ev ∧ s.converged = true) (stopAllChildren "GloMPO Convergence")
      (fun _ s => Settled s ∧ Ev.loopEnd ∈ session s.ev ∧ s.converged = true) E2 :=
    (((walk_stopAllChildren _).frame (closing_settled.and ((keeps_session _).and (keeps_converged (fun _ h => h) fun h => h)))).mono fun _ _ => trivial).conseq
      (fun _ _ p => ⟨trivial, p⟩) (fun _ _ _ p => p.2) fun x s _ p => ⟨fun e => absurd e p.1.1.1, fun e => absurd e p.1.1.2, p.1.2⟩
  have head : Walk cfg Lab.work (fun s => Launch cfg s.packs s) (loopPart cfg fuel)
      (fun _ s => Settled s ∧ Ev.loopEnd ∈ session s.ev ∧ s.converged = true) E2 := by
    refine Walk.bind (((side_askUnit hU).mono side_work).exc fun _ _ _ p => p.e2) fun _ => ?_
    refine Walk.bind (Q := fun a s => Launch cfg a.packs s) (Walk.get fun s _ p => p) fun a => ?_
    refine Walk.bind (Q := fun _ => Ready cfg) ?_ fun _ => walk_mainLoop fuel fuel
    exact Walk.ite (fun _ => (walk_restartLoop _).conseq (fun _ _ p => p) (fun _ _ _ p => p.1) fun _ _ _ p => p)
      fun _ => Walk.pure fun _ _ h => h.1.1
  have ck : Walk cfg Lab.work (fun s => Settled s ∧ Ev.loopEnd ∈ session s.ev ∧ s.converged = true) (checkpoint cfg fuel)
      (fun _ s => Settled s ∧ Ev.loopEnd ∈ session s.ev ∧ s.converged = true) E2 :=
    (((walk_checkpoint fuel).frame ((keeps_session _).and (keeps_converged (fun _ h => h) fun h => h))).mono ckpt_work).conseq
      (fun _ _ p => p) (fun _ _ _ p => ⟨p.1.2, p.2⟩) fun x s _ p => p.1.e2
  have split : ∀ {α : Type} (m : M α) (P : State → Prop) (Q : α → State → Prop), Walk cfg Lab.work P m Q E2 →
      ∀ s e, Inv cfg s → P s → ∃ s', Steps cfg Lab.work s s' ∧
        Steps cfg Lab.closing s' (M.bind m (fun _ => stopAllChildren "GloMPO Convergence") s e).2.1 := by
    intro α m P Q hm s e i p
    obtain ⟨h1, -, -, -⟩ := hm s e i p
    unfold M.bind
    generalize m s e = r at h1
    obtain ⟨o, s', e'⟩ := r
    refine ⟨s', h1, ?_⟩
    cases o with
    | ok u => exact (walk_stopAllChildren _ s' e' (h1.inv i) trivial).1
    | pending => exact .refl _
    | raised x => exact .refl _
  have told : ∀ {α : Type} (m : M α) (P : State → Prop) (Q : α → State → Prop), Walk cfg Lab.work P m Q E2 →
      ∀ s e, Inv cfg s → P s → raisesOf e = 0 →
      (M.bind m (fun _ => stopAllChildren "GloMPO Convergence") s e).1 = .ok () →
      ∀ j, Told j (M.bind m (fun _ => stopAllChildren "GloMPO Convergence") s e).2.1 := by
    intro α m P Q hm s e i p h0 hok j
    obtain ⟨h1, h2, h3, h4⟩ := hm s e i p
    unfold M.bind at hok ⊢
    generalize m s e = r at h1 h2 h3 h4 hok
    obtain ⟨o, s', e'⟩ := r
    cases o with
    | ok u =>
      refine stopAll_told _ (h1.inv i) ?_ ?_ j
      · have : raisesOf e' ≤ raisesOf e := raisesOf_suffix h4.1
        omega
      · simp only [] at hok; rw [hok]; simp
    | pending => cases hok
    | raised x => cases hok
  by_cases hc : cfg.checkpointing = true ∧ cfg.checkpointAtConv = true
  · have eq : tryBlock cfg fuel = M.bind (M.bind (loopPart cfg fuel) fun _ =>
        checkpoint cfg fuel) fun _ => stopAllChildren "GloMPO Convergence" := by
      unfold loopPart
      rw [bind_assoc', bind_assoc']
      simp only [tryBlock, hc, and_self, if_true]
      refine congrArg (M.bind askUnit) (funext fun _ => ?_)
      rw [bind_assoc']
      refine congrArg (M.bind M.get) (funext fun a => ?_)
      rw [bind_assoc']
      split <;> rfl
    rw [eq]
    have w1 := Walk.bind head fun _ => ck
    exact ⟨Walk.bind (w1.mono fun _ _ => trivial) fun _ => fin, told _ _ _ w1, split _ _ _ w1⟩
  · have eq : tryBlock cfg fuel = M.bind (loopPart cfg fuel)
        fun _ => stopAllChildren "GloMPO Convergence" := by
      unfold loopPart
      rw [bind_assoc']
      simp only [tryBlock, hc, if_false]
      refine congrArg (M.bind askUnit) (funext fun _ => ?_)
      rw [bind_assoc']
      refine congrArg (M.bind M.get) (funext fun a => ?_)
      rw [bind_assoc']
      split <;> rfl
    rw [eq]
    exact ⟨Walk.bind (head.mono fun _ _ => trivial) fun _ => fin, told _ _ _ head, split _ _ _ head⟩

/-- What is known at the end of a run. -/
def Ending : Option Reason → State → Prop
  | none, _ => True
  | some .notStarted, _ => False
  | some .escaped, s => startedOf s.ev = []
  | some .metBefore, s => startedOf s.ev = [] ∧
      (lastCheck s.ev = some true ∨ s.packs = [] ∧ ∃ k, Ev.asked k .stop ∈ s.ev)
  | some .regular, s => Settled s ∧ Ev.loopEnd ∈ session s.ev ∧ s.converged = true
  | some .userInterrupt, _ => True
  | some (.crash x), s => E2 x s

/-- What `start_manager` needs. -/
def Waiting (cfg : Cfg) (s : State) : Prop := Launch cfg s.packs s ∧ lastCheck s.ev = none ∧ s.startedP = []

theorem keeps_waiting : Keeps cfg Lab.died (Waiting cfg) := by
  intro lab s t st ha inv hr
  have := keeps_launch s.packs lab s t st ha inv hr.1
  cases st with
  | die _ i hi =>
    refine ⟨this, ?_, hr.2.2⟩
    show lastCheck (s.ev ++ [_]) = none
    rw [lastCheck_snoc]; exact hr.2.1
  | plain _ x hx => cases x <;> simp [Plain] at hx <;> exact absurd ha id
  | _ => exact absurd ha id

theorem unasked_of_lastCheck {ev : List Ev} (h : lastCheck ev = none) : Unasked ev := by
  intro p q e hr _ _ b hb
  have key : ∀ q, (∀ c n, Ev.resumed c n ∉ q) → ∀ b, Ev.checked b ∈ q → ∃ b', lastCheck (p ++ q) = some b' := by
    refine snoc_induction (fun _ b hb => by cases hb) fun l x ih hr b hb => ?_
    rw [← List.append_assoc, lastCheck_snoc]
    have ih := ih fun c n hh => hr c n (List.mem_append_left _ hh)
    cases x with
    | checked b' => exact ⟨b', rfl⟩
    | resumed c n => exact absurd (by simp) (hr c n)
    | _ =>
      refine ih b ?_
      rcases List.mem_append.mp hb with hb | hb
      · exact hb
      · simp at hb
  obtain ⟨b', hb'⟩ := key q hr b hb
  rw [← e, h] at hb'
  cases hb'

theorem Start.waiting {s : State} (h : Start cfg s) : Waiting cfg s := by
  have hst : startedOf s.ev = [] := by
    cases hl : startedOf s.ev with
    | nil => rfl
    | cons p t =>
      have := (h.inv.startedP p.1).mpr (by rw [hl]; simp)
      rw [h.none_started] at this; cases this
  refine ⟨⟨⟨⟨⟨⟨h.upToDate, h.hand⟩, h.crash⟩, h.since⟩, h.conv⟩, ⟨[], rfl⟩, fun p _ => by simp [h.none_started], h.slots,
    fun hn hf => ?_⟩, h.check, h.none_started⟩
  have := h.fits hn hf
  simp only [load, hst, List.filter_nil, List.map_nil, List.sum_nil]
  omega

/-- Every moment of every run is reached by atomic changes from the start; how runs end; and who was told to stop. -/
theorem startManager_spec (fuel : Nat) {sI : State} (hI : Start cfg sI) (e : Env) :
    Steps cfg Lab.any sI (startManager cfg fuel sI e).2.1 ∧
    Ending (startManager cfg fuel sI e).1 (startManager cfg fuel sI e).2.1 ∧
    ∀ r, (startManager cfg fuel sI e).1 = some r → r ≠ .metBefore →
      (raisesOf e = 0 ∨ raisesOf e ≤ 1 ∧ (r = .userInterrupt ∨ ∃ x, r = .crash (.env x))) →
      ∀ j, Told j (startManager cfg fuel sI e).2.1 := by
  have i0 := hI.inv
  obtain ⟨h1, h2, h3, h4⟩ := walk_askBool (E := fun x s => Waiting cfg s) keeps_waiting (fun x _ h => h) sI e i0 hI.waiting
  have h1 := h1.mono (B := Lab.any) fun _ _ => trivial
  unfold startManager
  generalize askBool sI e = r at h1 h2 h3 h4
  obtain ⟨o, s0, e1⟩ := r
  have key : ∀ s1, Launch cfg s1.packs s1 → Steps cfg Lab.any sI s1 →
      ∀ out, out = afterCheck cfg fuel s1 e1 →
      Steps cfg Lab.any sI out.2.1 ∧ Ending out.1 out.2.1 ∧
      ∀ r, out.1 = some r → r ≠ .metBefore →
        (raisesOf e = 0 ∨ raisesOf e ≤ 1 ∧ (r = .userInterrupt ∨ ∃ x, r = .crash (.env x))) → ∀ j, Told j out.2.1 := by
    intro s1 hu hs out hout
    unfold afterCheck at hout
    obtain ⟨W, T, -⟩ := walk_tryBlock (cfg := cfg) fuel
    have T := T s1 e1 (hs.inv i0) hu
    obtain ⟨g1, g2, g3, g4⟩ := W s1 e1 (hs.inv i0) hu
    have g1 := hs.trans g1
    have hr1 : raisesOf e1 ≤ raisesOf e := raisesOf_suffix h4.1
    generalize tryBlock cfg fuel s1 e1 = r at g1 g2 g3 g4 T hout
    obtain ⟨o, s2, e2⟩ := r
    cases o with
    | ok u =>
      subst hout
      refine ⟨g1, g2 u rfl, fun r hr _ hc j => ?_⟩
      cases hr
      refine T ?_ rfl j
      rcases hc with h | ⟨-, h | ⟨x, h⟩⟩
      · omega
      · cases h
      · cases h
    | pending => subst hout; exact ⟨g1, trivial, fun r hr => by cases hr⟩
    | raised x =>
      simp only [] at hout
      have i2 := g1.inv i0
      have w : ∀ why, Steps cfg Lab.any sI (stopAllChildren why s2 e2).2.1 := fun why =>
        g1.trans ((walk_stopAllChildren why s2 e2 i2 trivial).1.mono fun _ _ => trivial)
      have we : ∀ why, E2 x (stopAllChildren why s2 e2).2.1 := fun why =>
        (closing_e2 x).steps (walk_stopAllChildren why s2 e2 i2 trivial).1 i2 (g3 x rfl)
      have wt : ∀ why, (stopAllChildren why s2 e2).1 ≠ .pending → raisesOf e2 = 0 →
        ∀ j, Told j (stopAllChildren why s2 e2).2.1 := fun why hp h0 => stopAll_told why i2 h0 hp
      have hr2 : raisesOf e2 ≤ raisesOf e1 := raisesOf_suffix g4.1
      split at hout
      · have hw := w "GloMPO Crash"; have hwe := we "GloMPO Crash"; have hwt := wt "GloMPO Crash"
        have fin : ∀ s3 (e3 : Env), Steps cfg Lab.any sI s3 → E2 x s3 → (raisesOf e2 = 0 → ∀ j, Told j s3) →
            out = (some (.crash x), s3, e3) → Steps cfg Lab.any sI out.2.1 ∧ Ending out.1 out.2.1 ∧
            ∀ r, out.1 = some r → r ≠ .metBefore →
              (raisesOf e = 0 ∨ raisesOf e ≤ 1 ∧ (r = .userInterrupt ∨ ∃ x, r = .crash (.env x))) →
              ∀ j, Told j out.2.1 := by
          rintro s3 e3 a b c rfl
          refine ⟨a, b, fun r hr _ hc j => c ?_ j⟩
          cases hr
          rcases hc with h | ⟨h, h' | ⟨y, h'⟩⟩
          · omega
          · cases h'
          · cases h'
            have : raisesOf e2 < raisesOf e1 := g4.2 y rfl
            omega
        generalize stopAllChildren "GloMPO Crash" s2 e2 = r at hw hwe hwt hout
        obtain ⟨o, s3, e3⟩ := r
        cases o with
        | pending => subst hout; exact ⟨hw, trivial, fun r hr => by cases hr⟩
        | ok u => exact fin s3 e3 hw hwe (hwt (by simp)) hout
        | raised y => exact fin s3 e3 hw hwe (hwt (by simp)) hout
      · rename_i hx
        have hw := w "User Interrupt"; have hwt := wt "User Interrupt"
        have fin : ∀ s3 (e3 : Env), Steps cfg Lab.any sI s3 → (raisesOf e2 = 0 → ∀ j, Told j s3) →
            out = (some .userInterrupt, s3, e3) → Steps cfg Lab.any sI out.2.1 ∧ Ending out.1 out.2.1 ∧
            ∀ r, out.1 = some r → r ≠ .metBefore →
              (raisesOf e = 0 ∨ raisesOf e ≤ 1 ∧ (r = .userInterrupt ∨ ∃ x, r = .crash (.env x))) →
              ∀ j, Told j out.2.1 := by
          rintro s3 e3 a c rfl
          refine ⟨a, trivial, fun r hr _ hc j => c ?_ j⟩
          have : raisesOf e2 < raisesOf e1 := by
            cases x with
            | env y => exact g4.2 y rfl
            | _ => simp [Exc.isException] at hx
          rcases hc with h | ⟨h, h'⟩ <;> omega
        generalize stopAllChildren "User Interrupt" s2 e2 = r at hw hwt hout
        obtain ⟨o, s3, e3⟩ := r
        cases o with
        | pending => subst hout; exact ⟨hw, trivial, fun r hr => by cases hr⟩
        | ok u => exact fin s3 e3 hw (hwt (by simp)) hout
        | raised y => exact fin s3 e3 hw (hwt (by simp)) hout
  cases o with
  | pending => exact ⟨h1, trivial, fun r hr => by cases hr⟩
  | raised x =>
    obtain ⟨hr, hl, hn⟩ := h3 x rfl
    simp only []
    split
    · exact key { s0 with converged := false } ⟨⟨hr.1.1, rfl⟩, hr.2⟩ (h1.trans (.one (.setConverged s0 hl) trivial)) _ rfl
    · refine ⟨h1, ?_, fun r _ _ _ j hj => ?_⟩
      · show startedOf s0.ev = []
        cases hl' : startedOf s0.ev with
        | nil => rfl
        | cons p t =>
          have := ((h1.inv i0).startedP p.1).mpr (by rw [hl']; simp)
          rw [hn] at this; cases this
      · have hn' : s0.startedP = [] := hn
        simp [State.alive, hn'] at hj
  | ok b =>
    obtain ⟨hr, hl, hn⟩ := h2 b rfl
    have is0 := h1.inv i0
    simp only []
    split
    · rename_i hb
      have hd : b = true ∨ (s0.packs = [] ∧ s0.spawning = false) := by simpa using hb
      have hv : b = true ∨ (s0.livingSlots.length = 0 ∧ s0.spawning = false) :=
        hd.imp id fun h => ⟨by simp [State.livingSlots, h.1], h.2⟩
      refine ⟨h1.trans (.one (.verdict s0 b true ⟨hr.1.2, hr.1.1.1.1.1⟩ (unasked_of_lastCheck hl) (fun _ => rfl) fun _ => hv) trivial), ⟨?_, ?_⟩, fun r hr hne => ?_⟩
      · show startedOf (s0.ev ++ [_]) = []
        rw [startedOf_snoc]
        cases hl' : startedOf s0.ev with
        | nil => rfl
        | cons p t =>
          have := (is0.startedP p.1).mpr (by rw [hl']; simp)
          rw [hn] at this; cases this
      · show lastCheck (s0.ev ++ [_]) = some true ∨ s0.packs = [] ∧ ∃ k, Ev.asked k .stop ∈ s0.ev ++ [_]
        rcases hd with rfl | ⟨h, h'⟩
        · left; rw [lastCheck_snoc]
        · refine .inr ⟨h, ?_⟩
          have : ¬ ∀ k, Ev.asked k .stop ∉ s0.ev := fun hh => by rw [is0.spawn.mpr hh] at h'; cases h'
          exact Classical.byContradiction fun hc => this fun k hk => hc ⟨k, List.mem_append_left _ hk⟩
      · cases hr; exact absurd rfl hne
    · rename_i hb
      have hb : b = false := by
        cases b with
        | false => rfl
        | true => simp at hb
      subst hb
      refine key _ ?_ (h1.trans (.one (.verdict s0 false false ⟨hr.1.2, hr.1.1.1.1.1⟩ (unasked_of_lastCheck hl) (fun h => h) fun h => by cases h) trivial)) _ rfl
      refine ⟨⟨ready_snoc (s := s0) hr.1.1 rfl rfl rfl rfl (by rw [UpToDate_snoc]) (by rw [inHand_snoc])
        (by rw [sinceCrash_snoc]) fun _ => by rw [sinceCheck_snoc], rfl⟩, hr.2.1, hr.2.2.1, fun p hp =>
          (hr.2.2.2.1 p hp).imp (fun ⟨k, c, hh⟩ => ⟨k, c, List.mem_append_left _ hh⟩) id, fun hne hf => ?_⟩
      show load (s0.ev ++ [_]) + _ ≤ _
      rw [load_snoc (by simp) (by simp)]
      exact hr.2.2.2.2 hne (fits_snoc hf)

/-- Every run consists of work and, at the end, of what `_stop_all_children` does. -/
theorem startManager_split (fuel : Nat) {sI : State} (hI : Start cfg sI) (e : Env) :
    ∃ m, Steps cfg Lab.work sI m ∧ Steps cfg Lab.closing m (startManager cfg fuel sI e).2.1 := by
  have i0 := hI.inv
  obtain ⟨h1, h2, h3, -⟩ := walk_askBool (E := fun x s => Waiting cfg s) keeps_waiting (fun x _ h => h) sI e i0 hI.waiting
  have h1 := h1.mono (B := Lab.work) fun l h => side_work l (died_side l h)
  unfold startManager
  generalize askBool sI e = r at h1 h2 h3
  obtain ⟨o, s0, e1⟩ := r
  have key : ∀ s1, Launch cfg s1.packs s1 → Steps cfg Lab.work sI s1 →
      ∃ m, Steps cfg Lab.work sI m ∧ Steps cfg Lab.closing m (afterCheck cfg fuel s1 e1).2.1 := by
    intro s1 hu hs
    unfold afterCheck
    obtain ⟨-, -, S⟩ := walk_tryBlock (cfg := cfg) fuel
    obtain ⟨m, m1, m2⟩ := S s1 e1 (hs.inv i0) hu
    generalize tryBlock cfg fuel s1 e1 = r at m2
    obtain ⟨o, s2, e2⟩ := r
    have g := hs.trans m1
    have i2 := m2.inv (g.inv i0)
    have w : ∀ why, Steps cfg Lab.closing m (stopAllChildren why s2 e2).2.1 := fun why =>
      m2.trans (walk_stopAllChildren why s2 e2 i2 trivial).1
    refine ⟨m, g, ?_⟩
    cases o with
    | ok u => exact m2
    | pending => exact m2
    | raised x =>
      simp only []
      split
      · have hw := w "GloMPO Crash"
        generalize stopAllChildren "GloMPO Crash" s2 e2 = r at hw
        obtain ⟨o, s3, e3⟩ := r
        cases o <;> exact hw
      · have hw := w "User Interrupt"
        generalize stopAllChildren "User Interrupt" s2 e2 = r at hw
        obtain ⟨o, s3, e3⟩ := r
        cases o <;> exact hw
  cases o with
  | pending => exact ⟨_, h1, .refl _⟩
  | raised x =>
    obtain ⟨hr, hl, hn⟩ := h3 x rfl
    simp only []
    split
    · exact key { s0 with converged := false } ⟨⟨hr.1.1, rfl⟩, hr.2⟩ (h1.trans (.one (.setConverged s0 hl) trivial))
    · exact ⟨_, h1, .refl _⟩
  | ok b =>
    obtain ⟨hr, hl, hn⟩ := h2 b rfl
    simp only []
    split
    · rename_i hb
      have hd : b = true ∨ (s0.packs = [] ∧ s0.spawning = false) := by simpa using hb
      have hv : b = true ∨ (s0.livingSlots.length = 0 ∧ s0.spawning = false) :=
        hd.imp id fun h => ⟨by simp [State.livingSlots, h.1], h.2⟩
      exact ⟨_, h1.trans (.one (.verdict s0 b true ⟨hr.1.2, hr.1.1.1.1.1⟩ (unasked_of_lastCheck hl) (fun _ => rfl) fun _ => hv) trivial), .refl _⟩
    · rename_i hb
      have hb : b = false := by
        cases b with
        | false => rfl
        | true => simp at hb
      subst hb
      refine key _ ?_ (h1.trans (.one (.verdict s0 false false ⟨hr.1.2, hr.1.1.1.1.1⟩ (unasked_of_lastCheck hl) (fun h => h) fun h => by cases h) trivial))
      refine ⟨⟨ready_snoc (s := s0) hr.1.1 rfl rfl rfl rfl (by rw [UpToDate_snoc]) (by rw [inHand_snoc])
        (by rw [sinceCrash_snoc]) fun _ => by rw [sinceCheck_snoc], rfl⟩, hr.2.1, hr.2.2.1, fun p hp =>
          (hr.2.2.2.1 p hp).imp (fun ⟨k, c, hh⟩ => ⟨k, c, List.mem_append_left _ hh⟩) id, fun hne hf => ?_⟩
      show load (s0.ev ++ [_]) + _ ≤ _
      rw [load_snoc (by simp) (by simp)]
      exact hr.2.2.2.2 hne (fits_snoc hf)

theorem setup_disk (fuel : Nat) (e : Env) : Disk (checkpoint cfg fuel (init cfg) e).2.1 :=
  (walk_checkpoint (cfg := cfg) fuel (init cfg) e (inv_init cfg) ⟨rfl, rfl⟩).1.disk fun k hk => by cases hk

theorem start_init (cfg : Cfg) : Start cfg (init cfg) :=
  ⟨inv_init cfg, rfl, rfl, rfl, rfl, fun _ => rfl, fun _ _ n hn => (by cases hn), rfl, .inr rfl, fun p hp => (by cases hp),
    fun h => absurd rfl h⟩

/-- A checkpoint written by `setup` changes nothing that matters to `start_manager`. -/
theorem start_setup (fuel : Nat) (e e' : Env) {s : State} (h : checkpoint cfg fuel (init cfg) e = (.ok (), s, e')) :
    Start cfg s ∧ Disk s := by
  have keep : Keeps cfg Lab.ckpt (fun s => (s.startedP = [] ∧ s.packs = []) ∧ s.converged = false ∧ lastCheck s.ev = none) := by
    intro lab s t st ha inv hr
    obtain ⟨⟨h1, h2⟩, h3, h4⟩ := hr
    cases st with
    | addPack => exact absurd ha id
    | purge => exact absurd ha id
    | start => exact absurd ha id
    | restart => exact absurd ha id
    | verdict => exact absurd ha id
    | setConverged => exact ⟨⟨h1, h2⟩, rfl, h4⟩
    | plain _ x hx =>
      refine ⟨⟨h1, h2⟩, h3, ?_⟩
      show lastCheck (s.ev ++ [_]) = none
      rw [lastCheck_snoc]
      cases x <;> simp [Plain] at hx <;> exact h4
    | _ => first
      | exact ⟨⟨h1, h2⟩, h3, h4⟩
      | (refine ⟨⟨h1, h2⟩, h3, ?_⟩
         show lastCheck (s.ev ++ [_]) = none
         rw [lastCheck_snoc]; exact h4)
  have W := (walk_checkpoint (cfg := cfg) fuel).frame (keep.and ckpt_spawnOk) (init cfg) e (inv_init cfg)
    ⟨⟨rfl, rfl⟩, ⟨⟨rfl, rfl⟩, rfl, rfl⟩, fun _ _ n hn => by cases hn⟩
  rw [h] at W
  obtain ⟨w1, w2, -, -⟩ := W
  obtain ⟨⟨hf, hs⟩, ⟨⟨k1, k2⟩, k3, k4⟩, k5⟩ := w2 () rfl
  refine ⟨⟨w1.inv (inv_init cfg), k1, hs.1, hs.2, k4, fun h => ?_, k5, k3, .inr k2, fun p hp => ?_, fun h => absurd k2 h⟩,
    w1.disk fun k hk => by cases hk⟩
  · simp only [] at hf; rw [hf] at h; cases h
  · simp only [] at k2; rw [k2] at hp; cases hp

end Glompo.Manager
