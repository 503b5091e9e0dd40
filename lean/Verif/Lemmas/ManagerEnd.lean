import Verif.Lemmas.ManagerCkpt
import Verif.Spec.Ends
import Verif.Spec.Hunters
import Verif.Lemmas.Basic
import Mathlib.Data.List.TakeWhile

/-!
# What is recorded about the ends of optimizers

`Still m`: the piece `m` of the program starts, buries and forgets no optimizer and records no ending. `Safe b P m Q`: it keeps `Kept b`,
also if it does not end normally, and leads from `P` to `Q`. With `b` the claims about completeness are included.
-/

namespace Glompo.Manager

open M Glompo.Spec
open Glompo.Logger (Op)

theorem _root_.Glompo.Spec.TrueEnding.mono {ev ev' : List Ev} {i : Nat} {v : String} (h : TrueEnding ev i v) (hs : ∀ x ∈ ev, x ∈ ev') :
    TrueEnding ev' i v := by
  cases h with
  | killed a b h => exact .killed a b (hs _ h)
  | said _ h => exact .said _ (hs _ h)
  | silent h => exact .silent (hs _ h)
  | failed h => exact .failed (hs _ h)
  | forced h => exact .forced ⟨hs _ h.1, h.2.imp (hs _) fun ⟨k, h⟩ => ⟨k, hs _ h⟩⟩
  | over h => exact .over (hs _ h)

/-! ### The log -/

/-- Metadata of an optimizer. -/
def md (l : Logger) (i : Nat) : Option (List (String × String)) := (dictGet l.storage i).map (·.metadata)

/-- The endings in the log were written by the operations. -/
def Faith (l : Logger) (ops : List Op) : Prop := ∀ i m, md l i = some m →
  i ∈ added ops ∧ ∀ v, dictGet m "end_cond" = some v → v ∈ metaWrites ops i "end_cond"

theorem fromAdd_append {ops : List Op} {i : Nat} (h : i ∈ added ops) (l : List Op) : fromAdd (ops ++ l) i = fromAdd ops i ++ l := by
  induction ops with
  | nil => simp [added] at h
  | cons op t ih =>
    unfold fromAdd at ih ⊢
    simp only [List.cons_append, List.dropWhile_cons]
    cases op with
    | add j t' =>
      by_cases hj : j = i
      · simp [hj]
      · rw [if_pos (by simp [hj]), if_pos (by simp [hj])]
        have : i ∈ added t := by
          simp only [added, List.filterMap_cons, List.mem_cons] at h
          rcases h with h | h
          · exact absurd h.symm hj
          · exact h
        exact ih this
    | _ =>
      have : i ∈ added t := by simpa [added] using h
      exact ih this

theorem metaWrites_append {ops : List Op} {i : Nat} {k : String} (h : i ∈ added ops) (l : List Op) :
    ∃ w, metaWrites (ops ++ l) i k = metaWrites ops i k ++ w := by
  unfold metaWrites
  rw [fromAdd_append h, List.filterMap_append]
  exact ⟨_, rfl⟩

theorem metaWrites_mem {ops : List Op} {i : Nat} {v : String} (h : v ∈ metaWrites ops i "end_cond") :
    Op.putMeta i "end_cond" v ∈ ops := by
  unfold metaWrites at h
  obtain ⟨op, ho, hv⟩ := List.mem_filterMap.mp h
  have ho' : op ∈ ops := (List.dropWhile_sublist _).subset ho
  cases op with
  | putMeta j k w =>
    simp only at hv
    split at hv
    · rename_i hjk
      obtain ⟨rfl, rfl⟩ := hjk
      cases hv; exact ho'
    · cases hv
  | add j t =>
    simp only at hv
    split at hv
    · rename_i hjk; exact absurd hjk.2 (by decide)
    · cases hv
  | _ => simp at hv

theorem metaWrites_added {ops : List Op} {i : Nat} {k v : String} (h : v ∈ metaWrites ops i k) : i ∈ added ops := by
  unfold metaWrites at h
  obtain ⟨op, ho, -⟩ := List.mem_filterMap.mp h
  by_contra hn
  have : fromAdd ops i = [] := by
    unfold fromAdd
    rw [List.dropWhile_eq_nil_iff]
    intro x hx
    cases x with
    | add j t =>
      simp only [decide_eq_true_eq]
      rintro rfl
      exact hn (List.mem_filterMap.mpr ⟨_, hx, rfl⟩)
    | _ => rfl
  rw [this] at ho; cases ho

theorem metaWrites_grow {ops l : List Op} {i : Nat} {k v : String} (h : v ∈ metaWrites ops i k) : v ∈ metaWrites (ops ++ l) i k := by
  obtain ⟨w, hw⟩ := metaWrites_append (k := k) (metaWrites_added h) l
  rw [hw]; exact List.mem_append_left _ h

theorem metaWrites_put {ops : List Op} {i : Nat} {k v : String} (h : i ∈ added ops) : v ∈ metaWrites (ops ++ [.putMeta i k v]) i k := by
  unfold metaWrites
  rw [fromAdd_append h]
  simp

theorem added_grow {ops l : List Op} {i : Nat} (h : i ∈ added ops) : i ∈ added (ops ++ l) := by
  unfold added at h ⊢
  rw [List.filterMap_append]; exact List.mem_append_left _ h

theorem Faith.grow {l : Logger} {ops : List Op} (h : Faith l ops) (l' : List Op) : Faith l (ops ++ l') := fun i m hm =>
  ⟨added_grow (h i m hm).1, fun v hv => metaWrites_grow ((h i m hm).2 v hv)⟩

/-- Metadata not changed, or deleted. -/
theorem Faith.less {l l' : Logger} {ops : List Op} (h : Faith l ops) (hl : ∀ i m, md l' i = some m → md l i = some m) : Faith l' ops :=
  fun i m hm => h i m (hl i m hm)

theorem md_put (l : Logger) (r : IterRes) (i : Nat) : md (l.step (.put r)).1 i = md l i := by
  simp only [Logger.step, Logger.putIteration]
  split
  · rfl
  · have hs : ∀ b : BestIter, (l.putBest r b).storage = l.storage := fun b => by unfold Logger.putBest; dsimp only; split <;> split <;> rfl
    split
    · simp [md, hs]
    · rename_i st hst
      simp only [md, hs] at hst ⊢
      by_cases h : i = r.optId
      · subst h; simp [dictGet_set_self, hst]
      · simp [dictGet_set_ne _ _ h]

theorem md_addHist (l : Logger) (j : Nat) (hs : List String) (i : Nat) : md (l.step (.addHist j hs)).1 i = md l i := by
  simp only [Logger.step, Logger.addIterHistory]
  split
  · rfl
  · rename_i st hst
    simp only [md]
    by_cases h : i = j
    · subst h; simp [dictGet_set_self, hst]
    · simp [dictGet_set_ne _ _ h]

theorem md_putMsg (l : Logger) (j : Nat) (x : String) (i : Nat) : md (l.step (.putMsg j x)).1 i = md l i := by
  simp only [Logger.step, Logger.putMessage]
  split
  · rfl
  · rename_i st hst
    simp only [md]
    by_cases h : i = j
    · subst h; simp [dictGet_set_self, hst]
    · simp [dictGet_set_ne _ _ h]

theorem delKeys_less : ∀ (ks : List Nat) (st : List (Nat × Store)) (i : Nat) (x : Store),
    dictGet (Logger.delKeys st ks).1 i = some x → dictGet st i = some x
  | [], _, _, _, h => h
  | k :: ks, st, i, x, h => by
    unfold Logger.delKeys at h
    split at h
    · have := delKeys_less ks _ i x h
      by_cases hi : i = k
      · subst hi; simp at this
      · rwa [dictGet_del_ne _ hi] at this
    · exact h

theorem md_clear (l : Logger) (j : Option Nat) (i : Nat) (m : List (String × String)) (h : md (l.step (.clear j)).1 i = some m) : md l i = some m := by
  simp only [Logger.step, Logger.clearCache] at h
  split at h
  · exact h
  · simp only [md, Option.map_eq_some_iff] at h ⊢
    obtain ⟨x, hx, rfl⟩ := h
    exact ⟨x, delKeys_less _ _ _ _ hx, rfl⟩

theorem faith_step {l : Logger} {ops : List Op} (h : Faith l ops) (op : Op) : Faith (l.step op).1 (ops ++ [op]) := by
  cases op with
  | add j t =>
    intro i m hm
    simp only [Logger.step, Logger.addOptimizer, md] at hm
    by_cases hi : i = j
    · subst hi
      simp only [dictGet_set_self, Option.map_some, Option.some.injEq] at hm
      subst hm
      exact ⟨by simp [added], fun v hv => by simp [dictGet] at hv⟩
    · rw [dictGet_set_ne _ _ hi] at hm
      exact h.grow _ i m hm
  | addHist j hs => exact (h.grow _).less fun i m hm => by rwa [md_addHist] at hm
  | put r => exact (h.grow _).less fun i m hm => by rwa [md_put] at hm
  | clear j => exact (h.grow _).less fun i m hm => md_clear l j i m hm
  | putMsg j x => exact (h.grow _).less fun i m hm => by rwa [md_putMsg] at hm
  | putMeta j k w =>
    intro i m hm
    simp only [Logger.step, Logger.putMetadata] at hm
    split at hm
    · exact h.grow _ i m hm
    · rename_i st hst
      simp only [md] at hm
      by_cases hi : i = j
      · subst hi
        simp only [dictGet_set_self, Option.map_some, Option.some.injEq] at hm
        subst hm
        obtain ⟨ha, hv⟩ := h i st.metadata (by simp [md, hst])
        refine ⟨added_grow ha, fun v he => ?_⟩
        by_cases hk : "end_cond" = k
        · subst hk
          rw [dictGet_set_self] at he
          cases he
          exact metaWrites_put ha
        · rw [dictGet_set_ne _ _ hk] at he
          exact metaWrites_grow (hv v he)
      · rw [dictGet_set_ne _ _ hi] at hm
        exact h.grow _ i m hm

/-! ### Pieces which concern no ending -/

/-- The operation records an ending. -/
def IsEnd (op : Op) : Prop := ∃ i v, op = .putMeta i "end_cond" v

/-- Nothing of interest changed from `s` to `t`. -/
structure Hush (s t : State) : Prop where
  ev : ∃ l, t.ev = s.ev ++ l ∧ launchedOf l = []
  ops : ∃ l, t.ops = s.ops ++ l ∧ ∀ op ∈ l, ¬ IsEnd op
  packs : ∀ i ∈ s.packs.map (·.1), i ∈ t.packs.map (·.1)
  saved : t.saved = s.saved
  grave : t.graveyard = s.graveyard
  vict : t.victims = s.victims
  faith : Faith s.log s.ops → Faith t.log t.ops

theorem Hush.refl (s : State) : Hush s s := ⟨⟨[], by simp, rfl⟩, ⟨[], by simp, by simp⟩, fun _ h => h, rfl, rfl, rfl, id⟩

theorem launchedOf_append (l l' : List Ev) : launchedOf (l ++ l') = launchedOf l ++ launchedOf l' := List.filterMap_append ..

theorem Hush.trans {s t u : State} (h : Hush s t) (h' : Hush t u) : Hush s u := by
  obtain ⟨l, e1, e2⟩ := h.ev
  obtain ⟨l', e1', e2'⟩ := h'.ev
  obtain ⟨o, o1, o2⟩ := h.ops
  obtain ⟨o', o1', o2'⟩ := h'.ops
  refine ⟨⟨l ++ l', by rw [e1', e1, List.append_assoc], by rw [launchedOf_append, e2, e2', List.append_nil]⟩,
    ⟨o ++ o', by rw [o1', o1, List.append_assoc], fun op hop => (List.mem_append.mp hop).elim (o2 op) (o2' op)⟩,
    fun i hi => h'.packs i (h.packs i hi), h'.saved.trans h.saved, h'.grave.trans h.grave, h'.vict.trans h.vict,
    fun f => h'.faith (h.faith f)⟩

/-- No component raises a `ValueError`. -/
def Mild (e : Env) : Prop := ∀ o ∈ e, o.ans ≠ .raise .valueError

def Still {α : Type} (m : M α) : Prop := ∀ s e, Hush s (m s e).2.1 ∧ (Mild e → Mild (m s e).2.2) ∧
  ∀ x, (m s e).1 = .raised x → Mild e → x ≠ .env .valueError

section still
variable {α β : Type}

theorem Still.pure (a : α) : Still (Pure.pure a : M α) := fun s _ => ⟨Hush.refl s, id, fun x h => by cases h⟩
theorem Still.pend : Still (M.pend : M α) := fun s _ => ⟨Hush.refl s, id, fun x h => by cases h⟩
theorem Still.throw (x : Exc) (hx : x ≠ .env .valueError) : Still (M.throw x : M α) := fun s _ =>
  ⟨Hush.refl s, id, fun y h _ => by cases h; exact hx⟩
theorem Still.get : Still M.get := fun s _ => ⟨Hush.refl s, id, fun x h => by cases h⟩
theorem Still.modify {f : State → State} (h : ∀ s, Hush s (f s)) : Still (M.modify f) := fun s _ => ⟨h s, id, fun x h => by cases h⟩

theorem Still.bind {m : M α} {f : α → M β} (hm : Still m) (hf : ∀ a, Still (f a)) : Still (Bind.bind m f : M β) := by
  intro s e
  show Hush s (M.bind m f s e).2.1 ∧ (Mild e → Mild (M.bind m f s e).2.2) ∧ ∀ x, (M.bind m f s e).1 = .raised x → Mild e → x ≠ .env .valueError
  obtain ⟨h1, h2, h3⟩ := hm s e
  unfold M.bind
  generalize m s e = r at h1 h2 h3 ⊢
  obtain ⟨o, s', e'⟩ := r
  cases o with
  | ok a =>
    obtain ⟨k1, k2, k3⟩ := hf a s' e'
    exact ⟨h1.trans k1, fun c => k2 (h2 c), fun x hx c => k3 x hx (h2 c)⟩
  | raised x => exact ⟨h1, h2, fun y hy => h3 y (by cases hy; rfl)⟩
  | pending => exact ⟨h1, h2, fun y hy => by cases hy⟩

theorem Still.tryCatch {m : M α} {h : Exc → Option (M α)} (hm : Still m) (hh : ∀ x k, h x = some k → Still k) : Still (M.tryCatch m h) := by
  intro s e
  obtain ⟨h1, h2, h3⟩ := hm s e
  unfold M.tryCatch
  generalize m s e = r at h1 h2 h3 ⊢
  obtain ⟨o, s', e'⟩ := r
  cases o with
  | raised x =>
    simp only []
    cases hx : h x with
    | none => exact ⟨h1, h2, h3⟩
    | some k =>
      obtain ⟨k1, k2, k3⟩ := hh x k hx s' e'
      exact ⟨h1.trans k1, fun c => k2 (h2 c), fun x hx c => k3 x hx (h2 c)⟩
  | ok a => exact ⟨h1, h2, h3⟩
  | pending => exact ⟨h1, h2, h3⟩

theorem hush_die : ∀ (d : List Nat) (s : State), Hush s (die d s)
  | [], s => Hush.refl s
  | i :: t, s => by
    unfold die
    refine Hush.trans (t := if s.alive i then { s with dead := i :: s.dead, ev := s.ev ++ [.died i] } else s) ?_ (hush_die t _)
    split
    · exact ⟨⟨[.died i], rfl, rfl⟩, ⟨[], by simp, by simp⟩, fun _ h => h, rfl, rfl, rfl, id⟩
    · exact Hush.refl s

theorem still_observe : Still observe := by
  intro s e
  unfold observe
  cases e with
  | nil => exact ⟨Hush.refl s, id, fun x h => by cases h⟩
  | cons o t =>
    have hq := hush_die o.deaths s
    have hc : Mild (o :: t) → Mild t := fun c x hx => c x (List.mem_cons_of_mem _ hx)
    simp only []
    split
    · rename_i x hx
      refine ⟨hq, hc, fun y hy c => ?_⟩
      cases hy
      rintro h
      cases h
      exact c o List.mem_cons_self hx
    · exact ⟨hq, hc, fun y hy => by cases hy⟩

end still

/-- An event which is not a start. -/
theorem hush_ev (s : State) {x : Ev} (hx : launchedOf [x] = []) : Hush s { s with ev := s.ev ++ [x] } :=
  ⟨⟨[x], rfl, hx⟩, ⟨[], by simp, by simp⟩, fun _ h => h, rfl, rfl, rfl, id⟩

theorem hush_zero {s t : State} (h1 : t.ev = s.ev) (h2 : t.ops = s.ops) (h3 : t.packs = s.packs) (h4 : t.saved = s.saved)
    (h5 : t.graveyard = s.graveyard) (h6 : t.victims = s.victims) (h7 : t.log = s.log) : Hush s t :=
  ⟨⟨[], by simp [h1], rfl⟩, ⟨[], by simp [h2], by simp⟩, fun _ h => h3 ▸ h, h4, h5, h6, fun f => by rw [h7, h2]; exact f⟩

theorem hush_one {s t : State} {x : Ev} (h1 : t.ev = s.ev ++ [x]) (hx : launchedOf [x] = []) (h2 : t.ops = s.ops) (h3 : t.packs = s.packs)
    (h4 : t.saved = s.saved) (h5 : t.graveyard = s.graveyard) (h6 : t.victims = s.victims) (h7 : t.log = s.log) : Hush s t :=
  ⟨⟨[x], h1, hx⟩, ⟨[], by simp [h2], by simp⟩, fun _ h => h3 ▸ h, h4, h5, h6, fun f => by rw [h7, h2]; exact f⟩

theorem still_emit {x : Ev} (hx : launchedOf [x] = []) : Still (emit x) := Still.modify fun s => hush_ev s hx

theorem still_logOp {op : Op} (h : ¬ IsEnd op) : Still (logOp op) := by
  intro s e
  have q : Hush s { s with log := (s.log.step op).1, ops := s.ops ++ [op] } :=
    ⟨⟨[], by simp, rfl⟩, ⟨[op], rfl, by simpa using h⟩, fun _ h => h, rfl, rfl, rfl, fun f => faith_step f op⟩
  unfold logOp
  generalize s.log.step op = r at q ⊢
  obtain ⟨l, o⟩ := r
  cases o with
  | none => exact ⟨q, id, fun x h => by cases h⟩
  | some y => exact ⟨q, id, fun x h _ => by cases h; simp⟩

/-- Known pieces. -/
syntax "st_known" : tactic
/-- Goes through a piece of the program. -/
macro "st_go" : tactic => `(tactic| repeat' (first
  | with_reducible exact Still.pure _ | with_reducible exact Still.pend | ((with_reducible refine Still.throw _ ?_); (simp; done))
  | with_reducible exact Still.get
  | st_known
  | exact still_emit rfl
  | ((with_reducible refine still_logOp ?_); (simp [IsEnd]; done))
  | exact Still.modify fun _ => hush_zero rfl rfl rfl rfl rfl rfl rfl
  | exact Still.modify fun _ => hush_one rfl rfl rfl rfl rfl rfl rfl rfl
  | with_reducible refine Still.bind ?_ fun _ => ?_
  | dsimp only
  | split))

macro_rules | `(tactic| st_known) => `(tactic| with_reducible exact still_observe)
theorem still_askUnit : Still askUnit := by unfold askUnit; st_go
macro_rules | `(tactic| st_known) => `(tactic| with_reducible exact still_askUnit)
theorem still_askBool : Still askBool := by unfold askBool; st_go
macro_rules | `(tactic| st_known) => `(tactic| with_reducible exact still_askBool)
theorem still_askSel : Still askSel := by unfold askSel; st_go
macro_rules | `(tactic| st_known) => `(tactic| with_reducible exact still_askSel)
theorem still_askSig : Still askSig := by unfold askSig; st_go
macro_rules | `(tactic| st_known) => `(tactic| with_reducible exact still_askSig)
theorem still_askChunk : Still askChunk := by unfold askChunk; st_go
macro_rules | `(tactic| st_known) => `(tactic| with_reducible exact still_askChunk)
theorem still_askNames : Still askNames := by unfold askNames; st_go
macro_rules | `(tactic| st_known) => `(tactic| with_reducible exact still_askNames)
theorem still_askFiles : Still askFiles := by unfold askFiles; st_go
macro_rules | `(tactic| st_known) => `(tactic| with_reducible exact still_askFiles)
theorem still_isAlive (i : Nat) : Still (isAlive i) := by unfold isAlive; st_go
macro_rules | `(tactic| st_known) => `(tactic| with_reducible exact still_isAlive _)
theorem still_draw : Still draw := by
  unfold draw
  refine Still.bind Still.get fun s => ?_
  split
  · refine Still.tryCatch still_askUnit fun x k hx => ?_
    split at hx
    · cases hx; exact Still.pure _
    · cases hx
  · exact Still.pure _
macro_rules | `(tactic| st_known) => `(tactic| with_reducible exact still_draw)

theorem still_setupNewOptimizer (k : Int) : Still (setupNewOptimizer k) := by unfold setupNewOptimizer; st_go
macro_rules | `(tactic| st_known) => `(tactic| with_reducible exact still_setupNewOptimizer _)
theorem still_shareLoop (b : BestIter) (l : List Nat) : Still (shareLoop b l) := by
  induction l with
  | nil => unfold shareLoop; st_go
  | cons i t ih => unfold shareLoop; st_go <;> exact ih
macro_rules | `(tactic| st_known) => `(tactic| with_reducible exact still_shareLoop _ _)
theorem still_updateBestResult (cfg : Cfg) : Still (updateBestResult cfg) := by unfold updateBestResult; st_go
macro_rules | `(tactic| st_known) => `(tactic| with_reducible exact still_updateBestResult _)
theorem still_extraNames (r : IterRes) : Still (extraNames r) := by unfold extraNames; st_go
macro_rules | `(tactic| st_known) => `(tactic| with_reducible exact still_extraNames _)
theorem still_pauseLoop (l acc : List Nat) : Still (pauseLoop l acc) := by
  induction l generalizing acc with
  | nil => unfold pauseLoop; st_go
  | cons i t ih => unfold pauseLoop; st_go <;> exact ih _
macro_rules | `(tactic| st_known) => `(tactic| with_reducible exact still_pauseLoop _ _)
theorem still_saveLoop (skip l : List Nat) : Still (saveLoop skip l) := by
  induction l with
  | nil => unfold saveLoop; st_go
  | cons i t ih => unfold saveLoop; st_go <;> exact ih
macro_rules | `(tactic| st_known) => `(tactic| with_reducible exact still_saveLoop _ _)
theorem still_clearedLoop (n : Nat) (l : List Nat) : Still (clearedLoop n l) := by
  induction n generalizing l with
  | zero => cases l <;> (unfold clearedLoop; st_go)
  | succ n ih => cases l <;> (unfold clearedLoop; st_go) <;> exact ih _
macro_rules | `(tactic| st_known) => `(tactic| with_reducible exact still_clearedLoop _ _)
theorem still_filesLoop (l : List Nat) : Still (filesLoop l) := by
  induction l with
  | nil => unfold filesLoop; st_go
  | cons i t ih => unfold filesLoop; st_go; exact ih
macro_rules | `(tactic| st_known) => `(tactic| with_reducible exact still_filesLoop _)
theorem still_resumeLoop (l : List Nat) : Still (resumeLoop l) := by
  induction l with
  | nil => unfold resumeLoop; st_go
  | cons i t ih => unfold resumeLoop; st_go <;> exact ih
macro_rules | `(tactic| st_known) => `(tactic| with_reducible exact still_resumeLoop _)
theorem still_stopLoop (l : List Nat) : Still (stopLoop l) := by
  induction l with
  | nil => unfold stopLoop; st_go
  | cons i t ih => unfold stopLoop; st_go <;> exact ih
macro_rules | `(tactic| st_known) => `(tactic| with_reducible exact still_stopLoop _)
theorem still_restartLoop (l : List (Nat × Int)) : Still (restartLoop l) := by
  induction l with
  | nil => unfold restartLoop; st_go
  | cons p t ih => obtain ⟨i, w⟩ := p; unfold restartLoop; st_go; exact ih
macro_rules | `(tactic| st_known) => `(tactic| with_reducible exact still_restartLoop _)

theorem still_record (r : IterRes) (names : List String) : Still (record r names) := by
  intro s e
  have hp : ∀ (l : Logger) (ops : List Op), Faith l ops → Faith (l.step (.put r)).1 ops := fun l ops h =>
    h.less fun i m hm => by rwa [md_put] at hm
  have hh : Faith s.log s.ops → Faith (s.log.step (.addHist r.optId names)).1 s.ops := fun h =>
    h.less fun i m hm => by rwa [md_addHist] at hm
  unfold record
  by_cases hi : s.log.hasIterHistory r.optId = true
  · simp only [hi, if_true]
    have h1 := hp s.log s.ops
    generalize s.log.step (.put r) = q at h1 ⊢
    obtain ⟨l', o⟩ := q
    cases o with
    | none =>
      exact ⟨⟨⟨[.accepted r], rfl, rfl⟩, ⟨[.put r], by simp, by simp [IsEnd]⟩, fun _ h => h, rfl, rfl, rfl, fun f => by
        simpa using (h1 f).grow [.put r]⟩, id, fun x h => by cases h⟩
    | some y =>
      exact ⟨⟨⟨[], by simp, rfl⟩, ⟨[], by simp, by simp⟩, fun _ h => h, rfl, rfl, rfl, h1⟩, id, fun x h _ => by cases h; simp⟩
  · simp only [hi, if_false, Bool.false_eq_true]
    generalize s.log.step (.addHist r.optId names) = q at hh ⊢
    obtain ⟨l, o⟩ := q
    cases o with
    | some y => exact ⟨Hush.refl s, id, fun x h _ => by cases h; simp⟩
    | none =>
      simp only
      have h1 := hp l s.ops
      generalize l.step (.put r) = q at h1 ⊢
      obtain ⟨l', o⟩ := q
      cases o with
      | none =>
        exact ⟨⟨⟨[.accepted r], rfl, rfl⟩, ⟨[.addHist r.optId names, .put r], by simp, by simp [IsEnd]⟩, fun _ h => h, rfl, rfl, rfl, fun f => by
          simpa using (h1 (hh f)).grow [.addHist r.optId names, .put r]⟩, id, fun x h => by cases h⟩
      | some y =>
        exact ⟨⟨⟨[], by simp, rfl⟩, ⟨[], by simp, by simp⟩, fun _ h => h, rfl, rfl, rfl, fun f => h1 (hh f)⟩, id, fun x h _ => by cases h; simp⟩
macro_rules | `(tactic| st_known) => `(tactic| with_reducible exact still_record _ _)

end Glompo.Manager
