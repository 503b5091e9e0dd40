import Verif.Lemmas.ManagerInv

/-!
# From the program to its atomic changes

`Walk A P m Q E`: started in a state with `P`, the piece `m` of the program performs only atomic changes with labels in
`A`, ends normally in a state with `Q` and exceptionally in one with `E`; the observations left are the last ones of those
given, and an exception from outside was among those used.
-/

namespace Glompo.Manager

open Glompo.Spec
open Glompo.Logger (Op)

/-- A sequence of atomic changes with labels in `A`. -/
inductive Steps (cfg : Cfg) (A : Lab → Prop) : State → State → Prop where
  | refl (s : State) : Steps cfg A s s
  | tail {s t u : State} {lab : Lab} : Steps cfg A s t → Step cfg lab t u → A lab → Steps cfg A s u

variable {cfg : Cfg} {A B : Lab → Prop}

theorem Steps.one {s t : State} {lab : Lab} (h : Step cfg lab s t) (ha : A lab) : Steps cfg A s t :=
  .tail (.refl s) h ha

theorem Steps.trans {s t u : State} (h : Steps cfg A s t) (h' : Steps cfg A t u) : Steps cfg A s u := by
  induction h' with
  | refl => exact h
  | tail _ h2 h3 ih => exact .tail ih h2 h3

theorem Steps.mono {s t : State} (h : Steps cfg A s t) (hab : ∀ l, A l → B l) : Steps cfg B s t := by
  induction h with
  | refl => exact .refl _
  | tail _ h2 h3 ih => exact .tail ih h2 (hab _ h3)

theorem Steps.inv {s t : State} (h : Steps cfg A s t) (i : Inv cfg s) : Inv cfg t := by
  induction h with
  | refl => exact i
  | tail _ h2 _ ih => exact h2.inv ih

/-- Everything on the disk may be continued from. -/
def Disk (s : State) : Prop := ∀ k ∈ s.saved, Resumable k ∧ HandShake k.ev k.files

theorem Steps.disk {s t : State} (h : Steps cfg A s t) (d : Disk s) : Disk t := by
  induction h with
  | refl => exact d
  | tail _ h2 _ ih =>
    cases h2
    case store k hk hh _ =>
      intro k' h'
      rcases List.mem_append.mp h' with h' | h'
      · exact ih k' h'
      · rw [List.mem_singleton.mp h']; exact ⟨hk, hh⟩
    all_goals exact ih

/-- `R` is kept by the changes with labels in `A`. -/
def Keeps (cfg : Cfg) (A : Lab → Prop) (R : State → Prop) : Prop :=
  ∀ lab s t, Step cfg lab s t → A lab → Inv cfg s → R s → R t

theorem Keeps.steps {R : State → Prop} (hk : Keeps cfg A R) {s t : State} (h : Steps cfg A s t) (i : Inv cfg s)
    (hr : R s) : R t := by
  induction h with
  | refl => exact hr
  | tail h1 h2 h3 ih => exact hk _ _ _ h2 h3 (h1.inv i) ih

theorem Keeps.and {R S : State → Prop} (h : Keeps cfg A R) (h' : Keeps cfg A S) :
    Keeps cfg A (fun s => R s ∧ S s) := fun lab s t st ha i hr => ⟨h lab s t st ha i hr.1, h' lab s t st ha i hr.2⟩

theorem Keeps.mono {R : State → Prop} (h : Keeps cfg B R) (hab : ∀ l, A l → B l) : Keeps cfg A R :=
  fun lab s t st ha i hr => h lab s t st (hab _ ha) i hr

theorem Keeps.triv : Keeps cfg A (fun _ => True) := fun _ _ _ _ _ _ _ => trivial

theorem Keeps.const {p : Prop} : Keeps cfg A (fun _ => p) := fun _ _ _ _ _ _ h => h

/-- The observations left, `e'`, are the last ones of `e`; an exception from outside was among those used. -/
def Uses {α : Type} (o : Out α) (e e' : Env) : Prop :=
  e' <:+ e ∧ ∀ x, o = .raised (.env x) → raisesOf e' < raisesOf e

theorem raisesOf_suffix {e e' : Env} (h : e' <:+ e) : raisesOf e' ≤ raisesOf e := by
  obtain ⟨t, rfl⟩ := h
  simp [raisesOf, List.filter_append]

theorem uses_refl {α : Type} {o : Out α} {e : Env} (h : ∀ x, o ≠ .raised (.env x)) : Uses o e e :=
  ⟨List.suffix_refl _, fun x hx => absurd hx (h x)⟩

theorem uses_ok {α : Type} {a : α} {e : Env} : Uses (.ok a) e e := uses_refl (by simp)
theorem uses_pending {α : Type} {e : Env} : Uses (.pending : Out α) e e := uses_refl (by simp)

theorem Uses.trans {α β : Type} {o : Out α} {o' : Out β} {e e' e'' : Env} (h : Uses o e e') (h' : Uses o' e' e'') :
    Uses o' e e'' :=
  ⟨h'.1.trans h.1, fun x hx => Nat.lt_of_lt_of_le (h'.2 x hx) (raisesOf_suffix h.1)⟩

def Walk {α : Type} (cfg : Cfg) (A : Lab → Prop) (P : State → Prop) (m : M α) (Q : α → State → Prop)
    (E : Exc → State → Prop) : Prop :=
  ∀ s e, Inv cfg s → P s → Steps cfg A s (m s e).2.1 ∧ (∀ a, (m s e).1 = .ok a → Q a (m s e).2.1) ∧
    (∀ x, (m s e).1 = .raised x → E x (m s e).2.1) ∧ Uses (m s e).1 e (m s e).2.2

section rules
variable {α β : Type} {P P' R : State → Prop} {m : M α} {Q Q' : α → State → Prop} {E E' : Exc → State → Prop}

theorem Walk.mono (h : Walk cfg A P m Q E) (hab : ∀ l, A l → B l) : Walk cfg B P m Q E :=
  fun s e i p => ⟨(h s e i p).1.mono hab, (h s e i p).2⟩

theorem Walk.conseq (h : Walk cfg A P m Q E) (hp : ∀ s, Inv cfg s → P' s → P s)
    (hq : ∀ a s, Inv cfg s → Q a s → Q' a s) (he : ∀ x s, Inv cfg s → E x s → E' x s) : Walk cfg A P' m Q' E' := by
  intro s e i p
  obtain ⟨h1, h2, h3, h4⟩ := h s e i (hp s i p)
  exact ⟨h1, fun a ha => hq a _ (h1.inv i) (h2 a ha), fun x hx => he x _ (h1.inv i) (h3 x hx), h4⟩

theorem Walk.pre (h : Walk cfg A P m Q E) (hp : ∀ s, Inv cfg s → P' s → P s) : Walk cfg A P' m Q E :=
  h.conseq hp (fun _ _ _ h => h) (fun _ _ _ h => h)

theorem Walk.post (h : Walk cfg A P m Q E) (hq : ∀ a s, Inv cfg s → Q a s → Q' a s) : Walk cfg A P m Q' E :=
  h.conseq (fun _ _ h => h) hq (fun _ _ _ h => h)

theorem Walk.exc (h : Walk cfg A P m Q E) (he : ∀ x s, Inv cfg s → E x s → E' x s) : Walk cfg A P m Q E' :=
  h.conseq (fun _ _ h => h) (fun _ _ _ h => h) he

/-- Kept facts can be carried along. -/
theorem Walk.frame (h : Walk cfg A P m Q E) (hk : Keeps cfg A R) :
    Walk cfg A (fun s => P s ∧ R s) m (fun a s => Q a s ∧ R s) (fun x s => E x s ∧ R s) := by
  intro s e i p
  obtain ⟨h1, h2, h3, h4⟩ := h s e i p.1
  have hr := hk.steps h1 i p.2
  exact ⟨h1, fun a ha => ⟨h2 a ha, hr⟩, fun x hx => ⟨h3 x hx, hr⟩, h4⟩

theorem Walk.pure {a : α} (h : ∀ s, Inv cfg s → P s → Q a s) : Walk cfg A P (pure a : M α) Q E := by
  intro s e i p
  refine ⟨.refl _, fun b hb => ?_, fun x hx => ?_, uses_ok⟩
  · cases hb; exact h s i p
  · cases hx

theorem Walk.bind {f : α → M β} {S : β → State → Prop} (h : Walk cfg A P m Q E)
    (h' : ∀ a, Walk cfg A (Q a) (f a) S E) : Walk cfg A P (m >>= f) S E := by
  intro s e i p
  obtain ⟨h1, h2, h3, h4⟩ := h s e i p
  show Steps cfg A s (M.bind m f s e).2.1 ∧ (∀ a, (M.bind m f s e).1 = .ok a → S a (M.bind m f s e).2.1) ∧
    (∀ x, (M.bind m f s e).1 = .raised x → E x (M.bind m f s e).2.1) ∧ Uses (M.bind m f s e).1 e (M.bind m f s e).2.2
  unfold M.bind
  generalize hm : m s e = r at h1 h2 h3 h4
  obtain ⟨o, s', e'⟩ := r
  cases o with
  | ok a =>
    obtain ⟨g1, g2, g3, g4⟩ := h' a s' e' (h1.inv i) (h2 a rfl)
    exact ⟨h1.trans g1, g2, g3, h4.trans g4⟩
  | raised x =>
    exact ⟨h1, fun a ha => by (cases ha), fun y hy => by (cases hy; exact h3 x rfl), h4.1, fun y hy =>
      h4.2 y (by cases hy; rfl)⟩
  | pending => exact ⟨h1, fun a ha => by (cases ha), fun y hy => by (cases hy), h4.1, fun y hy => by (cases hy)⟩

theorem Walk.get {Q : State → State → Prop} (h : ∀ s, Inv cfg s → P s → Q s s) : Walk cfg A P M.get Q E := by
  intro s e i p
  refine ⟨.refl _, fun b hb => ?_, fun x hx => ?_, uses_ok⟩
  · cases hb; exact h s i p
  · cases hx

theorem Walk.throw {x : Exc} (h : ∀ s, Inv cfg s → P s → E x s) (hx : ∀ y, x ≠ .env y := by simp) :
    Walk cfg A P (M.throw x : M α) Q E := by
  intro s e i p
  refine ⟨.refl _, fun b hb => ?_, fun y hy => ?_, uses_refl (fun y hy => hx y (by simpa [M.throw] using hy))⟩
  · cases hb
  · cases hy; exact h s i p

theorem Walk.pend : Walk cfg A P (M.pend : M α) Q E := by
  intro s e i p
  refine ⟨.refl _, fun b hb => ?_, fun y hy => ?_, uses_pending⟩
  · cases hb
  · cases hy

theorem Walk.modify {f : State → State} {Q : Unit → State → Prop}
    (h : ∀ s, Inv cfg s → P s → ∃ lab, Step cfg lab s (f s) ∧ A lab)
    (hq : ∀ s, Inv cfg s → P s → Inv cfg (f s) → Q () (f s)) : Walk cfg A P (M.modify f) Q E := by
  intro s e i p
  obtain ⟨lab, h1, h2⟩ := h s i p
  refine ⟨.one h1 h2, fun b hb => ?_, fun x hx => ?_, uses_ok⟩
  · cases hb; exact hq s i p (h1.inv i)
  · cases hx

theorem Walk.ite {c : Prop} [Decidable c] {m m' : M α} (h : c → Walk cfg A P m Q E) (h' : ¬ c → Walk cfg A P m' Q E) :
    Walk cfg A P (if c then m else m') Q E := by
  split
  · exact h ‹_›
  · exact h' ‹_›

theorem Walk.tryCatch {h : Exc → Option (M α)} (hm : Walk cfg A P m Q E')
    (hh : ∀ x k, h x = some k → Walk cfg A (E' x) k Q E) (hn : ∀ x, h x = none → ∀ s, Inv cfg s → E' x s → E x s) :
    Walk cfg A P (M.tryCatch m h) Q E := by
  intro s e i p
  obtain ⟨h1, h2, h3, h4⟩ := hm s e i p
  unfold M.tryCatch
  generalize m s e = r at h1 h2 h3 h4
  obtain ⟨o, s', e'⟩ := r
  cases o with
  | ok a => exact ⟨h1, h2, fun y hy => by (cases hy), h4⟩
  | pending => exact ⟨h1, h2, fun y hy => by (cases hy), h4⟩
  | raised x =>
    simp only []
    cases hx : h x with
    | none =>
      exact ⟨h1, fun a ha => by (cases ha), fun y hy => by (cases hy; exact hn x hx s' (h1.inv i) (h3 x rfl)), h4⟩
    | some k =>
      obtain ⟨g1, g2, g3, g4⟩ := hh x k hx s' e' (h1.inv i) (h3 x rfl)
      exact ⟨h1.trans g1, g2, g3, h4.trans g4⟩

theorem Walk.forEach {l : List β} {f : β → M Unit} (h : ∀ b ∈ l, Walk cfg A P (f b) (fun _ => P) E) :
    Walk cfg A P (M.forEach l f) (fun _ => P) E := by
  induction l with
  | nil => exact Walk.pure fun _ _ h => h
  | cons b t ih =>
    refine Walk.bind (h b List.mem_cons_self) fun _ => ?_
    exact ih fun b hb => h b (List.mem_cons_of_mem _ hb)

end rules

/-- Deaths only. -/
def Lab.died : Lab → Prop
  | .ev (.died _) => True
  | _ => False

theorem die_steps (l : List Nat) : ∀ s, Steps cfg Lab.died s (die l s) := by
  induction l with
  | nil => intro s; exact .refl _
  | cons i t ih =>
    intro s
    simp only [die]
    split
    · exact (Steps.one (.die s i (by assumption)) trivial).trans (ih _)
    · exact ih s

/-- Every message taken from the queue was dealt with. -/
def Settled (s : State) : Prop := UpToDate s.ev = true ∧ inHand s.ev = none

/-- What the exceptions raised by the manager's own code tell. -/
def Why (x : Exc) (s : State) : Prop :=
  (x = .keyError → (s.first.traj = false ∧ ∃ i, Ev.received (.fin i) ∈ s.ev) ∨
    ∃ r, inHand s.ev = some r ∧ r.optId ∉ (startedOf s.ev).map (·.1)) ∧
  (x = .eofError ∨ x = .unhandledMessage ∨ x = .queueNotEmpty ∨ x = .ckpt → Ev.ckptBegin ∈ s.ev)

theorem why_env {x : Err} {s : State} : Why (.env x) s := ⟨by simp, by simp⟩

theorem begun_of_free {ev : List Ev} : ckptFree ev = false → Ev.ckptBegin ∈ ev := by
  induction ev using snoc_induction with
  | h0 => intro h; cases h
  | h l x ih =>
    rw [ckptFree_snoc]
    cases x with
    | ckptBegin => intro _; simp
    | checked b => intro h; cases h
    | resumed c n => intro h; cases h
    | _ => intro h; exact List.mem_append_left _ (ih h)

theorem why_ckpt {x : Exc} {s : State} (h : ckptFree s.ev = false) (hx : x ≠ .keyError) : Why x s :=
  ⟨fun e => absurd e hx, fun _ => begun_of_free h⟩

/-- Exceptions of checkpoints: `CheckpointingError` is raised only when every message was dealt with. -/
def E0 (x : Exc) (s : State) : Prop := (x = .ckpt → Settled s) ∧ (x ≠ .crashLoop ∧ x ≠ .notEnoughSlots) ∧ Why x s

/-- Exceptions of the parts which neither start optimizers nor write checkpoints. -/
def E1 (x : Exc) (s : State) : Prop := x ≠ .ckpt ∧ (x ≠ .crashLoop ∧ x ≠ .notEnoughSlots) ∧ Why x s

/-- What the exceptions tell. -/
def E2 (x : Exc) (s : State) : Prop :=
  (x = .crashLoop → s.crashed = true) ∧ (x = .notEnoughSlots → s.livingSlots.length = 0) ∧ Why x s

theorem e1_env {x : Err} {s : State} : E1 (.env x) s := ⟨by simp, ⟨by simp, by simp⟩, why_env⟩

theorem E1.e0 {x : Exc} {s : State} (h : E1 x s) : E0 x s := ⟨fun e => absurd e h.1, h.2⟩
theorem E1.e2 {x : Exc} {s : State} (h : E1 x s) : E2 x s :=
  ⟨fun e => absurd e h.2.1.1, fun e => absurd e h.2.1.2, h.2.2⟩
theorem E0.e2 {x : Exc} {s : State} (h : E0 x s) : E2 x s :=
  ⟨fun e => absurd e h.2.1.1, fun e => absurd e h.2.1.2, h.2.2⟩

/-- Registered optimizers stay in the memory of the log until they are released. -/
theorem stored_of_added {traj : Bool} {i : Nat} : ∀ ops : List Op, i ∈ added ops →
    (traj = true ∨ ∀ o, Op.clear o ∉ ops) → dictGet ((Logger.init traj).run ops).storage i ≠ none := by
  refine Glompo.snoc_induction (fun h => by simp [added] at h) fun l op ih h hc => ?_
  rw [Logger.run_snoc]
  have hc' : traj = true ∨ ∀ o, Op.clear o ∉ l := hc.imp id fun h o ho => h o (List.mem_append_left _ ho)
  have ht : ((Logger.init traj).run l).buildTrajPlot = traj := by rw [Logger.run_traj]; rfl
  rw [added_append] at h
  generalize (Logger.init traj).run l = L at ih ht
  have old : (∀ t, op ≠ .add i t) → dictGet L.storage i ≠ none := fun hn => by
    refine ih ?_ hc'
    rcases List.mem_append.mp h with h | h
    · exact h
    · obtain ⟨t, ht⟩ := mem_added.mp h
      exact absurd (List.mem_singleton.mp ht).symm (hn t)
  have set : ∀ (d : List (Nat × Store)) j v, dictGet d i ≠ none → dictGet (dictSet d j v) i ≠ none := fun d j v h => by
    rw [dictGet_set]; split
    · simp
    · exact h
  cases op with
  | add j t =>
    simp only [Logger.step, Logger.addOptimizer]
    by_cases hj : j = i
    · subst hj; simp
    · exact set _ _ _ (old fun t' e => by cases e; exact hj rfl)
  | addHist j hs =>
    have o := old fun _ => by simp
    simp only [Logger.step, Logger.addIterHistory]
    split
    · exact o
    · exact set _ _ _ o
  | put r =>
    have o := old fun _ => by simp
    simp only [Logger.step, Logger.putIteration]
    split
    · exact o
    · split
      · rw [Logger.putBest_storage]; exact o
      · refine set _ _ _ ?_
        rw [Logger.putBest_storage]; exact o
  | clear o' =>
    have o := old fun _ => by simp
    rcases hc with hc | hc
    · simp only [Logger.step, Logger.clearCache, ht, hc, if_true]; exact o
    · exact absurd (by simp) (hc o')
  | putMeta j k v =>
    have o := old fun _ => by simp
    simp only [Logger.step, Logger.putMetadata]
    split
    · exact o
    · exact set _ _ _ o
  | putMsg j m =>
    have o := old fun _ => by simp
    simp only [Logger.step, Logger.putMessage]
    split
    · exact o
    · exact set _ _ _ o

/-- A registered optimizer which the log does not know any more was released. -/
theorem Inv.gone {s : State} (inv : Inv cfg s) {i : Nat} (h : i ∈ added s.ops) (hn : dictGet s.log.storage i = none) :
    s.first.traj = false ∧ ∃ i, Ev.received (.fin i) ∈ s.ev := by
  rw [inv.log] at hn
  by_contra hc
  refine stored_of_added (traj := s.first.traj) s.ops h ?_ hn
  by_cases ht : s.first.traj = true
  · exact .inl ht
  · refine .inr fun o ho => hc ⟨by simpa using ht, ?_⟩
    obtain ⟨j, -, hj⟩ := inv.rel o ho
    exact ⟨j, hj⟩

theorem keeps_added {A : Lab → Prop} (i : Nat) : Keeps cfg A (fun s => i ∈ added s.ops) := by
  intro lab s t st ha inv hr
  cases st <;> first | exact hr | (simp only [added_append, List.mem_append]; first | exact .inl hr | exact .inl (.inl hr))

section ask
variable {R : State → Prop} {E : Exc → State → Prop}

theorem walk_observe (hR : Keeps cfg Lab.died R) (hE : ∀ x s, R s → E (.env x) s) :
    Walk cfg Lab.died R observe (fun _ => R) E := by
  intro s e i p
  unfold observe
  cases e with
  | nil => exact ⟨.refl _, fun a ha => by (cases ha), fun x hx => by (cases hx), uses_pending⟩
  | cons o t =>
    have hs := die_steps (cfg := cfg) o.deaths s
    have hr := hR.steps hs i p
    simp only []
    split
    · rename_i ho
      refine ⟨hs, fun a ha => by (cases ha), fun x hx => by (cases hx; exact hE _ _ hr), List.suffix_cons _ _, fun x _ => ?_⟩
      show raisesOf t < raisesOf (o :: t)
      simp [raisesOf, List.filter_cons, ho]
    · exact ⟨hs, fun a ha => hr, fun x hx => by (cases hx), List.suffix_cons _ _, fun x hx => by (cases hx)⟩

theorem walk_askUnit (hR : Keeps cfg Lab.died R) (hE : ∀ x s, R s → E (.env x) s) :
    Walk cfg Lab.died R askUnit (fun _ => R) E := by
  refine Walk.bind (walk_observe hR hE) fun a => ?_
  cases a <;> first | exact Walk.pend | exact Walk.pure fun _ _ h => h

theorem walk_draw (hR : Keeps cfg Lab.died R) (hE : ∀ x s, R s → E (.env x) s) :
    Walk cfg Lab.died R draw (fun _ => R) E := by
  unfold draw
  refine Walk.bind (Q := fun _ s => R s) (Walk.get fun s _ h => h) fun a => ?_
  refine Walk.ite (fun _ => ?_) fun _ => Walk.pure fun _ _ h => h
  refine Walk.tryCatch (E' := fun x s => R s ∧ E x s) ?_ (fun x k hx => ?_) fun x _ s _ h => h.2
  · exact walk_askUnit hR fun x s h => ⟨h, hE x s h⟩
  · split at hx <;> cases hx
    exact Walk.pure fun _ _ h => h.1

theorem walk_askBool (hR : Keeps cfg Lab.died R) (hE : ∀ x s, R s → E (.env x) s) :
    Walk cfg Lab.died R askBool (fun _ => R) E := by
  refine Walk.bind (walk_observe hR hE) fun a => ?_
  cases a <;> first | exact Walk.pend | exact Walk.pure fun _ _ h => h

theorem walk_askSel (hR : Keeps cfg Lab.died R) (hE : ∀ x s, R s → E (.env x) s) :
    Walk cfg Lab.died R askSel (fun _ => R) E := by
  refine Walk.bind (walk_observe hR hE) fun a => ?_
  cases a <;> first | exact Walk.pend | exact Walk.pure fun _ _ h => h

theorem walk_askSig (hR : Keeps cfg Lab.died R) (hE : ∀ x s, R s → E (.env x) s) :
    Walk cfg Lab.died R askSig (fun _ => R) E := by
  refine Walk.bind (walk_observe hR hE) fun a => ?_
  cases a <;> first | exact Walk.pend | exact Walk.pure fun _ _ h => h

theorem walk_askChunk (hR : Keeps cfg Lab.died R) (hE : ∀ x s, R s → E (.env x) s) :
    Walk cfg Lab.died R askChunk (fun _ => R) E := by
  refine Walk.bind (walk_observe hR hE) fun a => ?_
  cases a <;> first | exact Walk.pend | exact Walk.pure fun _ _ h => h

theorem walk_askNames (hR : Keeps cfg Lab.died R) (hE : ∀ x s, R s → E (.env x) s) :
    Walk cfg Lab.died R askNames (fun _ => R) E := by
  refine Walk.bind (walk_observe hR hE) fun a => ?_
  cases a <;> first | exact Walk.pend | exact Walk.pure fun _ _ h => h

theorem walk_askFiles (hR : Keeps cfg Lab.died R) (hE : ∀ x s, R s → E (.env x) s) :
    Walk cfg Lab.died R askFiles (fun _ => R) E := by
  refine Walk.bind (walk_observe hR hE) fun a => ?_
  cases a <;> first | exact Walk.pend | exact Walk.pure fun _ _ h => h

theorem walk_isAlive (hR : Keeps cfg Lab.died R) (hE : ∀ x s, R s → E (.env x) s) (i : Nat) :
    Walk cfg Lab.died R (isAlive i) (fun al s => R s ∧ al = s.alive i) E := by
  refine Walk.bind (walk_askUnit hR hE) fun _ => ?_
  refine Walk.bind (Q := fun a s => a = s ∧ R s) (Walk.get fun s _ h => ⟨rfl, h⟩) fun a => ?_
  exact Walk.pure fun s _ h => ⟨h.2, by rw [h.1]⟩

end ask

/-- Is the operation a note about an optimizer or the release of its memory? -/
def IsNote (s : State) (op : Op) : Prop := (∃ i k v, op = .putMeta i k v) ∨ (∃ i m, op = .putMsg i m) ∨
  ∃ i, op = .clear (some i) ∧ Ev.received (.fin i) ∈ s.ev ∧ UpToDate s.ev = true ∧
    ∃ b c, s.result.origin = some (b, c) ∧ b ≠ i

/-- Changes without event which concern notes and the like. -/
def Lab.isQuiet : Lab → Prop
  | .quiet => True
  | _ => False

theorem walk_note {R : State → Prop} {E : Exc → State → Prop} {op : Op} (hop : ∀ s, R s → IsNote s op)
    (hty : ∀ i v, op ≠ .putMeta i "opt_type" v)
    (hR : Keeps cfg Lab.isQuiet R)
    (hE : ∀ s, Inv cfg s → R s → (∀ i k v, op = .putMeta i k v → dictGet s.log.storage i = none) →
      (∀ i m, op = .putMsg i m → dictGet s.log.storage i = none) →
      (∀ i, op = .clear (some i) → s.first.traj = false) →
      ∀ l ops, E .keyError { s with log := l, ops := ops }) :
    Walk cfg Lab.isQuiet R (logOp op) (fun _ => R) E := by
  intro s e i p
  have hs : Step cfg .quiet s { s with log := (s.log.step op).1, ops := s.ops ++ [op] } := .note s op (hop s p) hty
  have hr := hR _ _ _ hs trivial i p
  unfold logOp
  have hE := hE s i p
  have ht : s.log.buildTrajPlot = s.first.traj := by rw [i.log, Logger.run_traj]; rfl
  generalize hl : s.log.step op = r at hs hr
  obtain ⟨l, o⟩ := r
  cases o with
  | none => exact ⟨.one hs trivial, fun _ _ => hr, fun x hx => by (cases hx), uses_ok⟩
  | some y =>
    refine ⟨.one hs trivial, fun a ha => by (cases ha), fun x hx => ?_, uses_refl (by simp)⟩
    cases hx
    refine hE ?_ ?_ ?_ _ _
    · rintro j k v rfl
      simp only [Logger.step, Logger.putMetadata] at hl
      split at hl
      · assumption
      · cases hl
    · rintro j m rfl
      simp only [Logger.step, Logger.putMessage] at hl
      split at hl
      · assumption
      · cases hl
    · rintro j rfl
      cases htr : s.first.traj with
      | false => rfl
      | true =>
        simp only [Logger.step, Logger.clearCache, ht, htr, if_true] at hl
        cases hl

end Glompo.Manager
