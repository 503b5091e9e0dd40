import Verif.Lemmas.ManagerFeed

/-!
# Stop files in the manager: what each piece does to the living
-/

namespace Glompo.Manager

open M

/-- The optimizers shut down, in order, each with its hunter. -/
def kills (l : List Ev) : List (Nat × Option Nat) :=
  l.filterMap fun
    | .killed i h => some (i, h)
    | _ => none

/-- Nobody is shut down, nobody is lost. -/
def Calm (s t : State) : Prop :=
  t.packs = s.packs ∧ t.graveyard = s.graveyard ∧ t.victims = s.victims ∧ kills t.ev = kills s.ev

theorem Calm.refl (s : State) : Calm s s := ⟨rfl, rfl, rfl, rfl⟩
theorem Calm.trans {s t u : State} (h : Calm s t) (k : Calm t u) : Calm s u :=
  ⟨k.1.trans h.1, k.2.1.trans h.2.1, k.2.2.1.trans h.2.2.1, k.2.2.2.trans h.2.2.2⟩

def Quiet {α : Type} (m : M α) : Prop := ∀ s e, Calm s (m s e).2.1

theorem Quiet.pure {α : Type} (a : α) : Quiet (M.pure a) := fun s _ => Calm.refl s
theorem Quiet.get : Quiet M.get := fun s _ => Calm.refl s
theorem Quiet.pend {α : Type} : Quiet (M.pend : M α) := fun s _ => Calm.refl s

theorem Quiet.bind {α β : Type} {m : M α} {f : α → M β} (hm : Quiet m) (hf : ∀ a, Quiet (f a)) : Quiet (M.bind m f) := by
  intro s e
  have h := hm s e
  unfold M.bind
  generalize m s e = r at h
  obtain ⟨o, s', e'⟩ := r
  cases o with
  | ok a => exact h.trans (hf a s' e')
  | raised x => exact h
  | pending => exact h

theorem Quiet.tryCatch {α : Type} {m : M α} {h : Exc → Option (M α)} (hm : Quiet m) (hh : ∀ x k, h x = some k → Quiet k) :
    Quiet (M.tryCatch m h) := by
  intro s e
  have h1 := hm s e
  unfold M.tryCatch
  generalize m s e = r at h1
  obtain ⟨o, s', e'⟩ := r
  cases o with
  | raised x =>
    simp only
    cases hx : h x with
    | none => exact h1
    | some k => exact h1.trans (hh x k hx s' e')
  | ok a => exact h1
  | pending => exact h1

theorem calm_die : ∀ (l : List Nat) (s : State), Calm s (die l s)
  | [], s => Calm.refl s
  | i :: t, s => by
    unfold die
    refine Calm.trans ?_ (calm_die t _)
    split
    · exact ⟨rfl, rfl, rfl, by simp [kills]⟩
    · exact Calm.refl s

theorem quiet_observe : Quiet observe := by
  intro s e
  unfold observe
  cases e with
  | nil => exact Calm.refl s
  | cons o t =>
    simp only
    split <;> exact calm_die _ _

theorem quiet_askUnit : Quiet askUnit := by
  unfold askUnit
  refine Quiet.bind quiet_observe fun a => ?_
  cases a <;> first | exact Quiet.pure _ | exact Quiet.pend

theorem quiet_logOp (op : Logger.Op) : Quiet (logOp op) := by
  intro s e
  unfold logOp
  split <;> exact ⟨rfl, rfl, rfl, rfl⟩

theorem quiet_putEnd (i : Nat) (w : String) : Quiet (putEnd i w) := by
  unfold putEnd
  exact Quiet.bind (quiet_logOp _) fun _ => quiet_logOp _

theorem quiet_draw : Quiet draw := by
  unfold draw
  refine Quiet.bind Quiet.get fun s => ?_
  split
  · refine Quiet.tryCatch quiet_askUnit fun x k h => ?_
    split at h <;> cases h
    exact Quiet.pure _
  · exact Quiet.pure _

theorem quiet_stop (i : Nat) : Quiet (emit (.stop i)) := fun s _ => ⟨rfl, rfl, rfl, by simp [emit, M.modify, kills]⟩

/-- What shutting an optimizer down does to the living, however it ends. -/
theorem shutdown_calm (i : Nat) (hunter : Option Nat) (reason : String) (s : State) (e : Env) :
    (shutdownJob i hunter reason s e).2.1.packs = s.packs ∧
    (shutdownJob i hunter reason s e).2.1.graveyard = addTo s.graveyard i ∧
    (shutdownJob i hunter reason s e).2.1.victims = addTo s.victims i ∧
    kills (shutdownJob i hunter reason s e).2.1.ev = kills s.ev ++ [(i, hunter)] := by
  have hq : Quiet (M.bind askUnit fun _ => M.bind (emit (.stop i)) fun _ => M.bind (putEnd i (killText hunter reason)) fun _ => draw) :=
    Quiet.bind quiet_askUnit fun _ => Quiet.bind (quiet_stop i) fun _ => Quiet.bind (quiet_putEnd i _) fun _ => quiet_draw
  obtain ⟨h1, h2, h3, h4⟩ := hq { s with
    victims := addTo s.victims i, graveyard := addTo s.graveyard i, ev := s.ev ++ [.killed i hunter] } e
  exact ⟨h1, h2, h3, h4.trans (by simp [kills])⟩

/-- The effect of a list `l` of optimizers shut down on request. -/
structure Stops (l : List Nat) (s t : State) : Prop where
  packs : t.packs = s.packs
  graveyard : ∀ j, j ∈ t.graveyard ↔ j ∈ s.graveyard ∨ j ∈ l
  victims : ∀ j, j ∈ t.victims ↔ j ∈ s.victims ∨ j ∈ l
  kills : kills t.ev = kills s.ev ++ l.map fun i => (i, none)

theorem Stops.nil {s t : State} (h : Calm s t) : Stops [] s t :=
  ⟨h.1, by simp [h.2.1], by simp [h.2.2.1], by simp [h.2.2.2]⟩

theorem Stops.append {l k : List Nat} {s t u : State} (h1 : Stops l s t) (h2 : Stops k t u) : Stops (l ++ k) s u :=
  ⟨h2.packs.trans h1.packs, fun j => by rw [h2.graveyard, h1.graveyard, List.mem_append, or_assoc],
    fun j => by rw [h2.victims, h1.victims, List.mem_append, or_assoc], by rw [h2.kills, h1.kills]; simp⟩

/-- Whom a stop file stops. -/
def wanted (s : State) : Option Nat → List Nat
  | none => []
  | some i => if (dictGet s.packs i).isNone = true ∨ i ∈ s.graveyard then [] else [i]

/-- No action fails with `ValueError`. -/
def NoValueError (e : Env) : Prop := ∀ o ∈ e, o.ans ≠ .raise .valueError

theorem askUnit_cases (s : State) (e : Env) (h : NoValueError e) :
    Calm s (askUnit s e).2.1 ∧ (askUnit s e).1 ≠ .raised (.env .valueError) := by
  refine ⟨quiet_askUnit s e, ?_⟩
  cases e with
  | nil => intro h; cases h
  | cons o t =>
    have ho := h o List.mem_cons_self
    obtain ⟨d, a⟩ := o
    cases a with
    | raise x =>
      intro hx
      have hx : (Out.raised (.env x) : Out Unit) = .raised (.env .valueError) := hx
      injection hx with hx; injection hx with hx; subst hx; exact ho rfl
    | _ => intro hx; cases hx

/-- One stop file which is dealt with. -/
theorem stopFile_stops (f : Option Nat) (s s' : State) (e e' : Env) (hv : NoValueError e)
    (h : stopFile f s e = (.ok (), s', e')) : Stops (wanted s f) s s' := by
  cases f with
  | none => cases h; exact Stops.nil (Calm.refl s)
  | some i =>
    simp only [wanted]
    by_cases hc : (dictGet s.packs i).isNone = true ∨ i ∈ s.graveyard
    · have hk : stopFile (some i) s e = (.ok (), s, e) := by
        show (if (dictGet s.packs i).isNone = true ∨ i ∈ s.graveyard then pure () else _ : M Unit) s e = _
        rw [if_pos hc]; rfl
      rw [hk] at h; cases h
      rw [if_pos hc]
      exact Stops.nil (Calm.refl s)
    · have hk : stopFile (some i) s e =
          M.tryCatch (M.bind askUnit fun _ => shutdownJob i none "User STOP file intervention.")
            (fun x => if x = .env .valueError then some (pure ()) else none) s e := by
        show (if (dictGet s.packs i).isNone = true ∨ i ∈ s.graveyard then pure () else _ : M Unit) s e = _
        rw [if_neg hc]; rfl
      rw [if_neg hc]
      rw [hk] at h
      obtain ⟨c1, c2⟩ := askUnit_cases s e hv
      unfold M.tryCatch M.bind at h
      generalize askUnit s e = r at h c1 c2
      obtain ⟨o, s1, e1⟩ := r
      have fin : ∀ t, Calm s s1 → t = (shutdownJob i none "User STOP file intervention." s1 e1).2.1 → Stops [i] s t := by
        intro t hs ht
        obtain ⟨k1, k2, k3, k4⟩ := shutdown_calm i none "User STOP file intervention." s1 e1
        obtain ⟨l1, l2, l3, l4⟩ := hs
        subst ht
        exact ⟨k1.trans l1, fun j => by rw [k2, mem_addTo, l2, List.mem_singleton],
          fun j => by rw [k3, mem_addTo, l3, List.mem_singleton], by rw [k4, l4]; rfl⟩
      cases o with
      | pending => cases h
      | raised x =>
        simp only at h
        rw [if_neg (fun hx => c2 (by rw [hx]))] at h
        cases h
      | ok u =>
        simp only at h
        cases hd : shutdownJob i none "User STOP file intervention." s1 e1 with
        | mk o2 r2 =>
          obtain ⟨s2, e2⟩ := r2
          rw [hd] at h fin
          cases o2 with
          | pending => cases h
          | ok u2 => cases h; exact fin _ c1 rfl
          | raised x =>
            simp only at h
            by_cases hx : x = .env .valueError
            · rw [if_pos hx] at h; cases h; exact fin _ c1 rfl
            · rw [if_neg hx] at h; cases h

theorem wanted_calm {s t : State} (h1 : t.packs = s.packs) (h2 : t.graveyard = s.graveyard) (f : Option Nat) :
    wanted t f = wanted s f := by
  cases f with
  | none => rfl
  | some i => simp only [wanted]; rw [h1, h2]

/-- A look at the stop files which comes to its end: those named and living are shut down, each once, in the order of the files. -/
theorem stops_all : ∀ (fs : List (Option Nat)) (s s' : State) (e e' : Env), NoValueError e →
    M.forEach fs stopFile s e = (.ok (), s', e') →
    ∃ l, Stops l s s' ∧ l.Nodup ∧
      ∀ i, i ∈ l ↔ some i ∈ fs ∧ (dictGet s.packs i).isSome = true ∧ i ∉ s.graveyard
  | [], s, s', e, e', _, h => by cases h; exact ⟨[], Stops.nil (Calm.refl s), by simp, by simp⟩
  | f :: t, s, s', e, e', hv, h => by
    have h' : M.bind (stopFile f) (fun _ => M.forEach t stopFile) s e = (.ok (), s', e') := h
    obtain ⟨u, hu, -, -⟩ := mute_stopFile f s e
    unfold M.bind at h'
    cases hf : stopFile f s e with
    | mk o r =>
      obtain ⟨s1, e1⟩ := r
      rw [hf] at h' hu
      cases o with
      | pending => cases h'
      | raised x => cases h'
      | ok a =>
        have k1 := stopFile_stops f s s1 e e1 hv hf
        have hv1 : NoValueError e1 := fun o ho => hv o (by rw [hu]; exact List.mem_append.mpr (.inr ho))
        obtain ⟨l, k2, k3, k4⟩ := stops_all t s1 s' e1 e' hv1 h'
        have hw : ∀ i, i ∈ wanted s f ↔ f = some i ∧ (dictGet s.packs i).isSome = true ∧ i ∉ s.graveyard := by
          intro i
          cases f with
          | none => simp [wanted]
          | some j =>
            simp only [wanted]
            split
            · rename_i hc
              simp only [List.not_mem_nil, false_iff, not_and, Option.some.injEq]
              rintro rfl h1 h2
              rcases hc with hc | hc
              · rw [Option.isNone_iff_eq_none] at hc; rw [hc] at h1; cases h1
              · exact h2 hc
            · rename_i hc
              simp only [not_or] at hc
              rw [List.mem_singleton]
              constructor
              · rintro rfl
                refine ⟨rfl, ?_, hc.2⟩
                cases hd : dictGet s.packs i with
                | none => rw [hd] at hc; exact absurd rfl hc.1
                | some v => rfl
              · rintro ⟨h1, -⟩; injection h1 with h1; exact h1.symm
        have hnd : (wanted s f).Nodup := by
          cases f with
          | none => simp [wanted]
          | some j => simp only [wanted]; split <;> simp
        refine ⟨wanted s f ++ l, k1.append k2, ?_, fun i => ?_⟩
        · rw [List.nodup_append]
          refine ⟨hnd, k3, fun x hx y hy he => ?_⟩
          subst he
          exact ((k4 x).mp hy).2.2 ((k1.graveyard x).mpr (.inr hx))
        · rw [List.mem_append, hw, k4, List.mem_cons, k1.packs, k1.graveyard, hw]
          constructor
          · rintro (⟨rfl, h2, h3⟩ | ⟨h1, h2, h3⟩)
            · exact ⟨.inl rfl, h2, h3⟩
            · exact ⟨.inr h1, h2, fun hg => h3 (.inl hg)⟩
          · rintro ⟨rfl | h1, h2, h3⟩
            · exact .inl ⟨rfl, h2, h3⟩
            · by_cases hfi : f = some i
              · exact .inl ⟨hfi, h2, h3⟩
              · refine .inr ⟨h1, h2, fun hg => ?_⟩
                rcases hg with hg | ⟨hg, -⟩
                · exact h3 hg
                · exact hfi hg

end Glompo.Manager
