import Verif.Spec.System
import Verif.Lemmas.Optimizer

/-! What an optimizer carries out in its whole life is what it was told to. -/

namespace Glompo.Optimizer

open Glompo.Spec Glompo.Spec.Optimizer

/-- The orders carried out are reactions to the messages read, in this order. -/
def Obeys (m : M α) : Prop := Reads m fun _ u n => (n.filter isOrder).Sublist ((msgsOf u).map documented)

theorem Obeys.bind {m : M α} {f : α → M β} (hm : Obeys m) (hf : ∀ a, Obeys (f a)) : Obeys (m >>= f) :=
  Reads.bind hm hf (fun a u1 n1 o u2 n2 h1 h2 => by
    rw [List.filter_append, msgsOf_append, List.map_append]
    exact h1.append h2) (fun _ _ _ h => h) fun _ _ h => h

theorem Obeys.attempt {m : M α} (hm : Obeys m) : Obeys (M.attempt m) :=
  (Reads.attempt hm).mono fun o u n h => by
    rcases h with ⟨_, -, h⟩ | ⟨_, -, h⟩ | ⟨-, h⟩ <;> exact h

theorem obeys_pure (a : α) : Obeys (pure a : M α) := (reads_pure a).mono fun _ _ _ h => by simp [h.2.2]
theorem obeys_throw (e : Exc) : Obeys (M.throw e : M α) := (reads_throw e).mono fun _ _ _ h => by simp [h.2.2]
theorem obeys_pending : Obeys (M.pending : M α) := reads_pending.mono fun _ _ _ h => by simp [h.2.2]
theorem obeys_emit {e : Ev} (h : isOrder e = false) : Obeys (M.emit e) :=
  (reads_emit e).mono fun _ _ _ h' => by simp [h'.2.2, h]
theorem obeys_ask (f : Obs → Option α) : Obeys (M.ask f) := (reads_ask f).mono fun _ _ _ h => by simp [h.1]
theorem obeys_askUnit : Obeys askUnit := obeys_ask _
theorem obeys_waitMsg : Obeys waitMsg := reads_waitMsg.mono fun _ _ _ h => by simp [h.1]

/-- The same after the message `d` was read. -/
def After (d : Msg) (m : M α) : Prop :=
  Reads m fun _ u n => (n.filter isOrder).Sublist (documented d :: (msgsOf u).map documented)

theorem Obeys.after {m : M α} (h : Obeys m) (d : Msg) : After d m :=
  Reads.mono h fun _ _ _ h => h.trans (List.sublist_cons_self _ _)

theorem After.bind {d : Msg} {m : M α} {f : α → M β} (hm : After d m) (hf : ∀ a, Obeys (f a)) : After d (m >>= f) :=
  Reads.bind hm hf (fun a u1 n1 o u2 n2 h1 h2 => by
    rw [List.filter_append, msgsOf_append, List.map_append]
    exact h1.append h2) (fun _ _ _ h => h) fun _ _ h => h

theorem after_bind {d : Msg} {m : M α} {f : α → M β} (hm : Obeys m) (hu : Reads m fun _ u _ => msgsOf u = [])
    (hf : ∀ a, After d (f a)) : After d (m >>= f) := by
  have both : Reads m fun _ u n => (n.filter isOrder) = [] ∧ msgsOf u = [] := by
    intro w
    obtain ⟨u, n, h1, h2, h3⟩ := hm w
    obtain ⟨u', n', h1', h2', h3'⟩ := hu w
    have e1 : u = u' := by rw [h1] at h1'; exact List.append_cancel_right h1'
    subst e1
    refine ⟨u, n, h1, h2, ?_, h3'⟩
    rw [h3'] at h3
    exact List.sublist_nil.mp h3
  refine Reads.bind both hf (fun a u1 n1 o u2 n2 h1 h2 => ?_) (fun _ u n h => ?_) fun u n h => ?_
  · rw [List.filter_append, msgsOf_append, h1.1, h1.2]
    exact h2
  · rw [h.1]; exact List.nil_sublist _
  · rw [h.1]; exact List.nil_sublist _

theorem after_emit {d : Msg} {e : Ev} (h : documented d = e) : After d (M.emit e) :=
  (reads_emit e).mono fun _ u n h' => by
    rw [h'.2.2, h]
    cases hb : isOrder e <;> simp [hb]

theorem after_save (args : List Arg) : After (.tuple 0 args) (save args) := by
  unfold save
  split
  · exact after_bind obeys_askUnit (reads_askUnit.mono fun _ _ _ h => h.2) fun _ => after_emit rfl
  · exact (obeys_throw _).after _

theorem after_callStop (cfg : Cfg) (args : List Arg) : After (.tuple 1 args) (callStop cfg args) := by
  unfold callStop
  split
  · exact After.bind (after_emit rfl) fun _ => obeys_askUnit
  · split
    · exact After.bind (after_emit rfl) fun _ => obeys_askUnit
    · exact (obeys_throw _).after _
  · exact (obeys_throw _).after _

theorem after_pass (args : List Arg) : After (.tuple 3 args) (pass args) := by
  unfold pass
  split
  · exact after_emit rfl
  · exact (obeys_throw _).after _

theorem after_inject (args : List Arg) : After (.tuple 4 args) (inject args) := by
  unfold inject
  split
  · exact after_emit rfl
  · exact (obeys_throw _).after _

theorem obeys_all (cfg : Cfg) (n : Nat) :
    (∀ acc, Obeys (checkLoop cfg n acc)) ∧ (∀ k args, k ∈ keys → After (.tuple k args) (execute cfg n k args)) ∧
    Obeys (prepare cfg n) ∧ Obeys (waitLoop cfg n) := by
  induction n with
  | zero =>
    refine ⟨fun acc => ?_, fun k args _ => ?_, ?_, ?_⟩
    · unfold checkLoop; exact obeys_pending
    · unfold execute; exact obeys_pending.after _
    · unfold prepare; exact obeys_pending
    · unfold waitLoop; exact obeys_pending
  | succ n ih =>
    obtain ⟨h1, h2, h3, h4⟩ := ih
    refine ⟨fun acc => ?_, fun k args hk => ?_, ?_, ?_⟩
    · unfold checkLoop
      refine Reads.bind (P := fun o u n => n = [] ∧
        ((∃ m, o = .ok (some m) ∧ msgsOf u = [m]) ∨ ((∀ m, o ≠ .ok (some m)) ∧ msgsOf u = []))) reads_poll
        (Q := fun a _ u n => a.elim ((n.filter isOrder).Sublist ((msgsOf u).map documented))
          fun d => (n.filter isOrder).Sublist (documented d :: (msgsOf u).map documented)) (fun a => ?_) ?_ ?_ ?_
      · cases a with
        | none => exact obeys_pure acc
        | some d =>
          show After d _
          cases d with
          | int k =>
            dsimp only
            split
            · rename_i hk
              refine After.bind ?_ fun _ => h1 _
              have := h2 k [] hk
              unfold After at this ⊢
              rw [documented_int hk]
              exact this
            · exact Obeys.after (Obeys.bind (obeys_emit rfl) fun _ => h1 _) _
          | tuple k args =>
            dsimp only
            split
            · rename_i hk
              exact After.bind (h2 k args hk) fun _ => h1 _
            · exact Obeys.after (Obeys.bind (obeys_emit rfl) fun _ => h1 _) _
          | emptyTuple => exact (obeys_throw _).after _
          | other => exact Obeys.after (Obeys.bind (obeys_emit rfl) fun _ => h1 _) _
      · rintro a u1 n1 o u2 n2 ⟨rfl, h⟩ h'
        rw [List.nil_append, msgsOf_append]
        rcases h with ⟨m, he, hu⟩ | ⟨he, hu⟩
        · cases he
          rw [hu]
          exact h'
        · rw [hu]
          cases a with
          | none => exact h'
          | some m => exact absurd rfl (he m)
      · rintro e u n ⟨rfl, -⟩; exact List.nil_sublist _
      · rintro u n ⟨rfl, -⟩; exact List.nil_sublist _
    · unfold execute
      split
      · rename_i h; subst h; exact after_save args
      split
      · rename_i h; subst h; exact after_callStop cfg args
      split
      · split
        · exact h3.after _
        · exact (obeys_throw _).after _
      split
      · rename_i h; subst h; exact after_pass args
      · have : k = 4 := by simp [keys] at hk; omega
        subst this
        exact after_inject args
    · unfold prepare
      exact Obeys.bind obeys_askUnit fun _ => Obeys.bind (obeys_emit rfl) fun _ => Obeys.bind h4 fun _ =>
        Obeys.bind (obeys_emit rfl) fun _ => Obeys.bind obeys_askUnit fun _ => obeys_emit rfl
    · unfold waitLoop
      refine Obeys.bind obeys_waitMsg fun _ => Obeys.bind (h1 _) fun got => ?_
      split
      · exact obeys_pure _
      · exact h4

theorem obeys_message (k : Int) : Obeys (messageManager k) := Obeys.bind obeys_askUnit fun _ => obeys_emit rfl

theorem obeys_calculate (cfg : Cfg) (d : Bool) (x : Vec) : Obeys (calculate cfg d x) := by
  unfold calculate
  refine Obeys.bind (Obeys.bind (obeys_ask _) fun _ => Obeys.bind (obeys_emit rfl) fun _ => obeys_pure _) fun vals => ?_
  cases vals with
  | nil => exact obeys_throw _
  | cons fx ex =>
    refine Obeys.bind (Obeys.bind obeys_askUnit.attempt fun a => ?_) fun _ => obeys_pure _
    cases a with
    | ok _ => exact obeys_emit rfl
    | error e => exact Obeys.bind (obeys_emit rfl) fun _ => obeys_throw _

theorem obeys_routine (cfg : Cfg) (r : Routine) : ∀ n s, Obeys (runRoutine cfg r n s)
  | 0, _ => obeys_pending
  | n + 1, s => by
    unfold runRoutine
    split
    · exact obeys_pure _
    · exact obeys_throw _
    · exact Obeys.bind (obeys_calculate _ _ _).attempt fun _ => obeys_routine cfg r n _
    · exact Obeys.bind ((obeys_all cfg n).1 []).attempt fun _ => obeys_routine cfg r n _
    · exact Obeys.bind (obeys_message _).attempt fun _ => obeys_routine cfg r n _
    · exact Obeys.bind obeys_askUnit.attempt fun _ => obeys_routine cfg r n _

theorem obeys_minimize (cfg : Cfg) (r : Routine) (fuel : Nat) : Obeys (minimize cfg r fuel) := by
  unfold minimize
  refine Obeys.bind (Obeys.attempt ?_) fun res => Obeys.bind ?_ fun _ => ?_
  · unfold guarded
    refine Obeys.bind (Obeys.attempt ?_) fun res => ?_
    · split
      · exact Obeys.bind (obeys_throw _) fun _ => obeys_routine _ _ _ _
      · exact Obeys.bind (obeys_pure _) fun _ => obeys_routine _ _ _ _
    · rcases res with e | _
      · cases e with
        | error e => exact Obeys.bind (obeys_message _) fun _ => obeys_throw _
        | exit => exact obeys_throw _
        | keyboard => exact obeys_pure _
        | brokenPipe => exact obeys_pure _
      · exact obeys_pure _
  · unfold putEnd
    refine Obeys.bind obeys_askUnit.attempt fun a => ?_
    cases a with
    | ok _ => exact obeys_emit rfl
    | error e => exact Obeys.bind (obeys_emit rfl) fun _ => obeys_throw _
  · cases res with
    | ok _ => exact obeys_pure _
    | error e => exact obeys_throw _

end Glompo.Optimizer
