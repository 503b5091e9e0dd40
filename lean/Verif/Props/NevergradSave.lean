import Verif.Model.NevergradSave

/-!
# C132: checkpoints of Nevergrad optimizers
-/

namespace Glompo.Props

open Glompo
open Glompo.Nevergrad hiding run
open Glompo.NevergradSave

/-- Values told only. -/
def Event.isValue : Event → Bool
  | .told _ => true
  | .save _ => false

/-- A save which does not raise. -/
def Event.harmless : Event → Prop
  | .told _ => True
  | .save r => r ≠ .raises

/-- What of an optimizer can be observed apart from the files: the wrapper, its parent, its registrations, the calls made. -/
def ngVisible (s : S) : W × Bool × Nat × Nat := (s.w, s.parent, s.registered, s.asked)

private theorem callOnce_vis (zero : PyF) (t : Tell) (s s' : S) (h : ngVisible s = ngVisible s') :
    (callOnce zero t s).map ngVisible = (callOnce zero t s').map ngVisible := by
  obtain ⟨w, p, r, a, f⟩ := s
  obtain ⟨w', p', r', a', f'⟩ := s'
  simp only [ngVisible, Prod.mk.injEq] at h
  obtain ⟨rfl, rfl, rfl, rfl⟩ := h
  simp only [callOnce]
  cases p
  · rfl
  · simp only [if_true]
    cases call zero true t w <;> rfl

private theorem callAll_vis (zero : PyF) (met : Nat → Tell) (j : Nat) (s s' : S) (h : ngVisible s = ngVisible s') :
    (callAll zero met j s).map ngVisible = (callAll zero met j s').map ngVisible := by
  induction j generalizing s s' with
  | zero => simp [callAll, Except.map, h]
  | succ j ih =>
    have hc := callOnce_vis zero (met j) s s' h
    simp only [callAll]
    cases h1 : callOnce zero (met j) s <;> cases h2 : callOnce zero (met j) s' <;> rw [h1, h2] at hc <;> simp [Except.map] at hc ⊢
    · exact hc
    · exact ih _ _ hc

private theorem callOnce_parent (zero : PyF) (t : Tell) (s s' : S) (h : callOnce zero t s = .ok s') :
    s'.parent = s.parent ∧ s'.registered = s.registered ∧ s'.w.callbacks = s.w.callbacks := by
  unfold callOnce at h
  split at h
  · cases hc : call zero true t s.w with
    | error e => rw [hc] at h; simp at h
    | ok w =>
      rw [hc] at h
      simp only [Except.ok.injEq] at h
      subst h
      refine ⟨rfl, rfl, ?_⟩
      unfold call at hc
      split at hc
      · simp only [Except.ok.injEq] at hc; simp [← hc]
      · split at hc
        · simp at hc
        · simp only [if_true, Except.ok.injEq] at hc
          subst hc
          unfold glompo
          dsimp only
          split <;> split <;> rfl
  · simp at h

private theorem callAll_parent (zero : PyF) (met : Nat → Tell) (j : Nat) (s s' : S) (h : callAll zero met j s = .ok s') :
    s'.parent = s.parent ∧ s'.registered = s.registered ∧ s'.w.callbacks = s.w.callbacks := by
  induction j generalizing s with
  | zero => simp only [callAll, Except.ok.injEq] at h; subst h; exact ⟨rfl, rfl, rfl⟩
  | succ j ih =>
    simp only [callAll] at h
    cases hc : callOnce zero (met j) s with
    | error e => rw [hc] at h; simp at h
    | ok t =>
      rw [hc] at h
      have h1 := callOnce_parent zero (met j) s t hc
      have h2 := ih t h
      exact ⟨h2.1.trans h1.1, h2.2.1.trans h1.2.1, h2.2.2.trans h1.2.2⟩

private theorem save_vis (r : Dumped) (hr : r ≠ .raises) (s : S) (hp : s.parent = true) : ngVisible (save r s).2 = ngVisible s := by
  obtain ⟨w, p, g, a, f⟩ := s
  simp only at hp
  subst hp
  cases r <;> simp_all [save, ngVisible]

private theorem run_vis (zero : PyF) (es : List Event) (s s' : S) (h : ngVisible s = ngVisible s') (hp : s.parent = true)
    (hs : ∀ e ∈ es, Event.harmless e) :
    (run zero es s).map ngVisible = (run zero (es.filter Event.isValue) s').map ngVisible := by
  induction es generalizing s s' with
  | nil => simp [run, Except.map, h]
  | cons e es ih =>
    have hs' : ∀ e ∈ es, Event.harmless e := fun x hx => hs x (List.mem_cons_of_mem _ hx)
    cases e with
    | save r =>
      have hr : r ≠ .raises := hs (.save r) (List.mem_cons_self ..)
      have hv := save_vis r hr s hp
      simp only [run, step, Event.isValue, List.filter, Bool.false_eq_true]
      exact ih _ _ (hv.trans h) (by have := congrArg (·.2.1) hv; exact this.trans hp) hs'
    | told met =>
      have hreg : s.registered = s'.registered := congrArg (·.2.2.1) h
      have hc := callAll_vis zero met s.registered s s' h
      simp only [run, step, Event.isValue, List.filter]
      rw [hreg] at hc ⊢
      cases h1 : callAll zero met s'.registered s <;> cases h2 : callAll zero met s'.registered s' <;> rw [h1, h2] at hc <;>
        simp [Except.map] at hc ⊢
      · exact hc
      · exact ih _ _ hc ((callAll_parent zero met _ s _ h1).1.trans hp) hs'

/-- Whatever the sequence of values told and checkpoints made, if no checkpoint fails with an exception, the optimizer does what it would have
done without checkpoints: the same calls of callbacks, the same end, the same messages, the same exception if there is one. -/
theorem C132_checkpoints_unnoticed_partial (zero : PyF) (a : Arg) (es : List Event) (hs : ∀ e ∈ es, Event.harmless e) :
    (run zero es (start a)).map ngVisible = (run zero (es.filter Event.isValue) (start a)).map ngVisible :=
  run_vis zero es _ _ rfl rfl hs

/-- The same for an optimizer which was loaded from a file. -/
theorem C132_resumed_unnoticed_partial (zero : PyF) (f : File) (a : Arg) (es : List Event) (hs : ∀ e ∈ es, Event.harmless e) :
    (run zero es (resume f a)).map ngVisible = (run zero (es.filter Event.isValue) (resume f a)).map ngVisible :=
  run_vis zero es _ _ rfl rfl hs

/-- What a file holds: neither the optimizer nor the user's callbacks, and of the rest what the optimizer had at this moment. -/
theorem C132_file (s : S) :
    (save .written s).1 = .ok () ∧
    (save .written s).2.files = s.files ++ [⟨false, .none, s.w.stop, s.w.exhausted, s.registered⟩] ∧
    (save .noPackage s).2.files = s.files ∧ (save .raises s).2.files = s.files := ⟨rfl, rfl, rfl, rfl⟩

private theorem run_files (zero : PyF) (es : List Event) (s s' : S) (h : run zero es s = .ok s') (hr : 0 < s.registered)
    (hf : ∀ f ∈ s.files, f.parent = false ∧ f.callbacks = .none ∧ f.registered = s.registered) :
    ∀ f ∈ s'.files, f.parent = false ∧ f.callbacks = .none ∧ f.registered = s.registered := by
  have callOnce_files : ∀ (t : Tell) (s s' : S), callOnce zero t s = .ok s' → s'.files = s.files := by
    intro t s s' h
    unfold callOnce at h
    split at h
    · split at h
      · simp at h
      · simp only [Except.ok.injEq] at h; subst h; rfl
    · simp at h
  have callAll_files : ∀ (met : Nat → Tell) (j : Nat) (s s' : S), callAll zero met j s = .ok s' → s'.files = s.files := by
    intro met j
    induction j with
    | zero => intro s s' h; simp only [callAll, Except.ok.injEq] at h; subst h; rfl
    | succ j ih =>
      intro s s' h
      simp only [callAll] at h
      cases hc : callOnce zero (met j) s with
      | error e => rw [hc] at h; simp at h
      | ok t => rw [hc] at h; exact (ih t s' h).trans (callOnce_files _ _ _ hc)
  induction es generalizing s with
  | nil => simp only [run, Except.ok.injEq] at h; subst h; exact hf
  | cons e es ih =>
    simp only [run] at h
    cases e with
    | told met =>
      simp only [step] at h
      cases hc : callAll zero met s.registered s with
      | error e => rw [hc] at h; simp at h
      | ok t =>
        rw [hc] at h
        have hg := (callAll_parent zero met _ s t hc).2.1
        have := ih t h (by omega) (by rw [callAll_files _ _ _ _ hc, hg]; exact hf)
        rw [hg] at this
        exact this
    | save r =>
      simp only [step] at h
      have hg : (save r s).2.registered = s.registered := by cases r <;> rfl
      have hf' : ∀ f ∈ (save r s).2.files, f.parent = false ∧ f.callbacks = .none ∧ f.registered = (save r s).2.registered := by
        rw [hg]
        cases r
        · intro f hm
          have hm : f ∈ s.files ++ [⟨false, .none, s.w.stop, s.w.exhausted, s.registered⟩] := hm
          rcases List.mem_append.1 hm with hm | hm
          · exact hf f hm
          · simp only [List.mem_singleton] at hm; subst hm; exact ⟨rfl, rfl, rfl⟩
        · exact hf
        · exact hf
      have := ih _ h (by omega) hf'
      rw [hg] at this
      exact this

/-- All files an optimizer ever writes are free of the optimizer itself and of the user's callbacks (which need not be picklable). -/
theorem C132_files_clean (zero : PyF) (a : Arg) (es : List Event) (s : S) (h : run zero es (start a) = .ok s) :
    ∀ f ∈ s.files, f.parent = false ∧ f.callbacks = .none ∧ f.registered = 1 :=
  run_files zero es (start a) s h Nat.one_pos (by simp [start])

/-- Not so if a checkpoint fails: parent and callbacks are not given back, and the next value told raises, whatever it is. -/
theorem C132_failed_refuted (zero : PyF) (a : Arg) (met : Nat → Tell) :
    (save .raises (start a)).1 = .error .other ∧ run zero [.save .raises, .told met] (start a) = .error .other ∧
    (∃ s, run zero [.save .raises] (start a) = .ok s ∧ s.parent = false ∧ s.w.callbacks = .none) :=
  ⟨rfl, rfl, _, rfl, rfl, rfl⟩

/-- How often an optimizer was loaded: `NgResumed 0` was not. `a`: what was passed as `callbacks` in the last call of `minimize`. -/
inductive NgResumed (zero : PyF) : Nat → S → Prop
  | new (a : Arg) : NgResumed zero 0 (start a)
  | on (k : Nat) (s s' : S) (es : List Event) : NgResumed zero k s → run zero es s = .ok s' → NgResumed zero k s'
  | again (k : Nat) (s : S) (f : File) (a : Arg) : NgResumed zero k s → f ∈ s.files → NgResumed zero (k + 1) (resume f a)

private theorem resumed_registered (zero : PyF) (k : Nat) (s : S) (h : NgResumed zero k s) :
    s.registered = k + 1 ∧ ∀ f ∈ s.files, f.registered = k + 1 := by
  have run_reg : ∀ (es : List Event) (s s' : S), run zero es s = .ok s' → s'.registered = s.registered := by
    intro es
    induction es with
    | nil => intro s s' h; simp only [run, Except.ok.injEq] at h; subst h; rfl
    | cons e es ih =>
      intro s s' h
      simp only [run] at h
      cases hc : step zero e s with
      | error e => rw [hc] at h; simp at h
      | ok t =>
        rw [hc] at h
        rw [ih t s' h]
        cases e with
        | told met => exact (callAll_parent zero met _ s t hc).2.1
        | save r => simp only [step, Except.ok.injEq] at hc; subst hc; cases r <;> rfl
  induction h with
  | new a => exact ⟨rfl, by simp [start]⟩
  | on k s s' es hr hrun ih =>
    refine ⟨(run_reg es s s' hrun).trans ih.1, ?_⟩
    -- the files: the old ones, or ones with the present number of registrations
    have : ∀ (es : List Event) (s s' : S), run zero es s = .ok s' → (∀ f ∈ s.files, f.registered = s.registered) →
        ∀ f ∈ s'.files, f.registered = s.registered := by
      intro es
      induction es with
      | nil => intro s s' h hf; simp only [run, Except.ok.injEq] at h; subst h; exact hf
      | cons e es ih =>
        intro s s' h hf
        simp only [run] at h
        cases hc : step zero e s with
        | error e => rw [hc] at h; simp at h
        | ok t =>
          rw [hc] at h
          have hreg : t.registered = s.registered := run_reg [e] s t (by simp [run, hc])
          have hfiles : ∀ f ∈ t.files, f.registered = t.registered := by
            rw [hreg]
            cases e with
            | told met =>
              have : t.files = s.files := by
                have key : ∀ (j : Nat) (s t : S), callAll zero met j s = .ok t → t.files = s.files := by
                  intro j
                  induction j with
                  | zero => intro s t h; simp only [callAll, Except.ok.injEq] at h; subst h; rfl
                  | succ j ihj =>
                    intro s t h
                    simp only [callAll] at h
                    cases hc : callOnce zero (met j) s with
                    | error e => rw [hc] at h; simp at h
                    | ok u =>
                      rw [hc] at h
                      refine (ihj u t h).trans ?_
                      unfold callOnce at hc
                      split at hc
                      · split at hc
                        · simp at hc
                        · simp only [Except.ok.injEq] at hc; subst hc; rfl
                      · simp at hc
                exact key _ s t hc
              rw [this]; exact hf
            | save r =>
              simp only [step, Except.ok.injEq] at hc
              subst hc
              cases r
              · intro f hm
                have hm : f ∈ s.files ++ [⟨false, .none, s.w.stop, s.w.exhausted, s.registered⟩] := hm
                rcases List.mem_append.1 hm with hm | hm
                · exact hf f hm
                · simp only [List.mem_singleton] at hm; subst hm; rfl
              · exact hf
              · exact hf
          have := ih t s' h hfiles
          rw [hreg] at this
          exact this
    have := this es s s' hrun (by rw [ih.1]; exact ih.2)
    rw [ih.1] at this
    exact this
  | again k s f a hr hm ih =>
    exact ⟨by simp only [resume, ih.2 f hm], by simp [resume]⟩

/-- Nor does a resumed optimizer go on as before: the wrapper is registered once more each time, so the callbacks which were called once for
every value are called `k + 1` times after `k` resumptions. `n` callbacks, none of which asks for a stop, no messages, a value that does not
end the optimizer. -/
theorem C132_called_again_refuted (zero : PyF) (k n : Nat) (s : S) (f : File) (h : NgResumed zero k s) (hf : f ∈ s.files) (t : Tell)
    (hv : converged zero t.fx = false) (ha : ∀ j, t.answers j = false) (hm : t.msgs = []) :
    ∃ s', run zero [.told fun _ => t] (resume f (.several n)) = .ok s' ∧ s'.asked = (k + 2) * n ∧
      s'.w = (resume f (.several n)).w := by
  have hreg : (resume f (.several n)).registered = k + 2 := (resumed_registered zero (k + 1) _ (.again k s f (.several n) h hf)).1
  have key : ∀ (j : Nat) (u : S), u.parent = true → u.w.stop = false → u.w.callbacks = .list n →
      callAll zero (fun _ => t) j u = .ok { u with asked := u.asked + j * n } := by
    intro j
    induction j with
    | zero => intro u _ _ _; simp [callAll]
    | succ j ih =>
      intro u hp hs hc
      have hcall : call zero true t u.w = .ok u.w := by
        have he : ({ callbacks := .list n, stop := false, exhausted := u.w.exhausted, sent := u.w.sent } : W) = u.w := by rw [← hs, ← hc]
        simp [call, reason, hs, hv, hc, userStop, ha, glompo, hm]
        exact he
      have hone : callOnce zero t u = .ok { u with asked := u.asked + n } := by
        simp [callOnce, hp, hcall, asks, hs, hv, hc]
      simp only [callAll, hone]
      rw [ih { u with asked := u.asked + n } hp hs hc]
      simp only [Except.ok.injEq, S.mk.injEq, true_and, and_true]
      rw [Nat.succ_mul]; omega
  refine ⟨{ resume f (.several n) with asked := (resume f (.several n)).asked + (k + 2) * n }, ?_, ?_, ?_⟩
  · simp only [run, step, hreg]
    rw [key (k + 2) _ rfl rfl rfl, ← hreg]
  · simp [resume]
  · rfl

/-- Two resumptions in a row; a value 1 told, no callback asks for a stop: of one callback three calls. And the hypotheses of the theorems above
are met: a run with values and checkpoints which writes a file. -/
def quietTell : Tell := ⟨.fin 1, fun _ => false, []⟩

example : ∃ s, run .ninf [.told fun _ => quietTell, .save .written, .save .noPackage, .told fun _ => quietTell] (start .one) = .ok s ∧
    s.asked = 2 ∧ s.files.length = 1 ∧ ngVisible s = (⟨.list 1, false, false, []⟩, true, 1, 2) := by
  refine ⟨_, rfl, ?_⟩
  decide +kernel

example : ∃ f ∈ (save .written (resume ⟨false, .none, false, false, 1⟩ (.several 1))).2.files,
    ∃ s, run .ninf [.told fun _ => quietTell] (resume f (.several 1)) = .ok s ∧ s.asked = 3 := by
  refine ⟨_, List.mem_singleton.2 rfl, _, rfl, ?_⟩
  decide +kernel

private theorem callAll_stopped (zero : PyF) (met : Nat → Tell) (j : Nat) (s s' : S) (h : callAll zero met j s = .ok s') (hs : s.w.stop = true) :
    s'.asked = s.asked ∧ s'.w = s.w := by
  induction j generalizing s with
  | zero => cases h; exact ⟨rfl, rfl⟩
  | succ j ih =>
    simp only [callAll] at h
    cases h1 : callOnce zero (met j) s with
    | error e => rw [h1] at h; cases h
    | ok u =>
      rw [h1] at h
      have hu : u.asked = s.asked ∧ u.w = s.w := by
        unfold callOnce at h1
        split at h1
        · simp only [call, hs, if_true, Except.ok.injEq] at h1
          subst h1
          exact ⟨by simp [asks, hs], rfl⟩
        · cases h1
      obtain ⟨a, b⟩ := ih u h (hu.2 ▸ hs)
      exact ⟨a.trans hu.1, b.trans hu.2⟩

/-- Callbacks of the user are not called once the optimizer has stopped, whatever is told and saved after, and the optimizer stays stopped. -/
theorem C132_stopped_unasked (zero : PyF) (es : List Event) (s s' : S) (h : run zero es s = .ok s') (hs : s.w.stop = true) :
    s'.asked = s.asked ∧ s'.w.stop = true := by
  induction es generalizing s with
  | nil => cases h; exact ⟨rfl, hs⟩
  | cons e es ih =>
    simp only [run] at h
    cases h1 : step zero e s with
    | error x => rw [h1] at h; cases h
    | ok u =>
      rw [h1] at h
      have hu : u.asked = s.asked ∧ u.w.stop = true := by
        cases e with
        | told met =>
          obtain ⟨a, b⟩ := callAll_stopped zero met _ s u h1 hs
          exact ⟨a, b ▸ hs⟩
        | save r => cases h1; cases r <;> exact ⟨rfl, hs⟩
      obtain ⟨a, b⟩ := ih u h hu.2
      exact ⟨a.trans hu.1, b⟩

/-- Nor are they called with a value which ends the optimizer: that value, told to an optimizer with its wrapper registered, stops it at once, so
that no callback is called again. -/
theorem C132_last_unasked (zero : PyF) (t : Tell) (es : List Event) (s s' : S) (h : run zero (.told (fun _ => t) :: es) s = .ok s')
    (hr : 0 < s.registered) (hv : converged zero t.fx = true) : s'.asked = s.asked ∧ s'.w.stop = true := by
  simp only [run, step] at h
  obtain ⟨j, hj⟩ := Nat.exists_eq_succ_of_ne_zero (Nat.pos_iff_ne_zero.mp hr)
  rw [hj] at h
  simp only [callAll] at h
  cases h1 : callOnce zero t s with
  | error e => rw [h1] at h; cases h
  | ok u =>
    rw [h1] at h
    have hu : u.asked = s.asked ∧ u.w.stop = true := by
      unfold callOnce at h1
      split at h1
      · by_cases hs : s.w.stop = true
        · simp only [call, hs, if_true, Except.ok.injEq] at h1
          subst h1
          exact ⟨by simp [asks, hs], hs⟩
        · have hcall : call zero true t s.w = .ok (glompo t s.w "Nevergrad termination conditions") := by
            simp only [call, reason, hv, if_true]
            rw [if_neg hs]
          rw [hcall] at h1
          simp only [Except.ok.injEq] at h1
          subst h1
          refine ⟨by simp [asks, hv], ?_⟩
          show (glompo t s.w "Nevergrad termination conditions").stop = true
          unfold glompo
          generalize hg : "Nevergrad termination conditions" = g
          have hne : g ≠ "" := by rw [← hg]; decide
          simp [hne]
      · cases h1
    dsimp only at h
    cases h2 : callAll zero (fun _ => t) j u with
    | error e => rw [h2] at h; cases h
    | ok v =>
      rw [h2] at h
      obtain ⟨a, b⟩ := callAll_stopped zero _ j u v h2 hu.2
      obtain ⟨c, d⟩ := C132_stopped_unasked zero es v s' h (b ▸ hu.2)
      exact ⟨c.trans (a.trans hu.1), d⟩

/-- A value below the limit 0 ends an optimizer with one callback, which was called for the value before only. -/
def endingRun : List Event :=
  [.told fun _ => ⟨.fin 1, fun _ => false, []⟩, .told fun _ => ⟨.fin (-1), fun _ => false, []⟩, .told fun _ => ⟨.fin 1, fun _ => false, []⟩]

example : converged (.fin 0) (.fin (-1)) = true ∧
    (match run (.fin 0) endingRun (start .one) with | .ok s => decide (s.asked = 1 ∧ s.w.stop = true) | .error _ => false) = true := by
  decide +kernel

end Glompo.Props
