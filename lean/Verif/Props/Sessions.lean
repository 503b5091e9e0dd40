import Verif.Spec.Sessions
import Mathlib.Tactic.Linarith
import Mathlib.Tactic.Ring
import Mathlib.Data.List.Induction

/-!
# C30 (session bookkeeping) and C41 (time over sessions)
-/

namespace Glompo.Props

open Glompo Glompo.Sessions Glompo.Spec.Sessions

/-! ### C30 -/

/-- Numbers of time stamps. -/
def Balanced (w : World) : Prop :=
  (∀ c, w.mgr = some (c, false) → c.starts.length = c.ends.length) ∧
  (∀ c, w.mgr = some (c, true) → (c.starts.length = c.ends.length ∨ c.starts.length = c.ends.length + 1) ∧ 0 < c.starts.length) ∧
  (∀ c ∈ w.saved, c.starts.length = c.ends.length)

theorem setLast_length {l l' : List Rat} {d : Rat} (h : setLast l d = .ok l') : l'.length = l.length := by
  cases l with
  | nil => cases h
  | cons a t =>
    simp only [setLast, Except.ok.injEq] at h
    subst h
    simp

theorem finish_length {z : Zone} {t : Rat} {c c' : Clock} (h : finish z t c = .ok c')
    (hc : c.starts.length = c.ends.length ∨ c.starts.length = c.ends.length + 1) : c'.starts.length = c'.ends.length := by
  unfold finish at h
  dsimp only at h
  split at h
  · rename_i he
    split at h
    · cases h
    · rename_i l hl
      simp only [Except.ok.injEq] at h
      subst h
      show c.starts.length = l.length
      rw [setLast_length hl]; exact he
  · simp only [Except.ok.injEq] at h
    subst h
    rename_i hne
    simp only [List.length_append, List.length_singleton]
    rcases hc with hc | hc
    · exact absurd hc hne
    · exact hc

theorem mark_length {z : Zone} {t : Rat} {c c' : Clock} (h : mark z t c = .ok c')
    (hc : c.starts.length = c.ends.length ∨ c.starts.length = c.ends.length + 1 ) :
    c'.starts.length = c'.ends.length ∧ c'.starts.length = c.starts.length := by
  unfold mark at h
  split at h
  · split at h
    · rename_i he
      split at h
      · cases h
      · rename_i l hl
        simp only [Except.ok.injEq] at h
        subst h
        exact ⟨by show c.starts.length = l.length; rw [setLast_length hl]; exact he, rfl⟩
    · simp only [Except.ok.injEq] at h
      subst h
      rename_i hne
      refine ⟨?_, rfl⟩
      simp only [List.length_append, List.length_singleton]
      rcases hc with hc | hc
      · exact absurd hc hne
      · exact hc
  · simp only [Except.ok.injEq] at h
    subst h
    omega

theorem balanced_step (z : Zone) (w : World) (e : Event) (h : Balanced w) : Balanced (step z w e) := by
  obtain ⟨h1, h2, h3⟩ := h
  have hidle : ∀ (w' : World) (c : Clock), w'.mgr = some (c, false) → c.starts.length = c.ends.length →
      (∀ c ∈ w'.saved, c.starts.length = c.ends.length) → Balanced w' := by
    intro w' c hw hc hs
    refine ⟨fun c' hc' => ?_, fun c' hc' => ?_, hs⟩
    · rw [hw] at hc'; cases hc'; exact hc
    · rw [hw] at hc'; cases hc'
  have hnone : ∀ (w' : World), w'.mgr = none → (∀ c ∈ w'.saved, c.starts.length = c.ends.length) → Balanced w' := by
    intro w' hw hs
    refine ⟨fun c' hc' => ?_, fun c' hc' => ?_, hs⟩ <;> rw [hw] at hc' <;> cases hc'
  have hrun : ∀ (w' : World) (c : Clock), w'.mgr = some (c, true) →
      (c.starts.length = c.ends.length ∨ c.starts.length = c.ends.length + 1) ∧ 0 < c.starts.length →
      (∀ c ∈ w'.saved, c.starts.length = c.ends.length) → Balanced w' := by
    intro w' c hw hc hs
    refine ⟨fun c' hc' => ?_, fun c' hc' => ?_, hs⟩
    · rw [hw] at hc'; cases hc'
    · rw [hw] at hc'; cases hc'; exact hc
  unfold step
  split
  · exact hidle _ _ rfl rfl h3
  · rename_i t c hw
    refine hrun _ _ rfl ?_ h3
    have := h1 c hw
    simp only [begin_, List.length_append, List.length_singleton]
    omega
  · rename_i t c hw
    have hc := h1 c hw
    cases hf : finish z t { c with tStart := some t } with
    | error x => exact hidle _ _ rfl hc h3
    | ok c' => exact hidle _ _ rfl (finish_length hf (.inl hc)) h3
  · rename_i t c hw
    exact hrun _ _ rfl (h2 c hw) h3
  · rename_i t c r hw
    have hc : c.starts.length = c.ends.length ∨ c.starts.length = c.ends.length + 1 := by
      cases r
      · exact .inl (h1 c hw)
      · exact (h2 c hw).1
    cases hf : mark z t c with
    | error x =>
      cases r
      · exact hidle _ _ rfl (h1 c hw) h3
      · exact hrun _ _ rfl (h2 c hw) h3
    | ok c' =>
      have hm := mark_length hf hc
      have h3' : ∀ d ∈ w.saved ++ [c'], d.starts.length = d.ends.length := by
        intro d hd
        rcases List.mem_append.1 hd with hd | hd
        · exact h3 d hd
        · rw [List.mem_singleton.1 hd]; exact hm.1
      cases r
      · exact hidle _ _ rfl hm.1 h3'
      · exact hrun _ _ rfl ⟨.inl hm.1, by have := (h2 c hw).2; omega⟩ h3'
  · rename_i t c hw
    have hc := (h2 c hw)
    cases hf : finish z t c with
    | error x =>
      exfalso
      unfold finish at hf
      dsimp only at hf
      split at hf
      · rename_i he
        cases hl : c.ends with
        | nil => rw [hl] at he; simp only [List.length_nil] at he; omega
        | cons a l =>
          rw [hl] at hf
          cases hf
      · cases hf
    | ok c' => exact hidle _ _ rfl (finish_length hf hc.1) h3
  · exact hnone _ rfl h3
  · split
    · rename_i s hs
      cases hr : restore s with
      | error x => exact hnone _ rfl h3
      | ok c' =>
        unfold restore at hr
        split at hr
        · cases hr
        · rename_i hne
          simp only [Except.ok.injEq] at hr
          subst hr
          exact hidle _ _ rfl (by simpa using hne) h3
    · exact ⟨h1, h2, h3⟩
  · exact ⟨h1, h2, h3⟩

theorem balanced_run (z : Zone) (es : List Event) : Balanced (run z es) := by
  unfold run
  have : Balanced (default : World) := by
    refine ⟨fun c h => ?_, fun c h => ?_, fun c h => ?_⟩ <;> cases h
  revert this
  generalize (default : World) = w
  induction es generalizing w with
  | nil => exact fun h => h
  | cons e t ih => exact fun h => ih _ (balanced_step z w e h)

/-- **C30.** In every history of managers, sessions, convergence, checkpoints, interrupts, crashes and loads: a manager at rest has as many
session ends as starts; during a session there is at most one less; every checkpoint has as many of one as of the other and can
therefore be loaded, which gives a manager at rest that knows exactly the time stamps of the checkpoint. -/
theorem C30_session_bookkeeping (z : Zone) (es : List Event) :
    (∀ c, (run z es).mgr = some (c, false) → c.ends.length = c.starts.length) ∧
    (∀ c, (run z es).mgr = some (c, true) → c.ends.length ≤ c.starts.length ∧ c.starts.length ≤ c.ends.length + 1) ∧
    (∀ (i : Nat) s, (run z es).saved[i]? = some s → s.ends.length = s.starts.length ∧
      ∃ c, (run z (es ++ [.load i])).mgr = some (c, false) ∧ c.starts = s.starts ∧ c.ends = s.ends) := by
  have h := balanced_run z es
  refine ⟨fun c hc => (h.1 c hc).symm, fun c hc => ?_, fun i s hs => ?_⟩
  · have := (h.2.1 c hc).1
    omega
  · have he := h.2.2 s (List.mem_of_getElem? hs)
    refine ⟨he.symm, { s with tUsed := Init.usedTime s.starts s.ends, tStart := none, tEnd := none }, ?_, rfl, rfl⟩
    rw [run, List.foldl_append]
    show (step z (run z es) (.load i)).mgr = _
    simp only [step, hs, restore, he, ne_eq, not_true_eq_false, if_false, restored]

example : (run (fun _ => 0) [.fresh, .start 1, .checkpoint 3, .checkpoint 4, .kill, .load 1, .start 10]).mgr =
    some ({ tStart := some 10, tEnd := none, tUsed := 3, starts := [1, 10], ends := [4] }, true) := by decide +kernel

/-- **C30 (no exception).** None of these methods raises because of the time stamps, unless a session is interrupted before its start was
recorded. -/
theorem C30_no_exception (z : Zone) (es : List Event) (h : ∀ t, Event.interrupted t ∉ es) : (run z es).raised = none := by
  induction es using List.reverseRecOn with
  | nil => rfl
  | append_singleton es e ih =>
    have ih := ih fun t ht => h t (List.mem_append_left _ ht)
    have hb := balanced_run z es
    have he : ∀ t, e ≠ .interrupted t := fun t ht => h t (by rw [ht]; simp)
    have : run z (es ++ [e]) = step z (run z es) e := by simp [run, List.foldl_append]
    rw [this]
    revert ih hb
    generalize run z es = w
    intro ih hb
    unfold step
    split
    · exact ih
    · exact ih
    · exact absurd rfl (he _)
    · exact ih
    · rename_i t c r hw
      cases hf : mark z t c with
      | ok c' => exact ih
      | error x =>
        exfalso
        unfold mark at hf
        split at hf
        · rename_i hp
          split at hf
          · rename_i hl
            cases hl2 : c.ends with
            | nil => rw [hl2] at hl; simp only [List.length_nil] at hl; omega
            | cons a l => rw [hl2] at hf; cases hf
          · cases hf
        · cases hf
    · rename_i t c hw
      cases hf : finish z t c with
      | ok c' => exact ih
      | error x =>
        exfalso
        have hp := (hb.2.1 c hw).2
        unfold finish at hf
        dsimp only at hf
        split at hf
        · rename_i hl
          cases hl2 : c.ends with
          | nil => rw [hl2] at hl; simp only [List.length_nil] at hl; omega
          | cons a l => rw [hl2] at hf; cases hf
        · cases hf
    · exact ih
    · split
      · rename_i s hs
        have := hb.2.2 s (List.mem_of_getElem? hs)
        simp only [restore, this, ne_eq, not_true_eq_false, if_false, restored]
        exact ih
      · exact ih
    · exact ih

example : ∀ t, Event.interrupted t ∉ [Event.fresh, .start 1, .checkpoint 3, .kill, .load 0] := by simp

/-- **C30 (refuted part).** An interrupt (Ctrl-C) just after `start_manager` entered its `try` raises `IndexError` in the `finally` clause
of a new manager, so that no result is returned. -/
theorem C30_early_interrupt_refuted : (run (fun _ => 0) [.fresh, .interrupted 5]).raised = some .indexError := by decide +kernel

/-! ### C41 -/

/-- How the time stamps relate to what happened, for a constant zone `k`. -/
def Tracks (k : Rat) (c : Clock) (l : Life) : Prop :=
  match l.phase with
  | .ready => c.tStart = none ∧ c.tEnd = none ∧ c.tUsed = total l.past ∧ c.starts = l.past.map (fun p => p.1 + k) ∧
      c.ends = l.past.map (fun p => p.2 + k)
  | .running s conv => c.tStart = some s ∧ c.tEnd = conv ∧ c.tUsed = total l.past ∧
      c.starts = l.past.map (fun p => p.1 + k) ++ [s + k] ∧
      (c.ends = l.past.map (fun p => p.2 + k) ∨ ∃ t, c.ends = l.past.map (fun p => p.2 + k) ++ [t + k])
  | .done => c.starts = l.past.map (fun p => p.1 + k) ∧ c.ends = l.past.map (fun p => p.2 + k)

/-- Whether a phase is a running session. -/
def Phase.isRunning : Phase → Bool
  | .running _ _ => true
  | _ => false

/-- The world of time stamps follows what happened. -/
def Follows (k : Rat) (w : World) (t : Truth) : Prop :=
  (match w.mgr, t.life with
    | none, none => True
    | some (c, r), some l => Tracks k c l ∧ r = Phase.isRunning l.phase
    | _, _ => False) ∧
  w.saved.map (fun s => (s.starts, s.ends)) = t.saved.map (fun p => (p.map (fun q => q.1 + k), p.map (fun q => q.2 + k)))

theorem setLast_snoc (l : List Rat) (a d : Rat) : setLast (l ++ [a]) d = .ok (l ++ [d]) := by
  cases l with
  | nil => rfl
  | cons b t =>
    show Except.ok (((b :: t) ++ [a]).dropLast ++ [d]) = _
    rw [List.dropLast_concat]

theorem usedTime_shift (k : Rat) (l : List (Rat × Rat)) :
    Init.usedTime (l.map fun p => p.1 + k) (l.map fun p => p.2 + k) = total l := by
  unfold Init.usedTime total
  induction l with
  | nil => rfl
  | cons p t ih =>
    simp only [List.map_cons, List.zipWith_cons_cons, List.sum_cons] at *
    rw [ih]; ring

theorem finish_running {z : Zone} {k : Rat} (hz : ∀ t, z t = k) {c : Clock} {past : List (Rat × Rat)} {s : Rat} {conv : Option Rat}
    (h : Tracks k c ⟨past, .running s conv⟩) (t : Rat) :
    ∃ c', finish z t c = .ok c' ∧ Tracks k c' ⟨past ++ [(s, conv.getD t)], .done⟩ := by
  obtain ⟨-, h2, -, h4, h5⟩ := h
  unfold finish
  simp only [h2, stamp, hz]
  rcases h5 with h5 | ⟨u, h5⟩
  · rw [if_neg (by rw [h4, h5]; simp)]
    exact ⟨_, rfl, by simp [Tracks, h4, h5]⟩
  · rw [if_pos (by rw [h4, h5]; simp), h5, setLast_snoc]
    exact ⟨_, rfl, by simp [Tracks, h4]⟩

theorem mark_running {z : Zone} {k : Rat} (hz : ∀ t, z t = k) {c : Clock} {past : List (Rat × Rat)} {s : Rat} {conv : Option Rat}
    (h : Tracks k c ⟨past, .running s conv⟩) (t : Rat) :
    ∃ c', mark z t c = .ok c' ∧ Tracks k c' ⟨past, .running s conv⟩ ∧
      c'.starts = (past ++ [(s, t)]).map (fun p => p.1 + k) ∧ c'.ends = (past ++ [(s, t)]).map (fun p => p.2 + k) := by
  obtain ⟨h1, h2, h3, h4, h5⟩ := h
  unfold mark
  simp only [stamp, hz]
  rw [if_pos (by rw [h4]; simp)]
  rcases h5 with h5 | ⟨u, h5⟩
  · rw [if_neg (by rw [h4, h5]; simp)]
    exact ⟨_, rfl, ⟨h1, h2, h3, h4, .inr ⟨t, by simp [h5]⟩⟩, by simp [h4], by simp [h5]⟩
  · rw [if_pos (by rw [h4, h5]; simp), h5, setLast_snoc]
    exact ⟨_, rfl, ⟨h1, h2, h3, h4, .inr ⟨t, by simp⟩⟩, by simp [h4], by simp⟩

theorem follows_step {z : Zone} {k : Rat} (hz : ∀ t, z t = k) (w : World) (t : Truth) (e : Event) (h : Follows k w t)
    (ho : Ordinary t e) : Follows k (step z w e) (next t e) := by
  obtain ⟨w1, ws, wr⟩ := w
  obtain ⟨tl, ts⟩ := t
  obtain ⟨h1, h2⟩ := h
  simp only at h1 h2
  cases e with
  | fresh => exact ⟨by simp [step, next, Tracks, Phase.isRunning, total]; exact ⟨rfl, rfl, rfl, rfl, rfl⟩, h2⟩
  | kill => exact ⟨by simp [step, next], h2⟩
  | interrupted t => exact absurd ho (by simp [Ordinary])
  | load i =>
    have hi := congrArg (fun l => l[i]?) h2
    simp only [List.getElem?_map] at hi
    simp only [step, next]
    cases hs : ws[i]? with
    | none =>
      cases ht : ts[i]? with
      | none => exact ⟨h1, h2⟩
      | some p => rw [hs, ht] at hi; simp at hi
    | some s =>
      cases ht : ts[i]? with
      | none => rw [hs, ht] at hi; simp at hi
      | some p =>
        rw [hs, ht] at hi
        simp only [Option.map_some, Option.some.injEq, Prod.mk.injEq] at hi
        simp only [restore, hi.1, hi.2, List.length_map, ne_eq, not_true_eq_false, if_false, restored]
        refine ⟨⟨⟨rfl, rfl, ?_, rfl, rfl⟩, rfl⟩, h2⟩
        exact usedTime_shift k p
  | start s =>
    cases w1 with
    | none =>
      cases tl with
      | none => exact ⟨h1, h2⟩
      | some l => exact h1.elim
    | some cr =>
      obtain ⟨c, r⟩ := cr
      cases tl with
      | none => exact h1.elim
      | some l =>
        obtain ⟨past, ph⟩ := l
        obtain ⟨hT, rfl⟩ := h1
        cases ph with
        | done => exact absurd rfl (ho _ rfl)
        | running s0 c0 => exact ⟨⟨hT, rfl⟩, h2⟩
        | ready =>
          obtain ⟨a1, a2, a3, a4, a5⟩ := hT
          exact ⟨⟨⟨rfl, a2, a3, by simp [begin_, a4, stamp, hz, after], .inl (by simp [begin_, a5, after])⟩, rfl⟩, h2⟩
  | converge s =>
    cases w1 with
    | none =>
      cases tl with
      | none => exact ⟨h1, h2⟩
      | some l => exact h1.elim
    | some cr =>
      obtain ⟨c, r⟩ := cr
      cases tl with
      | none => exact h1.elim
      | some l =>
        obtain ⟨past, ph⟩ := l
        obtain ⟨hT, rfl⟩ := h1
        cases ph with
        | done => exact ⟨⟨hT, rfl⟩, h2⟩
        | ready => exact ⟨⟨hT, rfl⟩, h2⟩
        | running s0 c0 =>
          obtain ⟨a1, a2, a3, a4, a5⟩ := hT
          exact ⟨⟨⟨a1, rfl, a3, a4, a5⟩, rfl⟩, h2⟩
  | finish s =>
    cases w1 with
    | none =>
      cases tl with
      | none => exact ⟨h1, h2⟩
      | some l => exact h1.elim
    | some cr =>
      obtain ⟨c, r⟩ := cr
      cases tl with
      | none => exact h1.elim
      | some l =>
        obtain ⟨past, ph⟩ := l
        obtain ⟨hT, rfl⟩ := h1
        cases ph with
        | done => exact ⟨⟨hT, rfl⟩, h2⟩
        | ready => exact ⟨⟨hT, rfl⟩, h2⟩
        | running s0 c0 =>
          obtain ⟨c', hc', hT'⟩ := finish_running hz hT s
          simp only [step, next, Phase.isRunning, hc', finished, after]
          exact ⟨⟨hT', rfl⟩, h2⟩
  | checkpoint s =>
    cases w1 with
    | none =>
      cases tl with
      | none => exact ⟨h1, h2⟩
      | some l => exact h1.elim
    | some cr =>
      obtain ⟨c, r⟩ := cr
      cases tl with
      | none => exact h1.elim
      | some l =>
        obtain ⟨past, ph⟩ := l
        obtain ⟨hT, rfl⟩ := h1
        cases ph with
        | running s0 c0 =>
          obtain ⟨c', hc', hT', hs, he⟩ := mark_running hz hT s
          simp only [step, next, hc', marked, known]
          refine ⟨⟨hT', rfl⟩, ?_⟩
          simp only [List.map_append, h2, List.map_cons, List.map_nil]
          rw [hs, he]
          simp
        | ready =>
          rcases ho _ rfl with ⟨_, _, h⟩ | h
          · cases h
          · simp only at h
            subst h
            have hT0 := hT
            obtain ⟨a1, a2, a3, a4, a5⟩ := hT0
            have : mark z s c = .ok c := by unfold mark; rw [a4]; simp
            simp only [step, next, this, marked, known]
            refine ⟨⟨hT, rfl⟩, ?_⟩
            simp only [List.map_append, h2, List.map_cons, List.map_nil]
            rw [a4, a5]
            simp
        | done =>
          rcases ho _ rfl with ⟨_, _, h⟩ | h
          · cases h
          · simp only at h
            subst h
            have hT0 := hT
            obtain ⟨a4, a5⟩ := hT0
            have : mark z s c = .ok c := by unfold mark; rw [a4]; simp
            simp only [step, next, this, marked, known]
            refine ⟨⟨hT, rfl⟩, ?_⟩
            simp only [List.map_append, h2, List.map_cons, List.map_nil]
            rw [a4, a5]
            simp

theorem follows_run {z : Zone} {k : Rat} (hz : ∀ t, z t = k) (es : List Event) (ho : AllOrdinary es) :
    Follows k (run z es) (truth es) := by
  induction es using List.reverseRecOn with
  | nil => exact ⟨trivial, rfl⟩
  | append_singleton es e ih =>
    have ih := ih fun pre x post h => ho pre x (post ++ [e]) (by rw [h]; simp)
    have h1 : run z (es ++ [e]) = step z (run z es) e := by simp [run, List.foldl_append]
    have h2 : truth (es ++ [e]) = next (truth es) e := by simp [truth, List.foldl_append]
    rw [h1, h2]
    exact follows_step hz _ _ _ ih (ho es e [] (by simp))

/-- **C41.** For every ordinary history (any number of sessions, checkpoints, crashes and loads, in any order) in a zone without clock
changes: while a session runs, `MaxSeconds` over all sessions is true exactly if the lengths of all earlier sessions (each up to the
checkpoint it was resumed from) and the time since the start of the running one reach the limit; before the session starts, if the
earlier ones do; `MaxSeconds` of the session looks at the running one only. Down time does not count. -/
theorem C41_time_limit_partial (z : Zone) (hz : NoChange z) (es : List Event) (ho : AllOrdinary es) (l : Life)
    (hl : (truth es).life = some l) : ∃ c r, (run z es).mgr = some (c, r) ∧
    (∀ s conv, l.phase = .running s conv → ∀ now limit,
      (maxSeconds (.overall limit) now c = true ↔ limit ≤ total l.past + (now - s)) ∧
      (maxSeconds (.session limit) now c = true ↔ limit ≤ now - s)) ∧
    (l.phase = .ready → ∀ now limit, (maxSeconds (.overall limit) now c = true ↔ limit ≤ total l.past)) := by
  obtain ⟨k, hk⟩ := hz
  obtain ⟨h1, -⟩ := follows_run hk es ho
  rw [hl] at h1
  cases hm : (run z es).mgr with
  | none => rw [hm] at h1; exact h1.elim
  | some cr =>
    obtain ⟨c, r⟩ := cr
    rw [hm] at h1
    obtain ⟨hT, -⟩ := h1
    obtain ⟨past, ph⟩ := l
    refine ⟨c, r, rfl, ?_, ?_⟩
    · rintro s conv rfl now limit
      obtain ⟨a1, -, a3, -, -⟩ := hT
      simp only at a3
      constructor
      · simp only [maxSeconds, a1, a3, decide_eq_true_eq]
        rw [add_comm]
      · simp only [maxSeconds, a1, decide_eq_true_eq]
    · rintro rfl now limit
      obtain ⟨a1, -, a3, -, -⟩ := hT
      simp only at a3
      simp only [maxSeconds, a1, a3, decide_eq_true_eq, zero_add]

/-- A history for the examples: a session from 1, checkpoints at 3 and 4, a crash, a second session from the first checkpoint, from 10,
which converges at 12 and ends at 13. -/
def sampleHistory : List Event :=
  [.fresh, .checkpoint 0, .start 1, .checkpoint 3, .checkpoint 4, .kill, .load 1, .start 10]

theorem sampleHistory_ordinary : AllOrdinary sampleHistory := by
  intro pre e post h
  rcases pre with _ | ⟨a, pre⟩ <;> simp only [sampleHistory, List.nil_append, List.cons_append, List.cons.injEq] at h
  · obtain ⟨rfl, -⟩ := h; trivial
  obtain ⟨rfl, h⟩ := h
  rcases pre with _ | ⟨a, pre⟩ <;> simp only [List.nil_append, List.cons_append, List.cons.injEq] at h
  · obtain ⟨rfl, -⟩ := h
    intro l hl; cases hl; exact .inr rfl
  obtain ⟨rfl, h⟩ := h
  rcases pre with _ | ⟨a, pre⟩ <;> simp only [List.nil_append, List.cons_append, List.cons.injEq] at h
  · obtain ⟨rfl, -⟩ := h
    intro l hl; cases hl; simp
  obtain ⟨rfl, h⟩ := h
  rcases pre with _ | ⟨a, pre⟩ <;> simp only [List.nil_append, List.cons_append, List.cons.injEq] at h
  · obtain ⟨rfl, -⟩ := h
    intro l hl; cases hl; exact .inl ⟨_, _, rfl⟩
  obtain ⟨rfl, h⟩ := h
  rcases pre with _ | ⟨a, pre⟩ <;> simp only [List.nil_append, List.cons_append, List.cons.injEq] at h
  · obtain ⟨rfl, -⟩ := h
    intro l hl; cases hl; exact .inl ⟨_, _, rfl⟩
  obtain ⟨rfl, h⟩ := h
  rcases pre with _ | ⟨a, pre⟩ <;> simp only [List.nil_append, List.cons_append, List.cons.injEq] at h
  · obtain ⟨rfl, -⟩ := h; trivial
  obtain ⟨rfl, h⟩ := h
  rcases pre with _ | ⟨a, pre⟩ <;> simp only [List.nil_append, List.cons_append, List.cons.injEq] at h
  · obtain ⟨rfl, -⟩ := h; trivial
  obtain ⟨rfl, h⟩ := h
  rcases pre with _ | ⟨a, pre⟩ <;> simp only [List.nil_append, List.cons_append, List.cons.injEq] at h
  · obtain ⟨rfl, -⟩ := h
    intro l hl; cases hl; simp
  obtain ⟨rfl, h⟩ := h
  rcases pre with _ | ⟨a, pre⟩ <;> simp at h

/-- Seven seconds are used at 15: two of the first session, five of the second. -/
example : (truth sampleHistory).life = some ⟨[(1, 3)], .running 10 none⟩ ∧
    ∃ c r, (run (fun _ => 3600) sampleHistory).mgr = some (c, r) ∧ maxSeconds (.overall 7) 15 c = true ∧
      maxSeconds (.overall 8) 15 c = false := by
  have ht : (truth sampleHistory).life = some ⟨[(1, 3)], .running 10 none⟩ := by decide +kernel
  obtain ⟨c, r, hc, h, -⟩ := C41_time_limit_partial (fun _ => 3600) ⟨_, fun _ => rfl⟩ sampleHistory sampleHistory_ordinary _ ht
  refine ⟨ht, c, r, hc, (h _ _ rfl 15 7).1.2 (by norm_num [total]), ?_⟩
  by_contra hn
  have := (h _ _ rfl 15 8).1.1 (by simpa using hn)
  norm_num [total] at this

/-- **C41 (recorded sessions).** In the same histories, once a session is over the start and end recorded for each session are those of
the sessions that took place. -/
theorem C41_recorded_sessions_partial (z : Zone) (k : Rat) (hz : ∀ t, z t = k) (es : List Event) (ho : AllOrdinary es) (l : Life)
    (hl : (truth es).life = some l) (hp : ∀ s c, l.phase ≠ .running s c) :
    ∃ c, (run z es).mgr = some (c, false) ∧ c.starts.zip c.ends = l.past.map (fun p => (p.1 + k, p.2 + k)) := by
  obtain ⟨h1, -⟩ := follows_run hz es ho
  rw [hl] at h1
  cases hm : (run z es).mgr with
  | none => rw [hm] at h1; exact h1.elim
  | some cr =>
    obtain ⟨c, r⟩ := cr
    rw [hm] at h1
    obtain ⟨hT, hr⟩ := h1
    obtain ⟨past, ph⟩ := l
    have hse : c.starts = past.map (fun p => p.1 + k) ∧ c.ends = past.map (fun p => p.2 + k) := by
      cases ph with
      | running s conv => exact absurd rfl (hp _ _)
      | ready => exact hT.2.2.2
      | done => exact hT
    have hr' : r = false := by
      cases ph with
      | running s conv => exact absurd rfl (hp _ _)
      | ready => exact hr
      | done => exact hr
    subst hr'
    refine ⟨c, rfl, ?_⟩
    rw [hse.1, hse.2, List.zip_map']

example : (truth [.fresh, .start 1, .converge 5, .checkpoint 6, .finish 7]).life = some ⟨[(1, 5)], .done⟩ := by decide +kernel

/-- **C41 (refuted part).** A clock change (here of an hour) during a session is counted as running time, because time stamps are local
times without a zone: after a session of one hour, resumed, nothing has been used. -/
theorem C41_clock_change_refuted : ∃ (z : Zone) (es : List Event) (c : Clock), AllOrdinary es ∧
    (truth es).life = some ⟨[(0, 3600)], .ready⟩ ∧ (run z es).mgr = some (c, false) ∧ c.tUsed = 0 := by
  refine ⟨fun t => if t < 1800 then 7200 else 3600, [.fresh, .start 0, .checkpoint 3600, .kill, .load 0],
    { starts := [7200], ends := [7200] }, ?_, by decide +kernel, by decide +kernel, rfl⟩
  intro pre e post h
  rcases pre with _ | ⟨a, pre⟩ <;> simp only [List.nil_append, List.cons_append, List.cons.injEq] at h
  · obtain ⟨rfl, -⟩ := h; trivial
  obtain ⟨rfl, h⟩ := h
  rcases pre with _ | ⟨a, pre⟩ <;> simp only [List.nil_append, List.cons_append, List.cons.injEq] at h
  · obtain ⟨rfl, -⟩ := h
    intro l hl; cases hl; simp
  obtain ⟨rfl, h⟩ := h
  rcases pre with _ | ⟨a, pre⟩ <;> simp only [List.nil_append, List.cons_append, List.cons.injEq] at h
  · obtain ⟨rfl, -⟩ := h
    intro l hl; cases hl; exact .inl ⟨_, _, rfl⟩
  obtain ⟨rfl, h⟩ := h
  rcases pre with _ | ⟨a, pre⟩ <;> simp only [List.nil_append, List.cons_append, List.cons.injEq] at h
  · obtain ⟨rfl, -⟩ := h; trivial
  obtain ⟨rfl, h⟩ := h
  rcases pre with _ | ⟨a, pre⟩ <;> simp only [List.nil_append, List.cons_append, List.cons.injEq] at h
  · obtain ⟨rfl, -⟩ := h; trivial
  obtain ⟨rfl, h⟩ := h
  rcases pre with _ | ⟨a, pre⟩ <;> simp at h

/-- **C41 (refuted part).** A checkpoint taken by the user after a session has ended moves the end of that session: a session of ten
seconds followed by a checkpoint 90 seconds later counts as 100 seconds when resumed. -/
theorem C41_late_checkpoint_refuted : ∃ (es : List Event) (c : Clock),
    (truth es).life = some ⟨[(0, 10)], .ready⟩ ∧ (run (fun _ => 0) es).mgr = some (c, false) ∧ c.tUsed = 100 :=
  ⟨[.fresh, .start 0, .finish 10, .checkpoint 100, .kill, .load 0], { starts := [0], ends := [100], tUsed := 100 },
    by decide +kernel, by decide +kernel, rfl⟩

/-- **C41 (refuted part).** Calling `start_manager` again on the same object: the end of the second session is recorded as that of the
first, before its own start. -/
theorem C41_second_start_refuted : ∃ (es : List Event) (c : Clock),
    (truth es).life = some ⟨[(0, 10), (50, 70)], .done⟩ ∧ (run (fun _ => 0) es).mgr = some (c, false) ∧ c.ends = [10, 10] ∧
    c.tUsed = 0 :=
  ⟨[.fresh, .start 0, .finish 10, .start 50, .finish 70],
    { tStart := some 50, tEnd := some 10, starts := [0, 50], ends := [10, 10] },
    by decide +kernel, by decide +kernel, rfl, rfl⟩

end Glompo.Props
