import Verif.Spec.LogBuffer
import Verif.Lemmas.Basic

/-! # C130: the log holds little back -/

namespace Glompo.Props

open Glompo.Spec Glompo.FileLogger

namespace LogBuffer

/-- Rows in a buffer. -/
def rows (c : List (Nat × List Row)) : Nat := (c.map fun p => p.2.length).sum

theorem unwritten_eq (s : FileLogger) : unwritten s = rows s.chunk := by
  simp [unwritten, rows, List.length_flatMap]

theorem rows_set (c : List (Nat × List Row)) (i : Nat) (v : List Row) :
    rows (dictSet c i v) + ((dictGet c i).getD []).length = rows c + v.length := by
  induction c with
  | nil => simp [rows, dictSet, dictGet]
  | cons p t ih =>
    obtain ⟨k, w⟩ := p
    unfold dictSet dictGet
    split
    · rename_i h
      simp [rows, h]; omega
    · rename_i h
      simp [rows, h] at ih ⊢; omega

theorem rows_del (c : List (Nat × List Row)) (i : Nat) : rows (dictDel c i) ≤ rows c := by
  induction c with
  | nil => simp [rows, dictDel]
  | cons p t ih =>
    unfold dictDel at ih ⊢
    rw [List.filter_cons]
    split
    · simp [rows] at ih ⊢; omega
    · simp [rows] at ih ⊢; omega

/-- An operation which adds nothing to the buffers. -/
def Less (s t : FileLogger) : Prop := rows t.chunk ≤ rows s.chunk ∧ t.est = s.est

theorem Less.refl (s : FileLogger) : Less s s := ⟨Nat.le_refl _, rfl⟩
theorem Less.trans {s t u : FileLogger} (h : Less s t) (g : Less t u) : Less s u := ⟨Nat.le_trans g.1 h.1, g.2.trans h.2⟩

theorem flush1_less (s : FileLogger) (o : Nat) : Less s (s.flush1 o).1 := by
  unfold flush1
  split
  · exact Less.refl s
  · rename_i c hc
    split
    · split
      · exact Less.refl s
      · refine ⟨?_, rfl⟩
        have := rows_set s.chunk o []
        simp at this ⊢; omega
    · exact Less.refl s

theorem flushList_less : ∀ (os : List Nat) (s : FileLogger), Less s (s.flushList os).1
  | [], s => Less.refl s
  | o :: os, s => by
    have h := flush1_less s o
    rw [flushList]
    split
    · rename_i s' hm; rw [hm] at h; exact h.trans (flushList_less os s')
    · rename_i s' x hm; rw [hm] at h; exact h

theorem flush_less (s : FileLogger) (o : Option Nat) : Less s (s.flush o).1 := by
  unfold FileLogger.flush
  split <;> exact flushList_less _ _

theorem clear1_less (s : FileLogger) (o : Nat) : Less s (s.clear1 o).1 := by
  have h1 : Less s (if (dictGet s.chunk o).isSome then
      match s.flush1 o with
      | (s', none) => (({ s' with chunk := dictDel s'.chunk o }, none) : FileLogger × Option Err)
      | (s', some e) => (s', some e)
    else (s, none)).1 := by
    split
    · have h := flush1_less s o
      split
      · rename_i s' hm; rw [hm] at h; exact h.trans ⟨rows_del _ _, rfl⟩
      · rename_i s' x hm; rw [hm] at h; exact h
    · exact Less.refl s
  unfold clear1
  dsimp only
  revert h1
  generalize (if (dictGet s.chunk o).isSome then
      match s.flush1 o with
      | (s', none) => (({ s' with chunk := dictDel s'.chunk o }, none) : FileLogger × Option Err)
      | (s', some e) => (s', some e)
    else (s, none)) = q
  intro h1
  obtain ⟨s', x⟩ := q
  cases x with
  | some x => exact h1
  | none =>
    dsimp only
    split
    · exact h1.trans ⟨Nat.le_refl _, rfl⟩
    · exact h1

theorem clearList_less : ∀ (os : List Nat) (s : FileLogger), Less s (s.clearList os).1
  | [], s => Less.refl s
  | o :: os, s => by
    have h := clear1_less s o
    rw [clearList]
    split
    · rename_i s' hm; rw [hm] at h; exact h.trans (clearList_less os s')
    · rename_i s' x hm; rw [hm] at h; exact h

theorem clear_less (s : FileLogger) (o : Option Nat) : Less s (s.clearCache o).1 := by
  unfold clearCache
  split <;> exact clearList_less _ _

theorem read_less (s : FileLogger) (i : Nat) (k : String) : Less s (s.getHistory i k).1 := by
  unfold FileLogger.getHistory
  have h := flush_less s (some i)
  split
  · exact Less.refl s
  · split
    · split
      · rename_i s' x hm; rw [hm] at h; exact h
      · rename_i s' hm; rw [hm] at h
        split
        · exact h
        · split <;> exact h
    · exact Less.refl s

theorem add_less (s : FileLogger) (i : Nat) (t : String) : Less s (s.addOptimizer i t).1 := by
  unfold FileLogger.addOptimizer
  dsimp only
  split
  · exact Less.refl _
  · refine ⟨?_, rfl⟩
    have := rows_set s.chunk i []
    simp at this ⊢; omega

theorem addHist_less (s : FileLogger) (i : Nat) (hs : List String) : Less s (s.addIterHistory i hs).1 := by
  unfold FileLogger.addIterHistory
  dsimp only
  split
  · exact Less.refl _
  · split <;> exact Less.refl _

/-- Writing without an exception empties the buffers concerned. -/
theorem flushList_empties : ∀ (os : List Nat) (s s' : FileLogger) (o : Nat), o ∈ os → s.flushList os = (s', none) →
    rows s'.chunk + ((dictGet s.chunk o).getD []).length ≤ rows s.chunk
  | [], _, _, _, h, _ => by cases h
  | a :: os, s, s', o, h, hf => by
    rw [flushList] at hf
    split at hf
    · rename_i s1 hm
      have hl := flushList_less os s1
      rw [hf] at hl
      by_cases ha : o = a
      · subst ha
        unfold flush1 at hm
        split at hm
        · cases hm
        · rename_i c hc
          split at hm
          · split at hm
            · cases hm
            · cases hm
              have h1 := rows_set s.chunk o []
              have h2 := hl.1
              simp at h1 h2 ⊢
              omega
          · cases hm
            have h2 := hl.1
            rw [hc]
            simp at h2 ⊢
            omega
      · have ho : o ∈ os := by
          rcases List.mem_cons.mp h with h | h
          · exact absurd h ha
          · exact h
        have ih := flushList_empties os s1 s' o ho hf
        have h1 := (flush1_less s a).1
        have h3 : dictGet s1.chunk o = dictGet s.chunk o := by
          unfold flush1 at hm
          split at hm
          · cases hm
          · split at hm
            · split at hm
              · cases hm
              · cases hm; exact dictGet_set_ne _ _ ha
            · cases hm; rfl
        rw [hm] at h1
        rw [h3] at ih
        simp at h1
        omega
    · cases hf

/-- Within the limit. -/
def Fits (s : FileLogger) : Prop := s.est * rows s.chunk ≤ 100000000 ∧ (s.est = 0 → rows s.chunk = 0)

theorem Less.fits {s t : FileLogger} (h : Less s t) (f : Fits s) : Fits t := by
  refine ⟨?_, fun h0 => ?_⟩
  · rw [h.2]; exact Nat.le_trans (Nat.mul_le_mul_left _ h.1) f.1
  · have := f.2 (h.2 ▸ h0); have := h.1; omega

/-- The buffer of an optimizer has got one more row, and is written if the limit is exceeded. -/
theorem limit_fits (w : FileLogger) (i m : Nat) (hwc : rows w.chunk = m + 1) (hwg : 1 ≤ ((dictGet w.chunk i).getD []).length) (h0 : w.est ≠ 0)
    (hf : w.est * m ≤ 100000000) (ho : (if w.est * w.pending > 100000000 then w.flush (some i) else (w, none)).2 = none) :
    Fits (if w.est * w.pending > 100000000 then w.flush (some i) else (w, none)).1 ∧
    (if w.est * w.pending > 100000000 then w.flush (some i) else (w, none)).1.est = w.est := by
  split at ho
  · rename_i hb
    rw [if_pos hb]
    cases hm : w.flush (some i) with
    | mk t o =>
    rw [hm] at ho
    cases ho
    have hl := flush_less w (some i)
    rw [hm] at hl
    have hr : rows t.chunk ≤ m := by
      have key : rows t.chunk + ((dictGet w.chunk i).getD []).length ≤ rows w.chunk := by
        unfold FileLogger.flush at hm
        split at hm
        · rename_i e; cases e
        · rename_i e
          injection e with e
          subst e
          refine flushList_empties _ _ _ 0 ?_ hm
          have : (dictGet w.chunk 0).isSome := by
            cases hd : dictGet w.chunk 0 with
            | none => rw [hd] at hwg; simp at hwg
            | some _ => rfl
          exact (dictGet_isSome_iff _ _).mp this
        · rename_i k _ e
          injection e with e
          subst e
          exact flushList_empties _ _ _ _ (by simp) hm
      omega
    refine ⟨⟨?_, fun h => absurd (hl.2 ▸ h) h0⟩, hl.2⟩
    rw [hl.2]
    exact Nat.le_trans (Nat.mul_le_mul_left _ hr) hf
  · rename_i hb
    rw [if_neg hb]
    exact ⟨⟨Nat.le_of_not_lt hb, fun h => absurd h h0⟩, rfl⟩

theorem put_fits {s : FileLogger} {r : IterRes} {n : Nat} (f : Fits s) (hn : 0 < n) (ho : (s.putIteration r n).2 = none) :
    Fits (s.putIteration r n).1 ∧ (s.putIteration r n).1.est = if s.est = 0 then n else s.est := by
  generalize hq : (if ({ s with base := (s.base.putIteration r).1 } : FileLogger).est = 0 then
      { ({ s with base := (s.base.putIteration r).1 } : FileLogger) with est := n } else { s with base := (s.base.putIteration r).1 }) = q
  have hc : q.chunk = s.chunk := by rw [← hq]; split <;> rfl
  have he : q.est = if s.est = 0 then n else s.est := by rw [← hq]; split <;> rename_i h <;> simp at h <;> simp [h]
  have h0 : q.est ≠ 0 := by rw [he]; split <;> omega
  have hf : q.est * rows s.chunk ≤ 100000000 := by
    rw [he]; split
    · rename_i h; rw [f.2 h]; omega
    · exact f.1
  unfold FileLogger.putIteration at ho ⊢
  dsimp only at ho ⊢
  rw [hq] at ho ⊢
  cases hg : dictGet q.chunk r.optId with
  | none => rw [hg] at ho; cases ho
  | some c =>
    rw [hg] at ho
    dsimp only at ho ⊢
    have h1 := rows_set q.chunk r.optId (c ++ [{ callId := q.base.fCounter, x := r.x, fx := r.fx, extras := r.extras }])
    rw [hg] at h1
    have hwc : rows ({ q with chunk := dictSet q.chunk r.optId (c ++ [{ callId := q.base.fCounter, x := r.x, fx := r.fx, extras := r.extras }]) } : FileLogger).chunk =
        rows s.chunk + 1 := by
      rw [← hc]; simp at h1 ⊢; omega
    have := limit_fits _ r.optId (rows s.chunk) hwc (by simp [dictGet_set_self]) h0 hf ho
    exact ⟨this.1, this.2.trans he⟩

theorem step_fits {s : FileLogger} {op : FOp} (f : Fits s) (hn : ∀ r n, op = .put r n → 0 < n) (ho : (s.step op).2 = none) :
    Fits (s.step op).1 ∧ (s.step op).1.est = if s.est = 0 then firstSize [op] else s.est := by
  have plain : ∀ t, Less s t → firstSize [op] = 0 → Fits t ∧ t.est = if s.est = 0 then firstSize [op] else s.est := by
    intro t h h0
    refine ⟨h.fits f, ?_⟩
    rw [h0, h.2]; split <;> rename_i h <;> simp [h]
  cases op with
  | add i t => exact plain _ (add_less s i t) rfl
  | addHist i hs => exact plain _ (addHist_less s i hs) rfl
  | put r n => exact put_fits f (hn r n rfl) ho
  | flush i => exact plain _ (flush_less s i) rfl
  | clear i => exact plain _ (clear_less s i) rfl
  | read i k => exact plain _ (read_less s i k) rfl

theorem run_fits (ops : List FOp) : ∀ {s : FileLogger}, Fits s → (∀ r n, FOp.put r n ∈ ops → 0 < n) → NoneRaised s ops →
    Fits (s.run ops) ∧ (s.run ops).est = if s.est = 0 then firstSize ops else s.est := by
  induction ops with
  | nil => intro s f _ _; exact ⟨f, by show s.est = _; split <;> rename_i h <;> simp [h, firstSize]⟩
  | cons op t ih =>
    intro s f hn hr
    obtain ⟨f1, e1⟩ := step_fits f (fun r n e => hn r n (e ▸ List.mem_cons_self)) (hr [] op t rfl)
    obtain ⟨f2, e2⟩ := ih f1 (fun r n h => hn r n (List.mem_cons_of_mem _ h)) (fun pre x post e => hr (op :: pre) x post (by rw [e]; rfl))
    refine ⟨f2, ?_⟩
    show ((s.step op).1.run t).est = _
    rw [e2, e1]
    by_cases h : s.est = 0
    · simp only [h, if_true]
      have hs : ∀ r n, op = .put r n → n ≠ 0 := fun r n e => by have := hn r n (e ▸ List.mem_cons_self); omega
      cases op with
      | put r n =>
        have h1 : firstSize [.put r n] = n := rfl
        have h2 : firstSize (.put r n :: t) = n := rfl
        rw [h1, h2, if_neg (hs r n rfl)]
      | _ => rfl
    · simp [h]

end LogBuffer

open LogBuffer in
/-- **C130, partial.** After every sequence of operations on the log file none of which raised an exception, the evaluations held back in memory, by the
size of the first one, are not more than 100 MB. Missing: their own sizes; see below. -/
theorem C130_limited_partial (traj : Bool) (ops : List FOp) (hn : ∀ r n, FOp.put r n ∈ ops → 0 < n) (hr : NoneRaised (init traj) ops) :
    firstSize ops * unwritten ((init traj).run ops) ≤ 100000000 := by
  obtain ⟨f, e⟩ := run_fits ops (s := init traj) ⟨by simp [init, rows], by simp [init, rows]⟩ hn hr
  have e : ((init traj).run ops).est = firstSize ops := e
  rw [unwritten_eq, ← e]
  exact f.1

namespace LogBuffer

theorem noneRaised_of {ops : List FOp} : ∀ {s : FileLogger}, ops.foldr (fun op k (s : FileLogger) => (s.step op).2.isNone && k (s.step op).1) (fun _ => true) s = true →
    NoneRaised s ops := by
  induction ops with
  | nil => intro s _ pre op post e; simp at e
  | cons x t ih =>
    intro s h pre op post e
    simp only [List.foldr_cons, Bool.and_eq_true] at h
    cases pre with
    | nil => cases e; exact Option.isNone_iff_eq_none.mp h.1
    | cons y p =>
      injection e with e1 e2
      subst e1
      exact ih h.2 p op post e2

/-- Two optimizers, evaluations of 60 MB. -/
def heavy : List FOp := [.add 1 "A", .addHist 1 [], .add 2 "B", .addHist 2 [], .put ⟨1, [0], .fin 1, []⟩ 60000000, .put ⟨2, [0], .fin 1, []⟩ 60000000]

/-- A small evaluation, then one of 200 MB. -/
def growing : List FOp := [.add 1 "A", .addHist 1 ["data"], .put ⟨1, [0], .fin 1, []⟩ 100, .put ⟨1, [0], .fin 1, [.fin 2]⟩ 200000000]

end LogBuffer

open LogBuffer in
/-- The first evaluation is held back, the second is written at once. -/
example : (∀ r n, FOp.put r n ∈ heavy → 0 < n) ∧ NoneRaised (init true) heavy ∧ firstSize heavy = 60000000 ∧
    unwritten ((init true).run heavy) = 1 ∧ ((init true).run heavy).tables.map (fun t => (t.1, t.2.rows.length)) = [(1, 0), (2, 1)] :=
  ⟨fun r n h => by simp [heavy] at h; omega, noneRaised_of (by decide +kernel), by decide +kernel, by decide +kernel, by decide +kernel⟩

open LogBuffer in
/-- **C130, refuted** for the sizes themselves: later evaluations may be larger than the first, and nothing is written. -/
theorem C130_sizes_refuted : NoneRaised (init true) growing ∧ FOp.put ⟨1, [0], .fin 1, [.fin 2]⟩ 200000000 ∈ growing ∧
    unwritten ((init true).run growing) = 2 ∧ ((init true).run growing).tables.flatMap (·.2.rows) = [] :=
  ⟨noneRaised_of (by decide +kernel), by simp [growing], by decide +kernel, by decide +kernel⟩

end Glompo.Props
