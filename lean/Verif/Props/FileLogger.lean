import Verif.Lemmas.FileLogger
import Verif.Props.Logger

/-!
# C04, C57: the file backed logger
-/

namespace Glompo.Props

open Glompo Glompo.Spec Glompo.FileLogger
open Glompo.Logger (Op)

theorem headerIdx_of_get (hs : List String) (n : Nat) (h : String) (h1 : hs[n]? = some h) (h2 : h ∉ hs.take n) : headerIdx hs h = some n := by
  induction hs generalizing n with
  | nil => simp at h1
  | cons a t ih =>
    cases n with
    | zero => simp at h1; simp [headerIdx, h1]
    | succ m =>
      simp only [List.take_succ_cons, List.mem_cons, not_or] at h2
      simp only [headerIdx, if_neg (Ne.symm h2.1), ih m (by simpa using h1) h2.2, Option.map_some]

/-- **C04.** For every history of a file backed logger, with any sizes of the records (which decide when the write
buffer is emptied) and any flushes, reads and releases in between:

* `get_history` of an optimizer that has not been released answers the same as the purely in-memory logger which got
  the same calls;
* an extra column is read from the file with exactly the values logged;
* after `close`, the file contains for every optimizer, released or not, exactly its evaluations in order with their
  evaluation numbers, and nothing for the others. -/
theorem C04_file_log_agrees (traj : Bool) (ops : List FOp) (hwf : FWellFormed ops) :
    (∀ i, ¬ Released ops i → ∀ k, k = "fx" ∨ k = "x" ∨ k = "call_id" →
      (((init traj).run ops).getHistory i k).2 = ((Logger.init traj).run (toOps ops)).getHistory i k) ∧
    (∀ i hs n h, ¬ Released ops i → FOp.addHist i hs ∈ ops → hs[n]? = some h → h ∉ hs.take n →
      h ≠ "fx" → h ≠ "x" → h ≠ "call_id" →
      (((init traj).run ops).getHistory i h).2 =
        .ok ((evalsOf (evals (toOps ops)) i).map fun r => Cell.num (r.extras.getD n .nan))) ∧
    ((init traj).run ops).close.2 = none ∧
    (∀ i hs, FOp.addHist i hs ∈ ops →
      dictGet ((init traj).run ops).close.1.tables i = some ⟨hs, rowsOf (evals (toOps ops)) i⟩) ∧
    (∀ i, (∀ hs, FOp.addHist i hs ∉ ops) →
      dictGet ((init traj).run ops).close.1.tables i = none ∧ evalsOf (evals (toOps ops)) i = []) := by
  have inv := finv_run traj ops hwf
  have hne := noExtra_run traj ops
  generalize (init traj).run ops = s at inv hne
  obtain ⟨c1, c2, c3⟩ := close_ok inv.all
  have hhead : ∀ i hs, FOp.addHist i hs ∈ ops → headersOf ops i = some hs := by
    intro i hs hm
    obtain ⟨pre, post, e⟩ := List.append_of_mem hm
    have hpre : headersOf pre i = none := by
      have := hwf.1 (toOps pre) (.addHist i hs) (toOps post) (by rw [e]; simp [toOps])
      simp only [OpOk] at this
      exact headersOf_none.mpr this.2
    have e2 : ops = (pre ++ [.addHist i hs]) ++ post := by simp [e]
    rw [e2, headersOf_append, headersOf_append, hpre]
    simp [headersOf]
  have hstd : ∀ i, ¬ Released ops i →
      s.baseHistory i "fx" = .ok ((evalsOf (evals (toOps ops)) i).map fun r => Cell.num r.fx) ∧
      s.baseHistory i "x" = .ok ((evalsOf (evals (toOps ops)) i).map fun r => Cell.vec r.x) ∧
      s.baseHistory i "call_id" = .ok ((callIds (evals (toOps ops)) i).map Cell.nat) := by
    intro i hr
    obtain ⟨bops, h1, h2, h3, h4, h5, h6⟩ := inv.base
    have hh := Logger.histInv_run traj bops i h1 (Or.inr fun hc => hr (h6 i hc))
    rw [← h2] at hh
    have hfile := inv.all i
    cases ho : headersOf ops i with
    | none =>
      rw [ho] at hfile
      have hno : s.hasIterHistory i = false := by simp [hasIterHistory, hfile.1]
      have hev : evalsOf (evals (toOps ops)) i = [] := (rowsOf_nil_iff _ _).mp hfile.2.1
      simp [baseHistory, hno, hev, Logger.callIds_nil_of_evalsOf hev]
    | some hd =>
      rw [ho] at hfile
      obtain ⟨t, t1, -⟩ := hfile
      have hyes : s.hasIterHistory i = true := by simp [hasIterHistory, t1]
      have hop : i ∈ opened (toOps ops) := by
        by_cases hq : i ∈ opened (toOps ops)
        · exact hq
        · rw [headersOf_none.mpr hq] at ho; cases ho
      have had : i ∈ added (toOps ops) := by
        obtain ⟨hs', hm⟩ := mem_opened.mp hop
        obtain ⟨pre, post, e⟩ := List.append_of_mem hm
        have := hwf.1 pre _ post e
        simp only [OpOk] at this
        rw [e, added_append]; exact List.mem_append_left _ this.1
      obtain ⟨st, g1, rest, g2⟩ := hh.filled (by rw [h4]; exact had) (by rw [h5]; exact hop)
      rw [h3] at g2
      refine ⟨?_, ?_, ?_⟩ <;> simp [baseHistory, hyes, g1, g2, dictGet]
  refine ⟨?_, ?_, c1, fun i hs hm => c2 i hs (hhead i hs hm), ?_⟩
  · intro i hr k hk
    have hcl : ¬ Cleared (toOps ops) i := by
      intro hc; apply hr
      have key : ∀ j, Op.clear j ∈ toOps ops → FOp.clear j ∈ ops := by
        intro j hj
        simp only [toOps, List.mem_filterMap] at hj
        obtain ⟨op, q1, q2⟩ := hj
        cases op <;> simp at q2
        subst q2; exact q1
      rcases hc with hc | hc | hc
      · exact Or.inl (key _ hc)
      · exact Or.inr (Or.inl (key _ hc))
      · exact Or.inr (Or.inr (key _ hc))
    obtain ⟨m1, m2, m3, -⟩ := C02_history_exact traj (toOps ops) i hwf.1 (Or.inr hcl)
    obtain ⟨f1, f2, f3⟩ := hstd i hr
    rcases hk with rfl | rfl | rfl
    · rw [m1]; simp [FileLogger.getHistory, f1]
    · rw [m2]; simp [FileLogger.getHistory, f2]
    · rw [m3]; simp [FileLogger.getHistory, f3]
  · intro i hs n h hr hm hn1 hn2 hfx hx hcid
    have hidx := headerIdx_of_get hs n h hn1 hn2
    obtain ⟨bops, h1, h2, h3, h4, h5, h6⟩ := inv.base
    have hi0 : i ≠ 0 ∧ i ∈ added (toOps ops) := by
      have := mem_toOps_addHist.mpr hm
      obtain ⟨pre, post, e⟩ := List.append_of_mem this
      have hq := hwf.1 pre _ post e
      simp only [OpOk] at hq
      obtain ⟨t, ht⟩ := mem_added.mp hq.1
      obtain ⟨pre', post', e'⟩ := List.append_of_mem ht
      have hq' := hwf.1 pre' (.add i t) (post' ++ Op.addHist i hs :: post) (by rw [e, e']; simp)
      simp only [OpOk] at hq'
      exact ⟨hq'.1, by rw [e, added_append]; exact List.mem_append_left _ hq.1⟩
    have hfile := inv.all i
    rw [hhead i hs hm] at hfile
    obtain ⟨t, t1, t2, t3⟩ := hfile
    obtain ⟨c, t3, t4⟩ : ∃ c, dictGet s.chunk i = some c ∧ t.rows ++ c = rowsOf (evals (toOps ops)) i :=
      t3.elim id (fun q => absurd q.1 hr)
    have hyes : s.hasIterHistory i = true := by simp [hasIterHistory, t1]
    have hop : i ∈ opened (toOps ops) := by
      by_cases hq : i ∈ opened (toOps ops)
      · exact hq
      · have := hhead i hs hm; rw [headersOf_none.mpr hq] at this; cases this
    have hh := Logger.histInv_run traj bops i h1 (Or.inr fun hc => hr (h6 i hc))
    rw [← h2] at hh
    obtain ⟨st, g1, -⟩ := hh.filled (by rw [h4]; exact hi0.2) (by rw [h5]; exact hop)
    have hcol : dictGet st.cols h = none := by
      cases hc : dictGet st.cols h with
      | none => rfl
      | some v =>
        rcases hne i st g1 h (by rw [hc]; rfl) with q | q | q
        · exact absurd q hcid
        · exact absurd q hx
        · exact absurd q hfx
    have hbase : s.baseHistory i h = .error .keyError := by simp [baseHistory, hyes, g1, hcol]
    simp only [FileLogger.getHistory, hbase, hyes, if_true]
    have hfl : s.flush (some i) = s.flushList [i] := by
      cases i with
      | zero => exact absurd rfl hi0.1
      | succ m => rfl
    rw [hfl]
    obtain ⟨b1, -, -, -, -, b6, -⟩ := flushList_ok [i] inv.all
    obtain ⟨d1, d2⟩ := b6 (by intro o ho; simp at ho; subst ho; rw [t3]; rfl)
    generalize s.flushList [i] = q at b1 d1 d2
    obtain ⟨s', e⟩ := q
    simp only at d1; subst d1
    have hb := b1 i
    rw [hhead i hs hm] at hb
    obtain ⟨t', u1, u2, u3⟩ := hb
    have hrows : t'.rows = rowsOf (evals (toOps ops)) i := by
      rcases u3 with ⟨c', u3, u4⟩ | ⟨-, -, u4⟩
      · rw [d2 i (by simp)] at u3; cases u3; simpa using u4
      · exact u4
    have hex := (rowsOf_maps (evals (toOps ops)) i).2.2.1
    simp only [u1, Table.col, hcid, hx, hfx, if_false, u2, hidx, hrows]
    congr 1
    have : (fun r : Row => Cell.num (r.extras.getD n PyF.nan)) =
        (fun e : List PyF => Cell.num (e.getD n PyF.nan)) ∘ (fun r : Row => r.extras) := rfl
    rw [this, ← List.map_map, hex, List.map_map]; rfl
  · intro i hno
    have hn : headersOf ops i = none := by
      rw [headersOf_none]; intro hh
      obtain ⟨hs, hm⟩ := mem_opened.mp hh
      exact hno hs (mem_toOps_addHist.mp hm)
    exact ⟨(c3 i hn).1, (rowsOf_nil_iff _ _).mp (c3 i hn).2⟩

/-- A history with a record size of 60 MB (so that the buffer is written every second evaluation), flushes, reads of
an extra column, and a release. -/
def sampleFOps : List FOp :=
  [.add 1 "CMA", .addHist 1 ["res"], .put ⟨1, [1], .fin 5, [.fin 2]⟩ 60000000, .add 2 "Random", .addHist 2 [],
   .put ⟨2, [3], .fin 3, []⟩ 0, .read 1 "res", .put ⟨1, [4], .nan, [.fin 8]⟩ 0, .flush none,
   .put ⟨2, [5], .fin 1, []⟩ 0, .clear (some 2), .put ⟨1, [6], .fin 0, [.fin 9]⟩ 0]

/-- The sample history satisfies the hypothesis of `C04_file_log_agrees`. -/
example : FWellFormed sampleFOps := fwellFormed_of_fwfB (by decide)
/-- The file really was written in the middle of the history (by the buffer limit and by the flush). -/
example : (dictGet ((init false).run (sampleFOps.take 9)).tables 1).map (·.rows.length) = some 2 := by rfl
example : (((init false).run sampleFOps).getHistory 1 "fx").2 = .ok [.num (.fin 5), .num .nan, .num (.fin 0)] := by rfl
example : (((init false).run sampleFOps).getHistory 1 "res").2 =
    .ok [.num (.fin 2), .num (.fin 8), .num (.fin 9)] := by rfl
example : dictGet ((init false).run sampleFOps).close.1.tables 2 =
    some ⟨[], [⟨2, [3], .fin 3, []⟩, ⟨4, [5], .fin 1, []⟩]⟩ := by rfl

/-- **C57 (refuted).** The history of a released optimizer is meant to be read from the file (optimizerlogger.py:451-455).
It cannot: `get_history` then tries to flush a write buffer which the release has deleted, and raises `KeyError`
although the file contains the complete history. -/
theorem C57_released_history_refuted :
    ∃ ops i, FWellFormed ops ∧ Released ops i ∧ evalsOf (evals (toOps ops)) i ≠ [] ∧
      (((init false).run ops).getHistory i "fx").2 = .error .keyError ∧
      (dictGet ((init false).run ops).tables i).map (·.rows) = some (rowsOf (evals (toOps ops)) i) :=
  ⟨sampleFOps, 2, fwellFormed_of_fwfB (by decide), Or.inr (Or.inr (by simp [sampleFOps])), by decide, by rfl, by rfl⟩

/-- **C57 (what does hold).** Releasing an optimizer writes its complete history to the file, and nothing that happens
later changes it: at any later point of the history the table on file is complete. -/
theorem C57_released_history_on_file_partial (traj : Bool) (ops : List FOp) (i : Nat) (hs : List String)
    (hwf : FWellFormed ops) (h0 : i ≠ 0) (hopen : FOp.addHist i hs ∈ ops) (hrel : FOp.clear (some i) ∈ ops) :
    dictGet ((init traj).run ops).tables i = some ⟨hs, rowsOf (evals (toOps ops)) i⟩ := by
  obtain ⟨pre, post, e⟩ := List.append_of_mem hrel
  -- the history was opened before the release
  have hpre : i ∈ added (toOps pre) := by
    have hm : FOp.addHist i hs ∈ pre := by
      rw [e] at hopen
      rcases List.mem_append.mp hopen with h | h
      · exact h
      · rcases List.mem_cons.mp h with h | h
        · cases h
        · exfalso
          obtain ⟨p1, p2, e2⟩ := List.append_of_mem h
          exact (hwf.2 (pre ++ .clear (some i) :: p1) _ p2 (by rw [e, e2]; simp)).2 i hs rfl
            (Or.inr (Or.inr (by simp)))
    obtain ⟨p1, p2, e2⟩ := List.append_of_mem hm
    have := hwf.1 (toOps p1) (.addHist i hs) (toOps (p2 ++ .clear (some i) :: post))
      (by rw [e, e2]; simp [toOps])
    simp only [OpOk] at this
    rw [e2, toOps_append, added_append]; exact List.mem_append_left _ this.1
  have hchunk : dictGet ((init traj).run ops).chunk i = none := by
    subst e
    have gen : ∀ post, FWellFormed (pre ++ FOp.clear (some i) :: post) →
        dictGet ((init traj).run (pre ++ FOp.clear (some i) :: post)).chunk i = none := by
      intro post
      induction post using snoc_induction with
      | h0 =>
        intro hw
        rw [FileLogger.run_snoc]
        exact clear_chunk_none (finv_run traj pre hw.init).all i h0
      | hs l op ih =>
        intro hw
        have e3 : pre ++ FOp.clear (some i) :: (l ++ [op]) = (pre ++ FOp.clear (some i) :: l) ++ [op] := by simp
        rw [e3] at hw ⊢
        rw [FileLogger.run_snoc]
        refine step_chunk_none (ih hw.init) op ?_
        rintro t rfl
        have := hw.lastOp (o := .add i t) rfl
        simp only [OpOk] at this
        apply this.2
        rw [toOps_append, added_append]; exact List.mem_append_left _ hpre
    exact gen post hwf
  have inv := finv_run traj ops hwf
  have hh : headersOf ops i = some hs := by
    obtain ⟨p1, p2, e2⟩ := List.append_of_mem hopen
    have hq := hwf.1 (toOps p1) (.addHist i hs) (toOps p2) (by rw [e2]; simp [toOps])
    simp only [OpOk] at hq
    have e3 : ops = (p1 ++ [.addHist i hs]) ++ p2 := by simp [e2]
    rw [e3, headersOf_append, headersOf_append, headersOf_none.mpr hq.2]
    simp [headersOf]
  have hf := inv.all i
  rw [hh, hchunk] at hf
  obtain ⟨t, t1, t2, t3⟩ := hf
  rw [t1]
  obtain ⟨th, tr⟩ := t
  simp only at t2 t3
  subst t2
  rcases t3 with ⟨c, t3, -⟩ | ⟨-, -, t3⟩
  · cases t3
  · rw [t3]

example : FOp.addHist 2 [] ∈ sampleFOps ∧ FOp.clear (some 2) ∈ sampleFOps := by simp [sampleFOps]

end Glompo.Props
