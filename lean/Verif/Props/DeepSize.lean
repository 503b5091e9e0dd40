import Verif.Spec.DeepSize
import Verif.Spec.LogBuffer

/-!
# C133: the size of an evaluation
-/

namespace Glompo.Props

open Glompo Glompo.Spec Glompo.DeepSize

mutual

theorem deepsize_le (e : Nat) : ∀ o : Obj, DictsFrom e o → deepsizeof e o ≤ trueSize o
  | .leaf n, _ => by simp [deepsizeof, trueSize]
  | .seq n l, h => by
    have := items_le e l (by simpa [DictsFrom] using h)
    simp only [deepsizeof, trueSize]; omega
  | .dict n l, h => by
    have h' : e ≤ n ∧ DictsFromD e l := by simpa [DictsFrom] using h
    have := keys_le e l h'.2
    simp only [deepsizeof, trueSize]; omega

theorem items_le (e : Nat) : ∀ l : List Obj, DictsFromL e l → inItems e l ≤ trueSizes l
  | [], _ => by simp [inItems, trueSizes]
  | .leaf n :: t, h => by
    have h' : DictsFrom e (.leaf n) ∧ DictsFromL e t := by simpa only [DictsFromL] using h
    have := items_le e t h'.2
    simp only [inItems, trueSizes]; omega
  | .seq n l :: t, h => by
    have h' : DictsFromL e l ∧ DictsFromL e t := by simpa only [DictsFromL, DictsFrom] using h
    have h1 := items_le e t h'.2
    have h2 := items_le e l h'.1
    simp only [inItems, trueSizes, trueSize]; omega
  | .dict n l :: t, h => by
    have h' : (e ≤ n ∧ DictsFromD e l) ∧ DictsFromL e t := by simpa only [DictsFromL, DictsFrom] using h
    have h1 := items_le e t h'.2
    have h2 := sums_le e l h'.1.2
    simp only [inItems, trueSizes, trueSize]; omega

theorem keys_le (e : Nat) : ∀ l : List (Obj × Obj), DictsFromD e l → inKeys e l ≤ trueEntries l
  | [], _ => by simp [inKeys, trueEntries]
  | (.leaf n, v) :: t, h => by
    have h' : (DictsFrom e (.leaf n) ∧ DictsFrom e v) ∧ DictsFromD e t := by simpa only [DictsFromD] using h
    have := keys_le e t h'.2
    simp only [inKeys, trueEntries]; omega
  | (.seq n l, v) :: t, h => by
    have h' : (DictsFromL e l ∧ DictsFrom e v) ∧ DictsFromD e t := by simpa only [DictsFromD, DictsFrom] using h
    have h1 := keys_le e t h'.2
    have h2 := items_le e l h'.1.1
    simp only [inKeys, trueEntries, trueSize]; omega
  | (.dict n l, v) :: t, h => by
    have h' : ((e ≤ n ∧ DictsFromD e l) ∧ DictsFrom e v) ∧ DictsFromD e t := by simpa only [DictsFromD, DictsFrom] using h
    have h1 := keys_le e t h'.2
    have h2 := sums_le e l h'.1.1.2
    simp only [inKeys, trueEntries, trueSize]; omega

theorem sums_le (e : Nat) : ∀ l : List (Obj × Obj), DictsFromD e l → sumKeys e l + sumValues e l ≤ trueEntries l
  | [], _ => by simp [sumKeys, sumValues, trueEntries]
  | (k, v) :: t, h => by
    have h' : (DictsFrom e k ∧ DictsFrom e v) ∧ DictsFromD e t := by simpa only [DictsFromD] using h
    have h1 := sums_le e t h'.2
    have h2 := deepsize_le e k h'.1.1
    have h3 := deepsize_le e v h'.1.2
    simp only [sumKeys, sumValues, trueEntries]; omega

end

mutual

theorem items_exact (e : Nat) : ∀ l : List Obj, NoDicts l → inItems e l + leavesSizes l = trueSizes l
  | [], _ => by simp [inItems, leavesSizes, trueSizes]
  | o :: t, h => by
    have h' : NoDict o ∧ NoDicts t := by simpa only [NoDicts] using h
    have h1 := items_exact e t h'.2
    have h2 := item_exact e o t h'.1
    simp only [leavesSizes, trueSizes]; omega

theorem item_exact (e : Nat) : ∀ (o : Obj) (t : List Obj), NoDict o → inItems e (o :: t) + leavesSize o = trueSize o + inItems e t
  | .leaf n, t, _ => by simp only [inItems, leavesSize, trueSize]; omega
  | .seq n l, t, h => by
    have h1 := items_exact e l (by simpa only [NoDict] using h)
    simp only [inItems, leavesSize, trueSize]; omega
  | .dict n l, t, h => by simp [NoDict] at h

end

/-- The estimate is never above the memory an object takes with everything in it: what looks like 100 MB is at least 100 MB. -/
theorem C133_never_over (e : Nat) (o : Obj) (h : DictsFrom e o) : deepsizeof e o ≤ trueSize o := deepsize_le e o h

example : DictsFrom 64 (.seq 88 [.dict 232 [(.leaf 50, .seq 72 [.leaf 24])], .leaf 28]) ∧
    deepsizeof 64 (.seq 88 [.dict 232 [(.leaf 50, .seq 72 [.leaf 24])], .leaf 28]) = 274 ∧
    trueSize (.seq 88 [.dict 232 [(.leaf 50, .seq 72 [.leaf 24])], .leaf 28]) = 494 := by
  refine ⟨by simp [DictsFrom, DictsFromL, DictsFromD], by decide +kernel, by decide +kernel⟩

/-- Exactly what is missing, for nested lists, tuples and sets: the leaves in them. -/
theorem C133_missing_partial (e own : Nat) (l : List Obj) (h : NoDicts l) :
    deepsizeof e (.seq own l) + leavesSizes l = trueSize (.seq own l) := by
  have := items_exact e l h
  simp only [deepsizeof, trueSize]; omega

example : NoDict (evaluation 88 28 (.seq 104 [.leaf 24, .leaf 24]) 24 56 [.leaf 2000]) ∧
    deepsizeof 64 (evaluation 88 28 (.seq 104 [.leaf 24, .leaf 24]) 24 56 [.leaf 2000]) = 248 ∧
    trueSize (evaluation 88 28 (.seq 104 [.leaf 24, .leaf 24]) 24 56 [.leaf 2000]) = 2348 := by
  refine ⟨by simp [evaluation, NoDict, NoDicts], by decide +kernel, by decide +kernel⟩

/-- So the size of an evaluation is not estimated at all: neither the numbers of the point, nor a point which is an array, nor the arrays, texts
and numbers among the extras count. -/
theorem C133_evaluation_refuted (e own id fx eo : Nat) (x : Nat) (extras : List Nat) :
    deepsizeof e (evaluation own id (.leaf x) fx eo (extras.map .leaf)) = own + eo ∧
    trueSize (evaluation own id (.leaf x) fx eo (extras.map .leaf)) = own + (id + x + fx + (eo + extras.sum)) := by
  have h1 : ∀ l : List Nat, inItems e (l.map Obj.leaf) = 0 := by
    intro l
    induction l with
    | nil => simp [inItems]
    | cons a t ih => simpa [inItems] using ih
  have h2 : ∀ l : List Nat, trueSizes (l.map Obj.leaf) = l.sum := by
    intro l
    induction l with
    | nil => simp [trueSizes]
    | cons a t ih => simp [trueSizes, trueSize, ih]
  constructor
  · simp [evaluation, deepsizeof, inItems, h1]
  · simp [evaluation, trueSize, trueSizes, h2]; omega

private theorem held_back (e : Nat) (r : IterRes) (o : Obj) (hr : r.optId = 1) (h0 : deepsizeof e o ≠ 0) :
    ∀ (k : Nat) (s : FileLogger) (c : List Row), s.chunk = [(1, c)] → s.est = 0 ∧ c = [] ∨ s.est = deepsizeof e o →
      deepsizeof e o * (c.length + k) ≤ 100000000 →
      (logAll e (List.replicate k (r, o)) s).2 = none ∧ ∃ c', (logAll e (List.replicate k (r, o)) s).1.chunk = [(1, c')] ∧
        c'.length = c.length + k ∧ (logAll e (List.replicate k (r, o)) s).1.tables = s.tables := by
  intro k
  induction k with
  | zero => intro s c hc _ _; exact ⟨rfl, c, hc, rfl, rfl⟩
  | succ k ih =>
    intro s c hc he hl
    rw [List.replicate_succ]
    have hput : ∃ s', s.putIteration r (deepsizeof e o) = (s', none) ∧ (∃ row, s'.chunk = [(1, c ++ [row])]) ∧
        s'.est = deepsizeof e o ∧ s'.tables = s.tables := by
      have hle : ¬ deepsizeof e o * (c.length + 1) > 100000000 := by
        have : deepsizeof e o * (c.length + 1) ≤ deepsizeof e o * (c.length + (k + 1)) := Nat.mul_le_mul_left _ (by omega)
        omega
      refine ⟨{ s with
        base := (s.base.putIteration r).1
        est := deepsizeof e o
        chunk := [(1, c ++ [⟨(s.base.putIteration r).1.fCounter, r.x, r.fx, r.extras⟩])] }, ?_, ⟨_, rfl⟩, rfl, rfl⟩
      have hest : (if s.est = 0 then deepsizeof e o else s.est) = deepsizeof e o := by
        rcases he with he | he
        · simp [he.1]
        · simp [he]
      unfold FileLogger.putIteration
      by_cases hz : s.est = 0
      · simp [hz, hr, hc, dictGet, dictSet, FileLogger.pending, hle]
      · simp only [hz, if_false] at hest
        simp [hest, h0, hr, hc, dictGet, dictSet, FileLogger.pending, hle]
    obtain ⟨s', hp, ⟨row, hc'⟩, he', ht⟩ := hput
    simp only [logAll, hp]
    obtain ⟨h1, c', h2, h3, h4⟩ := ih s' (c ++ [row]) hc' (.inr he') (by simp only [List.length_append, List.length_singleton]; rw [show c.length + 1 + k = c.length + (k + 1) by omega]; exact hl)
    refine ⟨h1, c', h2, ?_, h4.trans ht⟩
    simp only [List.length_append, List.length_singleton] at h3
    omega

/-- A log file with one optimizer and nothing written yet. -/
def oneLogged : FileLogger := (((FileLogger.init false).addOptimizer 1 "CMAOptimizer").1.addIterHistory 1 []).1

/-- Hence there is no limit to the memory the log holds back: whatever the number of bytes `limit`, there are evaluations, all of the same size, of
which as many as the estimate allows are held back, and nothing is written, although already one of them is larger than `limit`. -/
theorem C133_limit_refuted (e limit own eo : Nat) (hown : 0 < own + eo) (r : IterRes) (hr : r.optId = 1) (k : Nat)
    (hk : (own + eo) * k ≤ 100000000) :
    ∃ o : Obj, limit < trueSize o ∧ deepsizeof e o = own + eo ∧ (logAll e (List.replicate k (r, o)) oneLogged).2 = none ∧
      unwritten (logAll e (List.replicate k (r, o)) oneLogged).1 = k ∧
      (logAll e (List.replicate k (r, o)) oneLogged).1.tables = oneLogged.tables := by
  have hs := C133_evaluation_refuted e own 28 24 eo (limit + 1) []
  simp only [List.map_nil, List.sum_nil] at hs
  refine ⟨evaluation own 28 (.leaf (limit + 1)) 24 eo [], by omega, hs.1, ?_⟩
  obtain ⟨h1, c', h2, h3, h4⟩ := held_back e r (evaluation own 28 (.leaf (limit + 1)) 24 eo []) hr (by omega) k oneLogged [] rfl
    (.inl ⟨rfl, rfl⟩) (by rw [hs.1]; simpa using hk)
  refine ⟨h1, ?_, h4⟩
  simp only [unwritten, h2]
  simpa using h3

/-- The tuple of an evaluation takes 88 bytes, an empty tuple 40: 781250 evaluations of a gigabyte each are held back. -/
example : (88 + 40) * 781250 ≤ 100000000 ∧ ∃ o : Obj, 1000000000 < trueSize o ∧
    unwritten (logAll 64 (List.replicate 781250 (⟨1, [0], .fin 0, []⟩, o)) oneLogged).1 = 781250 :=
  ⟨by decide, by
    obtain ⟨o, h1, _, _, h2, _⟩ := C133_limit_refuted 64 1000000000 88 40 (by decide) ⟨1, [0], .fin 0, []⟩ rfl 781250 (by decide)
    exact ⟨o, h1, h2⟩⟩

end Glompo.Props
