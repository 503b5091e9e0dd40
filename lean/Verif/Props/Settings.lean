import Mathlib.Tactic.Linarith
import Mathlib.Tactic.NormNum
import Mathlib.Algebra.Order.Field.Rat
import Verif.Spec.Settings
import Verif.Props.Helpers
import Verif.Model.Hunters
import Verif.Model.Convergence

/-!
# C131: settings which make no sense are refused when they are given
-/

namespace Glompo.Props

open Glompo.Settings Glompo.Spec

namespace SettingsProofs

theorem bounds_ok (b : List (PyF × PyF)) :
    (∃ r, Helpers.isBoundsValid b true = .ok r) ↔ ∀ p ∈ b, ∃ lo hi : Rat, p = (.fin lo, .fin hi) ∧ lo < hi := by
  constructor
  · intro ⟨r, hr⟩
    by_contra h
    rw [(C46_bounds_valid b true).2 h] at hr
    simp at hr
  · intro h; exact ⟨_, (C46_bounds_valid b true).1 h⟩

theorem span_ok (b : List (PyF × PyF)) : span b = .ok () ↔ ProperBounds b := by
  unfold span ProperBounds
  rw [← bounds_ok]
  cases h : Helpers.isBoundsValid b true with
  | error e => simp
  | ok r => by_cases hb : b = [] <;> simp [hb]

theorem num_fin (a : Arg) (q : Rat) : a.num = some (.fin q) ↔ IsNum a q := by
  cases a <;> simp [Arg.num, IsNum, eq_comm]

theorem isInt_iff (a : Arg) : a.isInt = true ↔ ∃ n, IsInt a n := by
  cases a <;> simp [Arg.isInt, IsInt]

theorem isInt_num {a : Arg} {n : Int} (h : IsInt a n) : a.num = some (.fin n) := by
  rcases h with rfl | ⟨b, rfl, rfl⟩
  · rfl
  · cases b <;> simp [Arg.num]

theorem isNumber_cases {a : Arg} (h : a.isNumber = true) : (∃ q, IsPyNum a q) ∨ a = .float .pinf ∨ a = .float .ninf ∨ a = .float .nan := by
  cases a with
  | bool b => left; exact ⟨_, .inr ⟨_, .inr ⟨b, rfl, rfl⟩, rfl⟩⟩
  | int n => left; exact ⟨_, .inr ⟨n, .inl rfl, rfl⟩⟩
  | float f => cases f <;> simp [IsPyNum]
  | _ => simp [Arg.isNumber] at h

theorem pyNum_num {a : Arg} {q : Rat} (h : IsPyNum a q) : a.num = some (.fin q) := by
  rcases h with rfl | ⟨n, hn, rfl⟩
  · rfl
  · exact isInt_num hn

theorem pyNum_isNumber {a : Arg} {q : Rat} (h : IsPyNum a q) : a.isNumber = true := by
  rcases h with rfl | ⟨n, rfl | ⟨b, rfl, _⟩, _⟩ <;> rfl

theorem min_ok (a : Arg) : Settings.minFuncCalls a = .ok () ↔ ∃ n, IsInt a n ∧ 0 < n := by
  unfold Settings.minFuncCalls Arg.gt
  cases a with
  | bool b => cases b <;> simp [Arg.num, Arg.isInt, IsInt, PyF.lt]
  | int n => simp [Arg.num, Arg.isInt, IsInt, PyF.lt]
  | _ => simp [Arg.num, Arg.isInt, IsInt]

theorem positive_ok (a : Arg) (k : Except Err Unit) :
    (if a.isNumber then
      match a.gt (.fin 0) with
      | .error e => Except.error e
      | .ok b => if b then k else .error .valueError
    else .error .valueError) = .ok () ↔ ((∃ q, IsPyNum a q ∧ 0 < q) ∨ a = .float .pinf) ∧ k = .ok () := by
  by_cases hn : a.isNumber = true
  · rw [if_pos hn]
    rcases isNumber_cases hn with ⟨q, hq⟩ | rfl | rfl | rfl
    · have hnum := pyNum_num hq
      have huniq : ∀ r, IsPyNum a r → r = q := by
        intro r hr; have := pyNum_num hr; rw [hnum] at this; simpa using this.symm
      have hp : a ≠ .float .pinf := by rintro rfl; simp [Arg.num] at hnum
      simp only [Arg.gt, hnum, PyF.lt]
      by_cases h0 : 0 < q
      · simp only [h0, decide_true, if_true]
        exact ⟨fun h => ⟨.inl ⟨q, hq, h0⟩, h⟩, fun h => h.2⟩
      · simp only [h0, decide_false]
        constructor
        · intro h; simp at h
        · rintro ⟨⟨r, hr, hr0⟩ | h, _⟩
          · rw [huniq r hr] at hr0; exact absurd hr0 h0
          · exact absurd h hp
    · simp [Arg.gt, Arg.num, PyF.lt, IsPyNum, IsInt]
    · simp [Arg.gt, Arg.num, PyF.lt, IsPyNum, IsInt]
    · simp [Arg.gt, Arg.num, PyF.lt, IsPyNum, IsInt]
  · rw [if_neg hn]
    constructor
    · intro h; simp at h
    · rintro ⟨⟨r, hr, _⟩ | rfl, _⟩
      · exact absurd (pyNum_isNumber hr) hn
      · exact absurd rfl hn

theorem time_ok (a : Arg) : Settings.timeAnnealing a = .ok () ↔ (∃ q, IsPyNum a q ∧ 0 < q) ∨ a = .float .pinf := by
  exact Iff.trans (positive_ok a (.ok ())) (by simp)

theorem param_ok (b : List (PyF × PyF)) (a : Arg) :
    parameterDistance b a = .ok () ↔ ((∃ q, IsPyNum a q ∧ 0 < q) ∨ a = .float .pinf) ∧ ProperBounds b := by
  exact Iff.trans (positive_ok a (span b)) (by rw [span_ok])

theorem value_ok (a : Arg) : valueAnnealing a = .ok () ↔ ∃ q, IsNum a q ∧ 0 < q ∧ q < 1 := by
  simp only [← num_fin]
  unfold valueAnnealing Arg.gt Arg.lt
  cases h : a.num with
  | none => simp
  | some f =>
    cases f with
    | fin q =>
      by_cases h0 : 0 < q
      · by_cases h1 : q < 1 <;> simp [PyF.lt, h0, h1]
      · simp [PyF.lt, h0]
    | _ => simp [PyF.lt]

theorem xor_ok (s o : Bool) : (s ^^ o) = true ↔ s ≠ o := by cases s <;> cases o <;> simp

theorem truth_num {a : Arg} {q : Rat} (h : IsNum a q) (hq : 0 < q) : a.truth = true := by
  have hne : q ≠ 0 := ne_of_gt hq
  rcases h with rfl | rfl | ⟨n, rfl, rfl⟩ | ⟨b, rfl, rfl⟩
  · simp [Arg.truth, PyF.eq, hne]
  · simp [Arg.truth, PyF.eq, hne]
  · simpa [Arg.truth] using hne
  · cases b <;> simp_all [Arg.truth]

theorem seconds_ok (s o : Arg) : maxSeconds s o = .ok () ↔ s.truth ≠ o.truth := by
  unfold maxSeconds
  rw [← xor_ok]
  by_cases h : (s.truth ^^ o.truth) = true <;> simp [h]

theorem explore_ok (b : List (PyF × PyF)) (m f : Arg) :
    exploitExplore b m f = .ok () ↔ (∀ p ∈ b, ∃ lo hi : Rat, p = (.fin lo, .fin hi) ∧ lo < hi) ∧ (∃ n, IsInt m n ∧ 1 < n) ∧
      ((∃ q, IsNum f q ∧ 0 < q) ∨ f.num = some .pinf ∨ f.num = some .nan) := by
  simp only [← num_fin, ← bounds_ok]
  unfold exploitExplore
  by_cases hm : m.isInt = true
  · obtain ⟨n, hn⟩ := (isInt_iff m).1 hm
    have hnum := isInt_num hn
    have huniq : ∀ k, IsInt m k → k = n := by
      intro k hk; have := isInt_num hk; rw [hnum] at this; simpa using this.symm
    have hex : (∃ k, IsInt m k ∧ 1 < k) ↔ 1 < n :=
      ⟨fun ⟨k, hk, h1⟩ => by rwa [huniq k hk] at h1, fun h => ⟨n, hn, h⟩⟩
    rw [hex]
    have hlt : m.lt (.fin 2) = .ok (decide (n < 2)) := by
      simp only [Arg.lt, hnum, PyF.lt]
      congr 1
      have : ((n : Rat) < 2) ↔ n < 2 := by exact_mod_cast Iff.rfl
      simp [this]
    simp only [hm, Bool.not_true, hlt]
    by_cases h2 : n < 2
    · have : ¬ 1 < n := by omega
      simp [h2, this]
    · have : 1 < n := by omega
      simp only [h2, this, decide_false, Arg.le]
      cases hf : f.num with
      | none => simp
      | some g =>
        cases g with
        | fin q =>
          by_cases hq : 0 < q
          · have : ¬ q ≤ 0 := not_le.2 hq
            cases hb : Helpers.isBoundsValid b true <;> simp [PyF.le, this, hq]
          · have : q ≤ 0 := not_lt.1 hq
            simp [PyF.le, this, hq]
        | pinf => cases hb : Helpers.isBoundsValid b true <;> simp [PyF.le]
        | nan => cases hb : Helpers.isBoundsValid b true <;> simp [PyF.le]
        | ninf => simp [PyF.le]
  · have : ¬ ∃ n, IsInt m n ∧ 1 < n := fun ⟨n, h, _⟩ => hm ((isInt_iff m).2 ⟨n, h⟩)
    simp [hm, this]

theorem perturb_ok (x : List PyF) (b : List (PyF × PyF)) (s : List PyF) :
    perturbation x b s = .ok () ↔ ProperBounds b ∧ x.length = b.length := by
  unfold perturbation ProperBounds
  rw [← bounds_ok]
  by_cases hl : b.length = x.length
  · simp only [hl]
    cases h : Helpers.isBoundsValid b true with
    | error e => simp
    | ok r => by_cases hb : b = [] <;> simp [hb]
  · have : ¬ x.length = b.length := fun h => hl h.symm
    simp [hl, this]

theorem boxed_ok (b : List (PyF × PyF)) : boxed b = .ok () ↔ ∀ p ∈ b, ∃ lo hi : Rat, p = (.fin lo, .fin hi) ∧ lo < hi := by
  unfold boxed
  rw [← bounds_ok]
  cases h : Helpers.isBoundsValid b true <;> simp

theorem single_ok (b : List (PyF × PyF)) (x : Option (List PyF)) :
    singlePoint b x = .ok () ↔ (∀ p ∈ b, ∃ lo hi : Rat, p = (.fin lo, .fin hi) ∧ lo < hi) ∧ (b ≠ [] ∨ x ≠ none) := by
  unfold singlePoint
  rw [← bounds_ok]
  cases h : Helpers.isBoundsValid b true with
  | error e => simp
  | ok r => cases x <;> by_cases hb : b = [] <;> simp [hb]

theorem chain_ok (n : Nat) (t : List Arg) : chain n t = .ok () ↔ t.length = n ∨ t.length + 1 = n := by
  unfold chain
  have : ((n : Int) - 1 ≤ t.length ∧ t.length ≤ n) ↔ (t.length = n ∨ t.length + 1 = n) := by omega
  by_cases h : (n : Int) - 1 ≤ t.length ∧ t.length ≤ n
  · rw [if_pos h]; exact ⟨fun _ => this.1 h, fun _ => rfl⟩
  · rw [if_neg h]; exact ⟨fun g => by simp at g, fun g => absurd (this.2 g) h⟩

end SettingsProofs

open SettingsProofs

/-- **C131 (what is accepted).** A constructor accepts exactly the settings which make sense and those on the list of the unchecked ones. -/
theorem C131_accepted (c : Call) : c.make = .ok () ↔ Sensible c ∨ Unchecked c := by
  cases c with
  | minFuncCalls a => simp [Call.make, Sensible, Unchecked, min_ok]
  | timeAnnealing a => simp only [Call.make, Sensible, Unchecked, time_ok]
  | parameterDistance b a =>
    simp only [Call.make, Sensible, Unchecked, param_ok]
    constructor
    · rintro ⟨⟨q, hq, h0⟩ | h, hb⟩
      · rcases le_or_gt q 1 with h1 | h1
        · exact .inl ⟨hb, q, hq, h0, h1⟩
        · exact .inr ⟨hb, .inr ⟨q, hq, h1⟩⟩
      · exact .inr ⟨hb, .inl h⟩
    · rintro (⟨hb, q, hq, h0, _⟩ | ⟨hb, h | ⟨q, hq, h1⟩⟩)
      · exact ⟨.inl ⟨q, hq, h0⟩, hb⟩
      · exact ⟨.inr h, hb⟩
      · exact ⟨.inl ⟨q, hq, by linarith⟩, hb⟩
  | stepSize b k t =>
    simp only [Call.make, Sensible, Unchecked, stepSize, span_ok]
    exact ⟨.inr, fun h => h.elim (·.1) id⟩
  | valueAnnealing a => simp [Call.make, Sensible, Unchecked, value_ok]
  | typeHunter a =>
    cases a with
    | cls b => cases b <;> simp [Call.make, Sensible, Unchecked, Settings.typeHunter]
    | _ => simp [Call.make, Sensible, Unchecked, Settings.typeHunter]
  | unmoving a t => simp [Call.make, Unchecked, unmoving]
  | lastPointsInvalid a => simp [Call.make, Unchecked, Settings.lastPointsInvalid]
  | limit a => simp [Call.make, Unchecked, limit]
  | maxSeconds s o =>
    simp only [Call.make, Sensible, Unchecked, seconds_ok]
    refine ⟨.inr, fun h => h.elim ?_ id⟩
    rintro (⟨rfl, q, hq, h0⟩ | ⟨rfl, q, hq, h0⟩)
    · rw [truth_num hq h0]; simp [Arg.truth]
    · rw [truth_num hq h0]; simp [Arg.truth]
  | exploitExplore b m f =>
    simp only [Call.make, Sensible, Unchecked, explore_ok, ProperBounds]
    generalize (∃ n, IsInt m n ∧ 1 < n) = A
    generalize (∃ q, IsNum f q ∧ 0 < q) = B
    generalize (f.num = some .pinf) = C
    generalize (f.num = some .nan) = D
    generalize (∀ p ∈ b, ∃ lo hi : Rat, p = (.fin lo, .fin hi) ∧ lo < hi) = E
    by_cases hb : b = [] <;> simp only [hb, ne_eq, not_true_eq_false, not_false_eq_true] <;> tauto
  | perturbation x b s =>
    simp only [Call.make, Sensible, Unchecked, perturb_ok]
    exact ⟨.inr, fun h => h.elim (fun g => ⟨g.1, g.2.1.1⟩) id⟩
  | boxed b =>
    simp only [Call.make, Sensible, Unchecked, boxed_ok, ProperBounds]
    by_cases hb : b = []
    · subst hb; simp
    · simp [hb]
  | singlePoint b x =>
    simp only [Call.make, Sensible, Unchecked, single_ok, ProperBounds]
    cases x with
    | none => simp; tauto
    | some v => simp; tauto
  | chain n t =>
    simp only [Call.make, Sensible, Unchecked, chain_ok]
    exact ⟨.inr, fun h => h.elim (·.1) id⟩

/-- **C131 (sensible settings).** Settings which make sense are accepted by every constructor. -/
theorem C131_sensible (c : Call) (h : Sensible c) : c.make = .ok () := (C131_accepted c).2 (.inl h)

/-- **C131 (refused), partial.** Settings which make no sense are refused, unless they are on the list of the unchecked ones. Missing: those. -/
theorem C131_refused_partial (c : Call) (h : ¬ Sensible c) (hu : ¬ Unchecked c) : ∃ e, c.make = .error e := by
  cases hm : c.make with
  | error e => exact ⟨e, rfl⟩
  | ok u => exact absurd ((C131_accepted c).1 hm) (by tauto)

/-- The hypotheses are met by: nought evaluations; a chance of 1; bounds in the wrong order; a function instead of a class; both time limits. -/
example : ∀ c ∈ [Call.minFuncCalls (.int 0), .valueAnnealing (.float (.fin 1)), .boxed [(.fin 1, .fin 0)], .typeHunter (.text false),
    .maxSeconds (.int 5) (.int 6), .minFuncCalls (.float (.fin 5)), .timeAnnealing (.float .nan), .chain 3 []], ¬ Sensible c ∧ ¬ Unchecked c := by
  intro c hc
  simp only [List.mem_cons, List.not_mem_nil, or_false] at hc
  have key : ∀ c : Call, c.make ≠ .ok () → ¬ Sensible c ∧ ¬ Unchecked c := fun c h => by
    have := mt (C131_accepted c).2 h; tauto
  rcases hc with rfl | rfl | rfl | rfl | rfl | rfl | rfl | rfl <;> exact key _ (by decide)

/-- Sensible settings exist for every constructor. -/
example : Sensible (.minFuncCalls (.int 5)) ∧ Sensible (.timeAnnealing (.int 1)) ∧
    Sensible (.parameterDistance [(.fin 0, .fin 1)] (.float (.fin (1 / 2)))) ∧ Sensible (.valueAnnealing (.float (.fin (1 / 2)))) ∧
    Sensible (.maxSeconds .none (.int 60)) ∧ Sensible (.perturbation [.fin 0] [(.fin (-1), .fin 1)] [.fin 1]) ∧
    Sensible (.chain 2 [.int 100]) := by
  refine ⟨⟨5, .inl rfl, by decide⟩, ⟨1, .inr ⟨1, .inl rfl, rfl⟩, by norm_num⟩, ⟨⟨by simp, ?_⟩, 1 / 2, .inl rfl, by norm_num, by norm_num⟩,
    ⟨1 / 2, .inl rfl, by norm_num, by norm_num⟩, .inr ⟨rfl, 60, .inr (.inr (.inl ⟨60, rfl, rfl⟩)), by norm_num⟩,
    ⟨⟨by simp, ?_⟩, ⟨rfl, by simp [PyF.le]⟩, rfl, by simp⟩, ⟨.inr rfl, ?_⟩⟩
  · simp
  · simp
  · simp only [List.mem_singleton, forall_eq]; exact ⟨100, .inr (.inr (.inl ⟨100, rfl, rfl⟩))⟩

/-- **C131, refuted.** Accepted although they make no sense: a stagnation hunter for nought evaluations, one for invalid points which allows none, a fraction of the
space above 1, a time limit which is negative, a starting point outside the bounds, deviations of nought, an exponent which is no number, a limit of evaluations which is
a text. Refused although it makes sense: a number of evaluations which is an integer of numpy. -/
theorem C131_refuted :
    (∀ c ∈ [Call.unmoving (.int 0) (.int 0), .lastPointsInvalid (.int 0), .parameterDistance [(.fin 0, .fin 1)] (.int 5),
        .maxSeconds (.int (-1)) .none, .singlePoint [(.fin 0, .fin 1)] (some [.fin 2]), .perturbation [.fin 0] [(.fin (-1), .fin 1)] [.fin 0],
        .exploitExplore [(.fin 0, .fin 1)] (.int 100) (.float .nan), .limit (.text false)], c.make = .ok () ∧ ¬ Sensible c) ∧
      (Call.minFuncCalls (.numpy (.fin 5))).make = .error .valueError := by
  refine ⟨?_, rfl⟩
  intro c hc
  simp only [List.mem_cons, List.not_mem_nil, or_false] at hc
  rcases hc with rfl | rfl | rfl | rfl | rfl | rfl | rfl | rfl
  · exact ⟨rfl, fun h => by obtain ⟨⟨n, h | ⟨_, h, _⟩, h0⟩, _⟩ := h <;> simp at h; omega⟩
  · exact ⟨rfl, fun h => by obtain ⟨n, h | ⟨_, h, _⟩, h0⟩ := h <;> simp at h; omega⟩
  · exact ⟨rfl, fun h => by
      obtain ⟨_, q, hq, _, h1⟩ := h
      have := pyNum_num hq
      simp only [Arg.num, Option.some.injEq, PyF.fin.injEq] at this
      rw [← this] at h1; norm_num at h1⟩
  · exact ⟨rfl, fun h => by
      rcases h with ⟨_, q, hq, h0⟩ | ⟨h, _⟩
      · have := (num_fin _ _).2 hq
        simp only [Arg.num, Option.some.injEq, PyF.fin.injEq] at this
        rw [← this] at h0; norm_num at h0
      · simp at h⟩
  · exact ⟨by decide, fun h => by
      have := h.2 _ rfl
      simp [Inside, PyF.le] at this⟩
  · exact ⟨by decide, fun h => by
      obtain ⟨q, hq, h0⟩ := h.2.2.2 (.fin 0) (by simp)
      simp only [PyF.fin.injEq] at hq; rw [← hq] at h0; exact absurd h0 (lt_irrefl _)⟩
  · exact ⟨by decide, fun h => by
      obtain ⟨_, _, q, hq, _⟩ := h
      have := (num_fin _ _).2 hq
      simp [Arg.num] at this⟩
  · exact ⟨rfl, fun h => by obtain ⟨n, h | ⟨_, h, _⟩, _⟩ := h <;> simp at h⟩

/-- **C131, refuted (what follows).** The stagnation hunter for nought evaluations fails at the first optimizer it is asked about which has evaluated anything, and the time
limit which is negative is exceeded when the optimization begins. -/
theorem C131_consequences_refuted :
    (∀ (tol : PyF) (log : Logger) (victim : Nat) (vals : List PyF), fxHist log victim = .ok vals → 0 < log.lenOpt victim →
      bestUnmoving 0 tol log victim = .error .valueError) ∧
    (∀ (v : CView) (l : Latch), v.tStart = some v.now → (Checker.ask (.maxSeconds (some (-1)) none) v l).2 = true) := by
  constructor
  · intro tol log victim vals h hl
    simp [bestUnmoving, h, dropLastN, pyMin, Nat.not_le.2 hl]
  · intro v l h
    simp [Checker.ask, maxSecondsCall, optTruthy, h]

end Glompo.Props
