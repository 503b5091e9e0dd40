import Verif.Spec.Convergence
import Verif.Props.Combi

/-!
# C14, C15: bundled convergence criteria
-/

namespace Glompo.Props

open Glompo Glompo.Spec Glompo.Cond

/-- **C14, exactness.** Each stateless bundled criterion that can be constructed answers `True` exactly when its
documented threshold is met. -/
theorem C14_exact (c : Checker) (v : CView) (l : Latch) (hs : Stateless c) (hc : c.constructible = true) :
    (c.ask v l).2 = true ↔ Meaning v c := by
  cases c with
  | maxFuncCalls n => simp [Checker.ask, Meaning]
  | maxOptsStarted n => simp [Checker.ask, Meaning]
  | nOptConverged n => simp [Checker.ask, Meaning]
  | maxKills n => simp [Checker.ask, Meaning]
  | targetCost t a => simp only [Checker.ask, Meaning]; cases v.best <;> simp
  | maxSeconds s o =>
    simp only [Checker.ask, Meaning, maxSecondsCall, Checker.constructible] at hc ⊢
    have he : (if optTruthy v.tStart = true then v.now - v.tStart.getD 0 else 0) = elapsed v := by
      simp only [elapsed]
      cases v.tStart with
      | none => simp [optTruthy]
      | some q => by_cases h : q = 0 <;> simp [optTruthy, h]
    rw [he]
    cases s with
    | none =>
      cases o with
      | none => simp [optTruthy] at hc
      | some q =>
        simp [optTruthy] at hc
        simp [optTruthy, hc]
    | some p =>
      cases o with
      | none => simp [optTruthy]
      | some q =>
        by_cases h : q = 0
        · simp [optTruthy, h]
        · simp [optTruthy, h]
  | killsAfterConvergence a b => exact absurd hs (by simp [Stateless])

/-- **C14 (construction).** Every criterion can be constructed, only `MaxSeconds` needs exactly one limit other than zero. -/
theorem C14_constructible (c : Checker) :
    c.constructible = true ↔ ∀ s o, c = .maxSeconds s o → ((∃ q, s = some q ∧ q ≠ 0) ↔ ¬ ∃ q, o = some q ∧ q ≠ 0) := by
  have ht : ∀ x, optTruthy x = true ↔ ∃ q, x = some q ∧ q ≠ 0 := by
    intro x; cases x <;> simp [optTruthy]
  cases c with
  | maxSeconds s o =>
    have : (Checker.maxSeconds s o).constructible = (optTruthy s ^^ optTruthy o) := rfl
    rw [this]
    refine ⟨fun h s' o' e => ?_, fun h => ?_⟩
    · cases e
      rw [← ht, ← ht]
      revert h
      cases optTruthy s <;> cases optTruthy o <;> simp
    · have := h s o rfl
      rw [← ht, ← ht] at this
      revert this
      cases optTruthy s <;> cases optTruthy o <;> simp
  | _ => exact iff_of_true rfl (fun _ _ h => by cases h)

/-- A view in the middle of a run. -/
def sampleView : CView := ⟨120, 6, 2, 3, some (.fin 1), 1000, some 900, 50⟩

example : Stateless (.maxSeconds none (some 150)) ∧ (Checker.maxSeconds none (some 150)).constructible = true ∧
    Meaning sampleView (.maxSeconds none (some 150)) ∧ ¬ Meaning sampleView (.maxSeconds (some 150) none) := by
  refine ⟨trivial, rfl, .inl ⟨150, rfl, by decide +kernel, by decide +kernel⟩, ?_⟩
  rintro (⟨lim, h, _⟩ | ⟨_, lim, h, h2⟩)
  · cases h
  · cases h; revert h2; decide +kernel

theorem later_refl (v : CView) : Later v v :=
  ⟨Nat.le_refl _, Nat.le_refl _, Nat.le_refl _, Nat.le_refl _, Rat.le_refl, rfl, rfl, fun f h => ⟨f, h, .inl rfl⟩⟩

theorem later_trans {a b c : CView} (h : Later a b) (h' : Later b c) : Later a c := by
  obtain ⟨a1, a2, a3, a4, a5, a6, a7, a8⟩ := h
  obtain ⟨b1, b2, b3, b4, b5, b6, b7, b8⟩ := h'
  refine ⟨by omega, by omega, by omega, by omega, Rat.le_trans a5 b5, b6.trans a6, b7.trans a7, ?_⟩
  intro f hf
  obtain ⟨f1, hf1, h1⟩ := a8 f hf
  obtain ⟨f2, hf2, h2⟩ := b8 f1 hf1
  refine ⟨f2, hf2, ?_⟩
  rcases h1 with rfl | h1
  · exact h2
  · rcases h2 with rfl | h2
    · exact .inr h1
    · exact .inr (PyF.le_trans h2 h1)

/-- A criterion which is satisfied stays satisfied, whichever criterion (itself included) is evaluated in between. -/
theorem ask_mono (c : Checker) (v v' : CView) (l : Latch) (hl : Later v v') (h : (c.ask v l).2 = true) :
    (c.ask v' l).2 = true ∧ (c.ask v' (c.ask v l).1).2 = true := by
  obtain ⟨h1, h2, h3, h4, h5, h6, h7, h8⟩ := hl
  cases c with
  | maxFuncCalls n => simp only [Checker.ask, decide_eq_true_eq] at h ⊢; omega
  | maxOptsStarted n => simp only [Checker.ask, decide_eq_true_eq] at h ⊢; omega
  | nOptConverged n => simp only [Checker.ask, decide_eq_true_eq] at h ⊢; omega
  | maxKills n => simp only [Checker.ask, decide_eq_true_eq] at h ⊢; omega
  | targetCost t a =>
    have : (Checker.ask (.targetCost t a) v' l).2 = true := by
      simp only [Checker.ask] at h ⊢
      cases hb : v.best with
      | none => rw [hb] at h; cases h
      | some f =>
        obtain ⟨f', hf', hle⟩ := h8 f hb
        rw [hb] at h
        rw [hf']
        rcases hle with rfl | hle
        · exact h
        · exact PyF.le_trans hle h
    exact ⟨this, this⟩
  | maxSeconds s o =>
    have : (Checker.ask (.maxSeconds s o) v' l).2 = true := by
      simp only [Checker.ask, maxSecondsCall] at h ⊢
      rw [h6, h7]
      split at h
      · rename_i ho
        simp only [ho, if_true, decide_eq_true_eq] at h ⊢
        split <;> rename_i hs <;> simp only [hs, if_true, Bool.false_eq_true, if_false] at h <;> grind
      · rename_i ho
        simp only [ho, Bool.false_eq_true, if_false, decide_eq_true_eq] at h ⊢
        split <;> rename_i hs <;> simp only [hs, if_true, Bool.false_eq_true, if_false] at h <;> grind
    exact ⟨this, this⟩
  | killsAfterConvergence nk nc =>
    obtain ⟨en, kc⟩ := l
    simp only [Checker.ask, Latch.update, Bool.and_eq_true] at h ⊢
    cases en with
    | true =>
      simp only [Bool.true_eq_false, and_false, if_false, decide_eq_true_eq, true_and, and_self] at h ⊢
      omega
    | false =>
      simp only [and_true] at h ⊢
      by_cases hc : (v.convCounter : Int) ≥ nc
      · have hc' : (v'.convCounter : Int) ≥ nc := by omega
        simp only [hc, hc', if_true] at h ⊢
        simp only [Bool.true_eq_false, and_false, if_false, true_and, decide_eq_true_eq] at h ⊢
        omega
      · simp only [hc, if_false] at h
        simp at h

/-- Every criterion object is satisfied at `v` in memory `w`. -/
def satisfied (chk : Nat → Checker) (w : Latches) (v : CView) (i : Nat) : Bool := ((chk i).ask v (w i)).2

theorem satisfied_step (chk : Nat → Checker) (w : Latches) (v v' : CView) (hl : Later v v') (i j : Nat)
    (h : satisfied chk w v i = true) : satisfied chk (askChecker chk v j w).1 v' i = true := by
  simp only [satisfied, askChecker] at h ⊢
  split
  · rename_i hij; subst hij; exact (ask_mono _ v v' _ hl h).2
  · exact (ask_mono _ v v' _ hl h).1

theorem boolValue_mono (f g : Nat → Bool) (h : ∀ i, f i = true → g i = true) (c : Cond)
    (hc : boolValue f c = true) : boolValue g c = true := by
  induction c with
  | leaf i => exact h i hc
  | or i a b iha ihb =>
    simp only [boolValue, Bool.or_eq_true] at hc ⊢
    exact hc.elim (fun h => .inl (iha h)) (fun h => .inr (ihb h))
  | and i a b iha ihb =>
    simp only [boolValue, Bool.and_eq_true] at hc ⊢
    exact ⟨iha hc.1, ihb hc.2⟩

theorem ans_ok (chk : Nat → Checker) (v : CView) (c : Cond) (st : Last) (w : Latches) :
    ∃ b, (c.call (askChecker chk v) st w).ans = .ok b := by
  induction c generalizing st w with
  | leaf i => exact ⟨_, rfl⟩
  | or i a b iha ihb =>
    simp only [call]
    obtain ⟨x, hx⟩ := iha (reset (.or i a b) st) w
    rw [hx]
    cases x with
    | true => exact ⟨_, rfl⟩
    | false =>
      obtain ⟨y, hy⟩ := ihb (call (askChecker chk v) a (reset (.or i a b) st) w).last
        (call (askChecker chk v) a (reset (.or i a b) st) w).world
      simp only
      rw [hy]
      exact ⟨_, rfl⟩
  | and i a b iha ihb =>
    simp only [call]
    obtain ⟨x, hx⟩ := iha (reset (.and i a b) st) w
    rw [hx]
    cases x with
    | false => exact ⟨_, rfl⟩
    | true =>
      obtain ⟨y, hy⟩ := ihb (call (askChecker chk v) a (reset (.and i a b) st) w).last
        (call (askChecker chk v) a (reset (.and i a b) st) w).world
      simp only
      rw [hy]
      exact ⟨_, rfl⟩

/-- An invariant of single evaluations is an invariant of calls. -/
theorem call_world_inv (chk : Nat → Checker) (v : CView) (P : Latches → Prop)
    (hP : ∀ w i, P w → P (askChecker chk v i w).1) (c : Cond) (st : Last) (w : Latches) (h : P w) :
    P (c.call (askChecker chk v) st w).world := by
  induction c generalizing st w with
  | leaf i => exact hP w i h
  | or i a b iha ihb =>
    simp only [call]
    have h1 := iha (reset (.or i a b) st) w h
    generalize call (askChecker chk v) a (reset (.or i a b) st) w = r1 at h1 ⊢
    have h2 := ihb r1.last r1.world h1
    split
    · exact h1
    · exact h1
    · split <;> exact h2
  | and i a b iha ihb =>
    simp only [call]
    have h1 := iha (reset (.and i a b) st) w h
    generalize call (askChecker chk v) a (reset (.and i a b) st) w = r1 at h1 ⊢
    have h2 := ihb r1.last r1.world h1
    split
    · exact h1
    · exact h1
    · split <;> exact h2

theorem boolValue_call (chk : Nat → Checker) (v v' : CView) (hl : Later v v') (d c : Cond) (st : Last) (w : Latches)
    (h : boolValue (satisfied chk w v) d = true) :
    boolValue (satisfied chk (c.call (askChecker chk v) st w).world v') d = true := by
  have hP : ∀ w' i, (boolValue (satisfied chk w' v) d = true) →
      boolValue (satisfied chk (askChecker chk v i w').1 v) d = true := fun w' i hw =>
    boolValue_mono _ _ (fun j hj => satisfied_step chk w' v v (later_refl v) j i hj) d hw
  have := call_world_inv chk v (fun w => boolValue (satisfied chk w v) d = true) hP c st w h
  exact boolValue_mono _ _ (fun j hj => (ask_mono _ v v' _ hl hj).1) d this

/-- If the expression over the criteria's current answers is true, the call answers `True`. -/
theorem call_of_boolValue (chk : Nat → Checker) (v : CView) (c : Cond) (st : Last) (w : Latches)
    (h : boolValue (satisfied chk w v) c = true) : (c.call (askChecker chk v) st w).ans = .ok true := by
  induction c generalizing st w with
  | leaf i =>
    simp only [boolValue, satisfied] at h
    simp [call, askChecker, h]
  | or i a b iha ihb =>
    simp only [boolValue, Bool.or_eq_true] at h
    simp only [call]
    obtain ⟨x, hx⟩ := ans_ok chk v a (reset (.or i a b) st) w
    cases x with
    | true => rw [hx]
    | false =>
      have hb : boolValue (satisfied chk w v) b = true := by
        rcases h with h | h
        · have := iha (reset (.or i a b) st) w h
          rw [hx] at this; cases this
        · exact h
      have := boolValue_call chk v v (later_refl v) b a (reset (.or i a b) st) w hb
      rw [hx]
      simp only
      rw [ihb _ _ this]
  | and i a b iha ihb =>
    simp only [boolValue, Bool.and_eq_true] at h
    simp only [call]
    rw [iha (reset (.and i a b) st) w h.1]
    simp only
    rw [ihb _ _ (boolValue_call chk v v (later_refl v) b a (reset (.and i a b) st) w h.2)]

/-- If a call answers `True`, the expression over the criteria's answers is true afterwards. -/
theorem boolValue_of_call (chk : Nat → Checker) (v : CView) (c : Cond) (st : Last) (w : Latches)
    (h : (c.call (askChecker chk v) st w).ans = .ok true) :
    boolValue (satisfied chk (c.call (askChecker chk v) st w).world v) c = true := by
  induction c generalizing st w with
  | leaf i =>
    simp only [call, askChecker, Except.ok.injEq] at h
    exact satisfied_step chk w v v (later_refl v) i i h
  | or i a b iha ihb =>
    have e1 := ans_ok chk v a (reset (.or i a b) st) w
    have ia := iha (reset (.or i a b) st) w
    simp only [call] at h ⊢
    generalize call (askChecker chk v) a (reset (.or i a b) st) w = r1 at h e1 ia ⊢
    obtain ⟨x, hx⟩ := e1
    cases x with
    | true =>
      rw [hx]
      simp only [boolValue, Bool.or_eq_true]
      exact .inl (ia hx)
    | false =>
      rw [hx] at h ⊢
      simp only at h ⊢
      have e2 := ans_ok chk v b r1.last r1.world
      have ib := ihb r1.last r1.world
      generalize call (askChecker chk v) b r1.last r1.world = r2 at h e2 ib ⊢
      obtain ⟨y, hy⟩ := e2
      rw [hy] at h ⊢
      simp only [Except.ok.injEq] at h
      subst h
      simp only [boolValue, Bool.or_eq_true]
      exact .inr (ib hy)
  | and i a b iha ihb =>
    have e1 := ans_ok chk v a (reset (.and i a b) st) w
    have ia := iha (reset (.and i a b) st) w
    simp only [call] at h ⊢
    generalize call (askChecker chk v) a (reset (.and i a b) st) w = r1 at h e1 ia ⊢
    obtain ⟨x, hx⟩ := e1
    cases x with
    | false => rw [hx] at h; cases h
    | true =>
      rw [hx] at h ⊢
      simp only at h ⊢
      have e2 := ans_ok chk v b r1.last r1.world
      have ib := ihb r1.last r1.world
      have ia' := boolValue_call chk v v (later_refl v) a b r1.last r1.world (ia hx)
      generalize call (askChecker chk v) b r1.last r1.world = r2 at h e2 ib ia' ⊢
      obtain ⟨y, hy⟩ := e2
      rw [hy] at h ⊢
      simp only [Except.ok.injEq] at h
      subst h
      simp only [boolValue, Bool.and_eq_true]
      exact ⟨ia', ib hy⟩

theorem evalSeq_true (chk : Nat → Checker) (c : Cond) (vs : List CView) : ∀ (st : Last) (w : Latches) (v0 : CView),
    boolValue (satisfied chk w v0) c = true → Progress (v0 :: vs) →
    ∀ a ∈ evalSeq chk c st w vs, a = .ok true := by
  induction vs with
  | nil => intro st w v0 _ _ a ha; simp [evalSeq] at ha
  | cons v vs ih =>
    intro st w v0 h hp a ha
    have h' : boolValue (satisfied chk w v) c = true :=
      boolValue_mono _ _ (fun j hj => (ask_mono _ v0 v _ hp.1 hj).1) c h
    simp only [evalSeq, List.mem_cons] at ha
    rcases ha with rfl | ha
    · exact call_of_boolValue chk v c st w h'
    · refine ih _ _ v ?_ hp.2 a ha
      exact boolValue_call chk v v (later_refl v) c c st w h'

/-- **C14, stability.** Any combination of bundled criteria (shared objects and `KillsAfterConvergence` included),
evaluated at successive moments of a run, never answers anything but `True` once it has answered `True`. -/
theorem C14_stays_true (chk : Nat → Checker) (c : Cond) (st : Last) (w : Latches) (vs : List CView)
    (hp : Progress vs) (k m : Nat) (hkm : k ≤ m) (hk : (evalSeq chk c st w vs)[k]? = some (.ok true)) (a : Except Err Bool)
    (hm : (evalSeq chk c st w vs)[m]? = some a) : a = .ok true := by
  induction vs generalizing st w k m with
  | nil => simp [evalSeq] at hk
  | cons v vs ih =>
    have hp' : Progress vs := by
      cases vs with
      | nil => trivial
      | cons b t => exact hp.2
    simp only [evalSeq] at hk hm
    cases k with
    | succ k =>
      obtain ⟨m, rfl⟩ : ∃ m', m = m' + 1 := ⟨m - 1, by omega⟩
      exact ih _ _ hp' k m (by omega) (by simpa using hk) (by simpa using hm)
    | zero =>
      simp only [List.getElem?_cons_zero, Option.some.injEq] at hk
      cases m with
      | zero => simp only [List.getElem?_cons_zero, Option.some.injEq] at hm; rw [← hm]; exact hk
      | succ m =>
        simp only [List.getElem?_cons_succ] at hm
        exact evalSeq_true chk c vs _ _ v (boolValue_of_call chk v c st w hk) hp a (List.mem_of_getElem? hm)

/-- Criteria for the tree `(1 & 2) | 3`. -/
def sampleChk : Nat → Checker
  | 1 => .maxFuncCalls 100
  | 2 => .killsAfterConvergence 1 2
  | _ => .targetCost (.fin 0) (.fin 0)

/-- A later moment. -/
def sampleViews : List CView :=
  [{ sampleView with fCounter := 90 }, sampleView, { sampleView with kills := 4, fCounter := 130 },
   { sampleView with kills := 4, fCounter := 140, best := some (.fin 0) }]

example : (evalSeq sampleChk sampleCond (fun _ => none) (fun _ => Latch.init) sampleViews).map Except.toOption =
    [some false, some false, some true, some true] := by decide +kernel
example : Progress sampleViews := by
  refine ⟨?_, ?_, ?_, trivial⟩ <;>
    refine ⟨by decide, by decide, by decide, by decide, by decide +kernel, rfl, rfl, fun f hf => ?_⟩ <;> cases hf
  · exact ⟨_, rfl, .inl rfl⟩
  · exact ⟨_, rfl, .inl rfl⟩
  · exact ⟨_, rfl, .inr (by decide +kernel)⟩

theorem kac_latched (nk nc : Int) (kc : Nat) (vs : List CView) :
    kacSeq nk nc ⟨true, kc⟩ vs = vs.map fun v => decide ((v.kills : Int) - kc ≥ nk) := by
  induction vs with
  | nil => rfl
  | cons v vs ih => simp [kacSeq, Checker.ask, Latch.update, ih]

/-- **C15.** Evaluation number `k` of a fresh `KillsAfterConvergence` answers `True` exactly when some evaluation up to
`k` saw enough converged optimizers and, counted from the first such evaluation, at least `nk` further optimizers had
been killed. -/
theorem C15_kills_after_convergence (nk nc : Int) (vs : List CView) (k : Nat) (v : CView) (hv : vs[k]? = some v) :
    (kacSeq nk nc Latch.init vs)[k]? = some true ↔
      ∃ j u, j ≤ k ∧ FirstConv nc vs j ∧ vs[j]? = some u ∧ nk ≤ (v.kills : Int) - u.kills := by
  induction vs generalizing k with
  | nil => simp at hv
  | cons a t ih =>
    simp only [kacSeq, Checker.ask, Latch.update, Latch.init, and_true]
    by_cases hc : (a.convCounter : Int) ≥ nc
    · simp only [hc, if_true, kac_latched, Bool.true_and]
      have hf : FirstConv nc (a :: t) 0 := ⟨⟨a, rfl, hc⟩, fun i _ h => absurd h (Nat.not_lt_zero i)⟩
      have huniq : ∀ j, FirstConv nc (a :: t) j → j = 0 := by
        intro j hj
        cases j with
        | zero => rfl
        | succ j => exact absurd hc (hj.2 0 a (Nat.succ_pos j) rfl)
      have hlist : (decide ((a.kills : Int) - (a.kills : Int) ≥ nk) ::
          List.map (fun v => decide ((v.kills : Int) - (a.kills : Int) ≥ nk)) t) =
          (a :: t).map (fun v => decide ((v.kills : Int) - (a.kills : Int) ≥ nk)) := rfl
      rw [hlist, List.getElem?_map, hv]
      simp only [Option.map_some, Option.some.injEq, decide_eq_true_eq]
      constructor
      · intro h; exact ⟨0, a, Nat.zero_le _, hf, rfl, h⟩
      · rintro ⟨j, u, _, hj, hu, h⟩
        cases huniq j hj
        simp at hu; subst hu; exact h
    · simp only [hc, if_false, Bool.false_and]
      have shift : ∀ j, FirstConv nc (a :: t) j ↔ ∃ j', j = j' + 1 ∧ FirstConv nc t j' := by
        intro j
        cases j with
        | zero =>
          constructor
          · rintro ⟨⟨u, hu, hcu⟩, _⟩; simp at hu; subst hu; exact absurd hcu hc
          · rintro ⟨j', h, _⟩; omega
        | succ j =>
          constructor
          · rintro ⟨⟨u, hu, hcu⟩, h2⟩
            exact ⟨j, rfl, ⟨u, by simpa using hu, hcu⟩, fun i w hi hw => h2 (i + 1) w (by omega) (by simpa using hw)⟩
          · rintro ⟨j', hj', ⟨u, hu, hcu⟩, h2⟩
            cases hj'
            refine ⟨⟨u, by simpa using hu, hcu⟩, fun i w hi hw => ?_⟩
            cases i with
            | zero => simp at hw; subst hw; exact hc
            | succ i => exact h2 i w (by omega) (by simpa using hw)
      cases k with
      | zero =>
        simp only [List.getElem?_cons_zero, Option.some.injEq, Bool.false_eq_true, false_iff]
        rintro ⟨j, u, hj, hf, _⟩
        obtain ⟨j', h, _⟩ := (shift j).mp hf
        omega
      | succ k =>
        simp only [List.getElem?_cons_succ]
        have := ih k (by simpa using hv)
        simp only [Latch.init] at this
        rw [this]
        constructor
        · rintro ⟨j, u, hj, hf, hu, h⟩
          exact ⟨j + 1, u, by omega, (shift _).mpr ⟨j, rfl, hf⟩, by simpa using hu, h⟩
        · rintro ⟨j, u, hj, hf, hu, h⟩
          obtain ⟨j', rfl, hf'⟩ := (shift j).mp hf
          exact ⟨j', u, by omega, hf', by simpa using hu, h⟩

example : kacSeq 1 2 Latch.init
    [{ sampleView with convCounter := 1, kills := 5 }, { sampleView with kills := 5 }, { sampleView with kills := 6 }] =
    [false, false, true] := by rfl

end Glompo.Props
