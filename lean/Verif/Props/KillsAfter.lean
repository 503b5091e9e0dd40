import Verif.Spec.KillsAfter
import Verif.Props.Criterion

/-! # C120 with `KillsAfterConvergence` -/

namespace Glompo.Props

open Glompo.Spec Glompo.Manager Glompo.Props.Runs EndToEnd Criterion

namespace KillsAfter

theorem checksIn_mem : ∀ (l old : List Ev) {p : List Ev} {b : Bool}, (p, b) ∈ checksIn old l →
    ∃ pre post, l = pre ++ .checked b :: post ∧ p = old ++ pre := by
  intro l
  induction l with
  | nil => intro old p b h; simp [checksIn] at h
  | cons x t ih =>
    intro old p b h
    have go : (p, b) ∈ checksIn (old ++ [x]) t → ∃ pre post, x :: t = pre ++ .checked b :: post ∧ p = old ++ pre := by
      intro h
      obtain ⟨pre, post, h1, h2⟩ := ih _ h
      exact ⟨x :: pre, post, by rw [h1]; rfl, by rw [h2]; simp⟩
    cases x with
    | checked b' =>
      rcases List.mem_cons.mp h with h | h
      · cases h; exact ⟨[], t, rfl, by simp⟩
      · exact go h
    | _ => exact go h

theorem lastCheck_checksIn : ∀ (l old : List Ev), (∀ c n, Ev.resumed c n ∉ l) →
    lastCheck (old ++ l) = (((checksIn old l).getLast?).map (·.2)).or (lastCheck old) := by
  intro l
  induction l with
  | nil => intro old _; simp [checksIn]
  | cons x t ih =>
    intro old hn
    have e : old ++ x :: t = (old ++ [x]) ++ t := by simp
    have := ih (old ++ [x]) fun c n h => hn c n (List.mem_cons_of_mem _ h)
    rw [e, this, lastCheck_snoc]
    cases x with
    | checked b =>
      simp only [checksIn, List.getLast?_cons]
      cases (checksIn (old ++ [Ev.checked b]) t).getLast? <;> rfl
    | resumed c n => exact absurd (by simp) (hn c n)
    | _ => rfl

/-- The memory after the checks at which so much had converged and been shut down. -/
def memory (nc : Int) (hs : List (List Ev)) : Latch :=
  hs.foldl (fun l q => if ((finishedOf q).length : Int) ≥ nc ∧ l.enough = false then ⟨true, (killedOf q).length⟩ else l) Latch.init

theorem memory_enough (nc : Int) (hs : List (List Ev)) :
    ((memory nc hs).enough = false ∧ ∀ q ∈ hs, ((finishedOf q).length : Int) < nc) ∨
    ∃ p, FirstEnough nc hs p ∧ memory nc hs = ⟨true, (killedOf p).length⟩ := by
  refine snoc_induction (P := fun hs => ((memory nc hs).enough = false ∧ ∀ q ∈ hs, ((finishedOf q).length : Int) < nc) ∨
    ∃ p, FirstEnough nc hs p ∧ memory nc hs = ⟨true, (killedOf p).length⟩) (.inl ⟨rfl, by simp⟩) (fun hs q ih => ?_) hs
  have e : memory nc (hs ++ [q]) =
      if ((finishedOf q).length : Int) ≥ nc ∧ (memory nc hs).enough = false then ⟨true, (killedOf q).length⟩ else memory nc hs := by
    simp [memory, List.foldl_append]
  rw [e]
  rcases ih with ⟨h1, h2⟩ | ⟨p, ⟨l, r, h1, h2, h3⟩, h4⟩
  · by_cases hq : ((finishedOf q).length : Int) ≥ nc
    · rw [if_pos ⟨hq, h1⟩]
      exact .inr ⟨q, ⟨hs, [], rfl, hq, h2⟩, rfl⟩
    · rw [if_neg (fun h => hq h.1)]
      refine .inl ⟨h1, fun x hx => ?_⟩
      rcases List.mem_append.mp hx with hx | hx
      · exact h2 x hx
      · rw [List.mem_singleton.mp hx]; omega
  · rw [if_neg (fun h => by rw [h4] at h; cases h.2)]
    exact .inr ⟨p, ⟨l, r ++ [q], by rw [h1]; simp, h2, h3⟩, h4⟩

theorem firstEnough_unique {nc : Int} {hs : List (List Ev)} {p q : List Ev} (hp : FirstEnough nc hs p) (hq : FirstEnough nc hs q) :
    p = q := by
  obtain ⟨l, r, h1, h2, h3⟩ := hp
  obtain ⟨l', r', h1', h2', h3'⟩ := hq
  rw [h1] at h1'
  rcases List.append_eq_append_iff.mp h1' with ⟨a, h4, h5⟩ | ⟨a, h4, h5⟩
  · cases a with
    | nil => simp at h5; exact h5.1
    | cons y a =>
      simp at h5
      have := h3' p (by rw [h4, ← h5.1]; simp)
      omega
  · cases a with
    | nil => simp at h5; exact h5.1.symm
    | cons y a =>
      simp at h5
      have := h3 q (by rw [h4, ← h5.1]; simp)
      omega

theorem memory_snoc {nc : Int} {hs : List (List Ev)} {p : List Ev} {v : CView} (hv : Shows p v) :
    memory nc (hs ++ [p]) = (memory nc hs).update nc v := by
  simp [memory, List.foldl_append, Latch.update, hv.converged, hv.killed]

theorem update_idem (l : Latch) (nc : Int) (v : CView) : (l.update nc v).update nc v = l.update nc v := by
  unfold Latch.update
  by_cases h : (v.convCounter : Int) ≥ nc ∧ l.enough = false
  · rw [if_pos h]; simp
  · rw [if_neg h, if_neg h]

/-- The answer of a combination, and the memory afterwards. -/
theorem call_since {before : List (List Ev)} {ev : List Ev} {chk : Nat → Checker} {c : Cond} {v : CView} {i0 : Nat} {nk nc : Int}
    (h0 : chk i0 = .killsAfterConvergence nk nc) (st : Cond.Last) (w : Latches)
    (hc : ∀ i ∈ leaves c, i = i0 ∨ Countable (chk i)) (hv : Shows ev v)
    (hb : (acceptedOf ev = [] ∧ lastResult ev = none) ∨ ∃ x fx i, lastResult ev = some (x, fx, i) ∧ IsBest x fx i (acceptedOf ev))
    (hw : w i0 = memory nc before ∨ w i0 = memory nc (before ++ [ev])) :
    (∃ b, (c.call (askChecker chk v) st w).ans = .ok b ∧ (b = true ↔ MeetsAllSince chk before ev c)) ∧
    ((c.call (askChecker chk v) st w).world i0 = w i0 ∨ (c.call (askChecker chk v) st w).world i0 = memory nc (before ++ [ev])) ∧
    (firstLeaf c = i0 → (c.call (askChecker chk v) st w).world i0 = memory nc (before ++ [ev])) := by
  induction c generalizing st w with
  | leaf i =>
    by_cases hi : i = i0
    · subst hi
      have hu : (w i).update nc v = memory nc (before ++ [ev]) := by
        rcases hw with hw | hw
        · rw [hw, memory_snoc hv]
        · rw [hw, memory_snoc hv, update_idem]
      have hworld : ((Cond.leaf i).call (askChecker chk v) st w).world i = memory nc (before ++ [ev]) := by
        simp [Cond.call, askChecker, h0, Checker.ask, hu]
      refine ⟨⟨_, rfl, ?_⟩, .inr hworld, fun _ => hworld⟩
      show (((chk i).ask v (w i)).2 = true ↔ MeetsSince before ev (chk i))
      rw [h0]
      simp only [Checker.ask, hu, MeetsSince, Bool.and_eq_true, decide_eq_true_eq, hv.killed]
      rcases memory_enough nc (before ++ [ev]) with ⟨h1, h2⟩ | ⟨p, h1, h2⟩
      · rw [h1]
        constructor
        · rintro ⟨h, -⟩; cases h
        · rintro ⟨p, ⟨l, r, e, h3, -⟩, -⟩
          have := h2 p (by rw [e]; simp)
          omega
      · rw [h2]
        constructor
        · rintro ⟨-, h⟩; exact ⟨p, h1, h⟩
        · rintro ⟨q, hq, h⟩
          rw [firstEnough_unique hq h1] at h
          exact ⟨rfl, h⟩
    · have hcn : Countable (chk i) := (hc i (by simp [leaves])).resolve_left hi
      refine ⟨⟨_, rfl, ?_⟩, .inl ?_, fun h => absurd h hi⟩
      · show (((chk i).ask v (w i)).2 = true ↔ MeetsSince before ev (chk i))
        rw [ask_meets (w i) hcn hv hb]
        cases hk : chk i <;> first | exact Iff.rfl | (rw [hk] at hcn; exact absurd hcn id)
      · show (fun j => if j = i then _ else w j) i0 = w i0
        simp [Ne.symm hi]
  | or i a b iha ihb =>
    obtain ⟨⟨x, h1, h2⟩, h3, h4⟩ := iha ((Cond.or i a b).reset st) w (fun i hi => hc i (by simp [leaves, hi])) hw
    simp only [Cond.call, h1, MeetsAllSince, firstLeaf]
    cases x with
    | true => exact ⟨⟨true, rfl, by simp [← h2]⟩, h3, h4⟩
    | false =>
      obtain ⟨⟨y, h5, h6⟩, h7, h8⟩ := ihb (a.call (askChecker chk v) ((Cond.or i a b).reset st) w).last
        (a.call (askChecker chk v) ((Cond.or i a b).reset st) w).world
        (fun i hi => hc i (by simp [leaves, hi])) (by rcases h3 with h | h <;> rw [h] <;> simp [hw])
      simp only [h5]
      refine ⟨⟨y, rfl, by rw [h6, ← h2]; simp⟩, ?_, fun hf => ?_⟩
      · rcases h7 with h | h
        · rw [h]; exact h3
        · exact .inr h
      · rcases h7 with h | h
        · rw [h]; exact h4 hf
        · exact h
  | and i a b iha ihb =>
    obtain ⟨⟨x, h1, h2⟩, h3, h4⟩ := iha ((Cond.and i a b).reset st) w (fun i hi => hc i (by simp [leaves, hi])) hw
    simp only [Cond.call, h1, MeetsAllSince, firstLeaf]
    cases x with
    | false => exact ⟨⟨false, rfl, by simp [← h2]⟩, h3, h4⟩
    | true =>
      obtain ⟨⟨y, h5, h6⟩, h7, h8⟩ := ihb (a.call (askChecker chk v) ((Cond.and i a b).reset st) w).last
        (a.call (askChecker chk v) ((Cond.and i a b).reset st) w).world
        (fun i hi => hc i (by simp [leaves, hi])) (by rcases h3 with h | h <;> rw [h] <;> simp [hw])
      simp only [h5]
      refine ⟨⟨y, rfl, by rw [h6, ← h2]; simp⟩, ?_, fun hf => ?_⟩
      · rcases h7 with h | h
        · rw [h]; exact h3
        · exact .inr h
      · rcases h7 with h | h
        · rw [h]; exact h4 hf
        · exact h

/-- All the answers, in turn. -/
theorem seq_since {chk : Nat → Checker} {c : Cond} {i0 : Nat} {nk nc : Int} (h0 : chk i0 = .killsAfterConvergence nk nc)
    (hf : firstLeaf c = i0) (hc : ∀ i ∈ leaves c, i = i0 ∨ Countable (chk i)) :
    ∀ (qs : List (List Ev × Bool)) (vs : List CView) (before : List (List Ev)) (st : Cond.Last) (w : Latches),
    (∀ q ∈ qs, (acceptedOf q.1 = [] ∧ lastResult q.1 = none) ∨
      ∃ x fx i, lastResult q.1 = some (x, fx, i) ∧ IsBest x fx i (acceptedOf q.1)) →
    List.Forall₂ (fun q v => Shows q.1 v) qs vs → w i0 = memory nc before →
    evalSeq chk c st w vs = qs.map (fun q => .ok q.2) → ∀ k p b, qs[k]? = some (p, b) →
    (b = true ↔ MeetsAllSince chk (before ++ (qs.take k).map (·.1)) p c) := by
  intro qs
  induction qs with
  | nil => intro vs before st w _ _ _ _ k p b h; simp at h
  | cons q qs ih =>
    intro vs before st w hb hs hw he k p b hk
    cases hs with
    | @cons _ v _ vs hv hs =>
      obtain ⟨⟨y, h1, h2⟩, -, h3⟩ := call_since h0 st w hc hv (hb q (by simp)) (.inl hw)
      simp only [evalSeq, List.map_cons, List.cons.injEq] at he
      cases k with
      | zero =>
        simp only [List.getElem?_cons_zero, Option.some.injEq] at hk
        subst hk
        rw [h1] at he
        cases he.1
        simpa using h2
      | succ k =>
        have := ih vs (before ++ [q.1]) _ _ (fun q hq => hb q (by simp [hq])) hs (h3 hf) he.2 k p b (by simpa using hk)
        simpa using this

end KillsAfter

open KillsAfter

variable (cfg : Cfg) (fuel : Nat) (e : Env) {chk : Nat → Checker} {c : Cond} {i0 : Nat} {nk nc : Int}

/-- **C120, kills after convergence.** In the first run of a manager, if the condition of the criterion looked at first is
`KillsAfterConvergence` and all others are about what has happened, every answer is `True` exactly if the criterion is met,
where the optimizers shut down are counted from the first check which found enough optimizers converged. -/
theorem C120_kills_after (h0 : chk i0 = .killsAfterConvergence nk nc) (hf : firstLeaf c = i0)
    (hc : ∀ i ∈ leaves c, i = i0 ∨ Countable (chk i)) (ha : AnsweredBySame chk c (happened cfg (init cfg) fuel e))
    (k : Nat) (p : List Ev) (b : Bool) (hk : (checksIn [] (happened cfg (init cfg) fuel e))[k]? = some (p, b)) :
    b = true ↔ MeetsAllSince chk (((checksIn [] (happened cfg (init cfg) fuel e)).take k).map (·.1)) p c := by
  obtain ⟨vs, st, h1, h2⟩ := ha
  have hL := fresh_lossless cfg fuel e
  have hs := Startable.fresh cfg
  refine (seq_since h0 hf hc _ vs [] st _ (fun q hq => ?_) h1 rfl h2 k p b hk).trans (by simp)
  obtain ⟨q, b'⟩ := q
  obtain ⟨pre, post, h3, h4⟩ := checksIn_mem _ _ hq
  simp only [List.nil_append] at h4
  subst h4
  obtain ⟨l, hl, hg⟩ := steps_open (startManager_spec fuel hs.spec.1 e).1 hs.spec.1.inv
  have hl : happened cfg (init cfg) fuel e = [] ++ l := hl
  simp only [List.nil_append] at hl
  have hu : UpToDate ([] ++ q) = true := (hg q _ post (by rw [← hl, h3])).2 ⟨b', rfl⟩
  have g := moment_good hs fuel e
  have gp : AfterEach (Fine (moment cfg (init cfg) fuel e).first) q :=
    fun p x r eq => g p x (r ++ .checked b' :: post) (by
      show happened cfg (init cfg) fuel e = _
      rw [h3, eq]; simp)
  exact (result_ok _ gp (lossless_prefix (by rw [← h3]; exact hL))).1 hu

/-- **C120, kills after convergence.** If such a run ends regularly, the criterion was met at the last check, or at the end
nobody was running and the selector had answered `False`. -/
theorem C120_kills_after_ends (h0 : chk i0 = .killsAfterConvergence nk nc) (hf : firstLeaf c = i0)
    (hc : ∀ i ∈ leaves c, i = i0 ∨ Countable (chk i)) (ha : AnsweredBySame chk c (happened cfg (init cfg) fuel e))
    (he : ended cfg (init cfg) fuel e = some .regular) :
    (∃ before p, (checksIn [] (happened cfg (init cfg) fuel e)) = before ++ [(p, true)] ∧
      MeetsAllSince chk (before.map (·.1)) p c) ∨
      (∀ i, ¬ Running (happened cfg (init cfg) fuel e) i) ∧ ∃ k, Ev.asked k .stop ∈ happened cfg (init cfg) fuel e := by
  have hs := Startable.fresh cfg
  obtain ⟨-, -, hconv⟩ : Ending (some .regular) (moment cfg (init cfg) fuel e) := by
    have := (startManager_spec fuel hs.spec.1 e).2.1
    rwa [show (startManager cfg fuel (init cfg) e).1 = _ from he] at this
  refine ((moment_inv hs fuel e).why hconv).imp (fun hl => ?_) id
  have hl : lastCheck ([] ++ happened cfg (init cfg) fuel e) = some true := hl
  have hn : ∀ c n, Ev.resumed c n ∉ happened cfg (init cfg) fuel e := by
    obtain ⟨l, hl, hn⟩ := steps_new (startManager_spec fuel hs.spec.1 e).1
    have hl : happened cfg (init cfg) fuel e = [] ++ l := hl
    rw [hl]; exact hn
  rw [lastCheck_checksIn _ _ hn, show lastCheck [] = none from rfl, Option.or_none] at hl
  obtain ⟨⟨p, b⟩, h1, h2⟩ := Option.map_eq_some_iff.mp hl
  cases h2
  obtain ⟨before, h3⟩ := List.getLast?_eq_some_iff.mp h1
  refine ⟨before, p, h3, ?_⟩
  have := (C120_kills_after cfg fuel e h0 hf hc ha before.length p true (by rw [h3]; simp)).mp rfl
  rwa [h3, List.take_left] at this

/-! ### A run -/

theorem KillsAfter.ok_of_toOption : ∀ (l : List (Except Err Bool)) (qs : List (List Ev × Bool)),
    l.map (·.toOption) = qs.map (fun q => some q.2) → l = qs.map fun q => .ok q.2
  | [], [], _ => rfl
  | [], q :: qs, h => by simp at h
  | a :: l, [], h => by simp at h
  | a :: l, q :: qs, h => by
    simp only [List.map_cons, List.cons.injEq] at h ⊢
    refine ⟨?_, KillsAfter.ok_of_toOption l qs h.2⟩
    cases a with
    | error e => cases h.1
    | ok y => cases h.1; rfl

theorem KillsAfter.answered_of {chk : Nat → Checker} {c : Cond} {run : List Ev}
    (h : (evalSeq chk c (fun _ => none) (fun _ => Latch.init) ((checksIn [] run).map fun q => seen q.1)).map (·.toOption) =
      (checksIn [] run).map fun q => some q.2) : AnsweredBySame chk c run := by
  refine ⟨(checksIn [] run).map fun q => seen q.1, fun _ => none, ?_, KillsAfter.ok_of_toOption _ _ h⟩
  rw [List.forall₂_map_right_iff]
  exact List.forall₂_same.mpr fun q _ => ⟨rfl, rfl, rfl, rfl, rfl⟩

/-- `KillsAfterConvergence(1, 0) | MaxFuncCalls(9)`. -/
def KillsAfter.chkK : Nat → Checker
  | 0 => .killsAfterConvergence 1 0
  | _ => .maxFuncCalls 9

def KillsAfter.cK : Cond := .or 2 (.leaf 0) (.leaf 1)

example : AnsweredBySame chkK cK (happened cfg2 (init cfg2) 20 demo) ∧ firstLeaf cK = 0 ∧
    (∀ i ∈ leaves cK, i = 0 ∨ Countable (chkK i)) ∧ ended cfg2 (init cfg2) 20 demo = some .regular ∧
    ∃ p, (checksIn [] (happened cfg2 (init cfg2) 20 demo))[1]? = some (p, true) ∧ (killedOf p).length = 1 := by
  refine ⟨KillsAfter.answered_of (by decide +kernel), rfl, fun i hi => ?_, by decide +kernel, ?_⟩
  · simp [cK, leaves] at hi
    rcases hi with rfl | rfl
    · exact .inl rfl
    · exact .inr trivial
  · exact ⟨(happened cfg2 (init cfg2) 20 demo).take 24, by decide +kernel, by decide +kernel⟩

/-- **C15, refuted for the second place of a combination.** Whether `MaxFuncCalls(10) & KillsAfterConvergence(1, 1)` or
`KillsAfterConvergence(1, 1) & MaxFuncCalls(10)` is given makes a difference: only when the evaluations are enough does the
first one look for converged optimizers, and an optimizer shut down before then, though after the convergence, is not counted.
So at the same moments the first answers `False` and the second `True`. -/
theorem C15_order_refuted : ∃ (chk : Nat → Checker) (vs : List CView), chk 0 = .maxFuncCalls 10 ∧
    chk 1 = .killsAfterConvergence 1 1 ∧ Progress vs ∧
    (∀ v ∈ vs, v.convCounter = 1) ∧ vs.map (·.kills) = [0, 1] ∧ vs.map (·.fCounter) = [5, 12] ∧
    (evalSeq chk (.and 2 (.leaf 0) (.leaf 1)) (fun _ => none) (fun _ => Latch.init) vs).map Except.toOption =
      [some false, some false] ∧
    (evalSeq chk (.and 2 (.leaf 1) (.leaf 0)) (fun _ => none) (fun _ => Latch.init) vs).map Except.toOption =
      [some false, some true] := by
  refine ⟨fun i => if i = 0 then .maxFuncCalls 10 else .killsAfterConvergence 1 1,
    [⟨5, 3, 1, 0, none, 1000, some 900, 50⟩, ⟨12, 3, 1, 1, none, 1001, some 900, 50⟩], rfl, rfl, ⟨?_, trivial⟩,
    by decide, rfl, rfl, by decide +kernel, by decide +kernel⟩
  refine ⟨by decide, by decide, by decide, by decide, by decide +kernel, rfl, rfl, fun f hf => ?_⟩
  cases hf

end Glompo.Props
