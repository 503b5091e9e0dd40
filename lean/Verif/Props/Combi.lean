import Verif.Spec.Combi
import Verif.Lemmas.Basic

/-!
# C12, C13: combined conditions
-/

namespace Glompo.Props

open Glompo Glompo.Spec Glompo.Cond

/-- **C12.** A combined condition answers with the boolean value of the expression, whatever results were stored
before, and for shared objects too. -/
theorem C12_boolean_value {W : Type} (ask : Nat → W → W × Except Err Bool) (answer : Nat → Bool)
    (h : ∀ i w, (ask i w).2 = .ok (answer i)) (c : Cond) (st : Last) (w : W) :
    (c.call ask st w).ans = .ok (boolValue answer c) := by
  induction c generalizing st w with
  | leaf i => simp [call, h, boolValue]
  | or i a b iha ihb =>
    simp only [call, iha, boolValue]
    cases boolValue answer a with
    | true => rfl
    | false => simp [ihb]
  | and i a b iha ihb =>
    simp only [call, iha, boolValue]
    cases boolValue answer a with
    | true => simp [ihb]
    | false => rfl

/-- What happened outside is what evaluating the reported conditions, one after the other, does. -/
theorem call_world {W : Type} (ask : Nat → W → W × Except Err Bool) (c : Cond) (st : Last) (w : W) :
    (c.call ask st w).world = (c.call ask st w).trace.foldl (fun w i => (ask i w).1) w := by
  induction c generalizing st w with
  | leaf i =>
    simp only [call]
    cases (ask i w).2 <;> rfl
  | or i a b iha ihb =>
    simp only [call]
    have h1 := iha (reset (.or i a b) st) w
    generalize call ask a (reset (.or i a b) st) w = r1 at h1 ⊢
    have h2 := ihb r1.last r1.world
    split
    · exact h1
    · exact h1
    · split <;> simp only [List.foldl_append, ← h1, ← h2]
  | and i a b iha ihb =>
    simp only [call]
    have h1 := iha (reset (.and i a b) st) w
    generalize call ask a (reset (.and i a b) st) w = r1 at h1 ⊢
    have h2 := ihb r1.last r1.world
    split
    · exact h1
    · exact h1
    · split <;> simp only [List.foldl_append, ← h1, ← h2]

/-- **C13, evaluation order.** Exactly the conditions demanded by the lazy rule are evaluated, in that order: the
surroundings end up as if these, and no others, had been asked one after the other. -/
theorem C13_lazy_order {W : Type} (ask : Nat → W → W × Except Err Bool) (answer : Nat → Bool)
    (h : ∀ i w, (ask i w).2 = .ok (answer i)) (c : Cond) (st : Last) (w : W) :
    (c.call ask st w).trace = lazyOrder answer c ∧
    (c.call ask st w).world = (lazyOrder answer c).foldl (fun w i => (ask i w).1) w := by
  have ht : (c.call ask st w).trace = lazyOrder answer c := by
    induction c generalizing st w with
    | leaf i => simp [call, h, lazyOrder]
    | or i a b iha ihb =>
      simp only [call, C12_boolean_value ask answer h a, lazyOrder]
      cases boolValue answer a with
      | true => simp [iha]
      | false => simp [C12_boolean_value ask answer h b, iha, ihb]
    | and i a b iha ihb =>
      simp only [call, C12_boolean_value ask answer h a, lazyOrder]
      cases boolValue answer a with
      | true => simp [C12_boolean_value ask answer h b, iha, ihb]
      | false => simp [iha]
  exact ⟨ht, by rw [call_world, ht]⟩

/-- The world in which the conditions are asked can simply record them: the record is the lazy order. -/
example (answer : Nat → Bool) (c : Cond) (st : Last) :
    (c.call (fun i (w : List Nat) => (w ++ [i], .ok (answer i))) st []).world = lazyOrder answer c := by
  rw [(C13_lazy_order _ answer (fun _ _ => rfl) c st []).2]
  generalize lazyOrder answer c = l
  have : ∀ a : List Nat, l.foldl (fun w i => w ++ [i]) a = a ++ l := by
    intro a
    induction l generalizing a with
    | nil => simp
    | cons b t ih => simp [ih]
  simpa using this []

/-- **C13, exceptions.** An exception of a basic condition is passed on: it was raised by the last condition asked, in
the surroundings left by the ones asked before, and nothing is evaluated after it. -/
theorem C13_exception {W : Type} (ask : Nat → W → W × Except Err Bool) (c : Cond) (st : Last) (w : W) (e : Err)
    (h : (c.call ask st w).ans = .error e) :
    ∃ i pre, (c.call ask st w).trace = pre ++ [i] ∧
      ask i (pre.foldl (fun w i => (ask i w).1) w) = ((c.call ask st w).world, .error e) := by
  have key : ∃ i pre, (c.call ask st w).trace = pre ++ [i] ∧
      (ask i (pre.foldl (fun w i => (ask i w).1) w)).2 = .error e := by
    induction c generalizing st w with
    | leaf i =>
      simp only [call] at h ⊢
      cases hq : (ask i w).2 with
      | ok b => rw [hq] at h; cases h
      | error e' => rw [hq] at h; cases h; exact ⟨i, [], rfl, hq⟩
    | or i a b iha ihb =>
      simp only [call] at h ⊢
      cases h1 : (call ask a (reset (or i a b) st) w).ans with
      | error e' =>
        rw [h1] at h; cases h
        exact iha _ _ h1
      | ok v =>
        rw [h1] at h
        cases v with
        | true => cases h
        | false =>
          simp only at h ⊢
          have hw := call_world ask a (reset (or i a b) st) w
          generalize call ask a (reset (or i a b) st) w = r1 at h hw
          cases h2 : (call ask b r1.last r1.world).ans with
          | ok v => rw [h2] at h; cases h
          | error e' =>
            rw [h2] at h; cases h
            obtain ⟨j, pre, p1, p2⟩ := ihb _ _ h2
            exact ⟨j, r1.trace ++ pre, by simp [p1], by rw [List.foldl_append, ← hw]; exact p2⟩
    | and i a b iha ihb =>
      simp only [call] at h ⊢
      cases h1 : (call ask a (reset (and i a b) st) w).ans with
      | error e' =>
        rw [h1] at h; cases h
        exact iha _ _ h1
      | ok v =>
        rw [h1] at h
        cases v with
        | false => cases h
        | true =>
          simp only at h ⊢
          have hw := call_world ask a (reset (and i a b) st) w
          generalize call ask a (reset (and i a b) st) w = r1 at h hw
          cases h2 : (call ask b r1.last r1.world).ans with
          | ok v => rw [h2] at h; cases h
          | error e' =>
            rw [h2] at h; cases h
            obtain ⟨j, pre, p1, p2⟩ := ihb _ _ h2
            exact ⟨j, r1.trace ++ pre, by simp [p1], by rw [List.foldl_append, ← hw]; exact p2⟩
  obtain ⟨i, pre, h1, h2⟩ := key
  refine ⟨i, pre, h1, Prod.ext ?_ h2⟩
  rw [call_world, h1, List.foldl_append]
  rfl

theorem set_ne {st : Last} {i j : Nat} {v : Option Bool} (h : j ≠ i) : st.set i v j = st j := by
  simp [Last.set, h]

theorem set_self {st : Last} {i : Nat} {v : Option Bool} : st.set i v i = v := by simp [Last.set]

theorem id_mem_objects (c : Cond) : c.id ∈ objects c := by cases c <;> simp [Cond.id, objects]

theorem leaves_subset (c : Cond) : ∀ i ∈ leaves c, i ∈ objects c := by
  induction c with
  | leaf j => simp [leaves, objects]
  | or j a b iha ihb =>
    intro i hi; simp only [leaves, objects, List.mem_append, List.mem_cons] at hi ⊢
    rcases hi with h | h
    · exact .inr (.inl (iha i h))
    · exact .inr (.inr (ihb i h))
  | and j a b iha ihb =>
    intro i hi; simp only [leaves, objects, List.mem_append, List.mem_cons] at hi ⊢
    rcases hi with h | h
    · exact .inr (.inl (iha i h))
    · exact .inr (.inr (ihb i h))

/-- `reset` touches only objects of the tree and clears every basic one. -/
theorem reset_spec (c : Cond) (st : Last) :
    (∀ j, j ∉ objects c → reset c st j = st j) ∧ (∀ j, reset c st j = none ∨ reset c st j = st j) ∧
    (∀ j ∈ leaves c, reset c st j = none) := by
  induction c generalizing st with
  | leaf i =>
    refine ⟨?_, ?_, ?_⟩
    · intro j hj; simp [objects] at hj; simp [reset, Last.set, hj]
    · intro j; simp only [reset, Last.set]; split
      · left; trivial
      · right; trivial
    · intro j hj; simp [leaves] at hj; simp [reset, Last.set, hj]
  | or i a b iha ihb | and i a b iha ihb =>
    simp only [reset]
    generalize hs1 : st.set a.id none = s1
    generalize hs2 : (reset a s1).set b.id none = s2
    obtain ⟨a1, a2, a3⟩ := iha s1
    obtain ⟨b1, b2, b3⟩ := ihb s2
    have key : ∀ j, s2 j = none ∨ s2 j = st j := by
      intro j
      rw [← hs2]
      by_cases hj : j = b.id
      · left; simp [Last.set, hj]
      · rw [set_ne hj]
        rcases a2 j with h | h
        · exact .inl h
        · rw [h, ← hs1]
          by_cases hj' : j = a.id
          · left; simp [Last.set, hj']
          · right; exact set_ne hj'
    refine ⟨?_, ?_, ?_⟩
    · intro j hj
      simp only [objects, List.mem_cons, List.mem_append, not_or] at hj
      rw [b1 j hj.2.2, ← hs2, set_ne (fun h => hj.2.2 (by rw [h]; exact id_mem_objects b)), a1 j hj.2.1, ← hs1,
        set_ne (fun h => hj.2.1 (by rw [h]; exact id_mem_objects a))]
    · intro j
      rcases b2 j with h | h
      · exact .inl h
      · rw [h]; exact key j
    · intro j hj
      simp only [leaves, List.mem_append] at hj
      rcases hj with h | h
      · have := a3 j h
        rcases b2 j with h' | h'
        · exact h'
        · rw [h', ← hs2]
          by_cases hj' : j = b.id
          · simp [Last.set, hj']
          · rw [set_ne hj']; exact this
      · exact b3 j h

/-- A call touches only objects of the tree. -/
theorem call_frame {W : Type} (ask : Nat → W → W × Except Err Bool) (c : Cond) (st : Last) (w : W) (j : Nat)
    (hj : j ∉ objects c) : (c.call ask st w).last j = st j := by
  induction c generalizing st w with
  | leaf i =>
    simp [objects] at hj
    simp only [call]
    split
    · exact set_ne hj
    · rfl
  | or i a b iha ihb | and i a b iha ihb =>
    have hr := (reset_spec _ st).1 j hj
    simp only [objects, List.mem_cons, List.mem_append, not_or] at hj
    simp only [call]
    split
    · rw [iha _ _ hj.2.1, hr]
    · simp only [set_ne hj.1]; rw [iha _ _ hj.2.1, hr]
    · split
      · rw [ihb _ _ hj.2.2, iha _ _ hj.2.1, hr]
      · simp only [set_ne hj.1]; rw [ihb _ _ hj.2.2, iha _ _ hj.2.1, hr]

theorem shownText_congr (name : Nat → String) (r1 r2 : Nat → Option Bool) (c : Cond)
    (h : ∀ i ∈ leaves c, r1 i = r2 i) : shownText name r1 c = shownText name r2 c := by
  induction c with
  | leaf i => simp only [shownText]; rw [h i (by simp [leaves])]
  | or i a b iha ihb | and i a b iha ihb =>
    simp only [shownText]
    rw [iha fun i hi => h i (by simp [leaves, hi]), ihb fun i hi => h i (by simp [leaves, hi])]

theorem strWithResult_eq (name : Nat → String) (st : Last) (c : Cond) :
    strWithResult name st c = shownText name st c := by
  induction c with
  | leaf i => simp only [strWithResult, shownText, pyBool]; split <;> simp_all
  | or i a b iha ihb | and i a b iha ihb => simp only [strWithResult, shownText, iha, ihb]

theorem lazyOrder_subset (answer : Nat → Bool) (c : Cond) : ∀ i ∈ lazyOrder answer c, i ∈ leaves c := by
  induction c with
  | leaf i => simp [lazyOrder, leaves]
  | or i a b iha ihb | and i a b iha ihb =>
    intro j hj
    simp only [lazyOrder] at hj
    simp only [leaves, List.mem_append]
    split at hj
    all_goals
      grind

theorem call_or_last {W : Type} (ask : Nat → W → W × Except Err Bool) (answer : Nat → Bool)
    (h : ∀ i w, (ask i w).2 = .ok (answer i)) (i : Nat) (a b : Cond) (st : Last) (w : W) :
    ((or i a b).call ask st w).last =
      let r1 := call ask a (reset (or i a b) st) w
      if boolValue answer a then r1.last.set i (some true)
      else (call ask b r1.last r1.world).last.set i (some (boolValue answer b)) := by
  have h1 := C12_boolean_value ask answer h a (reset (or i a b) st) w
  simp only [call]
  generalize call ask a (reset (or i a b) st) w = r1 at h1 ⊢
  have h2 := C12_boolean_value ask answer h b r1.last r1.world
  rw [h1]
  cases boolValue answer a with
  | true => rfl
  | false => simp only; rw [h2]; rfl

theorem call_and_last {W : Type} (ask : Nat → W → W × Except Err Bool) (answer : Nat → Bool)
    (h : ∀ i w, (ask i w).2 = .ok (answer i)) (i : Nat) (a b : Cond) (st : Last) (w : W) :
    ((and i a b).call ask st w).last =
      let r1 := call ask a (reset (and i a b) st) w
      if boolValue answer a then (call ask b r1.last r1.world).last.set i (some (boolValue answer b))
      else r1.last.set i (some false) := by
  have h1 := C12_boolean_value ask answer h a (reset (and i a b) st) w
  simp only [call]
  generalize call ask a (reset (and i a b) st) w = r1 at h1 ⊢
  have h2 := C12_boolean_value ask answer h b r1.last r1.world
  rw [h1]
  cases boolValue answer a with
  | false => rfl
  | true => simp only; rw [h2]; rfl

/-- Stored results after a call, for trees of distinct objects. -/
theorem call_last {W : Type} (ask : Nat → W → W × Except Err Bool) (answer : Nat → Bool)
    (h : ∀ i w, (ask i w).2 = .ok (answer i)) (c : Cond) (hd : (objects c).Nodup) (st : Last) (w : W)
    (i : Nat) (hi : i ∈ leaves c) :
    (c.call ask st w).last i = if i ∈ lazyOrder answer c then some (answer i) else none := by
  induction c generalizing st w with
  | leaf j =>
    simp [leaves] at hi; subst hi
    simp [call, h, lazyOrder, set_self]
  | or j a b iha ihb | and j a b iha ihb =>
    simp only [objects, List.nodup_cons, List.mem_append, not_or, List.nodup_append] at hd
    obtain ⟨⟨hja, hjb⟩, hda, hdb, hdis⟩ := hd
    have hij : i ≠ j := by
      rintro rfl
      simp only [leaves, List.mem_append] at hi
      rcases hi with hi | hi
      · exact hja (leaves_subset a _ hi)
      · exact hjb (leaves_subset b _ hi)
    have hreset := (reset_spec _ st).2.2 i hi
    simp only [leaves, List.mem_append] at hi
    simp only [call_or_last ask answer h, call_and_last ask answer h, lazyOrder]
    have hb0 : ∀ st w, i ∈ leaves b → (call ask a st w).last i = st i := fun st w hb =>
      call_frame ask a st w i (fun ha => hdis i ha i (leaves_subset b i hb) rfl)
    have ha0 : ∀ st w, i ∈ leaves a → (call ask b st w).last i = st i := fun st w ha =>
      call_frame ask b st w i (fun hb => hdis i (leaves_subset a i ha) i hb rfl)
    have hna : i ∈ leaves b → i ∉ lazyOrder answer a := fun hb hl =>
      hdis i (leaves_subset a i (lazyOrder_subset answer a i hl)) i (leaves_subset b i hb) rfl
    have hnb : i ∈ leaves a → i ∉ lazyOrder answer b := fun ha hl =>
      hdis i (leaves_subset a i ha) i (leaves_subset b i (lazyOrder_subset answer b i hl)) rfl
    by_cases hv : boolValue answer a = true <;> simp only [hv, Bool.false_eq_true, if_true, if_false, set_ne hij, List.mem_append]
    all_goals
      rcases hi with hi | hi
      · first
          | (rw [ha0 _ _ hi, iha hda _ _ hi]; simp [hnb hi])
          | (rw [iha hda _ _ hi])
      · first
          | (rw [ihb hdb _ _ hi]; simp [hna hi])
          | (rw [hb0 _ _ hi, hreset]; simp [hna hi])

/-- **C13.** In a tree of distinct objects every condition is evaluated at most once, and afterwards the text with
results shows every condition with its answer if the lazy rule evaluated it and with `None` if not, whatever had been
stored before. -/
theorem C13_reported_results {W : Type} (ask : Nat → W → W × Except Err Bool) (answer : Nat → Bool)
    (h : ∀ i w, (ask i w).2 = .ok (answer i)) (c : Cond) (hd : (objects c).Nodup) (stale : Last) (w : W)
    (name : Nat → String) :
    (c.call ask stale w).trace.Nodup ∧
    strWithResult name (c.call ask stale w).last c =
      shownText name (fun i => if i ∈ lazyOrder answer c then some (answer i) else none) c := by
  refine ⟨?_, ?_⟩
  · rw [(C13_lazy_order ask answer h _ _ _).1]
    clear stale w
    induction c with
    | leaf i => simp [lazyOrder]
    | or j a b iha ihb | and j a b iha ihb =>
      simp only [objects, List.nodup_cons, List.nodup_append] at hd
      obtain ⟨_, hda, hdb, hdis⟩ := hd
      simp only [lazyOrder]
      have := List.nodup_append.mpr ⟨iha hda, ihb hdb, fun x hx y hy hxy =>
        hdis x (leaves_subset a x (lazyOrder_subset answer a x hx)) y
          (leaves_subset b y (lazyOrder_subset answer b y hy)) hxy⟩
      split
      all_goals first | exact this | exact iha hda
  · rw [strWithResult_eq]
    exact shownText_congr name _ _ c fun i hi => call_last ask answer h c hd stale w i hi

/-- A tree with three conditions. -/
def sampleCond : Cond := .or 10 (.and 11 (.leaf 1) (.leaf 2)) (.leaf 3)

example : (objects sampleCond).Nodup := by decide
example : strWithResult (fun i => s!"H{i}")
    (sampleCond.call (W := Unit) (fun i w => (w, .ok (i == 3))) (fun _ => some true) ()).last sampleCond =
    "[[H1 = False & \nH2 = None] | \nH3 = True]" := by rfl

/-- **C13 for shared objects.** If the same object occurs twice, the text may show `None` for a condition which was
evaluated: `a | (b & a)` with `a` and `b` false. -/
theorem C13_shared_object_refuted :
    let c : Cond := .or 10 (.leaf 1) (.and 11 (.leaf 2) (.leaf 1))
    let r := c.call (W := Unit) (fun _ w => (w, .ok false)) (fun _ => none) ()
    1 ∈ r.trace ∧ r.last 1 = none := by decide

/-- Iterating over a combined condition yields the basic conditions from left to right. -/
theorem C13_iteration (c : Cond) : c.bases = leaves c := by
  induction c with
  | leaf i => rfl
  | or i a b iha ihb | and i a b iha ihb => simp only [Cond.bases, leaves, iha, ihb]

end Glompo.Props
