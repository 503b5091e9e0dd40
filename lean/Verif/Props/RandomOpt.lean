import Verif.Model.RandomOpt
import Verif.Spec.RandomOpt
import Mathlib.Tactic.Linarith
import Mathlib.Algebra.Order.Field.Rat

/-! # C44, C45: the random optimizer -/

namespace Glompo.Props

open Glompo Glompo.RandomOpt Glompo.Spec.RandomOpt

namespace Rand

theorem lt_trans' {a b c : PyF} (h1 : PyF.lt a b = true) (h2 : PyF.lt b c = true) : PyF.lt a c = true := by
  cases a <;> cases b <;> cases c <;> simp_all [PyF.lt]
  exact _root_.lt_trans h1 h2

theorem not_le_of_lt {a b c : PyF} (h1 : PyF.lt a b = true) (h2 : PyF.lt c b = false) : PyF.le c a = false := by
  cases a <;> cases b <;> cases c <;> simp_all [PyF.lt, PyF.le]
  linarith

theorem FirstBest.step {ev : List (Vec × PyF)} {x : Option Vec} {fx : PyF} (h : FirstBest ev x fx) (v : Vec) (y : PyF) :
    (PyF.lt y fx = true → FirstBest (ev ++ [(v, y)]) (some v) y) ∧
    (PyF.lt y fx = false → FirstBest (ev ++ [(v, y)]) x fx) := by
  constructor
  · intro hy
    right
    refine ⟨ev, [], v, rfl, rfl, ?_, ?_, by simp⟩
    · rcases h with ⟨_, rfl, _⟩ | ⟨_, _, _, _, _, h, _⟩
      · exact hy
      · exact lt_trans' hy h
    · rcases h with ⟨_, rfl, h⟩ | ⟨pre, post, w, rfl, _, _, h1, h2⟩
      · exact fun e he => not_le_of_lt hy (h e he)
      · intro e he
        have hle : PyF.lt e.2 fx = false := by
          rcases List.mem_append.mp he with h | h
          · have := h1 e h
            revert this; cases e.2 <;> cases fx <;> simp [PyF.le, PyF.lt]
            intro h; exact h.le
          · rcases List.mem_cons.mp h with rfl | h
            · cases fx <;> simp [PyF.lt]
            · exact h2 e h
        exact not_le_of_lt hy hle
  · intro hy
    rcases h with ⟨rfl, rfl, h⟩ | ⟨pre, post, w, rfl, rfl, h0, h1, h2⟩
    · left
      refine ⟨rfl, rfl, fun e he => ?_⟩
      rcases List.mem_append.mp he with he | he
      · exact h e he
      · simp only [List.mem_singleton] at he; subst he; exact hy
    · right
      refine ⟨pre, post ++ [(v, y)], w, by simp, rfl, h0, h1, fun e he => ?_⟩
      rcases List.mem_append.mp he with he | he
      · exact h2 e he
      · simp only [List.mem_singleton] at he; subst he; exact hy

theorem messages_fields (acts : List Act) (o : Opt) : (messages acts o).1 = { o with stop := o.stop || acts.contains .stop } := by
  induction acts generalizing o with
  | nil => simp [messages]
  | cons a t ih =>
    cases a with
    | stop => rw [messages, ih]; simp
    | save => simp only [messages, ih]; simp

/-- One pass through the loop, field by field. -/
theorem body_fields (bounds : List (Rat × Rat)) (it : Iter) (r : Run) :
    (body bounds it r).evals = r.evals ++ [(vector bounds it.draws, it.value)] ∧
    (body bounds it r).o.used = r.o.used + 1 ∧ (body bounds it r).o.maxIters = r.o.maxIters ∧
    (body bounds it r).o.stop = (r.o.stop || it.callback || it.acts.contains .stop) ∧
    (body bounds it r).o.success = r.o.success ∧
    (PyF.lt it.value r.best = true → (body bounds it r).best = it.value ∧
      (body bounds it r).o.x = some (vector bounds it.draws) ∧ (body bounds it r).o.fx = it.value) ∧
    (PyF.lt it.value r.best = false → (body bounds it r).best = r.best ∧ (body bounds it r).o.x = r.o.x ∧
      (body bounds it r).o.fx = r.o.fx) := by
  unfold body
  simp only [messages_fields]
  cases hc : it.callback <;> by_cases hl : PyF.lt it.value r.best = true <;> simp [hl]

/-- The invariant of the loop. -/
structure Inv (e0 : List (Vec × PyF)) (u0 m : Int) (r : Run) : Prop where
  best : FirstBest (e0 ++ r.evals) r.o.x r.best
  fx : r.o.fx = r.best
  used : r.o.used = u0 + r.evals.length
  maxIters : r.o.maxIters = m
  bound : r.evals ≠ [] → u0 + r.evals.length ≤ m

theorem Inv.body {e0 u0 m} {r : Run} (bounds : List (Rat × Rat)) (it : Iter) (h : Inv e0 u0 m r) (hg : goesOn r.o = true) :
    Inv e0 u0 m (body bounds it r) := by
  obtain ⟨h1, h2, h3, h4, _, h5, h6⟩ := body_fields bounds it r
  have hs := FirstBest.step h.best (vector bounds it.draws) it.value
  rw [List.append_assoc, ← h1] at hs
  have hlt : r.o.used < r.o.maxIters := by
    unfold goesOn at hg; simp only [Bool.and_eq_true, decide_eq_true_eq] at hg; exact hg.1
  refine ⟨?_, ?_, ?_, h3.trans h.maxIters, fun _ => ?_⟩
  · cases hl : PyF.lt it.value r.best
    · rw [(h6 hl).1, (h6 hl).2.1]; exact hs.2 hl
    · rw [(h5 hl).1, (h5 hl).2.1]; exact hs.1 hl
  · cases hl : PyF.lt it.value r.best
    · rw [(h6 hl).1, (h6 hl).2.2, h.fx]
    · rw [(h5 hl).1, (h5 hl).2.2]
  · rw [h2, h1, h.used]; simp; omega
  · rw [h1]; have := h.used; have := h.maxIters; simp; omega

theorem Inv.loop {e0 u0 m} (bounds : List (Rat × Rat)) (env : List Iter) (r : Run) (h : Inv e0 u0 m r) :
    Inv e0 u0 m (loop bounds env r).1 := by
  induction env generalizing r with
  | nil => exact h
  | cons it t ih =>
    rw [RandomOpt.loop]
    split
    · rename_i hg; exact ih _ (h.body bounds it hg)
    · exact h

theorem loop_flag (bounds : List (Rat × Rat)) (env : List Iter) (r : Run) :
    (loop bounds env r).2 = !goesOn (loop bounds env r).1.o := by
  induction env generalizing r with
  | nil => rfl
  | cons it t ih =>
    rw [loop]
    split
    · exact ih _
    · rename_i hg; simp at hg; simp [hg]

/-- The iteration tells the optimizer to stop. -/
def stops (it : Iter) : Bool := it.callback || it.acts.contains .stop

theorem loop_evals (bounds : List (Rat × Rat)) (env : List Iter) (r : Run) :
    ∃ k, k ≤ env.length ∧
      (loop bounds env r).1.evals = r.evals ++ (env.take k).map (fun it => (vector bounds it.draws, it.value)) ∧
      (loop bounds env r).1.o.used = r.o.used + k ∧ (loop bounds env r).1.o.maxIters = r.o.maxIters ∧
      (loop bounds env r).1.o.stop = (r.o.stop || (env.take k).any stops) ∧
      (0 < k → goesOn r.o = true) ∧
      ∀ (i : Nat) it, env[i]? = some it → stops it = true → k ≤ i + 1 := by
  induction env generalizing r with
  | nil => exact ⟨0, by simp [loop]⟩
  | cons it t ih =>
    rw [loop]
    split
    · rename_i hg
      obtain ⟨k, h1, h2, h3, h4, h5, h6, h7⟩ := ih (body bounds it r)
      obtain ⟨b1, b2, b3, b4, _⟩ := body_fields bounds it r
      refine ⟨k + 1, by simp; omega, ?_, ?_, h4.trans b3, ?_, fun _ => hg, ?_⟩
      · rw [h2, b1]; simp
      · rw [h3, b2]; push_cast; omega
      · rw [h5, b4]; simp [stops, Bool.or_assoc]
      · intro i j hij hs
        cases i with
        | zero =>
          simp only [List.getElem?_cons_zero, Option.some.injEq] at hij
          subst hij
          by_contra hk
          have := h6 (by omega)
          unfold goesOn at this
          rw [b4, Bool.or_assoc] at this
          unfold stops at hs
          rw [hs] at this
          simp at this
        | succ i => have := h7 i j (by simpa using hij) hs; omega
    · exact ⟨0, by simp⟩

theorem minimize_fields (bounds : List (Rat × Rat)) (restart : Bool) (o : Opt) (env : List Iter) :
    ∃ L, L = loop bounds env { o := o, best := if restart then o.fx else .pinf, evals := [], saved := [] } ∧
      (minimize bounds restart o env).1.evals = L.1.evals ∧ (minimize bounds restart o env).1.saved = L.1.saved ∧
      (minimize bounds restart o env).2 = L.2 ∧
      (minimize bounds restart o env).1.o = { L.1.o with success := L.1.o.success || L.2 } := by
  refine ⟨_, rfl, ?_⟩
  unfold minimize
  generalize loop bounds env _ = L
  rcases L with ⟨L, f⟩
  cases f <;> simp

theorem loop_append (bounds : List (Rat × Rat)) (a b : List Iter) (r : Run) :
    loop bounds (a ++ b) r = if (loop bounds a r).2 then loop bounds a r else loop bounds b (loop bounds a r).1 := by
  induction a generalizing r with
  | nil =>
    rw [List.nil_append]
    cases h : goesOn r.o with
    | true => simp [loop, h]
    | false =>
      cases b with
      | nil => simp [loop, h]
      | cons it t => simp [loop, h]
  | cons it t ih =>
    simp only [List.cons_append, loop]
    split
    · exact ih _
    · simp

theorem body_indep (bounds : List (Rat × Rat)) (it : Iter) {r r' : Run} (ho : r.o = r'.o) (hb : r.best = r'.best) :
    (body bounds it r).o = (body bounds it r').o ∧ (body bounds it r).best = (body bounds it r').best := by
  unfold body
  rw [ho, hb]
  by_cases hl : PyF.lt it.value r'.best = true <;> simp [hl]

theorem loop_indep (bounds : List (Rat × Rat)) (env : List Iter) {r r' : Run} (ho : r.o = r'.o) (hb : r.best = r'.best) :
    (loop bounds env r).1.o = (loop bounds env r').1.o ∧ (loop bounds env r).2 = (loop bounds env r').2 := by
  induction env generalizing r r' with
  | nil => simp [loop, ho]
  | cons it t ih =>
    rw [loop, loop, ho]
    split
    · exact ih (body_indep bounds it ho hb).1 (body_indep bounds it ho hb).2
    · exact ⟨ho, rfl⟩

/-- A run which takes a checkpoint in its last iteration. -/
theorem at_checkpoint {bounds : List (Rat × Rat)} {pre : List Iter} {it : Iter} {r0 : Run} {s : Opt}
    (h0 : r0.evals = []) (hacts : it.acts = [.save]) (hcb : it.callback = false)
    (hrun : (loop bounds (pre ++ [it]) r0).1.evals.length = pre.length + 1)
    (hs : (loop bounds (pre ++ [it]) r0).1.saved.getLast? = some s) :
    (∀ post, loop bounds (pre ++ it :: post) r0 = loop bounds post (body bounds it (loop bounds pre r0).1)) ∧
    goesOn (loop bounds pre r0).1.o = true ∧
    s = { (loop bounds pre r0).1.o with used := (loop bounds pre r0).1.o.used + 1 } := by
  obtain ⟨k, k1, k2, _⟩ := loop_evals bounds pre r0
  have hlen : (loop bounds pre r0).1.evals.length ≤ pre.length := by rw [k2, h0]; simp
  have hgo : (loop bounds pre r0).2 = false := by
    cases hf : (loop bounds pre r0).2
    · rfl
    · rw [loop_append, hf, if_pos rfl] at hrun; omega
  have hg : goesOn (loop bounds pre r0).1.o = true := by
    have := loop_flag bounds pre r0
    rw [hgo] at this; simpa using this.symm
  have hall : ∀ post, loop bounds (pre ++ it :: post) r0 = loop bounds post (body bounds it (loop bounds pre r0).1) := by
    intro post
    rw [loop_append, hgo]
    simp [loop, hg]
  refine ⟨hall, hg, ?_⟩
  rw [hall [], loop] at hs
  have : (body bounds it (loop bounds pre r0).1).saved = (loop bounds pre r0).1.saved ++
      [{ (loop bounds pre r0).1.o with used := (loop bounds pre r0).1.o.used + 1 }] := by
    unfold body
    simp only [hacts, hcb, messages]
    by_cases hl : PyF.lt it.value (loop bounds pre r0).1.best = true <;> simp [hl]
  rw [this] at hs
  simpa using hs.symm

theorem vector_inBounds {bounds : List (Rat × Rat)} {draws : List Rat} (hb : ∀ b ∈ bounds, b.1 ≤ b.2)
    (hl : draws.length = bounds.length) (hd : ∀ u ∈ draws, 0 ≤ u ∧ u < 1) : InBounds bounds (vector bounds draws) := by
  refine ⟨by simp [vector, hl], fun k b y h1 h2 => ?_⟩
  unfold vector at h2
  rw [List.getElem?_zipWith, h1] at h2
  cases hu : draws[k]? with
  | none => rw [hu] at h2; cases h2
  | some u =>
    rw [hu] at h2
    simp only [Option.some.injEq] at h2
    subst h2
    have := hb b (List.mem_of_getElem? h1)
    have hu' := hd u (List.mem_of_getElem? hu)
    constructor
    · nlinarith [mul_nonneg (sub_nonneg.mpr this) hu'.1]
    · nlinarith [mul_le_mul_of_nonneg_left hu'.2.le (sub_nonneg.mpr this)]

end Rand

open Rand

variable (bounds : List (Rat × Rat)) (n : Int) (env : List Iter)

/-! ### C44 -/

/-- **C44.** At every moment, also if it was stopped early, the result is the first of the points evaluated with the smallest
value. -/
theorem C44_returns_the_best :
    FirstBest (minimize bounds false (init n) env).1.evals (minimize bounds false (init n) env).1.o.x
      (minimize bounds false (init n) env).1.o.fx := by
  obtain ⟨L, hL, h1, _, _, h4⟩ := minimize_fields bounds false (init n) env
  have h : Inv [] 0 n L.1 := by
    rw [hL]
    exact Inv.loop bounds env _ ⟨Or.inl ⟨rfl, rfl, by simp⟩, rfl, by simp [init], rfl, by simp⟩
  rw [h1, h4]
  simpa [h.fx] using h.best

/-- **C44.** The points evaluated are those drawn, one per iteration, at most `n`, and no iteration follows one in which it was
told to stop. It ends exactly when it was told to stop or has made its `n` evaluations. -/
theorem C44_evaluations : ∃ k, k ≤ env.length ∧
    (minimize bounds false (init n) env).1.evals = (env.take k).map (fun it => (vector bounds it.draws, it.value)) ∧
    (k : Int) ≤ max n 0 ∧
    (∀ (i : Nat) it, env[i]? = some it → (it.callback = true ∨ Act.stop ∈ it.acts) → k ≤ i + 1) ∧
    ((minimize bounds false (init n) env).2 = true ↔
      n ≤ k ∨ ∃ i it, i < k ∧ env[i]? = some it ∧ (it.callback = true ∨ Act.stop ∈ it.acts)) := by
  obtain ⟨L, hL, h1, _, h3, h4⟩ := minimize_fields bounds false (init n) env
  have hi : Inv [] 0 n L.1 := by
    rw [hL]
    exact Inv.loop bounds env _ ⟨Or.inl ⟨rfl, rfl, by simp⟩, rfl, by simp [init], rfl, by simp⟩
  obtain ⟨k, e1, e2, e3, e4, e5, e6, e7⟩ := loop_evals bounds env { o := init n, best := .pinf, evals := [], saved := [] }
  have hf := loop_flag bounds env { o := init n, best := .pinf, evals := [], saved := [] }
  have hL' : L = loop bounds env { o := init n, best := .pinf, evals := [], saved := [] } := by rw [hL]; rfl
  rw [← hL'] at e2 e3 e4 e5 hf
  have hst : ∀ it : Iter, stops it = true ↔ it.callback = true ∨ Act.stop ∈ it.acts := fun it => by simp [stops]
  refine ⟨k, e1, by rw [h1, e2]; simp, ?_, fun i it hi hs => e7 i it hi ((hst it).mpr hs), ?_⟩
  · by_cases hk : k = 0
    · subst hk; simp
    · have := e6 (by omega)
      have hu := hi.bound
      have : L.1.evals.length = k := by rw [e2]; simp; omega
      have := hu (by intro h; rw [h] at this; simp at this; omega)
      omega
  · rw [h3, hf]
    have h0 : (init n).stop = false := rfl
    have hu : L.1.o.used = k := by rw [e3]; simp [init]
    have hm : L.1.o.maxIters = n := e4
    have hs : L.1.o.stop = (env.take k).any stops := by rw [e5]; simp [h0]
    unfold goesOn
    rw [hu, hm, hs]
    simp only [Bool.not_and, Bool.not_not, Bool.or_eq_true, Bool.not_eq_true', decide_eq_false_iff_not, not_lt,
      List.any_eq_true]
    constructor
    · rintro (h | ⟨it, hit, hs⟩)
      · exact Or.inl h
      · obtain ⟨i, hi, hit⟩ := List.mem_iff_getElem.mp hit
        right
        simp only [List.length_take, lt_min_iff] at hi
        refine ⟨i, it, hi.1, ?_, (hst it).mp hs⟩
        rw [List.getElem_take] at hit
        rw [← hit]; exact List.getElem?_eq_getElem hi.2
    · rintro (h | ⟨i, it, hi, hit, hs⟩)
      · exact Or.inl h
      · right
        refine ⟨it, ?_, (hst it).mpr hs⟩
        exact List.mem_of_getElem? (i := i) (by rw [List.getElem?_take_of_lt hi]; exact hit)

/-- **C44.** All points evaluated lie inside the bounds, for random numbers in [0, 1). -/
theorem C44_in_bounds (hb : ∀ b ∈ bounds, b.1 ≤ b.2)
    (hd : ∀ it ∈ env, it.draws.length = bounds.length ∧ ∀ u ∈ it.draws, 0 ≤ u ∧ u < 1) :
    ∀ e ∈ (minimize bounds false (init n) env).1.evals, InBounds bounds e.1 := by
  obtain ⟨k, _, h, _⟩ := C44_evaluations bounds n env
  rw [h]
  intro e he
  obtain ⟨it, hit, rfl⟩ := List.mem_map.mp he
  obtain ⟨h1, h2⟩ := hd it (List.mem_of_mem_take hit)
  exact vector_inBounds hb h1 h2

namespace Rand

/-- Two bounds; the third evaluation is the best, the optimizer is told to stop in the fourth. -/
def box : List (Rat × Rat) := [(0, 2), (-1, 1)]

def its : List Iter :=
  [⟨[0, 1/2], .fin 7, false, []⟩, ⟨[1/2, 1/2], .nan, false, []⟩, ⟨[1/4, 0], .fin 3, false, [.save]⟩,
   ⟨[3/4, 3/4], .fin 3, false, [.stop]⟩, ⟨[0, 0], .fin 1, false, []⟩]

end Rand

example : minimize box false (init 10) its =
    (⟨⟨10, 4, some [1/2, -1], .fin 3, true, true⟩, .fin 3,
      [([0, 0], .fin 7), ([1, 0], .nan), ([1/2, -1], .fin 3), ([3/2, 1/2], .fin 3)],
      [⟨10, 3, some [0, 0], .fin 7, false, false⟩]⟩, true) := by decide +kernel

/-! ### C45 -/

/-- **C45, refuted.** The best point was evaluated just before the checkpoint; the restarted optimizer does not know it. -/
theorem C45_restart_continues_refuted :
    (minimize box false (init 4) (its.take 3 ++ [⟨[0, 0], .fin 5, false, []⟩])).1.o.fx = .fin 3 ∧
    ∃ s ∈ (minimize box false (init 4) (its.take 3)).1.saved,
      (minimize box true s [⟨[0, 0], .fin 5, false, []⟩]).1.o.fx = .fin 5 := by
  refine ⟨by decide +kernel, ⟨4, 3, some [0, 0], .fin 7, false, false⟩, by decide +kernel, by decide +kernel⟩

variable (pre post : List Iter) (it : Iter) (s : Opt)

/-- **C45, partial.** If the evaluation just before the checkpoint was no improvement, the restarted optimizer ends with the
same result as the uninterrupted one. Missing: the case of an improvement, which is lost. -/
theorem C45_restart_continues_partial (hacts : it.acts = [.save]) (hcb : it.callback = false)
    (hrun : (minimize bounds false (init n) (pre ++ [it])).1.evals.length = pre.length + 1)
    (hs : (minimize bounds false (init n) (pre ++ [it])).1.saved.getLast? = some s)
    (hv : PyF.lt it.value s.fx = false) :
    (minimize bounds false (init n) (pre ++ it :: post)).1.o = (minimize bounds true s post).1.o ∧
    (minimize bounds false (init n) (pre ++ it :: post)).2 = (minimize bounds true s post).2 := by
  obtain ⟨L, hL, a1, a2, _, _⟩ := minimize_fields bounds false (init n) (pre ++ [it])
  obtain ⟨L2, hL2, _, _, b3, b4⟩ := minimize_fields bounds false (init n) (pre ++ it :: post)
  obtain ⟨L3, hL3, _, _, c3, c4⟩ := minimize_fields bounds true s post
  rw [a1, hL] at hrun
  rw [a2, hL] at hs
  obtain ⟨h1, h2, h3⟩ := at_checkpoint rfl hacts hcb hrun hs
  rw [h1 post] at hL2
  have hi := Inv.loop (e0 := []) (u0 := 0) (m := n) bounds pre _
    (⟨Or.inl ⟨rfl, rfl, by simp⟩, rfl, by simp [init], rfl, by simp⟩ :
      Inv [] 0 n { o := init n, best := if false = true then (init n).fx else .pinf, evals := [], saved := [] })
  revert hi h2 h3 hL2
  generalize (loop bounds pre _).1 = R
  intro hL2 h2 h3 hi
  have hfx : s.fx = R.best := by rw [h3]; exact hi.fx
  have hb : (body bounds it R).o = s ∧ (body bounds it R).best = s.fx := by
    rw [hfx] at hv ⊢
    rw [h3]
    unfold body
    simp [hv, hacts, hcb, messages]
  have := loop_indep bounds post (r := body bounds it R)
    (r' := { o := s, best := if true = true then s.fx else .pinf, evals := [], saved := [] }) hb.1 hb.2
  rw [← hL2, ← hL3] at this
  rw [b3, b4, c3, c4, this.1, this.2]
  exact ⟨rfl, rfl⟩

example :
    let it : Iter := ⟨[1/2, 1/2], .nan, false, [.save]⟩
    let s : Opt := ⟨10, 2, some [0, 0], .fin 7, false, false⟩
    (minimize box false (init 10) (its.take 1 ++ [it])).1.evals.length = (its.take 1).length + 1 ∧
    (minimize box false (init 10) (its.take 1 ++ [it])).1.saved.getLast? = some s ∧ PyF.lt it.value s.fx = false := by
  decide +kernel

/-- **C45, what is returned instead**: the best of all evaluations but the one just before the checkpoint. -/
theorem C45_forgets_one_partial (hacts : it.acts = [.save]) (hcb : it.callback = false)
    (hrun : (minimize bounds false (init n) (pre ++ [it])).1.evals.length = pre.length + 1)
    (hs : (minimize bounds false (init n) (pre ++ [it])).1.saved.getLast? = some s) :
    FirstBest ((minimize bounds false (init n) pre).1.evals ++ (minimize bounds true s post).1.evals)
      (minimize bounds true s post).1.o.x (minimize bounds true s post).1.o.fx := by
  obtain ⟨L, hL, a1, a2, _, _⟩ := minimize_fields bounds false (init n) (pre ++ [it])
  obtain ⟨L2, hL2, b1, _, _, _⟩ := minimize_fields bounds false (init n) pre
  obtain ⟨L3, hL3, c1, _, _, c4⟩ := minimize_fields bounds true s post
  rw [a1, hL] at hrun
  rw [a2, hL] at hs
  obtain ⟨h1, h2, h3⟩ := at_checkpoint rfl hacts hcb hrun hs
  have hi := Inv.loop (e0 := []) (u0 := 0) (m := n) bounds pre _
    (⟨Or.inl ⟨rfl, rfl, by simp⟩, rfl, by simp [init], rfl, by simp⟩ :
      Inv [] 0 n { o := init n, best := if false = true then (init n).fx else .pinf, evals := [], saved := [] })
  rw [← hL2] at hi h3
  have hj := Inv.loop (e0 := L2.1.evals) (u0 := s.used) (m := s.maxIters) bounds post
    { o := s, best := if true = true then s.fx else .pinf, evals := [], saved := [] }
    ⟨by rw [h3]; simpa [hi.fx] using hi.best, by simp, by simp, rfl, by simp⟩
  rw [← hL3] at hj
  rw [b1, c1, c4]
  simpa [hj.fx] using hj.best

end Glompo.Props
