import Verif.Props.CMA
import Verif.Lemmas.Basic
import Mathlib.Data.List.Chain

/-! # C85: injections into the CMA optimizer -/

namespace Glompo.Props

open Glompo Glompo.CMA Glompo.Spec.CMA Glompo.Spec.RandomOpt

namespace Cma

theorem foldMin_mem (t : List PyF) (v : PyF) :
    t.foldl (fun m y => if PyF.lt y m = true then y else m) v = v ∨
      t.foldl (fun m y => if PyF.lt y m = true then y else m) v ∈ t := by
  induction t generalizing v with
  | nil => exact .inl rfl
  | cons a t ih =>
    rw [List.foldl_cons]
    rcases ih (if PyF.lt a v = true then a else v) with h | h
    · rw [h]; split
      · exact .inr (by simp)
      · exact .inl rfl
    · exact .inr (List.mem_cons_of_mem _ h)

theorem pyMin_mem {l : List PyF} (h : l ≠ []) : pyMin l ∈ l := by
  cases l with
  | nil => exact absurd rfl h
  | cons v t =>
    rcases foldMin_mem t v with h | h
    · have h : pyMin (v :: t) = v := h
      rw [h]; simp
    · exact List.mem_cons_of_mem _ h

theorem foldMin_le (t : List PyF) (v : PyF) (hv : v ≠ .nan) (ht : ∀ y ∈ t, y ≠ .nan) :
    ∀ y ∈ v :: t, PyF.le (t.foldl (fun m y => if PyF.lt y m = true then y else m) v) y = true := by
  induction t generalizing v with
  | nil => intro y hy; simp only [List.mem_singleton] at hy; subst hy; exact PyF.le_refl hv
  | cons a t ih =>
    intro y hy
    have ha := ht a (by simp)
    have hm : (if PyF.lt a v = true then a else v) ≠ .nan := by split <;> assumption
    have hih := ih _ hm (fun y hy => ht y (by simp [hy]))
    rw [List.foldl_cons]
    have hle := hih _ (List.mem_cons_self ..)
    simp only [List.mem_cons] at hy
    rcases hy with rfl | rfl | hy
    · refine PyF.le_trans hle ?_
      split
      · rename_i h; exact PyF.le_of_lt h
      · exact PyF.le_refl hv
    · refine PyF.le_trans hle ?_
      split
      · exact PyF.le_refl ha
      · rename_i h; exact PyF.le_of_not_lt hv ha (by simpa using h)
    · exact hih y (List.mem_cons_of_mem _ hy)

theorem lt_of_lt_pyMin {l : List PyF} {f : PyF} (hn : ∀ y ∈ l, y ≠ .nan) (h : PyF.lt f (pyMin l) = true) :
    ∀ y ∈ l, PyF.lt f y = true := by
  cases l with
  | nil => simp
  | cons v t =>
    intro y hy
    exact PyF.lt_of_lt_of_le h (foldMin_le t v (hn v (by simp)) (fun y hy => hn y (by simp [hy])) y hy)

theorem ite_incX (b : Bool) (o : Opt) (n : Nat) : (if b then { o with injCounter := n } else o).incX = o.incX := by cases b <;> rfl

theorem ite_incF (b : Bool) (o : Opt) (n : Nat) : (if b then { o with injCounter := n } else o).incF = o.incF := by cases b <;> rfl

theorem mem_ite {α : Type} (b : Bool) (l : List α) (a p : α) (h : p ∈ l) : p ∈ (if b then l ++ [a] else l) := by cases b <;> simp [h]

theorem settle_inc (c : Cfg) (g : Gen) (i : Nat) (fx : List PyF) (o : Opt) :
    (settle c g i fx o).1.injCounter = o.injCounter ∧
    ((settle c g i fx o).1.incX = (if i = 1 then c.x0 else o.incX) ∨ (settle c g i fx o).1.incX ∈ offered g) ∧
    (offered g = [] → i ≠ 1 → (settle c g i fx o).1.incX = o.incX ∧ (settle c g i fx o).1.incF = o.incF) := by
  unfold settle
  simp only
  generalize ho : setResult _ _ = o2
  have h2 : o2.injCounter = o.injCounter ∧ o2.incX = (if i = 1 then c.x0 else o.incX) ∧ (i ≠ 1 → o2.incF = o.incF) := by
    rw [← ho]
    unfold setResult firstIncumbent
    split <;> simp_all
  obtain ⟨x, f, h3, h4⟩ := answer_heard c g o2
  rw [h3]
  refine ⟨h2.1, ?_, fun he hi => ?_⟩
  · rcases h4 with h4 | h4
    · exact .inl (h4.1.trans h2.2.1)
    · refine .inr ?_
      unfold offered
      rw [List.mem_filterMap]
      exact ⟨_, List.mem_append_right _ h4, rfl⟩
  · rcases h4 with h4 | h4
    · exact ⟨by rw [show (heard (stopsAfter c g) o2 x f).incX = x from rfl, h4.1, h2.2.1, if_neg hi],
        by rw [show (heard (stopsAfter c g) o2 x f).incF = f from rfl, h4.2, h2.2.2 hi]⟩
    · exfalso
      have : x ∈ offered g := by
        unfold offered
        rw [List.mem_filterMap]
        exact ⟨_, List.mem_append_right _ h4, rfl⟩
      rw [he] at this; simp at this

/-- A complete iteration, as far as injections go. -/
theorem body_inject (c : Cfg) (g : Gen) (r : Run) (hs : r.o.es.callbackStop = false) (hg : Evaluated g) (hb : ¬ BrokenOff c g) :
    ((body c g r).1.o.incX = (if r.i + 1 = 1 then c.x0 else r.o.incX) ∨ (body c g r).1.o.incX ∈ offered g) ∧
    (offered g = [] → r.i + 1 ≠ 1 → (body c g r).1.o.incX = r.o.incX ∧ (body c g r).1.o.incF = r.o.incF) ∧
    (if PyF.lt (body c g r).1.o.incF (pyMin g.vals) = true ∧ c.freq ≠ 0 ∧ r.o.injCounter + c.freq < r.i + 1 then
      (body c g r).1.injected = r.injected ++ [(r.i + 1, (body c g r).1.o.incX, (body c g r).1.o.incF)] ∧
        (body c g r).1.o.injCounter = r.i + 1
    else (body c g r).1.injected = r.injected ∧ (body c g r).1.o.injCounter = r.o.injCounter) := by
  obtain ⟨⟨x, f, h1, h2⟩, _, h4⟩ := map_heard c g r.o hs hg
  have hv := h4 hb
  have e : body c g r = (complete c g g.vals (asked c g r), true) := by unfold body; rw [hv, if_pos hg.1]
  rw [e]
  obtain ⟨s1, s2, s3⟩ := settle_inc c g (r.i + 1) g.vals (parallelMap c g r.o).1
  have hoff : From g.during.flatten r.o x f → (x = r.o.incX ∧ f = r.o.incF) ∨ x ∈ offered g := by
    rintro (h | h)
    · exact .inl h
    · refine .inr ?_
      unfold offered
      rw [List.mem_filterMap]
      exact ⟨_, List.mem_append_left _ h, rfl⟩
  have hX : (complete c g g.vals (asked c g r)).o.incX = (settle c g (r.i + 1) g.vals (parallelMap c g r.o).1).1.incX :=
    ite_incX _ _ _
  have hF : (complete c g g.vals (asked c g r)).o.incF = (settle c g (r.i + 1) g.vals (parallelMap c g r.o).1).1.incF :=
    ite_incF _ _ _
  have hI : (parallelMap c g r.o).1.injCounter = r.o.injCounter := by rw [h1]; rfl
  have hx : (parallelMap c g r.o).1.incX = x := by rw [h1]; rfl
  have hf : (parallelMap c g r.o).1.incF = f := by rw [h1]; rfl
  refine ⟨?_, ?_, ?_⟩
  · simp only [hX]
    rcases s2 with s2 | s2
    · rw [s2]
      by_cases hi : r.i + 1 = 1
      · simp [hi]
      · rw [if_neg hi, if_neg hi, hx]
        rcases hoff h2 with h | h
        · exact .inl h.1
        · exact .inr h
    · exact .inr s2
  · intro ho hi
    obtain ⟨a, b⟩ := s3 ho hi
    simp only [hX, hF, a, b, hx, hf]
    rcases hoff h2 with h | h
    · exact h
    · rw [ho] at h; simp at h
  · simp only [hX, hF]
    have key : injects c (r.i + 1) g.vals (settle c g (r.i + 1) g.vals (parallelMap c g r.o).1).1 = true ↔
        PyF.lt (settle c g (r.i + 1) g.vals (parallelMap c g r.o).1).1.incF (pyMin g.vals) = true ∧ c.freq ≠ 0 ∧
          r.o.injCounter + c.freq < r.i + 1 := by
      unfold injects
      rw [s1, hI]
      simp only [Bool.and_eq_true, decide_eq_true_eq, and_assoc]
      refine and_congr_right fun _ => and_congr_right fun _ => ?_
      push_cast; omega
    by_cases hk : injects c (r.i + 1) g.vals (settle c g (r.i + 1) g.vals (parallelMap c g r.o).1).1 = true
    · rw [if_pos (key.mp hk)]
      simp [complete, asked, hk]
    · rw [if_neg (fun h => hk (key.mpr h))]
      simp [complete, asked, hk, s1, hI]

/-- The invariant of the injections. -/
structure InjInv (c : Cfg) (P : Vec → Prop) (j0 i0 : Nat) (r : Run) : Prop where
  chain : (j0 :: r.injected.map (·.1)).IsChain (fun a b => a + c.freq < b)
  last : (j0 :: r.injected.map (·.1)).getLast? = some r.o.injCounter
  count : r.i = i0 + r.told.length
  inc : r.i = 0 ∨ P r.o.incX
  each : ∀ p ∈ r.injected, c.freq ≠ 0 ∧ P p.2.1 ∧ ∃ k q, r.told[k]? = some q ∧ p.1 = i0 + k + 1 ∧
    ((∀ y ∈ q.2, y ≠ .nan) → ∀ y ∈ q.2, PyF.lt p.2.2 y = true)

theorem InjInv.body {c : Cfg} {P : Vec → Prop} {j0 i0 : Nat} {r : Run} (h : InjInv c P j0 i0 r) (g : Gen)
    (hs : r.o.es.callbackStop = false) (hg : Evaluated g) (hb : ¬ BrokenOff c g) (hP : P c.x0) (ho : ∀ x ∈ offered g, P x) :
    InjInv c P j0 i0 (CMA.body c g r).1 := by
  obtain ⟨b1, _, _, _, _, b6⟩ := body_facts c g r hs hg
  obtain ⟨_, f2, _⟩ := b6 hb
  obtain ⟨p1, _, p3⟩ := body_inject c g r hs hg hb
  have hinc : P (CMA.body c g r).1.o.incX := by
    rcases p1 with p1 | p1
    · rw [p1]
      split
      · exact hP
      · rename_i hi
        rcases h.inc with h0 | h0
        · omega
        · exact h0
    · exact ho _ p1
  have hold : ∀ p ∈ r.injected, c.freq ≠ 0 ∧ P p.2.1 ∧ ∃ k q, (CMA.body c g r).1.told[k]? = some q ∧ p.1 = i0 + k + 1 ∧
      ((∀ y ∈ q.2, y ≠ .nan) → ∀ y ∈ q.2, PyF.lt p.2.2 y = true) := by
    intro p hp
    obtain ⟨e1, e2, k, q, e3, e4, e5⟩ := h.each p hp
    refine ⟨e1, e2, k, q, ?_, e4, e5⟩
    rw [f2, List.getElem?_append_left, e3]
    exact (List.getElem?_eq_some_iff.mp e3).1
  have hcount : (CMA.body c g r).1.i = i0 + (CMA.body c g r).1.told.length := by rw [b1, f2, h.count]; simp; omega
  split at p3
  · rename_i hc
    obtain ⟨q1, q2⟩ := p3
    refine ⟨?_, ?_, hcount, .inr hinc, ?_⟩
    · rw [q1, List.map_append, ← List.cons_append]
      rw [List.isChain_append]
      refine ⟨h.chain, by simp, ?_⟩
      intro a ha b hb'
      rw [h.last] at ha
      simp at ha hb'
      subst ha hb'
      exact hc.2.2
    · rw [q1, q2, List.map_append, ← List.cons_append, List.getLast?_append]; rfl
    · intro p hp
      rw [q1] at hp
      rcases List.mem_append.mp hp with hp | hp
      · exact hold p hp
      · simp only [List.mem_singleton] at hp
        subst hp
        refine ⟨hc.2.1, hinc, r.told.length, (g.xs, g.vals), by rw [f2]; simp, by rw [h.count], ?_⟩
        intro hn
        exact lt_of_lt_pyMin hn hc.1
  · obtain ⟨q1, q2⟩ := p3
    exact ⟨by rw [q1]; exact h.chain, by rw [q1, q2]; exact h.last, hcount, .inr hinc, by rw [q1]; exact hold⟩

theorem InjInv.loop {c : Cfg} {P : Vec → Prop} {j0 i0 : Nat} (hP : P c.x0) (env : List Gen) (r : Run) (h : InjInv c P j0 i0 r)
    (hs : r.o.es.callbackStop = false) (hE : ∀ g ∈ env, Evaluated g) (ho : ∀ g ∈ iterations c env, ∀ x ∈ offered g, P x) :
    ∃ r', InjInv c P j0 i0 r' ∧ (loop c env r).1.injected = r'.injected ∧ (loop c env r).1.told = r'.told := by
  induction env generalizing r with
  | nil => exact ⟨r, h, rfl, rfl⟩
  | cons g t ih =>
    by_cases hw : g.wantsStop = true
    · exact ⟨r, h, by simp [CMA.loop, hw], by simp [CMA.loop, hw]⟩
    · have hg := hE g (by simp)
      obtain ⟨_, _, b3, _, b5, b6⟩ := body_facts c g r hs hg
      have hog : ∀ x ∈ offered g, P x := by
        apply ho g
        unfold iterations; rw [if_neg hw]; simp
      by_cases hb : BrokenOff c g
      · obtain ⟨f1, f2, f3, _⟩ := b5 hb
        refine ⟨r, h, ?_, ?_⟩ <;> simp [CMA.loop, hw, hs, f1, f2, f3]
      · obtain ⟨f1, _⟩ := b6 hb
        have hl : CMA.loop c (g :: t) r = CMA.loop c t (CMA.body c g r).1 := by simp [CMA.loop, hw, hs, f1]
        rw [hl]
        have hi := h.body g hs hg hb hP hog
        by_cases hst : stopsIn c g = []
        · refine ih _ hi (by rw [b3]; simp [hst]) (fun g' h => hE g' (by simp [h])) ?_
          intro g' hg'
          apply ho g'
          unfold iterations; rw [if_neg hw, if_pos hst]; exact List.mem_cons_of_mem _ hg'
        · have hcb : (CMA.body c g r).1.o.es.callbackStop = true := by rw [b3]; simp [hst]
          refine ⟨_, hi, ?_, ?_⟩ <;> cases t <;> simp [CMA.loop, hcb]

theorem loop_append (c : Cfg) (a b : List Gen) (r : Run) :
    loop c (a ++ b) r = if (loop c a r).2 then loop c a r else loop c b (loop c a r).1 := by
  induction a generalizing r with
  | nil =>
    rw [List.nil_append]
    cases hs : r.o.es.callbackStop
    · simp [loop, hs]
    · cases b <;> simp [loop, hs]
  | cons g t ih =>
    rw [List.cons_append]
    by_cases hw : (r.o.es.callbackStop || g.wantsStop) = true
    · have : ∀ e, loop c (g :: e) r = (r, true) := by intro e; simp only [loop]; rw [if_pos hw]
      rw [this, this]; rfl
    · have : ∀ e, loop c (g :: e) r = if (body c g r).2 then loop c e (body c g r).1 else ((body c g r).1, true) := by
        intro e; simp only [loop]; rw [if_neg hw]
      rw [this, this]
      cases hf : (body c g r).2
      · rfl
      · simp only [if_true]; exact ih _

theorem loop_injected_mono (c : Cfg) (env : List Gen) (r : Run) :
    ∀ p ∈ r.injected, p ∈ (loop c env r).1.injected := by
  induction env generalizing r with
  | nil => exact fun p h => h
  | cons g t ih =>
    intro p hp
    have hb : p ∈ (body c g r).1.injected := by
      unfold body
      split
      · exact mem_ite _ _ _ _ hp
      · exact hp
    simp only [loop]
    split
    · exact hp
    · split
      · exact ih _ p hb
      · exact hb

/-- The iteration neither stops nor brings another incumbent, and finds only values above `f`. -/
def Quiet (c : Cfg) (f : PyF) (g : Gen) : Prop :=
  Evaluated g ∧ g.wantsStop = false ∧ stopsIn c g = [] ∧ offered g = [] ∧ ∀ y ∈ g.vals, PyF.lt f y = true

theorem quiet_inject (c : Cfg) (x : Vec) (f : PyF) (gs : List Gen) (r : Run) (hq : ∀ g ∈ gs, Quiet c f g)
    (hs : r.o.es.callbackStop = false) (hi : 1 ≤ r.i) (hx : r.o.incX = x) (hf : r.o.incF = f) (hfreq : c.freq ≠ 0)
    (hne : gs ≠ []) (hlen : r.o.injCounter + c.freq < r.i + gs.length) :
    ∃ j, r.i < j ∧ j ≤ r.i + gs.length ∧ (j, x, f) ∈ (loop c gs r).1.injected := by
  induction gs generalizing r with
  | nil => exact absurd rfl hne
  | cons g t ih =>
    obtain ⟨hE, hw, hst, hoff, hv⟩ := hq g (by simp)
    have hnb : ¬ BrokenOff c g := fun h => broken_stops h hst
    obtain ⟨b1, _, b3, _, _, b6⟩ := body_facts c g r hs hE
    obtain ⟨f1, _⟩ := b6 hnb
    obtain ⟨_, p2, p3⟩ := body_inject c g r hs hE hnb
    obtain ⟨px, pf⟩ := p2 hoff (by omega)
    have hl : loop c (g :: t) r = loop c t (body c g r).1 := by simp [loop, hw, hs, f1]
    have hvals : g.vals ≠ [] := by
      intro h0
      have h1 := hE.1
      rw [h0] at h1
      exact hE.2 (List.length_eq_zero_iff.mp h1.symm)
    have hmin : PyF.lt f (pyMin g.vals) = true := hv _ (pyMin_mem hvals)
    rw [hl]
    rw [px, pf, hx, hf] at p3
    by_cases hc : r.o.injCounter + c.freq < r.i + 1
    · rw [if_pos ⟨hmin, hfreq, hc⟩] at p3
      refine ⟨r.i + 1, by omega, by simp, loop_injected_mono c t _ _ ?_⟩
      rw [p3.1]; simp
    · rw [if_neg (fun h => hc h.2.2)] at p3
      simp only [List.length_cons] at hlen
      have hne' : t ≠ [] := by
        rintro rfl; simp at hlen; omega
      obtain ⟨j, j1, j2, j3⟩ := ih (body c g r).1 (fun g' h => hq g' (by simp [h])) (by rw [b3]; simp [hst]) (by omega)
        (px.trans hx) (pf.trans hf) hne' (by rw [p3.2, b1]; omega)
      exact ⟨j, by omega, by simp; omega, j3⟩

theorem messages_snoc (ms : List Msg) (x : Vec) (f : PyF) (o : Opt) :
    (messages (ms ++ [.inject x f]) o).1.incX = x ∧ (messages (ms ++ [.inject x f]) o).1.incF = f := by
  induction ms generalizing o with
  | nil => exact ⟨rfl, rfl⟩
  | cons m t ih =>
    cases m with
    | stop r => exact ih _
    | inject y g => exact ih _
    | save => exact ih o

theorem body_snoc (c : Cfg) (g : Gen) (r : Run) (ms : List Msg) (x : Vec) (f : PyF) (hm : c.managed = true)
    (ha : g.after = ms ++ [.inject x f]) (hs : r.o.es.callbackStop = false) (hg : Evaluated g) (hb : ¬ BrokenOff c g) :
    (body c g r).1.o.incX = x ∧ (body c g r).1.o.incF = f := by
  obtain ⟨_, _, h4⟩ := map_heard c g r.o hs hg
  have hv := h4 hb
  have e : body c g r = (complete c g g.vals (asked c g r), true) := by unfold body; rw [hv, if_pos hg.1]
  rw [e]
  have hset : (settle c g (r.i + 1) g.vals (parallelMap c g r.o).1).1.incX = x ∧
      (settle c g (r.i + 1) g.vals (parallelMap c g r.o).1).1.incF = f := by
    unfold settle answer
    simp only [hm, if_true, ha]
    exact messages_snoc ms x f _
  have hX : (complete c g g.vals (asked c g r)).o.incX = (settle c g (r.i + 1) g.vals (parallelMap c g r.o).1).1.incX :=
    ite_incX _ _ _
  have hF : (complete c g g.vals (asked c g r)).o.incF = (settle c g (r.i + 1) g.vals (parallelMap c g r.o).1).1.incF :=
    ite_incF _ _ _
  exact ⟨hX.trans hset.1, hF.trans hset.2⟩

/-- Iterations without a stop. -/
theorem loop_calm (c : Cfg) (env : List Gen) (r : Run) (hs : r.o.es.callbackStop = false) (hj : r.o.injCounter ≤ r.i)
    (hq : ∀ g ∈ env, Evaluated g ∧ g.wantsStop = false ∧ stopsIn c g = []) :
    (loop c env r).2 = false ∧ (loop c env r).1.o.es.callbackStop = false ∧
      (loop c env r).1.i = r.i + env.length ∧ (loop c env r).1.o.injCounter ≤ (loop c env r).1.i := by
  induction env generalizing r with
  | nil => simp [loop, hs, hj]
  | cons g t ih =>
    obtain ⟨hE, hw, hst⟩ := hq g (by simp)
    have hnb : ¬ BrokenOff c g := fun h => broken_stops h hst
    obtain ⟨b1, _, b3, _, _, b6⟩ := body_facts c g r hs hE
    obtain ⟨f1, _⟩ := b6 hnb
    obtain ⟨_, _, p3⟩ := body_inject c g r hs hE hnb
    have hl : loop c (g :: t) r = loop c t (body c g r).1 := by simp [loop, hw, hs, f1]
    rw [hl]
    have hj' : (body c g r).1.o.injCounter ≤ (body c g r).1.i := by
      split at p3
      · rw [p3.2, b1]
      · rw [p3.2, b1]; omega
    obtain ⟨i1, i2, i3, i4⟩ := ih _ (by rw [b3]; simp [hst]) hj' (fun g' h => hq g' (by simp [h]))
    exact ⟨i1, i2, by rw [i3, b1]; simp; omega, i4⟩

end Cma

/-- C85. Whatever happens during a run: nothing is injected unless an injection frequency was chosen; more than so many iterations pass
before the first injection (since the last one, if the run is resumed) and between two of them; every vector injected is `x0` or was sent
by the manager (or was the incumbent of the run resumed); and its value is below all values of the population it is injected after, if none of them is `nan`. -/
theorem C85_cma_injections (c : Cfg) (o : Opt) (env : List Gen) (hE : ∀ g ∈ env, Evaluated g) (hs : o.es.callbackStop = false)
    (res : Except Err Opt) (r : Run) (h : minimize c o env = some (res, r)) :
    (o.injCounter :: r.injected.map (·.1)).IsChain (fun a b => a + c.freq < b) ∧
    ∀ p ∈ r.injected, c.freq ≠ 0 ∧
      (p.2.1 = c.x0 ∨ (0 < o.es.count ∧ p.2.1 = o.incX) ∨ ∃ g ∈ iterations c env, p.2.1 ∈ offered g) ∧
      ∃ k g, (whole c env)[k]? = some g ∧ p.1 = o.es.count + k + 1 ∧
        ((∀ y ∈ g.vals, y ≠ .nan) → ∀ y ∈ g.vals, PyF.lt p.2.2 y = true) := by
  obtain ⟨_, rfl, _⟩ := Cma.minimize_some h
  obtain ⟨f1, _⟩ := Cma.loop_facts c env (start o) hs hE
  have h0 : Cma.InjInv c (fun x => x = c.x0 ∨ (0 < o.es.count ∧ x = o.incX) ∨ ∃ g ∈ iterations c env, x ∈ offered g)
      o.injCounter o.es.count (start o) := by
    refine ⟨by simp [start], by simp [start], by simp [start], ?_, by simp [start]⟩
    by_cases hc : o.es.count = 0
    · exact .inl hc
    · exact .inr (.inr (.inl ⟨by omega, rfl⟩))
  obtain ⟨r', h1, h2, h3⟩ := h0.loop (.inl rfl) env (start o) hs hE (fun g hg x hx => .inr (.inr ⟨g, hg, hx⟩))
  rw [h2]
  refine ⟨h1.chain, fun p hp => ?_⟩
  obtain ⟨e1, e2, k, q, e3, e4, e5⟩ := h1.each p hp
  refine ⟨e1, e2, k, ?_⟩
  rw [← h3, f1] at e3
  simp only [start, List.nil_append, List.getElem?_map, Option.map_eq_some_iff] at e3
  obtain ⟨g, hg, rfl⟩ := e3
  exact ⟨g, hg, e4, e5⟩

/-- C85 (partial). A better incumbent is not forgotten: if the manager's last message after some iteration of a calm run is a solution
which stays better than everything the optimizer finds, and no other solution is sent, it is injected within the next `injection_frequency + 1` iterations,
whatever happens later.

Missing: solutions sent while the first population is evaluated, see `C85_first_incumbent_refuted`. -/
theorem C85_cma_incumbent_used_partial (c : Cfg) (o : Opt) (pre : List Gen) (g : Gen) (gs rest : List Gen) (ms : List Msg) (x : Vec) (f : PyF)
    (hm : c.managed = true) (hf : c.freq ≠ 0) (hs : o.es.callbackStop = false) (hj : o.injCounter ≤ o.es.count)
    (hpre : ∀ g' ∈ pre ++ [g], Evaluated g' ∧ g'.wantsStop = false ∧ stopsIn c g' = [])
    (ha : g.after = ms ++ [.inject x f]) (hlen : gs.length = c.freq + 1)
    (hgs : ∀ g' ∈ gs, Evaluated g' ∧ g'.wantsStop = false ∧ stopsIn c g' = [] ∧ offered g' = [] ∧ ∀ y ∈ g'.vals, PyF.lt f y = true)
    (res : Except Err Opt) (r : Run) (h : minimize c o (pre ++ [g] ++ gs ++ rest) = some (res, r)) :
    ∃ j, o.es.count + pre.length + 1 < j ∧ j ≤ o.es.count + pre.length + 1 + (c.freq + 1) ∧ (j, x, f) ∈ r.injected := by
  obtain ⟨_, rfl, _⟩ := Cma.minimize_some h
  obtain ⟨a1, a2, a3, a4⟩ := Cma.loop_calm c pre (start o) hs hj (fun g' h => hpre g' (by simp [h]))
  obtain ⟨d1, d2, d3, d4⟩ := Cma.loop_calm c (pre ++ [g]) (start o) hs hj hpre
  obtain ⟨hgE, hgw, hgst⟩ := hpre g (by simp)
  have hnb : ¬ BrokenOff c g := fun h => Cma.broken_stops h hgst
  have hstep : loop c (pre ++ [g]) (start o) = loop c [] (body c g (loop c pre (start o)).1).1 := by
    rw [Cma.loop_append, a1]
    obtain ⟨f1, _⟩ := (Cma.body_facts c g (loop c pre (start o)).1 a2 hgE).2.2.2.2.2 hnb
    simp [loop, a2, hgw, f1]
  obtain ⟨ix, jf⟩ := Cma.body_snoc c g (loop c pre (start o)).1 ms x f hm ha a2 hgE hnb
  have hR : (loop c (pre ++ [g]) (start o)).1 = (body c g (loop c pre (start o)).1).1 := by rw [hstep]; rfl
  have hi : (loop c (pre ++ [g]) (start o)).1.i = o.es.count + pre.length + 1 := by rw [d3]; simp [start]; omega
  obtain ⟨j, j1, j2, j3⟩ := Cma.quiet_inject c x f gs (loop c (pre ++ [g]) (start o)).1 hgs d2 (by omega) (by rw [hR]; exact ix)
    (by rw [hR]; exact jf) hf (by rintro rfl; simp at hlen) (by omega)
  refine ⟨j, by omega, by omega, ?_⟩
  rw [List.append_assoc (pre ++ [g]), Cma.loop_append, d1]
  simp only [Bool.false_eq_true, if_false]
  rw [Cma.loop_append]
  split
  · exact j3
  · exact Cma.loop_injected_mono c rest _ _ j3

/-- A run of four iterations with frequency 1; the manager sends `[7]` with value 1 after the first (with `late`), or while its
population is evaluated. -/
def cmaInject (late : Bool) : List Gen :=
  [{ wantsStop := false, xs := [[1], [2]], vals := [.fin 9, .fin 8], during := if late then [] else [[.inject [7] (.fin 1)]], cancels := [],
     callback := false, after := if late then [.inject [7] (.fin 1)] else [] },
   { wantsStop := false, xs := [[1], [2]], vals := [.fin 6, .fin 8], during := [], cancels := [], callback := false, after := [] },
   { wantsStop := false, xs := [[1], [2]], vals := [.fin 6, .fin 8], during := [], cancels := [], callback := false, after := [] },
   { wantsStop := false, xs := [[1], [2]], vals := [.fin 6, .fin 8], during := [], cancels := [], callback := true, after := [] }]

example : ((minimize { x0 := [1], freq := 1, pool := true, managed := true } fresh (cmaInject true)).map (·.2.injected)) =
    some [(2, [7], .fin 1), (4, [7], .fin 1)] := by decide +kernel

/-- The hypotheses of `C85_cma_incumbent_used_partial` hold of this run, with no iteration before and one after. -/
example : ∃ g a b d, cmaInject true = [] ++ [g] ++ [a, b] ++ [d] ∧
    (∀ g' ∈ [] ++ [g], Evaluated g' ∧ g'.wantsStop = false ∧ stopsIn { x0 := [1], freq := 1, pool := true, managed := true } g' = []) ∧
    g.after = [] ++ [.inject [7] (.fin 1)] ∧
    ∀ g' ∈ [a, b], Evaluated g' ∧ g'.wantsStop = false ∧ stopsIn { x0 := [1], freq := 1, pool := true, managed := true } g' = [] ∧
      offered g' = [] ∧ ∀ y ∈ g'.vals, PyF.lt (.fin 1) y = true := by
  refine ⟨_, _, _, _, rfl, ?_, rfl, ?_⟩
  · intro g' hg'
    simp only [List.nil_append, List.mem_singleton] at hg'
    subst hg'
    exact ⟨by simp [Evaluated], rfl, by decide +kernel⟩
  · intro g' hg'
    simp only [List.mem_cons, List.not_mem_nil, or_false] at hg'
    rcases hg' with rfl | rfl <;> exact ⟨by simp [Evaluated], rfl, by decide +kernel, by decide +kernel, by decide +kernel⟩

/-- C85, refuted part: a solution sent by the manager while the first population is evaluated is overwritten by `x0`: although better than
everything the optimizer finds in the whole run, and longer than `injection_frequency` ago, it is never injected. -/
theorem C85_first_incumbent_refuted :
    ∃ (c : Cfg) (env : List Gen) (res : Except Err Opt) (r : Run), minimize c fresh env = some (res, r) ∧ c.freq = 1 ∧
      (∃ g ∈ (iterations c env).head?, [7] ∈ offered g) ∧ (iterations c env).length = 4 ∧
      (∀ p ∈ points (whole c env), PyF.lt (.fin 1) p.2 = true) ∧ r.injected = [] :=
  ⟨{ x0 := [1], freq := 1, pool := true, managed := true }, cmaInject false,
    finish (loop { x0 := [1], freq := 1, pool := true, managed := true } (cmaInject false) (start fresh)).1,
    (loop { x0 := [1], freq := 1, pool := true, managed := true } (cmaInject false) (start fresh)).1,
    by decide +kernel, rfl, ⟨(cmaInject false).head (by simp [cmaInject]), by decide +kernel, by decide +kernel⟩,
    by decide +kernel, by decide +kernel, by decide +kernel⟩

end Glompo.Props
