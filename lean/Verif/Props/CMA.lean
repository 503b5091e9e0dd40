import Verif.Model.CMA
import Verif.Spec.CMA
import Verif.Props.RandomOpt

/-! # C83-C85: the CMA optimizer -/

namespace Glompo.Props

open Glompo Glompo.CMA Glompo.Spec.CMA Glompo.Spec.RandomOpt

namespace Cma

/-- What the reasons received leave as success. -/
def verdict (rs : List String) (b : Bool) : Bool := match rs.getLast? with | none => b | some r => !unsuccessful r

theorem verdict_append (a b : List String) (s : Bool) : verdict (a ++ b) s = verdict b (verdict a s) := by
  unfold verdict
  rw [List.getLast?_append]
  cases h : b.getLast? <;> simp

theorem verdict_cons (r : String) (t : List String) (s : Bool) : verdict (r :: t) s = verdict t (!unsuccessful r) :=
  verdict_append [r] t s

/-- Everything but the incumbent, after messages with the given stop reasons. -/
def heard (rs : List String) (o : Opt) (x : Vec) (f : PyF) : Opt :=
  { o with es := { o.es with callbackStop := o.es.callbackStop || decide (rs ≠ []) }, success := verdict rs o.success, incX := x, incF := f }

/-- The pair is the old incumbent or one of those sent. -/
def From (ms : List Msg) (o : Opt) (x : Vec) (f : PyF) : Prop := (x = o.incX ∧ f = o.incF) ∨ .inject x f ∈ ms

theorem messages_heard (ms : List Msg) (o : Opt) :
    ∃ x f, (messages ms o).1 = heard (reasonsOf ms) o x f ∧ From ms o x f := by
  induction ms generalizing o with
  | nil => exact ⟨o.incX, o.incF, by simp [messages, heard, reasonsOf, verdict], .inl ⟨rfl, rfl⟩⟩
  | cons m t ih =>
    cases m with
    | stop r =>
      obtain ⟨x, f, h1, h2⟩ := ih (callStop r o)
      refine ⟨x, f, ?_, ?_⟩
      · rw [messages, h1]
        have : reasonsOf (Msg.stop r :: t) = r :: reasonsOf t := by simp [reasonsOf]
        rw [this]; simp [heard, callStop, verdict_cons]
      · exact h2.imp id (List.mem_cons_of_mem _)
    | inject y g =>
      obtain ⟨x, f, h1, h2⟩ := ih { o with incX := y, incF := g }
      have e : reasonsOf (Msg.inject y g :: t) = reasonsOf t := by simp [reasonsOf]
      refine ⟨x, f, by rw [messages, h1, e]; simp [heard], .inr ?_⟩
      rcases h2 with ⟨h, h'⟩ | h
      · simp only at h h'; subst h h'; exact List.mem_cons_self ..
      · exact List.mem_cons_of_mem _ h
    | save =>
      obtain ⟨x, f, h1, h2⟩ := ih o
      refine ⟨x, f, ?_, h2.imp id (List.mem_cons_of_mem _)⟩
      simp only [messages]; rw [h1]; simp [reasonsOf]

theorem during_heard (ds : List (List Msg)) (o : Opt) (hs : o.es.callbackStop = false) :
    ∃ x f, (during ds o).1 = heard (((ds.map reasonsOf).find? (· ≠ [])).getD []) o x f ∧ From ds.flatten o x f := by
  induction ds generalizing o with
  | nil => exact ⟨o.incX, o.incF, by simp [during, heard, verdict], .inl ⟨rfl, rfl⟩⟩
  | cons ms t ih =>
    obtain ⟨x, f, h1, h2⟩ := messages_heard ms o
    by_cases hr : reasonsOf ms = []
    · have hb : (messages ms o).1.es.callbackStop = false := by rw [h1, hr]; simp [heard, hs]
      obtain ⟨x', f', h3, h4⟩ := ih _ hb
      refine ⟨x', f', ?_, ?_⟩
      · simp only [during, hb]
        simp only [Bool.false_eq_true, if_false]
        rw [h3, h1, hr]
        simp [heard, verdict, hr]
      · rcases h4 with ⟨ha, hb'⟩ | h4
        · rw [h1] at ha hb'; simp only [heard] at ha hb'; subst ha hb'
          rcases h2 with h2 | h2
          · exact .inl h2
          · exact .inr (by simp; exact .inl h2)
        · exact .inr (by simp at h4 ⊢; exact .inr h4)
    · have hb : (messages ms o).1.es.callbackStop = true := by rw [h1]; simp [heard, hr]
      refine ⟨x, f, ?_, ?_⟩
      · simp only [during, hb]
        simp [hr, h1]
      · exact h2.imp id (fun h => by simp; exact .inl h)

theorem remaining_length (vs : List PyF) (cs : List Bool) :
    (remaining vs cs).length ≤ vs.length ∧ ((remaining vs cs).length = vs.length → remaining vs cs = vs) := by
  induction vs generalizing cs with
  | nil => cases cs <;> simp [remaining]
  | cons v t ih =>
    cases cs with
    | nil => simp [remaining]
    | cons b cs =>
      obtain ⟨h1, h2⟩ := ih cs
      cases b
      · simp only [remaining]; simp; exact ⟨h1, h2⟩
      · simp only [remaining]; simp; exact ⟨by omega, fun h => by omega⟩

/-- What the evaluation of a population leaves behind. -/
theorem map_heard (c : Cfg) (g : Gen) (o : Opt) (hs : o.es.callbackStop = false) (hg : Evaluated g) :
    (∃ x f, (parallelMap c g o).1 = heard (stopsDuring c g) o x f ∧ From g.during.flatten o x f) ∧
    (BrokenOff c g → (parallelMap c g o).2.2.length ≠ g.xs.length) ∧
    (¬ BrokenOff c g → (parallelMap c g o).2.2 = g.vals) := by
  unfold parallelMap stopsDuring BrokenOff stopsDuring
  by_cases hp : c.pool = true ∧ c.managed = true
  · obtain ⟨x, f, h1, h2⟩ := during_heard g.during o hs
    rw [if_pos hp]
    simp only [hp, Bool.and_true, if_true, h1]
    generalize ((g.during.map reasonsOf).find? (· ≠ [])).getD [] = rs
    by_cases ha : rs = []
    · subst ha
      refine ⟨⟨x, f, rfl, h2⟩, fun h => absurd rfl h.1, fun _ => ?_⟩
      simp [heard, hs]
    · refine ⟨⟨x, f, rfl, h2⟩, fun h => ?_, fun h => ?_⟩
      · simpa [heard, ha] using h.2
      · have : (remaining g.vals g.cancels).length = g.xs.length := by
          by_contra hc; exact h ⟨ha, hc⟩
        simpa [heard, ha] using (remaining_length _ _).2 (this.trans hg.1.symm)
  · have hb : (c.pool && c.managed) = false := by cases h1 : c.pool <;> cases h2 : c.managed <;> simp_all
    rw [if_neg hp]
    simp only [hb, Bool.false_eq_true, if_false]
    exact ⟨⟨o.incX, o.incF, by simp [heard, verdict], .inl ⟨rfl, rfl⟩⟩, by simp, by simp⟩

theorem answer_heard (c : Cfg) (g : Gen) (o : Opt) :
    ∃ x f, (answer c g o).1 = heard (stopsAfter c g) o x f ∧ From g.after o x f := by
  unfold answer stopsAfter
  have key : ∀ o' : Opt, ∃ x f, (if c.managed then messages g.after o' else (o', [])).1 =
      heard (if c.managed then reasonsOf g.after else []) o' x f ∧ From g.after o' x f := by
    intro o'
    cases hm : c.managed
    · exact ⟨o'.incX, o'.incF, by simp [heard, verdict], .inl ⟨rfl, rfl⟩⟩
    · simpa using messages_heard g.after o'
  cases hc : g.callback
  · simpa using key o
  · obtain ⟨x, f, h1, h2⟩ := key (callStop "Callbacks termination." o)
    refine ⟨x, f, ?_, h2⟩
    simp only [if_true]
    rw [h1]
    simp [heard, callStop, verdict_cons]

theorem tell_best (e : Es) (ps : List (Vec × PyF)) (e0 : List (Vec × PyF)) (h : FirstBest e0 e.bestX e.bestF) :
    FirstBest (e0 ++ ps) (tell e ps).bestX (tell e ps).bestF ∧ (tell e ps).callbackStop = e.callbackStop := by
  induction ps generalizing e e0 with
  | nil => simpa [tell] using h
  | cons p t ih =>
    have hs := Rand.FirstBest.step h p.1 p.2
    have h' : FirstBest (e0 ++ [p]) (tellOne e p.1 p.2).bestX (tellOne e p.1 p.2).bestF := by
      unfold tellOne
      split
      · rename_i hl; exact hs.1 hl
      · rename_i hl; exact hs.2 (by simpa using hl)
    have hc : (tellOne e p.1 p.2).callbackStop = e.callbackStop := by unfold tellOne; split <;> rfl
    have := ih _ _ h'
    rw [hc] at this
    simpa [tell] using this

theorem tell_stop (e : Es) (ps : List (Vec × PyF)) : (tell e ps).callbackStop = e.callbackStop := by
  induction ps generalizing e with
  | nil => rfl
  | cons p t ih => rw [tell, ih]; unfold tellOne; split <;> rfl

theorem ite_es (b : Bool) (o : Opt) (n : Nat) : (if b then { o with injCounter := n } else o).es = o.es := by cases b <;> rfl

/-- One pass through the loop. -/
theorem body_facts (c : Cfg) (g : Gen) (r : Run) (hs : r.o.es.callbackStop = false) (hg : Evaluated g) :
    (body c g r).1.i = r.i + 1 ∧ (body c g r).1.last = some g.xs ∧
    (body c g r).1.o.es.callbackStop = decide (stopsIn c g ≠ []) ∧
    (body c g r).1.o.success = verdict (stopsIn c g) r.o.success ∧
    (BrokenOff c g → (body c g r).2 = false ∧ (body c g r).1.told = r.told ∧ (body c g r).1.injected = r.injected ∧
      (body c g r).1.o.es.bestX = r.o.es.bestX ∧ (body c g r).1.o.es.bestF = r.o.es.bestF ∧
      (body c g r).1.o.injCounter = r.o.injCounter) ∧
    (¬ BrokenOff c g → (body c g r).2 = true ∧ (body c g r).1.told = r.told ++ [(g.xs, g.vals)] ∧
      ∀ e0, FirstBest e0 r.o.es.bestX r.o.es.bestF →
        FirstBest (e0 ++ g.xs.zip g.vals) (body c g r).1.o.es.bestX (body c g r).1.o.es.bestF) := by
  obtain ⟨⟨x, f, h1, h2⟩, h3, h4⟩ := map_heard c g r.o hs hg
  by_cases hb : BrokenOff c g
  · have hl := h3 hb
    have e : body c g r = (asked c g r, false) := by unfold body; rw [if_neg hl]
    have hi : stopsIn c g = stopsDuring c g := by simp [stopsIn, hb]
    rw [e, hi]
    simp [asked, h1, heard, hs, hb]
  · have hv := h4 hb
    have e : body c g r = (complete c g g.vals (asked c g r), true) := by unfold body; rw [hv, if_pos hg.1]
    have hi : stopsIn c g = stopsDuring c g ++ stopsAfter c g := by simp [stopsIn, hb]
    rw [e, hi]
    unfold complete settle asked
    simp only
    generalize ho : firstIncumbent c (r.i + 1) g.vals (parallelMap c g r.o).1 = o1
    have ho1 : o1.es = (parallelMap c g r.o).1.es ∧ o1.success = (parallelMap c g r.o).1.success := by
      rw [← ho]; unfold firstIncumbent; split <;> exact ⟨rfl, rfl⟩
    obtain ⟨y, q, a1, a2⟩ := answer_heard c g (setResult { o1 with es := tell o1.es (g.xs.zip g.vals) } g.xs.head?)
    rw [a1]
    refine ⟨trivial, trivial, ?_, ?_, fun h => absurd h hb, fun _ => ⟨trivial, trivial, fun e0 he => ?_⟩⟩
    · rw [ite_es]
      simp only [heard, setResult, tell_stop]
      rw [ho1.1, h1]
      simp only [heard, hs]
      by_cases hd : stopsDuring c g = [] <;> simp [hd]
    · split <;> simp [heard, setResult, ho1, h1, verdict_append]
    · have he' : FirstBest e0 o1.es.bestX o1.es.bestF := by rw [ho1.1, h1]; exact he
      have := (tell_best o1.es (g.xs.zip g.vals) e0 he').1
      split <;> simpa [heard, setResult] using this

theorem broken_stops {c : Cfg} {g : Gen} (h : BrokenOff c g) : stopsIn c g ≠ [] := by
  have := h.1
  unfold stopsIn; simp [this]

/-- The loop, as the specification tells it. -/
theorem loop_facts (c : Cfg) (env : List Gen) (r : Run) (hs : r.o.es.callbackStop = false) (hE : ∀ g ∈ env, Evaluated g) :
    (loop c env r).1.told = r.told ++ (whole c env).map (fun g => (g.xs, g.vals)) ∧
    (∀ e0, FirstBest e0 r.o.es.bestX r.o.es.bestF →
      FirstBest (e0 ++ points (whole c env)) (loop c env r).1.o.es.bestX (loop c env r).1.o.es.bestF) ∧
    (loop c env r).1.last = ((iterations c env).getLast?.map Gen.xs).or r.last ∧
    (loop c env r).1.o.success = verdict (received c env) r.o.success ∧
    (loop c env r).1.o.es.callbackStop = decide (received c env ≠ []) ∧
    ((loop c env r).2 = true ↔ received c env ≠ [] ∨ (iterations c env).length < env.length) := by
  induction env generalizing r with
  | nil => simp [loop, whole, iterations, received, verdict, points, hs]
  | cons g t ih =>
    by_cases hw : g.wantsStop = true
    · have hi : iterations c (g :: t) = [] := by simp [iterations, hw]
      have hl : loop c (g :: t) r = (r, true) := by simp [loop, hw]
      simp [hl, hi, whole, received, verdict, points, hs]
    · obtain ⟨_, b2, b3, b4, b5, b6⟩ := body_facts c g r hs (hE g (by simp))
      by_cases hst : stopsIn c g = []
      · have hnb : ¬ BrokenOff c g := fun h => broken_stops h hst
        obtain ⟨f1, f2, f3⟩ := b6 hnb
        have hl : loop c (g :: t) r = loop c t (body c g r).1 := by simp [loop, hw, hs, f1]
        have hi : iterations c (g :: t) = g :: iterations c t := by simp [iterations, hw, hst]
        have hwh : whole c (g :: t) = g :: whole c t := by simp [whole, hi, hnb]
        have hrc : received c (g :: t) = received c t := by simp [received, hi, hst]
        obtain ⟨i1, i2, i3, i4, i5, i6⟩ := ih (body c g r).1 (by rw [b3]; simp [hst]) (fun g' h => hE g' (by simp [h]))
        rw [hl, hwh, hrc, hi]
        refine ⟨by rw [i1, f2]; simp, fun e0 he => ?_, ?_, ?_, i5, by rw [i6]; simp⟩
        · have := i2 _ (f3 e0 he)
          simpa [points] using this
        · rw [i3, b2]
          cases h : iterations c t with
          | nil => simp
          | cons a l => simp [List.getLast?_cons]
        · rw [i4, b4, hst]; simp [verdict]
      · have hi : iterations c (g :: t) = [g] := by simp [iterations, hw, hst]
        have hrc : received c (g :: t) = stopsIn c g := by simp [received, hi]
        rw [hrc, hi]
        have hcb : (body c g r).1.o.es.callbackStop = true := by rw [b3]; simp [hst]
        have hl : loop c (g :: t) r = ((body c g r).1, true) := by
          simp only [loop, hs, hw]
          simp only [Bool.or_self, Bool.false_eq_true, if_false]
          cases hf : (body c g r).2
          · simp
          · cases t <;> simp [loop, hcb]
        rw [hl]
        by_cases hb : BrokenOff c g
        · obtain ⟨_, f2, _, f4, f5, _⟩ := b5 hb
          have hwh : whole c (g :: t) = [] := by simp [whole, hi, hb]
          rw [hwh]
          refine ⟨by simp [f2], fun e0 he => by rw [f4, f5]; simpa [points] using he, by simp [b2], b4, b3, by simp [hst]⟩
        · obtain ⟨_, f2, f3⟩ := b6 hb
          have hwh : whole c (g :: t) = [g] := by simp [whole, hi, hb]
          rw [hwh]
          exact ⟨by simp [f2], fun e0 he => by simpa [points] using f3 e0 he, by simp [b2], b4, b3, by simp [hst]⟩

theorem minimize_some {c : Cfg} {o : Opt} {env : List Gen} {res : Except Err Opt} {r : Run}
    (h : minimize c o env = some (res, r)) :
    (loop c env (start o)).2 = true ∧ r = (loop c env (start o)).1 ∧ res = finish r := by
  unfold minimize at h
  simp only at h
  split at h
  · rename_i hf
    simp only [Option.some.injEq, Prod.mk.injEq] at h
    exact ⟨hf, h.2.symm, by rw [← h.1, ← h.2]⟩
  · cases h

theorem best_pinf {ev : List (Vec × PyF)} {x : Option Vec} {fx : PyF} (h : FirstBest ev x fx) :
    (fx = .pinf ∧ x = none ∧ ∀ e ∈ ev, PyF.lt e.2 .pinf = false) ∨ (fx ≠ .pinf ∧ ∃ v, x = some v) := by
  rcases h with ⟨h1, h2, h3⟩ | ⟨_, _, v, _, h1, h2, _⟩
  · exact .inl ⟨h2, h1, h3⟩
  · refine .inr ⟨?_, v, h1⟩
    rintro rfl
    simp [PyF.lt] at h2

theorem loop_stop (c : Cfg) (pre : List Gen) (g : Gen) (post : List Gen) (r : Run) (hg : stopsIn c g ≠ [])
    (hE : ∀ g' ∈ pre ++ [g], Evaluated g') :
    loop c (pre ++ g :: post) r = loop c (pre ++ [g]) r ∧ (loop c (pre ++ [g]) r).2 = true := by
  by_cases hs : r.o.es.callbackStop = true
  · have : ∀ e : List Gen, loop c e r = (r, true) := by intro e; cases e <;> simp [loop, hs]
    simp [this]
  · have hs : r.o.es.callbackStop = false := by simpa using hs
    induction pre generalizing r with
    | nil =>
      by_cases hw : g.wantsStop = true
      · simp [loop, hw]
      · obtain ⟨_, _, b3, _⟩ := body_facts c g r hs (hE g (by simp))
        have hcb : (body c g r).1.o.es.callbackStop = true := by rw [b3]; simp [hg]
        cases hf : (body c g r).2 <;> cases post <;> simp [loop, hs, hw, hf, hcb]
    | cons q t ih =>
      by_cases hw : q.wantsStop = true
      · simp [loop, hw]
      · cases hf : (body c q r).2
        · simp [loop, hs, hw, hf]
        · by_cases hc : (body c q r).1.o.es.callbackStop = true
          · have : ∀ e : List Gen, loop c e (body c q r).1 = ((body c q r).1, true) := by intro e; cases e <;> simp [loop, hc]
            simp [loop, hs, hw, hf, this]
          · have := ih (body c q r).1 (fun g' h => hE g' (by simp at h ⊢; exact .inr h)) hc (by simpa using hc)
            simpa [loop, hs, hw, hf] using this

theorem messages_saved (ms : List Msg) (o : Opt) :
    ∀ q ∈ (messages ms o).2, q.es.bestX = o.es.bestX ∧ q.es.bestF = o.es.bestF := by
  induction ms generalizing o with
  | nil => simp [messages]
  | cons m t ih =>
    cases m with
    | stop r => exact ih _
    | inject x f => exact ih _
    | save =>
      intro q hq
      simp only [messages, List.mem_cons] at hq
      rcases hq with rfl | hq
      · exact ⟨rfl, rfl⟩
      · exact ih o q hq

theorem during_saved (ds : List (List Msg)) (o : Opt) :
    ∀ q ∈ (during ds o).2, q.es.bestX = o.es.bestX ∧ q.es.bestF = o.es.bestF := by
  induction ds generalizing o with
  | nil => simp [during]
  | cons ms t ih =>
    intro q hq
    obtain ⟨x, f, h1, _⟩ := messages_heard ms o
    simp only [during] at hq
    split at hq
    · exact messages_saved ms o q hq
    · rcases List.mem_append.mp hq with hq | hq
      · exact messages_saved ms o q hq
      · have := ih _ q hq
        rw [h1] at this
        exact this

theorem body_saved (c : Cfg) (g : Gen) (r : Run) (hs : r.o.es.callbackStop = false) (hg : Evaluated g) :
    ∀ q ∈ (body c g r).1.saved, q ∈ r.saved ∨ (q.es.bestX = r.o.es.bestX ∧ q.es.bestF = r.o.es.bestF) ∨
      ((body c g r).2 = true ∧ q.es.bestX = (body c g r).1.o.es.bestX ∧ q.es.bestF = (body c g r).1.o.es.bestF) := by
  intro q hq
  have hd : ∀ q ∈ (parallelMap c g r.o).2.1, q.es.bestX = r.o.es.bestX ∧ q.es.bestF = r.o.es.bestF := by
    unfold parallelMap
    split
    · exact during_saved g.during r.o
    · simp
  unfold body at hq ⊢
  split at hq
  · rename_i hl
    rw [if_pos hl]
    have hes : (complete c g (parallelMap c g r.o).2.2 (asked c g r)).o.es =
        (settle c g (r.i + 1) (parallelMap c g r.o).2.2 (parallelMap c g r.o).1).1.es := by
      exact ite_es _ _ _
    rw [hes]
    have hsv : (complete c g (parallelMap c g r.o).2.2 (asked c g r)).saved = r.saved ++ (parallelMap c g r.o).2.1 ++
        (settle c g (r.i + 1) (parallelMap c g r.o).2.2 (parallelMap c g r.o).1).2 := rfl
    simp only [hsv] at hq
    rcases List.mem_append.mp hq with hq | hq
    · rcases List.mem_append.mp hq with hq | hq
      · exact .inl hq
      · exact .inr (.inl (hd q hq))
    · refine .inr (.inr ⟨rfl, ?_⟩)
      unfold settle at hq ⊢
      simp only at hq ⊢
      generalize setResult _ _ = o2 at *
      have : ∀ q ∈ (answer c g o2).2, q.es.bestX = o2.es.bestX ∧ q.es.bestF = o2.es.bestF := by
        unfold answer
        simp only
        split
        · split
          · intro q hq; exact messages_saved g.after (callStop "Callbacks termination." o2) q hq
          · exact messages_saved g.after _
        · simp
      have h2 := this q hq
      obtain ⟨x, f, h3, _⟩ := answer_heard c g o2
      rw [h3]
      exact h2
  · simp only [asked] at hq
    rcases List.mem_append.mp hq with hq | hq
    · exact .inl hq
    · exact .inr (.inl (hd q hq))

theorem loop_saved (c : Cfg) (env : List Gen) (r : Run) (hs : r.o.es.callbackStop = false) (hE : ∀ g ∈ env, Evaluated g)
    (e0 : List (Vec × PyF)) (h0 : FirstBest e0 r.o.es.bestX r.o.es.bestF) :
    ∀ q ∈ (loop c env r).1.saved, q ∈ r.saved ∨ ∃ k, FirstBest (e0 ++ points ((whole c env).take k)) q.es.bestX q.es.bestF := by
  induction env generalizing r e0 with
  | nil => exact fun q hq => .inl hq
  | cons g t ih =>
    intro q hq
    by_cases hw : g.wantsStop = true
    · rw [show loop c (g :: t) r = (r, true) by simp [loop, hw]] at hq
      exact .inl hq
    · obtain ⟨_, _, b3, _, _, b6⟩ := body_facts c g r hs (hE g (by simp))
      have hbs := body_saved c g r hs (hE g (by simp))
      have h00 : FirstBest (e0 ++ points ((whole c (g :: t)).take 0)) r.o.es.bestX r.o.es.bestF := by simpa [points] using h0
      by_cases hst : stopsIn c g = []
      · have hnb : ¬ BrokenOff c g := fun h => broken_stops h hst
        obtain ⟨f1, _, f3⟩ := b6 hnb
        have hwh : whole c (g :: t) = g :: whole c t := by simp [whole, iterations, hw, hst, hnb]
        rw [show loop c (g :: t) r = loop c t (body c g r).1 by simp [loop, hw, hs, f1]] at hq
        rcases ih (body c g r).1 (by rw [b3]; simp [hst]) (fun g' h => hE g' (by simp [h])) _ (f3 e0 h0) q hq with hq | ⟨k, hk⟩
        · rcases hbs q hq with h | ⟨h1, h2⟩ | ⟨_, h1, h2⟩
          · exact .inl h
          · exact .inr ⟨0, by rw [h1, h2]; exact h00⟩
          · exact .inr ⟨1, by rw [h1, h2, hwh]; simpa [points] using f3 e0 h0⟩
        · exact .inr ⟨k + 1, by rw [hwh]; simpa [points] using hk⟩
      · have hcb : (body c g r).1.o.es.callbackStop = true := by rw [b3]; simp [hst]
        have hl : loop c (g :: t) r = ((body c g r).1, true) := by
          simp only [loop, hs, hw]
          simp only [Bool.or_self, Bool.false_eq_true, if_false]
          cases hf : (body c g r).2
          · simp
          · cases t <;> simp [loop, hcb]
        rw [hl] at hq
        rcases hbs q hq with h | ⟨h1, h2⟩ | ⟨hf, h1, h2⟩
        · exact .inl h
        · exact .inr ⟨0, by rw [h1, h2]; exact h00⟩
        · have hnb : ¬ BrokenOff c g := by
            intro hb
            have := (body_facts c g r hs (hE g (by simp))).2.2.2.2.1 hb
            rw [hf] at this
            simp at this
          have hwh : whole c (g :: t) = [g] := by simp [whole, iterations, hw, hst, hnb]
          exact .inr ⟨1, by rw [h1, h2, hwh]; simpa [points] using (b6 hnb).2.2 e0 h0⟩

end Cma

/-! ## C83: the result -/

/-- C83 (partial). Whatever the populations, the values, the callbacks and the instructions: when `minimize` of an optimizer which
has been told the points `e0` (none, for a new one) returns, every population which was evaluated completely has been told, each
vector with its own value. The result is the first of all points told with the smallest value; if none of them has a value
below infinity, it is the first vector of the last population with the value infinity and no success.

Missing: the points of the population whose evaluation was broken off, see `C83_lowest_value_refuted`, and optimizers which had no
iteration at all, see `C83_no_iteration_refuted`. -/
theorem C83_cma_result_partial (c : Cfg) (o : Opt) (env : List Gen) (e0 : List (Vec × PyF)) (res : Except Err Opt) (r : Run)
    (hE : ∀ g ∈ env, Evaluated g) (hs : o.es.callbackStop = false) (h0 : FirstBest e0 o.es.bestX o.es.bestF)
    (h : minimize c o env = some (res, r)) :
    r.told = (whole c env).map (fun g => (g.xs, g.vals)) ∧
    (iterations c env ≠ [] → ∃ o', res = .ok o' ∧
      (FirstBest (e0 ++ points (whole c env)) o'.x o'.fx ∧ o'.fx ≠ .pinf ∨
       (∀ p ∈ e0 ++ points (whole c env), PyF.lt p.2 .pinf = false) ∧ o'.fx = .pinf ∧ o'.success = false ∧
        o'.x = (iterations c env).getLast?.bind (·.xs.head?) ∧ o'.x ≠ none)) := by
  obtain ⟨_, rfl, rfl⟩ := Cma.minimize_some h
  obtain ⟨f1, f2, f3, _⟩ := Cma.loop_facts c env (start o) hs hE
  refine ⟨by simpa [start] using f1, fun hi => ?_⟩
  have hb := f2 e0 h0
  generalize hR : (loop c env (start o)).1 = R at *
  rcases Cma.best_pinf hb with ⟨hp, hx, hall⟩ | ⟨hp, v, hv⟩
  · obtain ⟨g, hg⟩ : ∃ g, (iterations c env).getLast? = some g := by
      cases h : (iterations c env).getLast? with
      | none => simp at h; exact absurd h hi
      | some g => exact ⟨g, rfl⟩
    have hmem : g ∈ env := by
      have h1 : ∀ env : List Gen, iterations c env ⊆ env := by
        intro env
        induction env with
        | nil => simp [iterations]
        | cons a t ih =>
          unfold iterations
          split
          · simp
          · split
            · intro x hx; rcases List.mem_cons.mp hx with h | h
              · simp [h]
              · exact List.mem_cons_of_mem _ (ih h)
            · simp
      exact h1 env (List.mem_of_getLast? hg)
    rw [hg] at f3
    simp only [start, Option.map_some, Option.or_none] at f3
    refine ⟨{ setResult R.o g.xs.head? with success := false }, ?_, .inr ⟨hall, ?_, rfl, ?_, ?_⟩⟩
    · unfold finish; rw [if_pos hp, f3]
    · simp [setResult, hp]
    · simp [setResult, hp, hg]
    · simp only [setResult, hp, if_true]
      have := (hE g hmem).2
      cases hxs : g.xs
      · exact absurd hxs this
      · simp
  · refine ⟨{ setResult R.o none with success := R.o.es.bestF.isFinite && R.o.success }, ?_, .inl ⟨?_, ?_⟩⟩
    · unfold finish; rw [if_neg hp]
    · simpa [setResult, hp] using hb
    · simpa [setResult] using hp

/-- A run of two generations in a pool; the second one is broken off by the manager after the first evaluation, when the other
one, already running, cannot be cancelled; a third vector is. -/
def cmaBroken : List Gen :=
  [{ wantsStop := false, xs := [[1], [2], [3]], vals := [.fin 9, .fin 5, .fin 7], during := [[], [], []], cancels := [], callback := false, after := [] },
   { wantsStop := false, xs := [[4], [5], [6]], vals := [.fin 8, .fin 1, .fin 6], during := [[.stop "Manager termination signal"]],
     cancels := [false, false, true], callback := false, after := [] }]

example : (∀ g ∈ cmaBroken, Evaluated g) ∧
    iterations { x0 := [1], freq := 0, pool := true, managed := true } cmaBroken = cmaBroken ∧
    (whole { x0 := [1], freq := 0, pool := true, managed := true } cmaBroken).length = 1 ∧
    ((minimize { x0 := [1], freq := 0, pool := true, managed := true } fresh cmaBroken).map fun p => (p.1.toOption.map fun o => (o.x, o.fx))) =
      some (some (some [2], .fin 5)) := by
  refine ⟨?_, by decide +kernel, by decide +kernel, by decide +kernel⟩
  intro g hg
  simp only [cmaBroken, List.mem_cons, List.not_mem_nil, or_false] at hg
  rcases hg with rfl | rfl <;> simp [Evaluated]

/-- A new optimizer has been told nothing. -/
example : FirstBest [] fresh.es.bestX fresh.es.bestF := .inl ⟨rfl, rfl, by simp⟩

/-- C83, refuted part: the result is not "the lowest value found by the optimizer": the function was evaluated at `[5]` with value
1 in the population broken off; the result is 5, at `[2]`. -/
theorem C83_lowest_value_refuted :
    ∃ (c : Cfg) (env : List Gen) (o' : Opt) (r : Run), minimize c fresh env = some (.ok o', r) ∧
      ∃ g ∈ iterations c env, BrokenOff c g ∧ PyF.lt (.fin 1) o'.fx = true ∧ .fin 1 ∈ remaining g.vals g.cancels := by
  refine ⟨{ x0 := [1], freq := 0, pool := true, managed := true }, cmaBroken,
    { setResult (loop { x0 := [1], freq := 0, pool := true, managed := true } cmaBroken (start fresh)).1.o none with success := false },
    (loop { x0 := [1], freq := 0, pool := true, managed := true } cmaBroken (start fresh)).1, by decide +kernel,
    cmaBroken.getLast (by simp [cmaBroken]), by decide +kernel, by decide +kernel, by decide +kernel, by decide +kernel⟩

/-- C83, refuted part: an optimizer resumed after it was told to stop, which never had a value below infinity, does not return at
all: `minimize` raises a `TypeError`. -/
theorem C83_no_iteration_refuted (c : Cfg) (o : Opt) (env : List Gen) (hs : o.es.callbackStop = true) (hb : o.es.bestF = .pinf) :
    (minimize c o env).map (·.1) = some (.error .typeError) := by
  have : loop c env (start o) = (start o, true) := by cases env <;> simp [loop, start, hs]
  simp only [minimize, this]
  simp [finish, start, hb]

/-- Such an optimizer is left behind by a run: a crash of the manager is reported before any value below infinity is found. -/
example : ∃ r res, minimize { x0 := [1], freq := 0, pool := false, managed := true } fresh
    [{ wantsStop := false, xs := [[1]], vals := [.pinf], during := [], cancels := [], callback := false, after := [.stop "x", .save] }] =
      some (res, r) ∧ ∃ o ∈ r.saved, o.es.callbackStop = true ∧ o.es.bestF = .pinf :=
  ⟨_, _, rfl, _, List.mem_cons_self .., rfl, rfl⟩

/-- C83. Every state saved for a checkpoint holds the first of the smallest of all points told until then, so that a run resumed from it
has lost none of them (`e0` in `C83_cma_result_partial`). -/
theorem C83_cma_checkpoint (c : Cfg) (o : Opt) (env : List Gen) (e0 : List (Vec × PyF)) (res : Except Err Opt) (r : Run)
    (hE : ∀ g ∈ env, Evaluated g) (hs : o.es.callbackStop = false) (h0 : FirstBest e0 o.es.bestX o.es.bestF)
    (h : minimize c o env = some (res, r)) :
    ∀ q ∈ r.saved, ∃ k, FirstBest (e0 ++ points ((whole c env).take k)) q.es.bestX q.es.bestF := by
  obtain ⟨_, rfl, _⟩ := Cma.minimize_some h
  intro q hq
  rcases Cma.loop_saved c env (start o) hs hE e0 h0 q hq with h | h
  · simp [start] at h
  · exact h

/-! ## C84: stopping and success -/

/-- C84. As soon as the callbacks or the manager tell the optimizer to stop, in whichever part of an iteration it listens to
them, `minimize` returns after this iteration: no other population is asked for. -/
theorem C84_cma_stops (c : Cfg) (o : Opt) (pre : List Gen) (g : Gen) (hE : ∀ g' ∈ pre ++ [g], Evaluated g') (hg : stopsIn c g ≠ []) :
    (minimize c o (pre ++ [g])).isSome = true ∧ ∀ post, minimize c o (pre ++ g :: post) = minimize c o (pre ++ [g]) := by
  obtain ⟨_, h2⟩ := Cma.loop_stop c pre g [] (start o) hg hE
  refine ⟨by simp [minimize, h2], fun post => ?_⟩
  obtain ⟨h1, _⟩ := Cma.loop_stop c pre g post (start o) hg hE
  simp only [minimize, h1]

/-- C84. `minimize` does not return before: the run goes on as long as neither the strategy, nor the callbacks, nor the manager stop it. -/
theorem C84_cma_goes_on (c : Cfg) (o : Opt) (env : List Gen) (hE : ∀ g ∈ env, Evaluated g) (hs : o.es.callbackStop = false)
    (hg : ∀ g ∈ env, g.wantsStop = false ∧ stopsIn c g = []) : minimize c o env = none := by
  have hi : ∀ env : List Gen, (∀ g ∈ env, g.wantsStop = false ∧ stopsIn c g = []) → iterations c env = env := by
    intro env h
    induction env with
    | nil => rfl
    | cons g t ih =>
      have := h g (by simp)
      simp [iterations, this.1, this.2, ih (fun g' h' => h g' (by simp [h']))]
  obtain ⟨_, _, _, _, _, f6⟩ := Cma.loop_facts c env (start o) hs hE
  have hr : received c env = [] := by
    unfold received; rw [hi env hg]
    simp only [List.flatMap_eq_nil_iff]; exact fun g h => (hg g h).2
  rw [hi env hg, hr] at f6
  have : (loop c env (start o)).2 = false := by
    cases h : (loop c env (start o)).2
    · rfl
    · have := f6.mp h; simp at this
  simp [minimize, this]

/-- C84 (partial). A run is reported as a success exactly if its value is finite and the last stop received is neither a crash nor
the termination by the manager.

Missing: the convergence of the strategy is never a success, see `C84_convergence_refuted`. -/
theorem C84_cma_success_partial (c : Cfg) (env : List Gen) (o' : Opt) (r : Run) (hE : ∀ g ∈ env, Evaluated g)
    (h : minimize c fresh env = some (.ok o', r)) :
    o'.success = true ↔ o'.fx.isFinite = true ∧ ∃ reason, (received c env).getLast? = some reason ∧ Good reason := by
  obtain ⟨_, rfl, hf⟩ := Cma.minimize_some h
  obtain ⟨_, _, _, f4, _⟩ := Cma.loop_facts c env (start fresh) rfl hE
  generalize hR : (loop c env (start fresh)).1 = R at *
  have hv : R.o.success = true ↔ ∃ reason, (received c env).getLast? = some reason ∧ Good reason := by
    rw [f4]
    unfold Cma.verdict
    cases hl : (received c env).getLast? with
    | none => simp [start, fresh]
    | some r => simp [unsuccessful, Good]
  rw [← hv]
  unfold finish at hf
  split at hf
  · rename_i hp
    split at hf
    · cases hf
    · cases hf; simp [setResult, hp, PyF.isFinite]
  · cases hf; simp [setResult]

/-- C84, refuted part: a run which ends because the strategy has converged, without any stop received, is reported as a failure,
whatever value it has found. -/
theorem C84_convergence_refuted (c : Cfg) (env : List Gen) (o' : Opt) (r : Run) (hE : ∀ g ∈ env, Evaluated g)
    (h : minimize c fresh env = some (.ok o', r)) (hr : received c env = []) : o'.success = false := by
  have := C84_cma_success_partial c env o' r hE h
  rw [hr] at this
  simpa using this

/-- One generation, then convergence. -/
def cmaConverges : List Gen :=
  [{ wantsStop := false, xs := [[1], [2]], vals := [.fin 9, .fin 5], during := [], cancels := [], callback := false, after := [] },
   { wantsStop := true, xs := [[1], [2]], vals := [.fin 9, .fin 5], during := [], cancels := [], callback := false, after := [] }]

example : received { x0 := [1], freq := 0, pool := false, managed := true } cmaConverges = [] ∧
    ((minimize { x0 := [1], freq := 0, pool := false, managed := true } fresh cmaConverges).map fun p =>
      p.1.toOption.map fun o => (o.x, o.fx, o.success)) = some (some (some [2], .fin 5, false)) := by decide +kernel

/-- Stopped by a callback: a success; the manager's termination afterwards makes it a failure. -/
example : ((minimize { x0 := [1], freq := 0, pool := false, managed := true } fresh
      [{ wantsStop := false, xs := [[1]], vals := [.fin 9], during := [], cancels := [], callback := true, after := [] }]).map fun p =>
      p.1.toOption.map (·.success)) = some (some true) ∧
    ((minimize { x0 := [1], freq := 0, pool := false, managed := true } fresh
      [{ wantsStop := false, xs := [[1]], vals := [.fin 9], during := [], cancels := [], callback := true,
         after := [.stop "Manager termination signal"] }]).map fun p => p.1.toOption.map (·.success)) = some (some false) := by
  decide +kernel

end Glompo.Props
