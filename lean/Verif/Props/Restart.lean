import Verif.Spec.Restart
import Verif.Lemmas.ManagerResume
import Verif.Props.Spawn
import Verif.Props.Nevergrad

/-!
# C114: resumed optimizers go on with the arguments they were configured with

`alive` are the optimizers which are alive when a checkpoint is made, with their ids and the arguments they were created and called with;
`resume m' maxJobs alive` are those built from this checkpoint by a manager with the mode `m'`.
-/

namespace Glompo.Props

open Glompo Glompo.Spawn Glompo.Restart

variable {m m' : Mode Val} {maxJobs : Int} {alive l : List (Nat × Created Val)}

/-- All optimizers have a number of workers. -/
def Working (alive : List (Nat × Created Val)) : Prop := ∀ p ∈ alive, ∃ n, dictGet p.2.init "workers" = some (.int n)

theorem keepAll_ok : ∀ {alive : List (Nat × Created Val)}, Working alive →
    keepAll alive = .ok (alive.map fun p => (p.1, p.2.cls, workers p.2))
  | [], _ => rfl
  | (i, o) :: t, h => by
    obtain ⟨n, hn⟩ := h _ List.mem_cons_self
    have ht := keepAll_ok (alive := t) fun p hp => h p (List.mem_cons_of_mem _ hp)
    simp only [keepAll, keep, hn, ht, List.map_cons, workers]

theorem rejoin_map (f : Nat × Created Val → Int) (kept : List (Nat × String × Int)) : ∀ (t : List (Nat × Created Val)),
    (∀ p ∈ t, ∃ w, dictGet kept p.1 = some (p.2.cls, w)) →
    rejoin m' kept (t.map fun p => (p.1, f p)) = t.map fun p => (p.1, again m' p.2.cls (f p))
  | [], _ => rfl
  | (i, o) :: t, h => by
    obtain ⟨w, hw⟩ := h _ List.mem_cons_self
    have ht := rejoin_map f kept t fun p hp => h p (List.mem_cons_of_mem _ hp)
    simp only [List.map_cons, rejoin, hw, ht]

theorem kept_get (hnd : (alive.map (·.1)).Nodup) : ∀ p ∈ alive,
    ∃ w, dictGet (alive.map fun p => (p.1, p.2.cls, workers p.2)) p.1 = some (p.2.cls, w) := by
  induction alive with
  | nil => intro p hp; cases hp
  | cons q t ih =>
    obtain ⟨i, o⟩ := q
    rw [List.map_cons, List.nodup_cons] at hnd
    intro p hp
    rcases List.mem_cons.mp hp with rfl | hp
    · exact ⟨workers o, by simp [dictGet]⟩
    · obtain ⟨w, hw⟩ := ih hnd.2 p hp
      have hne : i ≠ p.1 := fun h => hnd.1 (h ▸ List.mem_map_of_mem (f := (·.1)) hp)
      refine ⟨w, ?_⟩
      simp only [List.map_cons, dictGet, hne, if_false] at hw ⊢
      exact hw

/-- The slots of all optimizers together. -/
def demanded (alive : List (Nat × Created Val)) : Int := (alive.map fun p => workers p.2).sum

theorem resume_eq (hnd : (alive.map (·.1)).Nodup) (hw : Working alive) :
    resume m' maxJobs alive =
      if maxJobs < demanded alive then
        if alive.length = 0 then .error .zeroDivision
        else if Init.intDiv maxJobs alive.length < 1 then .error .checkpointingError
        else .ok (alive.map fun p => (p.1, again m' p.2.cls (Init.intDiv maxJobs alive.length)))
      else .ok (alive.map fun p => (p.1, again m' p.2.cls (workers p.2))) := by
  have hg := kept_get hnd
  have ha : Init.apportion maxJobs ((alive.map fun p => (p.1, p.2.cls, workers p.2)).map fun k => (k.1, k.2.2)) =
      if maxJobs < demanded alive then
        if alive.length = 0 then .error .zeroDivision
        else if Init.intDiv maxJobs alive.length < 1 then .error .checkpointingError
        else .ok (alive.map fun p => (p.1, Init.intDiv maxJobs alive.length))
      else .ok (alive.map fun p => (p.1, workers p.2)) := by
    simp only [Init.apportion, List.map_map, Function.comp_def, List.length_map, demanded]
    rfl
  simp only [resume, keepAll_ok hw]
  rw [ha]
  by_cases h1 : maxJobs < demanded alive
  · by_cases h2 : alive.length = 0
    · simp only [h1, h2, if_true]
    · by_cases h3 : Init.intDiv maxJobs alive.length < 1
      · simp only [h1, h2, h3, if_true, if_false]
      · simp only [h1, h2, h3, if_true, if_false]
        exact congrArg _ (rejoin_map (m' := m') (fun _ => Init.intDiv maxJobs alive.length) _ alive hg)
  · simp only [h1, if_false]
    exact congrArg _ (rejoin_map (m' := m') (fun p => workers p.2) _ alive hg)

/-- **C114, partial (class and workers).** If `max_jobs` is enough for all optimizers, exactly those of the checkpoint are built again, each with its id, its class and its
workers. Otherwise each gets the same number of workers, at least one and together not more than `max_jobs`; if there are more optimizers than jobs a
`CheckpointingError` is raised. Missing: the arguments of the call and the backend, see below. -/
theorem C114_workers_partial (hnd : (alive.map (·.1)).Nodup) (hw : Working alive) :
    (demanded alive ≤ maxJobs → ∃ l, resume m' maxJobs alive = .ok l ∧
      List.Forall₂ (fun p q => q.1 = p.1 ∧ q.2.cls = p.2.cls ∧ workers q.2 = workers p.2) alive l) ∧
    (maxJobs < demanded alive → alive ≠ [] → (alive.length : Int) ≤ maxJobs → ∃ l, resume m' maxJobs alive = .ok l ∧
      List.Forall₂ (fun p q => q.1 = p.1 ∧ q.2.cls = p.2.cls ∧ workers q.2 = maxJobs / alive.length) alive l ∧
      1 ≤ maxJobs / (alive.length : Int) ∧ demanded l ≤ maxJobs) ∧
    (maxJobs < demanded alive → alive ≠ [] → maxJobs < alive.length → resume m' maxJobs alive = .error .checkpointingError) := by
  have hf : ∀ (f : Nat × Created Val → Int) (t : List (Nat × Created Val)),
      List.Forall₂ (fun p q => q.1 = p.1 ∧ q.2.cls = p.2.cls ∧ workers q.2 = f p) t (t.map fun p => (p.1, again m' p.2.cls (f p))) := by
    intro f t
    induction t with
    | nil => exact .nil
    | cons p t ih => exact .cons ⟨rfl, rfl, by simp [workers, again, dictGet]⟩ ih
  refine ⟨fun h => ?_, fun h hne hl => ?_, fun h hne hl => ?_⟩
  · rw [resume_eq hnd hw, if_neg (by omega)]
    exact ⟨_, rfl, hf _ _⟩
  · have hlen : 0 < alive.length := List.length_pos_iff.mpr hne
    have hd : Init.intDiv maxJobs alive.length = maxJobs / (alive.length : Int) :=
      Int.tdiv_eq_ediv_of_nonneg (by omega)
    have h1 : 1 ≤ maxJobs / (alive.length : Int) := Int.le_ediv_of_mul_le (by omega) (by omega)
    rw [resume_eq hnd hw, if_pos h, if_neg (by omega), if_neg (by omega), hd]
    refine ⟨_, rfl, hf _ _, h1, ?_⟩
    have hsum : ∀ (t : List (Nat × Created Val)) (k : Int),
        demanded (t.map fun p => (p.1, again m' p.2.cls k)) = (t.length : Int) * k := by
      intro t k
      induction t with
      | nil => simp [demanded]
      | cons p t ih =>
        simp only [demanded, List.map_cons, List.sum_cons, List.length_cons] at ih ⊢
        rw [ih]
        simp only [workers, again, dictGet, if_true]
        push_cast
        ring
    rw [hsum]
    exact Int.mul_ediv_self_le (by omega)
  · have hlen : 0 < alive.length := List.length_pos_iff.mpr hne
    have : Init.intDiv maxJobs alive.length < 1 := by
      show Int.tdiv maxJobs alive.length < 1
      by_contra hc
      have := Manager.share_le (a := maxJobs) (b := alive.length) (by omega)
      nlinarith
    rw [resume_eq hnd hw, if_pos h, if_neg (by omega), if_pos this]

/-- What every resumed optimizer is called with. -/
theorem resumed_mem (hnd : (alive.map (·.1)).Nodup) (hw : Working alive) (hl : resume m' maxJobs alive = .ok l) {i : Nat} {o' : Created Val}
    (ho' : (i, o') ∈ l) : ∃ o s, (i, o) ∈ alive ∧ o' = again m' o.cls s := by
  rw [resume_eq hnd hw] at hl
  split at hl
  · split at hl
    · cases hl
    · split at hl
      · cases hl
      · cases hl
        obtain ⟨p, hp, he⟩ := List.mem_map.mp ho'
        cases he
        exact ⟨_, _, hp, rfl⟩
  · cases hl
    obtain ⟨p, hp, he⟩ := List.mem_map.mp ho'
    cases he
    exact ⟨_, _, hp, rfl⟩

theorem alive_unique (hnd : (alive.map (·.1)).Nodup) {i : Nat} {o o' : Created Val} (h : (i, o) ∈ alive) (h' : (i, o') ∈ alive) : o = o' := by
  induction alive with
  | nil => cases h
  | cons q t ih =>
    rw [List.map_cons, List.nodup_cons] at hnd
    rcases List.mem_cons.mp h with rfl | h1 <;> rcases List.mem_cons.mp h' with e | h2
    · exact (Prod.mk.inj e).2.symm
    · exact (hnd.1 (List.mem_map_of_mem (f := (·.1)) h2)).elim
    · subst e; exact (hnd.1 (List.mem_map_of_mem (f := (·.1)) h1)).elim
    · exact ih hnd.2 h1 h2

variable {σ : Spawn.Store Val} {items : List Item}

/-- The optimizer `id` was the `n`-th the selector chose, with its `i`-th element `it`; it was alive when the checkpoint was made, with `o` the arguments it was
created with, and was built again with `o'`. -/
structure Resumed (m m' : Mode Val) (σ : Spawn.Store Val) (items : List Item) (choices : List Nat) (maxJobs : Int) (alive l : List (Nat × Created Val))
    (it : Item) (o o' : Created Val) : Prop where
  ids : (alive.map (·.1)).Nodup
  working : Working alive
  built : resume m' maxJobs alive = .ok l
  chosen : ∃ (n i : Nat), choices[n]? = some i ∧ items[i]? = some it ∧ (run (.int 1) m σ items choices).2[n]? = some (some o)
  both : ∃ id, (id, o) ∈ alive ∧ (id, o') ∈ l

theorem resumed_first (hs : Sound σ items) {choices : List Nat} {it : Item} {o o' : Created Val}
    (h : Resumed m m' σ items choices maxJobs alive l it o o') :
    ArgsAsAsked (.int 1) σ it o ∧ ∃ s, o' = again m' it.cls s := by
  obtain ⟨n, i, hn, hi, hr⟩ := h.chosen
  have ha : ArgsAsAsked (.int 1) σ it o := by
    by_cases hm : m.processes = true
    · obtain ⟨q, q1, q2, -⟩ := C110_processes_partial (.int 1) m hs hm choices n i it hn hi
      rw [hr] at q1
      cases q1
      exact q2
    · obtain ⟨q, q1, q2, -⟩ := (C110_threads (.int 1) m hs (by simpa using hm) choices).1 n i it hn hi
      rw [hr] at q1
      cases q1
      exact q2
  obtain ⟨id, h1, h2⟩ := h.both
  obtain ⟨o2, s, h3, h4⟩ := resumed_mem h.ids h.working h.built h2
  rw [← alive_unique h.ids h1 h3, ha.1] at h4
  exact ⟨ha, s, h4⟩

/-- **C114, partial.** A resumed optimizer is of the class the user asked for; if they asked neither for a backend nor for arguments of the call, it is called as they
asked for. Missing: everything else they asked for, which is lost (`C114_lost_refuted`). -/
theorem C114_as_asked_partial (hs : Sound σ items) {choices : List Nat} {it : Item} {o o' : Created Val}
    (h : Resumed m m' σ items choices maxJobs alive l it o o') :
    o'.cls = it.cls ∧
    (it.asked σ "backend" = none → (∀ k, it.askedCall σ k = none) → AsAsked m' σ it o') := by
  obtain ⟨-, s, rfl⟩ := resumed_first hs h
  refine ⟨rfl, fun hb hc => ⟨rfl, by rw [hb]; rfl, fun k => by rw [hc]; rfl⟩⟩

/-- **C114, refuted.** Whatever arguments of the call the user asked for are given to the optimizer when it is started, and are not given to it when it is resumed. Nor is
a backend they asked for. -/
theorem C114_lost_refuted (hs : Sound σ items) {choices : List Nat} {it : Item} {o o' : Created Val}
    (h : Resumed m m' σ items choices maxJobs alive l it o o') :
    (∀ k v, it.askedCall σ k = some v → dictGet o.call k = some v ∧ dictGet o'.call k = none) ∧
    (∀ b, it.asked σ "backend" = some b → b ≠ m'.default → o'.backend ≠ b) := by
  obtain ⟨ha, s, rfl⟩ := resumed_first hs h
  exact ⟨fun k v hk => ⟨(ha.2.2.2.2 k).trans hk, rfl⟩, fun b _ hb h => hb h.symm⟩

/-- **C114, refuted (CMA).** A CMA optimizer needs a positive `sigma0`, which is an argument of the call. With one it runs; resumed from whichever state, it raises
`ValueError` at once, although a resumed one has no use for `sigma0`. -/
theorem C114_cma_refuted (hs : Sound σ items) {choices : List Nat} {it : Item} {o o' : Created Val}
    (h : Resumed m m' σ items choices maxJobs alive l it o o') (q : Rat) (hq : 0 < q) (hsig : it.askedCall σ "sigma0" = some (.float (.fin q)))
    (c : CMA.Cfg) (env : List CMA.Gen) :
    cmaMinimize o.call c none env = .ok (CMA.minimize c CMA.fresh env) ∧
    ∀ saved, cmaMinimize o'.call c (some saved) env = .error .valueError := by
  obtain ⟨ha, s, rfl⟩ := resumed_first hs h
  constructor
  · have hle : PyF.le (.fin q) (.fin 0) = false := by
      simp only [PyF.le, decide_eq_false_iff_not]; exact not_le.mpr hq
    simp only [cmaMinimize, (ha.2.2.2.2 _).trans hsig, Option.getD_some, notPositive, hle, Option.getD_none]
  · intro saved; rfl

/-- **C114, refuted (Nevergrad).** A Nevergrad optimizer without or with a callback runs; resumed, it raises `TypeError` at the first value told which does not end
it. -/
theorem C114_nevergrad_refuted (hs : Sound σ items) {choices : List Nat} {it : Item} {o o' : Created Val}
    (h : Resumed m m' σ items choices maxJobs alive l it o o')
    (hcb : it.askedCall σ "callbacks" = none ∨ ∃ f, it.askedCall σ "callbacks" = some (.function f)) (zero : PyF) (t : Nevergrad.Tell)
    (ts : List Nevergrad.Tell) (ht : Nevergrad.converged zero t.fx = false) :
    (∃ w, ngMinimize o.call false zero (t :: ts) = .ok w) ∧ ngMinimize o'.call true zero (t :: ts) = .error .typeError := by
  obtain ⟨ha, s, rfl⟩ := resumed_first hs h
  constructor
  · have harg : ngArg o.call = .none ∨ ngArg o.call = .one := by
      rcases hcb with h | ⟨f, h⟩
      · exact .inl (by simp only [ngArg, (ha.2.2.2.2 _).trans h])
      · exact .inr (by simp only [ngArg, (ha.2.2.2.2 _).trans h])
    obtain ⟨w, hw, -⟩ := C88_nevergrad_stop_partial zero (ngArg o.call) harg (t :: ts)
    exact ⟨w, hw⟩
  · exact C88_resumed_refuted zero true t ts .none (.inl rfl) ht

/-- A CMA optimizer with two workers, `sigma0` and processes to evaluate with, and a Nevergrad optimizer: both are resumed. -/
example : ∃ o1 o2 l, Resumed ⟨false, .text "threads"⟩ ⟨false, .text "threads"⟩
      [[("workers", .int 2), ("backend", .text "processes")], [("sigma0", .float (.fin (1 / 2)))]]
      [.full "CMAOptimizer" (some 0) (some 1), .bare "Nevergrad"] [0, 1] 3 [(1, o1), (2, o2)] l
      (.full "CMAOptimizer" (some 0) (some 1)) o1 ⟨"CMAOptimizer", .text "threads", [("workers", .int 2)], []⟩ ∧
    o1 = ⟨"CMAOptimizer", .text "processes", [("workers", .int 2)], [("sigma0", .float (.fin (1 / 2)))]⟩ ∧
    l = [(1, ⟨"CMAOptimizer", .text "threads", [("workers", .int 2)], []⟩), (2, ⟨"Nevergrad", .text "threads", [("workers", .int 1)], []⟩)] ∧
    demanded [(1, o1), (2, o2)] = 3 := by
  refine ⟨⟨"CMAOptimizer", .text "processes", [("workers", .int 2)], [("sigma0", .float (.fin (1 / 2)))]⟩,
    ⟨"Nevergrad", .text "threads", [("workers", .int 1)], []⟩, _, ⟨by decide, ?_, by rfl, ⟨0, 0, rfl, rfl, by rfl⟩,
      ⟨1, by simp, by simp⟩⟩, rfl, rfl, by decide⟩
  intro p hp
  simp only [List.mem_cons, List.not_mem_nil, or_false] at hp
  rcases hp with rfl | rfl <;> exact ⟨_, rfl⟩

/-- Three optimizers with five workers together get one each of four jobs, and two jobs are not enough. -/
example : let o (n : Int) : Created Val := ⟨"GFLSOptimizer", .text "threads", [("workers", .int n)], []⟩
    Working [(1, o 2), (4, o 2), (5, o 1)] ∧
    resume ⟨true, .text "processes"⟩ 4 [(1, o 2), (4, o 2), (5, o 1)] =
      .ok ([1, 4, 5].map fun i => (i, ⟨"GFLSOptimizer", .text "processes", [("workers", .int 1)], []⟩)) ∧
    resume ⟨true, .text "processes"⟩ 2 [(1, o 2), (4, o 2), (5, o 1)] = .error .checkpointingError := by
  refine ⟨?_, by rfl, by rfl⟩
  intro p hp
  simp only [List.mem_cons, List.not_mem_nil, or_false] at hp
  rcases hp with rfl | rfl | rfl <;> exact ⟨_, rfl⟩

end Glompo.Props
