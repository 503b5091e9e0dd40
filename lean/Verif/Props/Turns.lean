import Verif.Props.Bundled

/-! # C138: every configured optimizer gets its turn -/

namespace Glompo.Props

open Glompo.Spec Glompo.Manager Glompo.Props.Runs

namespace Turns

open Bundles

/-- A bundled selector refuses only if one of the optimizers does not fit the slots. -/
theorem bundled_refuse {opts : List AvailOpt} {allow : SelView → Bool} {sel : List Req → List Sel} (hb : Bundled opts allow sel) (hne : opts ≠ [])
    {reqs : List Req} {j : Nat} {r : Req} (hr : reqs[j]? = some r) (ha : (sel reqs)[j]? = some .nothing) : ∃ o ∈ opts, r.slots < o.workers := by
  cases hb with
  | cycle i =>
    induction reqs generalizing j i with
    | nil => simp at hr
    | cons q t ih =>
      have hsel : (Cycle.mk opts allow i).run (q :: t) = ((((Cycle.mk opts allow i).select q).1.run t).1, ((Cycle.mk opts allow i).select q).2 :: (((Cycle.mk opts allow i).select q).1.run t).2) := rfl
      dsimp only at ha ih
      rw [hsel] at ha
      cases j with
      | zero =>
        simp only [List.getElem?_cons_zero, Option.some.injEq] at hr ha
        subst hr
        simp only [Cycle.select] at ha
        split at ha
        · cases ha
        split at ha
        · cases ha
        split at ha
        · cases ha
        rename_i o' h3
        split at ha
        · rename_i h4
          exact ⟨o', List.mem_of_getElem? h3, h4⟩
        · cases ha
      | succ j =>
        simp only [List.getElem?_cons_succ] at hr ha
        obtain ⟨i', hi'⟩ : ∃ i', ((Cycle.mk opts allow i).select q).1 = Cycle.mk opts allow i' := by
          simp only [Cycle.select]
          split
          · exact ⟨_, rfl⟩
          split
          · exact ⟨_, rfl⟩
          split
          · exact ⟨_, rfl⟩
          split
          · exact ⟨_, rfl⟩
          · exact ⟨_, rfl⟩
        rw [hi'] at ha
        exact ih hr i' ha
  | chain ths g =>
    induction reqs generalizing j g with
    | nil => simp at hr
    | cons q t ih =>
      have hsel : (Chain.mk opts ths allow g).run (q :: t) = ((((Chain.mk opts ths allow g).select q).1.run t).1, ((Chain.mk opts ths allow g).select q).2 :: (((Chain.mk opts ths allow g).select q).1.run t).2) := rfl
      dsimp only at ha ih
      rw [hsel] at ha
      cases j with
      | zero =>
        simp only [List.getElem?_cons_zero, Option.some.injEq] at hr ha
        subst hr
        simp only [Chain.select] at ha
        split at ha
        · cases ha
        split at ha
        · cases ha
        rename_i o' h3
        split at ha
        · rename_i h4
          exact ⟨o', List.mem_of_getElem? h3, h4⟩
        · cases ha
      | succ j =>
        simp only [List.getElem?_cons_succ] at hr ha
        obtain ⟨i', hi'⟩ : ∃ i', ((Chain.mk opts ths allow g).select q).1 = Chain.mk opts ths allow i' := by
          simp only [Chain.select]
          split
          · exact ⟨_, rfl⟩
          split
          · exact ⟨_, rfl⟩
          split
          · exact ⟨_, rfl⟩
          · exact ⟨_, rfl⟩
        rw [hi'] at ha
        exact ih hr i' ha
  | random =>
    simp only [List.getElem?_map, hr, Option.map_some, Option.some.injEq] at ha
    simp only [randomSelect] at ha
    split at ha
    · cases ha
    split at ha
    · rename_i h2
      obtain ⟨o, t, rfl⟩ := List.exists_cons_of_ne_nil hne
      refine ⟨o, by simp, ?_⟩
      by_contra hc
      rw [List.length_eq_zero_iff, List.filter_eq_nil_iff] at h2
      exact h2 o (by simp) (by simpa using hc)
    · split at ha <;> cases ha

variable {cfg : Cfg} {s : State}

/-- The manager offers no more slots than it has. -/
theorem offered_le (hs : Startable cfg s) (fuel : Nat) (e : Env) (hf : SelectorFits (happened cfg s fuel e)) {pre post : List Ev} {k : Int}
    {a : SelAns} (h : thisRun cfg s fuel e = pre ++ .asked k a :: post) : k ≤ cfg.maxJobs := by
  have hsplit := EndToEnd.happened_split hs fuel e
  have h' : happened cfg s fuel e = (s.ev ++ pre) ++ .asked k a :: post := by rw [hsplit, h, List.append_assoc]
  have h2 := (C18_slots_never_oversubscribed hs fuel e hf).2.1 (s.ev ++ pre) k a post h'
  rw [inForce_run hs fuel e h] at h2
  have g := moment_good hs fuel e
  rw [h'] at g hf
  have hn := slots_nonneg (s.ev ++ pre) (afterEach_prefix g) fun k w c hm => hf k w c (List.mem_append_left _ hm)
  have : 0 ≤ load (s.ev ++ pre) := by
    unfold load
    apply Overshoot.sum_nonneg'
    intro x hx
    obtain ⟨p, hp, rfl⟩ := List.mem_map.mp hx
    exact hn p (List.mem_of_mem_filter hp)
  omega

end Turns

open Turns Bundles

variable {cfg : Cfg} {s : State} {opts : List AvailOpt} {allow : SelView → Bool} {sel : List Req → List Sel}

/-- C138, as far as it holds. If no configured optimizer has more workers than `max_jobs`, a bundled selector never refuses while all slots are
free: so whenever it has none to start, some slots were counted as taken by others. -/
theorem C138_refused_partial (fuel : Nat) (e : Env) (hb : Bundled opts allow sel) (hne : opts ≠ []) (ho : ∀ o ∈ opts, o.workers ≤ cfg.maxJobs)
    (hsel : SelectedBy sel s.ev (thisRun cfg s fuel e)) {pre post : List Ev} {k : Int} (h : thisRun cfg s fuel e = pre ++ .asked k .nothing :: post) :
    k < cfg.maxJobs := by
  obtain ⟨reqs, hq, ha⟩ := hsel
  have hq' : (reqs.map fun r => (r.view, r.slots))[(questions s.ev pre).length]? = some (seenBySelector (s.ev ++ pre), k) := by
    rw [hq, h, questions_append]
    simp [questions]
  have ha' : (sel reqs)[(questions s.ev pre).length]? = some .nothing := by
    rw [ha, h, replies_append, questions_length]
    simp [repliesIn, inWords]
  rw [List.getElem?_map, Option.map_eq_some_iff] at hq'
  obtain ⟨r, hr, hv⟩ := hq'
  simp only [Prod.mk.injEq] at hv
  obtain ⟨o, hm, hlt⟩ := bundled_refuse hb hne hr ha'
  have := ho o hm
  omega

/-- **C138, refuted in general.** Nothing checks that the optimizers fit `max_jobs`. If the one at position `j` of a cycle selector has more workers
than that, then a new manager never creates more than `j` optimizers, whatever happens and however long it runs: neither this one nor those
configured after it ever start. This is only noticed when nobody else is at work any more, and then the optimization ends with an exception. -/
theorem C138_blocked_refuted (fuel : Nat) (e : Env) (hpos : ∀ o ∈ opts, 0 ≤ o.workers) {j : Nat} {o : AvailOpt} (hj : opts[j]? = some o)
    (hw : cfg.maxJobs < o.workers)
    (hsel : SelectedBy (fun reqs => ((Cycle.init opts allow).run reqs).2) [] (happened cfg (init cfg) fuel e)) :
    (newIdsOf (happened cfg (init cfg) fuel e)).length ≤ j := by
  by_contra hc
  have hlt : j < opts.length := (List.getElem?_eq_some_iff.mp hj).1
  have hne : opts ≠ [] := by rintro rfl; simp at hlt
  have hth : thisRun cfg (init cfg) fuel e = happened cfg (init cfg) fuel e := by
    have := EndToEnd.happened_split (Startable.fresh cfg) fuel e
    simpa [init] using this.symm
  obtain ⟨h1, h2⟩ := C137_cycle fuel e hne hsel
  have hids : newIdsOf (happened cfg (init cfg) fuel e) = List.range' 1 (moment cfg (init cfg) fuel e).oCounter :=
    (moment_inv (Startable.fresh cfg) fuel e).ids
  have hmem : j + 1 ∈ newIdsOf (happened cfg (init cfg) fuel e) := by
    rw [hids, List.length_range'] at hc
    rw [hids, List.mem_range'_1]
    omega
  obtain ⟨cls, pre, k, w, post, hp⟩ := h1 (j + 1) hmem
  have ho := h2 (j + 1) pre k w cls post hp
  rw [Nat.add_sub_cancel, Nat.mod_eq_of_lt hlt, hj] at ho
  cases ho
  have hb : Bundled opts allow fun reqs => ((Cycle.init opts allow).run reqs).2 := .cycle (-1)
  have hch : ∀ slots w c, Ev.asked slots (.chosen w c) ∈ happened cfg (init cfg) fuel e → AvailOpt.mk c w ∈ opts ∧ w ≤ slots := by
    have := (C137_fits (s := init cfg) fuel e hb (by rw [hth]; exact hsel)).1
    rwa [hth] at this
  have hf : SelectorFits (happened cfg (init cfg) fuel e) := fun k w c hm => ⟨hpos _ (hch k w c hm).1, (hch k w c hm).2⟩
  have hle := offered_le (Startable.fresh cfg) fuel e hf (by rw [hth]; exact hp)
  have := (hch k w cls (by rw [hp]; simp)).2
  dsimp only at hw
  omega

/-- One optimizer is started; the slot left is refused again and again. -/
def stuck : Env := [b false, u, u, ⟨[], .sel (.chosen 1 "A")⟩, u, u, u, ⟨[], .sel .nothing⟩, u, sg none, ch [r 1 3], nothing, files, b false,
  u, u, b false, u, u, b false, u, u, ⟨[], .sel .nothing⟩]

/-- Nobody is at work, and the selector has none for the two slots. -/
def hopeless : Env := [b false, u, u, ⟨[], .sel .nothing⟩, u, u, u, u]

/-- The hypotheses of the refutation are met: the second of three optimizers has three workers, `max_jobs` is two; the third would fit the slot left. -/
example : SelectedBy (fun reqs => ((Cycle.init [⟨"A", 1⟩, ⟨"B", 3⟩, ⟨"C", 1⟩] alwaysSpawn).run reqs).2) [] (happened cfg2 (init cfg2) 20 stuck) ∧
    (repliesIn (happened cfg2 (init cfg2) 20 stuck)).length = 3 ∧ cfg2.maxJobs = 2 :=
  ⟨⟨[⟨⟨0, 0⟩, 2, 0⟩, ⟨⟨0, 1⟩, 1, 0⟩, ⟨⟨1, 1⟩, 1, 0⟩], by decide +kernel, by decide +kernel⟩, by decide +kernel, rfl⟩

/-- If it is the first, the manager gives up with an exception; if others have the slots, nothing is noticed (above). -/
example : SelectedBy (fun reqs => ((Cycle.init [⟨"B", 3⟩, ⟨"C", 1⟩] alwaysSpawn).run reqs).2) [] (happened cfg2 (init cfg2) 20 hopeless) ∧
    ended cfg2 (init cfg2) 20 hopeless = some (.crash .notEnoughSlots) :=
  ⟨⟨[⟨⟨0, 0⟩, 2, 0⟩], by decide +kernel, by decide +kernel⟩, by decide +kernel⟩

/-- Those of the positive statement are met in the run with the chain selector above: one of three slots is offered and refused. -/
example : SelectedBy (fun reqs => ((Chain.mk [⟨"A", 2⟩, ⟨"B", 1⟩] [.fin 1] alwaysSpawn 0).run reqs).2) [] (happened cfgT3 (init cfgT3) 20 stagesRun) ∧
    Ev.asked 1 .nothing ∈ happened cfgT3 (init cfgT3) 20 stagesRun :=
  ⟨⟨[⟨⟨0, 0⟩, 3, 0⟩, ⟨⟨0, 1⟩, 1, 0⟩, ⟨⟨1, 1⟩, 1, 0⟩], by decide +kernel, by decide +kernel⟩, by decide +kernel⟩

end Glompo.Props
