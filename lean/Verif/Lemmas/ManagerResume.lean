import Verif.Lemmas.ManagerProg2

/-! What a checkpoint written while the manager runs allows: continuing from it. -/

namespace Glompo.Manager

open Glompo.Spec
open Glompo.Logger (Op)

variable {cfg : Cfg}

/-! ### Slots of the optimizers loaded -/

theorem demand_mem {known : List (Nat × Int)} : ∀ {found : List (Nat × Bool)} {w : List (Nat × Int)},
    Init.demand known found = .ok w → w.map (·.1) = found.map (·.1) ∧ ∀ p ∈ w, p ∈ known := by
  intro found
  induction found with
  | nil =>
    intro w h
    simp only [Init.demand, Except.ok.injEq] at h
    subst h
    exact ⟨rfl, by simp⟩
  | cons q t ih =>
    obtain ⟨i, b⟩ := q
    intro w h
    simp only [Init.demand] at h
    split at h
    · cases h
    · rename_i v hv
      split at h
      · cases h
      · rename_i r hr
        simp only [Except.ok.injEq] at h
        subst h
        obtain ⟨h1, h2⟩ := ih hr
        refine ⟨by simp [h1], fun p hp => ?_⟩
        rcases List.mem_cons.mp hp with rfl | hp
        · exact dictGet_mem hv
        · exact h2 p hp

theorem share_sum (l : List (Nat × Int)) (k : Int) :
    ((l.map fun p => (p.1, k)).map (·.2)).sum = (l.length : Int) * k := by
  induction l with
  | nil => simp
  | cons a t ih =>
    simp only [List.map_cons, List.sum_cons, List.length_cons] at *
    rw [ih, Int.natCast_add, Int.add_mul]
    simp [Int.add_comm]

theorem share_le {a : Int} {b : Nat} (h : 1 ≤ Int.tdiv a b) : (b : Int) * Int.tdiv a b ≤ a := by
  have hm := Int.mul_tdiv_add_tmod a b
  have ha : 0 ≤ a := by
    by_cases h' : 0 ≤ a
    · exact h'
    · have : Int.tdiv a b ≤ 0 := by
        rw [← Int.neg_neg a, Int.neg_tdiv]
        have := Int.tdiv_nonneg (a := -a) (b := (b : Int)) (by omega) (by omega)
        omega
      omega
  have := Int.tmod_nonneg (b : Int) ha
  omega

theorem apportion_facts {j : Int} {w s : List (Nat × Int)} (h : Init.apportion j w = .ok s) :
    s.map (·.1) = w.map (·.1) ∧ (s.map (·.2)).sum ≤ j ∧ (s = w ∨ ∀ q ∈ s, 1 ≤ q.2) := by
  unfold Init.apportion at h
  split at h
  · split at h
    · cases h
    · split at h
      · cases h
      · rename_i hd
        simp only [Except.ok.injEq] at h
        subst h
        simp only [Init.intDiv] at *
        refine ⟨by simp [Function.comp_def], ?_, .inr fun q hq => ?_⟩
        · rw [share_sum]; exact share_le (by omega)
        · obtain ⟨p, -, rfl⟩ := List.mem_map.mp hq
          show 1 ≤ Int.tdiv j w.length
          omega
  · rename_i hlt
    simp only [Except.ok.injEq] at h
    subst h
    exact ⟨rfl, by omega, .inl rfl⟩

/-! ### While a checkpoint is being taken -/

/-- A checkpoint has begun and no evaluation was accepted since. -/
def Begun (s : State) : Prop :=
  ∃ a b, s.ev = a ++ .ckptBegin :: b ∧ Ev.ckptBegin ∉ b ∧ loggedOf s.ev = loggedOf a

theorem keeps_begun : Keeps cfg Lab.died Begun := keeps_died fun s i _ h => by
  obtain ⟨a, b, h1, h2, h3⟩ := h
  refine ⟨a, b ++ [.died i], by simp [h1], by simp [h2], ?_⟩
  show loggedOf (s.ev ++ [_]) = _
  rw [loggedOf_snoc]; exact h3

/-- `s` comes after `s1`, and no checkpoint has begun in between. -/
structure Past (s1 s : State) : Prop where
  first : s.first = s1.first
  count : s1.oCounter ≤ s.oCounter
  hist : ∃ b, s.ev = s1.ev ++ b ∧ Ev.ckptBegin ∉ b
  logged : loggedOf s1.ev <+: loggedOf s.ev

theorem past_refl (s : State) : Past s s := ⟨rfl, Nat.le_refl _, ⟨[], by simp, by simp⟩, List.prefix_refl _⟩

theorem Past.snoc {s1 s t : State} {x : Ev} (h : Past s1 s) (hf : t.first = s.first) (hc : s.oCounter ≤ t.oCounter)
    (he : t.ev = s.ev ++ [x]) (hx : x ≠ .ckptBegin) (hr : ∀ c n, x ≠ .resumed c n) : Past s1 t := by
  obtain ⟨b, h1, h2⟩ := h.hist
  refine ⟨hf.trans h.first, Nat.le_trans h.count hc, ⟨b ++ [x], by simp [he, h1], ?_⟩, ?_⟩
  · simp only [List.mem_append, List.mem_singleton, not_or]
    exact ⟨h2, fun e => hx e.symm⟩
  · rw [he, loggedOf_snoc]
    cases x with
    | accepted r => exact h.logged.trans (List.prefix_append _ _)
    | resumed c n => exact absurd rfl (hr c n)
    | _ => exact h.logged

theorem keeps_past (s1 : State) : Keeps cfg Lab.proc (Past s1) := by
  intro lab s t st ha inv h
  cases st with
  | plain _ x hx => exact h.snoc rfl (Nat.le_refl _) rfl (by rintro rfl; exact ha) (by rintro _ _ rfl; exact ha)
  | newId => exact h.snoc rfl (Nat.le_succ _) rfl (by simp) (by simp)
  | _ => first
    | exact h.snoc rfl (Nat.le_refl _) rfl (by simp) (by simp)
    | exact ⟨h.first, h.count, h.hist, h.logged⟩

/-- Whatever is saved while the manager takes a checkpoint may be continued from. -/
theorem resumable_snapshot {s1 s2 : State} {files : List Nat} (i1 : Inv cfg s1) (i2 : Inv cfg s2) (hb : Begun s1)
    (hp : Past s1 s2) (hs : Settled s2) (hn : files.Nodup) (hk : ∀ i ∈ files, i ∈ s1.packs.map (·.1)) :
    Resumable (snapshot s1 s2 files) := by
  intro c found saved s hperm hload
  unfold loadCheckpoint at hload
  split at hload
  · cases hload
  rename_i want hwant
  split at hload
  · cases hload
  rename_i slots hslots
  split at hload
  · cases hload
  simp only [Except.ok.injEq] at hload
  obtain ⟨hw1, hw2⟩ := demand_mem hwant
  obtain ⟨ha1, ha2, ha3⟩ := apportion_facts hslots
  have hsub : (Init.rebuild found slots).Sublist slots := List.filter_sublist
  have hids : slots.map (·.1) = found.map (·.1) := ha1.trans hw1
  have hchosen : ∀ p ∈ s2.slotsOf, ∃ k d, Ev.asked k (.chosen p.2 d) ∈ s2.ev := i2.chosen
  have hslot : ∀ p ∈ slots, (∃ k d, Ev.asked k (.chosen p.2 d) ∈ s2.ev) ∨ 1 ≤ p.2 := by
    intro p hp
    rcases ha3 with h | h
    · exact .inl (hchosen p (hw2 p (h ▸ hp)))
    · exact .inr (h p hp)
  have hcount : s1.log.fCounter = (loggedOf s1.ev).length := by
    rw [i1.log, (Logger.bestInv_run s1.first.traj s1.ops i1.wf).count, i1.evs]
  have htake : (loggedOf s2.ev).take s1.log.fCounter = loggedOf s1.ev := by
    obtain ⟨t, ht⟩ := hp.logged
    rw [hcount, ← ht]; simp
  have hres : Fine s2.first s2.ev (.resumed c s1.log.fCounter) := by
    obtain ⟨a, b, e1, e2, e3⟩ := hb
    obtain ⟨b', f1, f2⟩ := hp.hist
    refine ⟨hs.1, hs.2, a, b ++ b', by simp [f1, e1], by simp [e2, f2], ?_, ?_⟩
    · rw [htake, e3]
    · rw [hcount, e3]
  have hev : s.ev = s2.ev ++ [.resumed c s1.log.fCounter] := by rw [← hload]; rfl
  have mem : ∀ x, x ∈ s2.ev → x ∈ s.ev := fun x hx => by rw [hev]; exact List.mem_append_left _ hx
  have asked : ∀ k a, Ev.asked k a ∈ s.ev ↔ Ev.asked k a ∈ s2.ev := fun k a => by rw [hev]; simp
  have hkeys : ∀ i ∈ s.packs.map (·.1), i ∈ found.map (·.1) := by
    intro i hi
    rw [← hids]
    rw [← hload] at hi
    exact (hsub.map _).subset hi
  have hstart : startedOf s.ev = [] := by rw [hev, startedOf_snoc]
  have hdied : diedOf s.ev = [] := by rw [hev, diedOf_snoc]
  have hlog : loggedOf s.ev = loggedOf s1.ev := by rw [hev, loggedOf_snoc]; exact htake
  have hacc : acceptedOf s.ev = acceptedOf s2.ev := by rw [hev, acceptedOf_snoc]; simp
  have hnew : newIdsOf s.ev = newIdsOf s2.ev := by rw [hev, newIdsOf_snoc]; simp
  have hkill : killedOf s.ev = killedOf s2.ev := by rw [hev, killedOf_snoc]; simp
  have hfin : finishedOf s.ev = finishedOf s2.ev := by rw [hev, finishedOf_snoc]; simp
  have hfail : failedOf s.ev = failedOf s2.ev := by rw [hev, failedOf_snoc]; simp
  have hforce : forcedOf s.ev = forcedOf s2.ev := by rw [hev, forcedOf_snoc]; simp
  have hcheck : lastCheck s.ev = none := by rw [hev, lastCheck_snoc]
  have hcrash : sinceCrash s.ev = none := by rw [hev, sinceCrash_snoc]
  have hup : atUpdate s.ev = atUpdate s2.ev := by rw [hev, atUpdate_snoc]
  have inv : Inv c s := by
    refine
      { log := ?_, wf := ?_, evs := ?_, cnt := ?_, ids := ?_, regs := ?_, keys := ?_, nodup := ?_, startedP := ?_
        startedReg := ?_, dead := ?_, deadStarted := ?_, slots := ?_, chosen := ?_, launched := ?_, living := ?_
        vict := ?_, vnodup := ?_, vgrave := ?_, vids := ?_, conv := ?_, fgrave := ?_, opened := ?_, hunt := ?_
        spawn := ?_, res := ?_, chk := ?_, why := ?_, marks := ?_, since := ?_, hunts := ?_, stats := ?_, set := ?_
        good := ?_, rel := ?_, late := ?_, heads := ?_, kept := ?_, cls := ?_ }
    · rw [← hload]; show s1.log = (Logger.init s2.first.traj).run s1.ops
      rw [hp.first]; exact i1.log
    · rw [← hload]; exact i1.wf
    · rw [hlog, ← hload]; exact i1.evs
    · rw [hacc, ← hload]; exact i2.cnt
    · rw [hnew, ← hload]; exact i2.ids
    · rw [← hload]
      intro i hi
      have := i1.regs i hi
      exact ⟨this.1, Nat.le_trans this.2 hp.count⟩
    · intro i hi
      have hf := hperm.subset (hkeys i hi)
      have := i1.keys i (hk i hf)
      rw [← hload]; exact this
    · have : ((Init.rebuild found slots).map (·.1)).Nodup :=
        (hsub.map (·.1)).nodup (by rw [hids]; exact hperm.nodup_iff.mpr hn)
      rw [← hload]; exact this
    · intro i; rw [hstart, ← hload]; simp [resumeState]
    · rw [← hload]; simp [resumeState]
    · intro i; rw [hdied, ← hload]; simp [resumeState]
    · rw [← hload]; simp [resumeState]
    · rw [hstart]; simp
    · intro p hp'
      obtain ⟨k, d, h⟩ := hchosen p (by rw [← hload] at hp'; exact hp')
      exact ⟨k, d, mem _ h⟩
    · intro i hi
      rw [hev, launchedOf_snoc] at hi
      rw [hnew]
      exact i2.launched i (by simpa using hi)
    · rw [hstart, ← hload]
      simp [resumeState, State.alive]
    · rw [hkill, ← hload]; exact i2.vict
    · rw [← hload]; exact i2.vnodup
    · rw [← hload]; exact i2.vgrave
    · rw [hnew, ← hload]; exact i2.vids
    · rw [hfin, ← hload]; exact i2.conv
    · rw [hfin, hfail, hforce, ← hload]; exact i2.fgrave
    · rw [hlog, ← hload]; exact i1.opened
    · rw [hev, sinceHunt_snoc, ← hload]; exact i2.hunt
    · rw [← hload]
      refine i2.spawn.trans ?_
      constructor
      · intro h k hk'
        exact h k (by simpa [resumeState, snapshot] using hk')
      · intro h k hk'
        exact h k (by simpa [resumeState, snapshot] using hk')
    · rw [hev, lastResult_snoc, ← hload]; exact i2.res
    · rw [hcheck]; simp
    · rw [← hload]; intro h; cases h
    · rw [← hload]; exact ⟨Nat.zero_le _, Nat.zero_le _⟩
    · rw [hcrash, ← hload]; simp [resumeState]
    · rw [hev, huntsOf_snoc, ← hload]; simpa [resumeState, snapshot] using i2.hunts
    · unfold StatsOk; rw [hup, ← hload]; exact i2.stats
    · rw [hev, settings_snoc]
    · rw [hev, afterEach_snoc, ← hload]
      exact ⟨i2.good, hres⟩
    · intro o ho
      obtain ⟨i, e, hm⟩ := i1.rel o (by rw [← hload] at ho; exact ho)
      refine ⟨i, e, mem _ ?_⟩
      obtain ⟨b', f1, -⟩ := hp.hist
      rw [f1]; exact List.mem_append_left _ hm
    · intro pre op post e i hc hm
      obtain ⟨a, b, r, e1, e2, e3⟩ := i1.late pre op post (by rw [← hload] at e; exact e) i hc hm
      obtain ⟨b', f1, -⟩ := hp.hist
      exact ⟨a, b ++ b' ++ [.resumed c s1.log.fCounter], r, by rw [hev, f1, e1]; simp, by simp [e2], e3⟩
    · intro pre i hs post e
      obtain ⟨r, q, e1, e2, e3⟩ := i1.heads pre i hs post (by rw [← hload] at e; exact e)
      obtain ⟨b', f1, -⟩ := hp.hist
      refine ⟨r, q, e1, e2, e3.1, fun he => mem _ ?_⟩
      rw [f1]; exact List.mem_append_left _ (e3.2 he)
    · intro hL h0 h hh
      obtain ⟨b', f1, -⟩ := hp.hist
      rw [hlog] at hh
      rw [hev, f1, List.append_assoc] at hL
      rw [← hload]
      exact i1.kept (lossless_prefix hL) (fun hm => h0 (by rw [hev, f1]; simp [hm])) h hh
    · obtain ⟨b', f1, -⟩ := hp.hist
      refine ⟨fun i d hd => ?_, fun i d hd => ?_, fun i v hv => i1.cls.2.2 i v (by rw [← hload] at hv; exact hv)⟩
      · rw [hev, f1, List.append_assoc]
        exact chosenAs_append (i1.cls.1 i d (by rw [← hload] at hd; exact hd)) _
      · rw [hev]
        exact (i2.cls.2.1 i d (by rw [← hload] at hd; exact hd)).imp id fun h => chosenAs_append h _
  refine ⟨inv, ?_, ?_, ?_, hcheck, ?_, ?_, ?_, ?_, ?_, ?_⟩
  · rw [← hload]; rfl
  · rw [hev, UpToDate_snoc]; exact hs.1
  · rw [hev, inHand_snoc]; exact hs.2
  · intro _; rw [hev, sinceCheck_snoc]
  · intro _ _ n h; rw [hcrash] at h; cases h
  · rw [← hload]; rfl
  · rw [← hload]; exact .inl rfl
  · intro p hp'
    have : p ∈ slots := hsub.subset (by rw [← hload] at hp'; exact hp')
    rcases hslot p this with ⟨k, d, h⟩ | h
    · exact .inl ⟨k, d, mem _ h⟩
    · exact .inr h
  · intro _ hf
    have nn : ∀ p ∈ slots, 0 ≤ p.2 := by
      intro p hp'
      rcases hslot p hp' with ⟨k, d, h⟩ | h
      · exact (hf k p.2 d (mem _ h)).1
      · omega
    have := sum_filter_le slots (fun p => found.any fun q => q.1 == p.1 && q.2) nn
    rw [← hload]
    exact Int.le_trans this ha2

end Glompo.Manager
