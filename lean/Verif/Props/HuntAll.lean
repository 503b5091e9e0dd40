import Verif.Spec.HuntAll
import Verif.Props.Hunt

/-! # C129: a hunt is held when it is due, and everybody is judged -/

namespace Glompo.Props

open Glompo.Spec Glompo.Manager Glompo.Props.Runs

namespace HuntAll

/-- Nothing that matters in a hunt has changed. -/
structure Calm (s s' : State) : Prop where
  packs : s'.packs = s.packs
  grave : s'.graveyard = s.graveyard
  vict : s'.victims = s.victims
  has : ∀ i, s'.log.hasIterHistory i = s.log.hasIterHistory i
  best : s'.log.best = s.log.best
  count : s'.fCounter = s.fCounter
  last : s'.lastHunt = s.lastHunt
  ev : ∃ l, s'.ev = s.ev ++ l ∧ killedOf l = [] ∧ toldOf l = [] ∧ huntsOf l = []

theorem Calm.refl (s : State) : Calm s s := ⟨rfl, rfl, rfl, fun _ => rfl, rfl, rfl, rfl, [], by simp, rfl, rfl, rfl⟩

theorem kills_append (a b : List Ev) : killedOf (a ++ b) = killedOf a ++ killedOf b := List.filterMap_append
theorem told_append (a b : List Ev) : toldOf (a ++ b) = toldOf a ++ toldOf b := List.filterMap_append
theorem hunts_append (a b : List Ev) : huntsOf (a ++ b) = huntsOf a ++ huntsOf b := List.filterMap_append
theorem verdicts_append (a b : Env) : verdicts (a ++ b) = verdicts a ++ verdicts b := List.filterMap_append

theorem Calm.trans {s t u : State} (h : Calm s t) (g : Calm t u) : Calm s u := by
  obtain ⟨l, h1, h2, h3, h4⟩ := h.ev
  obtain ⟨l', g1, g2, g3, g4⟩ := g.ev
  exact ⟨g.packs.trans h.packs, g.grave.trans h.grave, g.vict.trans h.vict, fun i => (g.has i).trans (h.has i), g.best.trans h.best,
    g.count.trans h.count, g.last.trans h.last,
    l ++ l', by rw [g1, h1, List.append_assoc], by rw [kills_append, h2, g2]; rfl, by rw [told_append, h3, g3]; rfl,
    by rw [hunts_append, h4, g4]; rfl⟩

theorem calm_die : ∀ (d : List Nat) (s : State), Calm s (die d s)
  | [], s => Calm.refl s
  | i :: t, s => by
    rw [die]
    refine Calm.trans ?_ (calm_die t _)
    split
    · exact ⟨rfl, rfl, rfl, fun _ => rfl, rfl, rfl, rfl, [.died i], rfl, rfl, rfl, rfl⟩
    · exact Calm.refl s

theorem bind_ok {α β : Type} {m : M α} {f : α → M β} {s s' : State} {e e' : Env} {b : β} (h : (m >>= f) s e = (.ok b, s', e')) :
    ∃ a s1 e1, m s e = (.ok a, s1, e1) ∧ f a s1 e1 = (.ok b, s', e') := by
  have h : M.bind m f s e = _ := h
  unfold M.bind at h
  split at h
  · rename_i a s1 e1 hm; exact ⟨a, s1, e1, hm, h⟩
  · cases h
  · cases h

theorem pure_ok {α : Type} {a b : α} {s s' : State} {e e' : Env} (h : (pure a : M α) s e = (.ok b, s', e')) : b = a ∧ s' = s ∧ e' = e := by
  have h : (Out.ok a, s, e) = (.ok b, s', e') := h
  cases h; exact ⟨rfl, rfl, rfl⟩

theorem observe_ok {a : Ans} {s s' : State} {e e' : Env} (h : observe s e = (.ok a, s', e')) :
    ∃ d, e = ⟨d, a⟩ :: e' ∧ s' = die d s := by
  unfold observe at h
  split at h
  · cases h
  · rename_i o t
    split at h
    · cases h
    · cases h; exact ⟨o.deaths, rfl, rfl⟩

theorem observe_raised {x : Exc} {s s' : State} {e e' : Env} (h : observe s e = (.raised x, s', e')) :
    ∃ d y, e = ⟨d, .raise y⟩ :: e' ∧ s' = die d s := by
  unfold observe at h
  split at h
  · cases h
  · rename_i o t
    split at h
    · rename_i y hy
      cases h; exact ⟨o.deaths, y, by rw [← hy], rfl⟩
    · cases h

theorem askBool_ok {b : Bool} {s s' : State} {e e' : Env} (h : askBool s e = (.ok b, s', e')) :
    ∃ d, e = ⟨d, .bool b⟩ :: e' ∧ s' = die d s := by
  obtain ⟨a, s1, e1, h1, h2⟩ := bind_ok h
  obtain ⟨d, h3, h4⟩ := observe_ok h1
  cases a with
  | bool b' => obtain ⟨rfl, rfl, rfl⟩ := pure_ok h2; exact ⟨d, h3, h4⟩
  | _ => cases h2

theorem askUnit_ok {u : Unit} {s s' : State} {e e' : Env} (h : askUnit s e = (.ok u, s', e')) :
    ∃ d, e = ⟨d, .unit⟩ :: e' ∧ s' = die d s := by
  obtain ⟨a, s1, e1, h1, h2⟩ := bind_ok h
  obtain ⟨d, h3, h4⟩ := observe_ok h1
  cases a with
  | unit => obtain ⟨-, rfl, rfl⟩ := pure_ok h2; exact ⟨d, h3, h4⟩
  | _ => cases h2

theorem askUnit_raised {x : Exc} {s s' : State} {e e' : Env} (h : askUnit s e = (.raised x, s', e')) :
    ∃ d y, e = ⟨d, .raise y⟩ :: e' ∧ s' = die d s := by
  have h : M.bind observe _ s e = _ := h
  unfold M.bind at h
  split at h
  · rename_i a s1 e1 hm
    cases a <;> cases h
  · rename_i x' s1 e1 hm
    cases h
    exact observe_raised hm
  · cases h

theorem draw_ok {u : Unit} {s s' : State} {e e' : Env} (h : draw s e = (.ok u, s', e')) :
    ∃ used, e = used ++ e' ∧ verdicts used = [] ∧ Calm s s' := by
  obtain ⟨s0, s1, e1, h1, h2⟩ := bind_ok h
  have h1 : (Out.ok s, s, e) = (.ok s0, s1, e1) := h1
  cases h1
  split at h2
  · unfold M.tryCatch at h2
    split at h2
    · rename_i x s2 e2 hx
      obtain ⟨d, y, rfl, rfl⟩ := askUnit_raised hx
      split at h2
      · rename_i k hk
        dsimp only at hk
        split at hk
        · cases hk
          obtain ⟨-, rfl, rfl⟩ := pure_ok h2
          exact ⟨[_], rfl, rfl, calm_die d s⟩
        · cases hk
      · cases h2
    · obtain ⟨d, rfl, rfl⟩ := askUnit_ok h2
      exact ⟨[_], rfl, rfl, calm_die d _⟩
  · obtain ⟨-, rfl, rfl⟩ := pure_ok h2
    exact ⟨[], rfl, rfl, Calm.refl _⟩

theorem putMetadata_has (L : Logger) (i : Nat) (k v : String) (j : Nat) : (L.putMetadata i k v).1.hasIterHistory j = L.hasIterHistory j := by
  unfold Logger.putMetadata
  cases h : dictGet L.storage i with
  | none => rfl
  | some st =>
    simp only [Logger.hasIterHistory, dictGet_set]
    by_cases hj : j = i
    · subst hj; simp [h]
    · simp [hj]

theorem putMetadata_best (L : Logger) (i : Nat) (k v : String) : (L.putMetadata i k v).1.best = L.best := by
  unfold Logger.putMetadata
  cases h : dictGet L.storage i <;> rfl

theorem putMeta_ok {u : Unit} {i : Nat} {k v : String} {s s' : State} {e e' : Env} (h : logOp (.putMeta i k v) s e = (.ok u, s', e')) :
    e = e' ∧ Calm s s' := by
  unfold logOp at h
  split at h
  · rename_i l hl
    have hl : s.log.putMetadata i k v = (l, none) := hl
    have e1 : (s.log.putMetadata i k v).1 = l := by rw [hl]
    cases h
    exact ⟨rfl, rfl, rfl, rfl, fun j => by rw [← putMetadata_has s.log i k v j, e1], by rw [← putMetadata_best s.log i k v, e1], rfl, rfl,
      [], by simp, rfl, rfl, rfl⟩
  · cases h

/-- Shutting down. -/
theorem shutdown_ok {v : Nat} {h : Option Nat} {why : String} {u : Unit} {s s' : State} {e e' : Env}
    (hs : shutdownJob v h why s e = (.ok u, s', e')) :
    ∃ used, e = used ++ e' ∧ verdicts used = [] ∧ s'.packs = s.packs ∧ s'.graveyard = addTo s.graveyard v ∧ s'.victims = addTo s.victims v ∧
      (∀ i, s'.log.hasIterHistory i = s.log.hasIterHistory i) ∧
      ∃ l, s'.ev = s.ev ++ l ∧ killedOf l = [v] ∧ toldOf l = [v] ∧ huntsOf l = [] := by
  obtain ⟨_, s1, e1, h1, h2⟩ := bind_ok hs
  have h1 : (Out.ok (), { s with victims := addTo s.victims v, graveyard := addTo s.graveyard v, ev := s.ev ++ [Ev.killed v h] }, e) = (.ok _, s1, e1) := h1
  cases h1
  obtain ⟨_, s2, e2, h3, h4⟩ := bind_ok h2
  obtain ⟨d, rfl, rfl⟩ := askUnit_ok h3
  generalize hs0 : ({ s with victims := addTo s.victims v, graveyard := addTo s.graveyard v, ev := s.ev ++ [Ev.killed v h] } : State) = s0 at h4
  have c1 := calm_die d s0
  generalize die d s0 = s2 at h4 c1
  obtain ⟨_, s3, e3, h5, h6⟩ := bind_ok h4
  have h5 : (Out.ok (), { s2 with ev := s2.ev ++ [Ev.stop v] }, e2) = (.ok _, s3, e3) := h5
  cases h5
  obtain ⟨_, s4, e4, h7, h8⟩ := bind_ok h6
  obtain ⟨_, s5, e5, h9, h10⟩ := bind_ok h7
  obtain ⟨rfl, c2⟩ := putMeta_ok h9
  obtain ⟨rfl, c3⟩ := putMeta_ok h10
  obtain ⟨used, rfl, hv, c4⟩ := draw_ok h8
  have c := (c2.trans c3).trans c4
  obtain ⟨l1, a1, a2, a3, a4⟩ := c1.ev
  obtain ⟨l2, b1, b2, b3, b4⟩ := c.ev
  subst hs0
  refine ⟨_ :: used, rfl, hv, c.packs.trans c1.packs, c.grave.trans c1.grave, c.vict.trans c1.vict, fun i => (c.has i).trans (c1.has i),
    Ev.killed v h :: (l1 ++ Ev.stop v :: l2), ?_, ?_, ?_, ?_⟩
  · rw [b1]; show (s2.ev ++ _) ++ _ = _; rw [a1]; simp
  · show v :: killedOf (l1 ++ _) = _
    rw [kills_append, a2]; show v :: killedOf l2 = _; rw [b2]
  · show toldOf (l1 ++ _) = _
    rw [told_append, a3]; show v :: toldOf l2 = _; rw [b3]
  · show huntsOf (l1 ++ _) = _
    rw [hunts_append, a4]; show huntsOf l2 = _; rw [b4]

theorem mem_addTo (l : List Nat) (v i : Nat) : i ∈ addTo l v ↔ i ∈ l ∨ i = v := by
  unfold addTo
  split
  · rename_i h; exact ⟨.inl, fun o => o.elim id fun e => e ▸ h⟩
  · simp

/-- The hunters' choice. -/
def cand (s : State) (h v : Nat) : Bool := !decide (v ∈ s.graveyard) && s.log.hasIterHistory v && decide (v ≠ h)

theorem loop_ok {h : Nat} : ∀ (js acc : List Nat) {vs : List Nat} {s s' : State} {e e' : Env}, js.Nodup →
    huntLoop h js acc s e = (.ok vs, s', e') →
    ∃ (used : Env) (asked : List (Nat × Bool)), e = used ++ e' ∧ asked.map (·.1) = js.filter (cand s h) ∧ asked.map (·.2) = verdicts used ∧
      vs = acc ++ (asked.filter (·.2)).map (·.1) ∧
      (∃ l, s'.ev = s.ev ++ l ∧ killedOf l = (asked.filter (·.2)).map (·.1) ∧ toldOf l = (asked.filter (·.2)).map (·.1) ∧ huntsOf l = []) ∧
      (∀ i, i ∈ s'.graveyard ↔ i ∈ s.graveyard ∨ i ∈ (asked.filter (·.2)).map (·.1)) ∧
      (∀ i, i ∈ s'.victims ↔ i ∈ s.victims ∨ i ∈ (asked.filter (·.2)).map (·.1)) := by
  intro js
  induction js with
  | nil =>
    intro acc vs s s' e e' _ hh
    obtain ⟨rfl, rfl, rfl⟩ := pure_ok hh
    exact ⟨[], [], rfl, rfl, rfl, by simp, ⟨[], by simp, rfl, rfl, rfl⟩, by simp, by simp⟩
  | cons v t ih =>
    intro acc vs s s' e e' hn hh
    obtain ⟨hvt, hn⟩ := List.nodup_cons.mp hn
    obtain ⟨s0, s1, e1, h1, h2⟩ := bind_ok hh
    have h1 : (Out.ok s, s, e) = (.ok s0, s1, e1) := h1
    cases h1
    by_cases hc : v ∉ s.graveyard ∧ s.log.hasIterHistory v = true ∧ v ≠ h
    · rw [if_pos hc] at h2
      have hcand : cand s h v = true := by simp [cand, hc.1, hc.2.1, hc.2.2]
      obtain ⟨kill, s2, e2, h3, h4⟩ := bind_ok h2
      obtain ⟨d, rfl, hs2⟩ := askBool_ok h3
      have c1 : Calm s s2 := hs2 ▸ calm_die d s
      obtain ⟨l1, a1, a2, a3, a4⟩ := c1.ev
      obtain ⟨s3, s4, e4, h5, h6⟩ := bind_ok h4
      have h5 : (Out.ok s2, s2, e2) = (.ok s3, s4, e4) := h5
      cases h5
      cases kill with
      | false =>
        rw [if_neg (by simp)] at h6
        obtain ⟨used, asked, rfl, b1, b2, b3, ⟨l, b4, b5, b6, b6'⟩, b7, b8⟩ := ih acc hn h6
        refine ⟨_ :: used, (v, false) :: asked, rfl, ?_, ?_, by simpa using b3, ⟨l1 ++ l, by rw [b4, a1, List.append_assoc], ?_, ?_, ?_⟩, ?_, ?_⟩
        · rw [List.filter_cons, if_pos hcand, List.map_cons, b1]
          congr 1
          exact List.filter_congr fun i _ => by simp [cand, c1.grave, c1.has]
        · rw [List.map_cons, b2]; rfl
        · rw [kills_append, a2, b5]; simp
        · rw [told_append, a3, b6]; simp
        · rw [hunts_append, a4, b6']; simp
        · intro i; rw [b7, c1.grave]; simp
        · intro i; rw [b8, c1.vict]; simp
      | true =>
        rw [if_pos ⟨rfl, by rw [c1.grave]; exact hc.1⟩] at h6
        obtain ⟨_, s5, e5, h7, h8⟩ := bind_ok h6
        obtain ⟨u1, rfl, k1, k2, k3, k4, k5, l2, k6, k7, k8, k9⟩ := shutdown_ok h7
        obtain ⟨used, asked, rfl, b1, b2, b3, ⟨l, b4, b5, b6, b6'⟩, b7, b8⟩ := ih (acc ++ [v]) hn h8
        refine ⟨⟨d, .bool true⟩ :: (u1 ++ used), (v, true) :: asked, by simp, ?_, ?_, by simpa using b3,
          ⟨l1 ++ l2 ++ l, by rw [b4, k6, a1]; simp, ?_, ?_, ?_⟩, ?_, ?_⟩
        · rw [List.filter_cons, if_pos hcand, List.map_cons, b1]
          congr 1
          refine List.filter_congr fun i hi => ?_
          have hiv : i ≠ v := fun e => hvt (e ▸ hi)
          simp [cand, k3, k5, c1.grave, c1.has, mem_addTo, hiv]
        · rw [List.map_cons, b2]
          show true :: _ = true :: verdicts (u1 ++ used)
          rw [verdicts_append, k1]; rfl
        · rw [kills_append, kills_append, a2, k7, b5]; simp
        · rw [told_append, told_append, a3, k8, b6]; simp
        · rw [hunts_append, hunts_append, a4, k9, b6']; simp
        · intro i; rw [b7, k3, mem_addTo, c1.grave]; simp [or_assoc]
        · intro i; rw [b8, k4, mem_addTo, c1.vict]; simp [or_assoc]
    · rw [if_neg hc] at h2
      have hcand : cand s h v = false := by
        cases hx : cand s h v with
        | false => rfl
        | true => exact absurd (by simpa [cand, and_assoc] using hx) hc
      obtain ⟨used, asked, rfl, b1, b2, b3, b4, b7, b8⟩ := ih acc hn h2
      exact ⟨used, asked, rfl, by rw [List.filter_cons, hcand]; simpa using b1, b2, b3, b4, b7, b8⟩

theorem share_ok {b : BestIter} : ∀ (js : List Nat) {u : Unit} {s s' : State} {e e' : Env},
    shareLoop b js s e = (.ok u, s', e') → Calm s s' ∧ ∃ used, e = used ++ e' ∧ verdicts used = [] := by
  intro js
  induction js with
  | nil =>
    intro u s s' e e' h
    obtain ⟨-, rfl, rfl⟩ := pure_ok h
    exact ⟨Calm.refl _, [], rfl, rfl⟩
  | cons i t ih =>
    intro u s s' e e' h
    rw [shareLoop] at h
    split at h
    · obtain ⟨al, s1, e1, h1, h2⟩ := bind_ok h
      obtain ⟨_, s2, e2, h3, h4⟩ := bind_ok h1
      obtain ⟨d, rfl, hs2⟩ := askUnit_ok h3
      have c1 : Calm s s2 := hs2 ▸ calm_die d s
      obtain ⟨s3, s4, e4, h5, h6⟩ := bind_ok h4
      have h5 : (Out.ok s2, s2, e2) = (.ok s3, s4, e4) := h5
      cases h5
      obtain ⟨rfl, ha, hb⟩ := pure_ok h6
      subst ha hb
      split at h2
      · obtain ⟨_, s5, e5, h7, h8⟩ := bind_ok h2
        have h7 : (Out.ok (), { s1 with ev := s1.ev ++ [Ev.share i b.x b.fx] }, e1) = (.ok _, s5, e5) := h7
        cases h7
        obtain ⟨c2, used, rfl, hv⟩ := ih h8
        have c3 : Calm s1 { s1 with ev := s1.ev ++ [Ev.share i b.x b.fx] } :=
          ⟨rfl, rfl, rfl, fun _ => rfl, rfl, rfl, rfl, _, rfl, rfl, rfl, rfl⟩
        exact ⟨(c1.trans c3).trans c2, _ :: used, rfl, hv⟩
      · obtain ⟨c2, used, rfl, hv⟩ := ih h2
        exact ⟨c1.trans c2, _ :: used, rfl, hv⟩
    · exact ih h

theorem start_ok {h : Nat} {vs : List Nat} {s s' : State} {e e' : Env} (hn : (s.packs.map (·.1)).Nodup)
    (hh : startHunt h s e = (.ok vs, s', e')) :
    ∃ used, e = used ++ e' ∧ AllJudged (Quarry s h) s s' used vs ∧ ∃ l, s'.ev = s.ev ++ l ∧ huntsOf l = [h] := by
  obtain ⟨_, s1, e1, h1, h2⟩ := bind_ok hh
  have h1 : (Out.ok (), { s with huntCounter := s.huntCounter + 1, lastHunt := s.fCounter, ev := s.ev ++ [Ev.hunt h] }, e) = (.ok _, s1, e1) := h1
  cases h1
  obtain ⟨s2, s3, e3, h3, h4⟩ := bind_ok h2
  cases (show (Out.ok _, _, _) = (Out.ok s2, s3, e3) from h3)
  obtain ⟨used, asked, b0, b1, b2, b3, ⟨l, b4, b5, b6, b6'⟩, b7, b8⟩ := loop_ok _ [] hn h4
  have b3 : vs = (asked.filter (·.2)).map (·.1) := by simpa using b3
  refine ⟨used, b0, ⟨⟨asked, b1, b2, b3⟩, ⟨Ev.hunt h :: l, by rw [b4]; simp, by rw [b3]; exact b5, by rw [b3]; exact b6⟩, by rw [b3]; exact b7,
    by rw [b3]; exact b8⟩, Ev.hunt h :: l, by rw [b4]; simp, ?_⟩
  show h :: huntsOf l = _
  rw [b6']

theorem update_ok {cfg : Cfg} {u : Unit} {s s' : State} {e e' : Env} (h : updateBestResult cfg s e = (.ok u, s', e')) :
    Calm s s' ∧ (∃ t, s'.result.origin = some (s.log.best.optId, t)) ∧ ∃ used, e = used ++ e' ∧ verdicts used = [] := by
  obtain ⟨s0, s1, e1, h1, h2⟩ := bind_ok h
  have h1 : (Out.ok s, s, e) = (.ok s0, s1, e1) := h1
  cases h1
  dsimp only at h2
  split at h2
  · obtain ⟨_, s2, e2, h3, h4⟩ := bind_ok h2
    cases (show (Out.ok (), _, _) = (Out.ok u, s', e') from h4)
    obtain ⟨c, hu⟩ := share_ok _ h3
    exact ⟨c.trans ⟨rfl, rfl, rfl, fun _ => rfl, rfl, rfl, rfl, _, rfl, rfl, rfl, rfl⟩, ⟨_, rfl⟩, hu⟩
  · cases (show (Out.ok (), _, _) = (Out.ok u, s', e') from h2)
    exact ⟨⟨rfl, rfl, rfl, fun _ => rfl, rfl, rfl, rfl, _, rfl, rfl, rfl, rfl⟩, ⟨_, rfl⟩, [], rfl, rfl⟩

end HuntAll

open HuntAll in
/-- C129. A hunt which ends without an exception has asked the hunting conditions about everybody it could be about, once, in the order of
their start, and has shut down and told to stop those condemned, and nobody else. -/
theorem C129_everybody_judged {h : Nat} {vs : List Nat} {s s' : State} {e e' : Env} (hn : (s.packs.map (·.1)).Nodup)
    (hh : startHunt h s e = (.ok vs, s', e')) : ∃ used, e = used ++ e' ∧ AllJudged (Quarry s h) s s' used vs := by
  obtain ⟨used, h1, h2, -⟩ := start_ok hn hh
  exact ⟨used, h1, h2⟩

open HuntAll in
/-- C129. After an evaluation a hunt is held if and only if the best optimizer is known, there are hunting conditions and so many evaluations
were accepted since the last hunt; the hunter is the one with the best value; everybody else is judged. Otherwise nobody is shut down. -/
theorem C129_when_due {cfg : Cfg} {vs : List Nat} {s s' : State} {e e' : Env} (hn : (s.packs.map (·.1)).Nodup)
    (hc : s.lastHunt + sinceHunt s.ev = s.fCounter) (hh : huntIfDue cfg s e = (.ok vs, s', e')) :
    let due := 0 < s.log.best.optId ∧ cfg.hunting = true ∧ cfg.huntFrequency ≤ sinceHunt s.ev
    ∃ l used, s'.ev = s.ev ++ l ∧ e = used ++ e' ∧
      (due → huntsOf l = [s.log.best.optId] ∧ AllJudged (Quarry s s.log.best.optId) s s' used vs) ∧
      (¬ due → huntsOf l = [] ∧ killedOf l = [] ∧ toldOf l = [] ∧ verdicts used = [] ∧ vs = []) := by
  intro due
  obtain ⟨_, s1, e1, h1, h2⟩ := bind_ok hh
  obtain ⟨c, ⟨t, ht⟩, u1, rfl, hv⟩ := update_ok h1
  obtain ⟨s2, s3, e3, h3, h4⟩ := bind_ok h2
  cases (show (Out.ok s1, s1, e1) = (Out.ok s2, s3, e3) from h3)
  obtain ⟨l1, a1, a2, a3, a4⟩ := c.ev
  rw [ht] at h4
  simp only [] at h4
  have hi : (s1.fCounter : Int) - s1.lastHunt = sinceHunt s.ev := by rw [c.count, c.last, ← hc]; push_cast; ring
  rw [hi] at h4
  by_cases hd : due
  · rw [if_pos hd] at h4
    obtain ⟨used, rfl, ⟨⟨asked, j1, j2, j3⟩, ⟨l, b1, b2, b3⟩, b4, b5⟩, l', b6, b7⟩ := start_ok (by rw [c.packs]; exact hn) h4
    have hl : l = l' := List.append_cancel_left (b1.symm.trans b6)
    subst hl
    have hq : Quarry s1 s.log.best.optId = Quarry s s.log.best.optId := by
      unfold Quarry
      rw [c.packs]
      exact List.filter_congr fun i _ => by rw [c.grave, c.has]
    refine ⟨l1 ++ l, u1 ++ used, by rw [b1, a1, List.append_assoc], by rw [List.append_assoc], fun _ => ⟨by rw [hunts_append, a4, b7]; rfl, ?_⟩,
      fun n => absurd hd n⟩
    refine ⟨⟨asked, by rw [j1, hq], by rw [verdicts_append, hv, j2]; rfl, j3⟩,
      ⟨l1 ++ l, by rw [b1, a1, List.append_assoc], by rw [kills_append, a2, b2]; rfl, by rw [told_append, a3, b3]; rfl⟩,
      fun i => by rw [b4, c.grave], fun i => by rw [b5, c.vict]⟩
  · rw [if_neg hd] at h4
    obtain ⟨rfl, rfl, rfl⟩ := pure_ok h4
    exact ⟨l1, u1, a1, rfl, fun n => absurd n hd, fun _ => ⟨a4, a2, a3, hv, rfl⟩⟩


/-- The second evaluation of the run `demo` makes a hunt due; optimizer 1 is judged and condemned. After the first none is due. -/
example : ((moment cfg2 (init cfg2) 20 (demo.take 16)).packs.map (·.1)).Nodup ∧ sinceHunt (happened cfg2 (init cfg2) 20 (demo.take 16)) = 2 ∧
    Quarry (moment cfg2 (init cfg2) 20 (demo.take 16)) 2 = [1] ∧
    (huntIfDue cfg2 (moment cfg2 (init cfg2) 20 (demo.take 16)) (demo.drop 16)).1 = .ok [1] ∧
    demo.drop 16 = [u, b true, u] ++ (huntIfDue cfg2 (moment cfg2 (init cfg2) 20 (demo.take 16)) (demo.drop 16)).2.2 ∧
    verdicts [u, b true, u] = [true] ∧
    (huntIfDue cfg2 (moment cfg2 (init cfg2) 20 (demo.take 15)) (demo.drop 15)).1 = .ok [] := by decide +kernel

/-- C129. At any moment of any run no two optimizers of the manager have the same number, and the manager's counters tell the number of
evaluations accepted since the last hunt. -/
theorem C129_numbers {cfg : Cfg} {s0 : State} (hs : Startable cfg s0) (fuel : Nat) (e : Env) :
    ((moment cfg s0 fuel e).packs.map (·.1)).Nodup ∧
    (moment cfg s0 fuel e).lastHunt + sinceHunt (happened cfg s0 fuel e) = (moment cfg s0 fuel e).fCounter :=
  ⟨(moment_inv hs fuel e).nodup, (moment_inv hs fuel e).hunt⟩

end Glompo.Props
