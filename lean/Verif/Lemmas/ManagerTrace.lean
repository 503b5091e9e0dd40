import Verif.Lemmas.ManagerProg3

/-! Consequences of `AfterEach (Fine c₀) ev`: facts about the record alone. -/

namespace Glompo.Manager

open Glompo.Spec
open Glompo.Logger (Op)

variable {cfg c₀ : Cfg}

theorem afterEach_prefix {G : List Ev → Ev → Prop} {pre post : List Ev} (h : AfterEach G (pre ++ post)) :
    AfterEach G pre := fun a x b e => h a x (b ++ post) (by rw [e]; simp)

section append
variable (a b : List Ev)
theorem acceptedOf_append : acceptedOf (a ++ b) = acceptedOf a ++ acceptedOf b := List.filterMap_append
theorem killedOf_append : killedOf (a ++ b) = killedOf a ++ killedOf b := List.filterMap_append
theorem newIdsOf_append : newIdsOf (a ++ b) = newIdsOf a ++ newIdsOf b := List.filterMap_append
theorem launchedOf_append : launchedOf (a ++ b) = launchedOf a ++ launchedOf b := List.filterMap_append
theorem finishedOf_append : finishedOf (a ++ b) = finishedOf a ++ finishedOf b := List.filterMap_append
end append

theorem mem_acceptedOf {ev : List Ev} {r : IterRes} : r ∈ acceptedOf ev ↔ Ev.accepted r ∈ ev := by
  simp only [acceptedOf, List.mem_filterMap]
  constructor
  · rintro ⟨x, hx, h⟩; cases x <;> simp at h; subst h; exact hx
  · intro h; exact ⟨_, h, rfl⟩

theorem mem_killedOf {ev : List Ev} {i : Nat} : i ∈ killedOf ev ↔ ∃ h, Ev.killed i h ∈ ev := by
  simp only [killedOf, List.mem_filterMap]
  constructor
  · rintro ⟨x, hx, h⟩; cases x <;> simp at h; subst h; exact ⟨_, hx⟩
  · rintro ⟨h, hh⟩; exact ⟨_, hh, rfl⟩

/-! ### Load -/

/-- Slots are not negative if the selector's choices are not. -/
theorem slots_nonneg : ∀ ev, AfterEach (Fine c₀) ev → SelectorFits ev → ∀ p ∈ startedOf ev, 0 ≤ p.2 := by
  refine snoc_induction ?_ fun l x ih => ?_
  · intro _ _ p hp; cases hp
  · intro hg hf p hp
    obtain ⟨hg, hx⟩ := afterEach_snoc.mp hg
    have hf' := fits_snoc hf
    have ih := ih hg hf'
    rw [startedOf_snoc] at hp
    cases x with
    | started i w =>
      obtain ⟨-, -, -, -, ⟨k, c, hk⟩, -⟩ := hx
      rcases List.mem_append.mp hp with hp | hp
      · exact ih p hp
      · rw [List.mem_singleton] at hp; subst hp; exact (hf' k w c hk).1
    | restarted i w =>
      obtain ⟨-, -, -, hw⟩ := hx
      rcases List.mem_append.mp hp with hp | hp
      · exact ih p hp
      · rw [List.mem_singleton] at hp; subst hp
        rcases hw with ⟨k, c, hk⟩ | hw
        · exact (hf' k w c hk).1
        · show 0 ≤ w; omega
    | resumed c n => cases hp
    | _ => exact ih p hp

theorem load_le : ∀ ev, AfterEach (Fine c₀) ev → SelectorFits ev → 0 ≤ (settings c₀ ev).maxJobs →
    load ev ≤ (settings c₀ ev).maxJobs := by
  refine snoc_induction ?_ fun l x ih => ?_
  · intro _ _ h0; simpa [load, startedOf, session] using h0
  · intro hg hf h0
    obtain ⟨hg, hx⟩ := afterEach_snoc.mp hg
    have hf' := fits_snoc hf
    have ih := ih hg hf'
    have nonneg := slots_nonneg l hg hf'
    rw [settings_snoc] at h0 ⊢
    have go : ∀ i w, startedOf (l ++ [x]) = startedOf l ++ [(i, w)] → diedOf (l ++ [x]) = diedOf l →
        load l ≤ (settings c₀ l).maxJobs → load l + w ≤ (settings c₀ l).maxJobs →
        load (l ++ [x]) ≤ (settings c₀ l).maxJobs := by
      intro i w e1 e2 h1 h2
      by_cases hd : i ∈ diedOf l
      · have e : load (l ++ [x]) = load l := by simp [load, e1, e2, List.filter_append, hd]
        rw [e]; exact h1
      · have e : load (l ++ [x]) = load l + w := by simp [load, e1, e2, List.filter_append, hd]
        rw [e]; exact h2
    cases x with
    | started i w =>
      obtain ⟨-, -, -, -, -, h4, -⟩ := hx
      exact go i w (startedOf_snoc _ _) (diedOf_snoc _ _) (ih h0) (h4 hf')
    | restarted i w =>
      obtain ⟨-, -, h4, -⟩ := hx
      exact go i w (startedOf_snoc _ _) (diedOf_snoc _ _) (ih h0) (h4 hf')
    | resumed c n =>
      have e : load (l ++ [.resumed c n]) = 0 := by simp [load, startedOf_snoc]
      rw [e]; exact h0
    | died i =>
      have ih := ih h0
      have : load (l ++ [.died i]) ≤ load l := by
        simp only [load, startedOf_snoc, diedOf_snoc, List.mem_append, List.mem_singleton]
        have e2 : ((startedOf l).filter fun p => decide (¬ (p.1 ∈ diedOf l ∨ p.1 = i))) =
            ((startedOf l).filter fun p => decide (p.1 ∉ diedOf l)).filter fun p => decide (p.1 ≠ i) := by
          rw [List.filter_filter]; congr 1; funext p
          by_cases h1 : p.1 = i <;> simp [h1]
        rw [e2]
        exact sum_filter_le _ _ fun p hp => nonneg p (List.mem_filter.mp hp).1
      exact Int.le_trans this ih
    | _ =>
      simp only [load, startedOf_snoc, diedOf_snoc]
      exact ih h0

/-! ### Ids -/

theorem newIds_range : ∀ ev, AfterEach (Fine c₀) ev → newIdsOf ev = List.range' 1 (newIdsOf ev).length := by
  refine snoc_induction ?_ fun l x ih => ?_
  · intro _; rfl
  · intro hg
    replace hg := afterEach_snoc.mp hg
    obtain ⟨hg, hx⟩ := hg
    rw [newIdsOf_snoc]
    cases x with
    | newId i =>
      simp only [List.length_append, List.length_singleton]
      rw [List.range'_concat, ← ih hg, hx.1, Nat.one_mul, Nat.add_comm]
    | _ => simpa using ih hg

theorem started_ids : ∀ ev, AfterEach (Fine c₀) ev →
    (launchedOf ev).Pairwise (· < ·) ∧ ∀ i ∈ launchedOf ev, i ∈ newIdsOf ev := by
  refine snoc_induction ?_ fun l x ih => ?_
  · intro _; simp [launchedOf]
  · intro hg
    obtain ⟨hg, hx⟩ := afterEach_snoc.mp hg
    obtain ⟨ih1, ih2⟩ := ih hg
    have hr := newIds_range _ hg
    rw [launchedOf_snoc, newIdsOf_snoc]
    cases x with
    | started i w =>
      obtain ⟨h1, h2, -, h3, -⟩ := hx
      refine ⟨List.pairwise_append.mpr ⟨ih1, by simp, fun j hj k hk => ?_⟩, ?_⟩
      · rw [List.mem_singleton] at hk
        subst hk
        have hj' := ih2 j hj
        rw [hr, List.mem_range'_1] at hj'
        have : j ≠ k := fun e => h3 (e ▸ hj)
        omega
      · intro j hj
        simp only [List.mem_append, List.mem_singleton] at hj
        simp only [List.append_nil]
        rcases hj with hj | rfl
        · exact ih2 j hj
        · exact h2
    | newId i =>
      simp only [List.append_nil]
      exact ⟨ih1, fun j hj => List.mem_append_left _ (ih2 j hj)⟩
    | _ => simpa only [List.append_nil] using And.intro ih1 ih2

/-- The processes one manager starts, whether new or continued, are of different optimizers. -/
theorem started_nodup : ∀ ev, AfterEach (Fine c₀) ev →
    ((startedOf ev).map (·.1)).Nodup ∧ ∀ i ∈ (startedOf ev).map (·.1), i ∈ newIdsOf ev := by
  refine snoc_induction ?_ fun l x ih => ?_
  · intro _; simp [startedOf, session]
  · intro hg
    obtain ⟨hg, hx⟩ := afterEach_snoc.mp hg
    obtain ⟨ih1, ih2⟩ := ih hg
    rw [startedOf_snoc, newIdsOf_snoc]
    have go : ∀ i : Nat, ∀ w : Int, i ∈ newIdsOf l → i ∉ (startedOf l).map (·.1) →
        ((startedOf l ++ [(i, w)]).map (·.1)).Nodup ∧ ∀ j ∈ (startedOf l ++ [(i, w)]).map (·.1), j ∈ newIdsOf l ++ [] := by
      intro i w h2 h3
      simp only [List.map_append, List.map_cons, List.map_nil, List.append_nil]
      refine ⟨List.nodup_append.mpr ⟨ih1, by simp, fun a ha b hb e => ?_⟩, fun j hj => ?_⟩
      · rw [List.mem_singleton] at hb; exact h3 (by rw [← hb, ← e]; exact ha)
      · rcases List.mem_append.mp hj with hj | hj
        · exact ih2 j hj
        · rw [List.mem_singleton] at hj; rw [hj]; exact h2
    cases x with
    | started i w => exact go i w hx.2.1 hx.2.2.1
    | restarted i w => exact go i w hx.1 hx.2.1
    | resumed c n => simp
    | newId i => exact ⟨ih1, fun j hj => List.mem_append_left _ (ih2 j hj)⟩
    | _ => simpa only [List.append_nil] using And.intro ih1 ih2

/-! ### Kills -/

theorem killed_nodup : ∀ ev, AfterEach (Fine c₀) ev → (killedOf ev).Nodup := by
  refine snoc_induction ?_ fun l x ih => ?_
  · intro _; simp [killedOf]
  · intro hg
    replace hg := afterEach_snoc.mp hg
    obtain ⟨hg, hx⟩ := hg
    rw [killedOf_snoc]
    cases x with
    | killed v h =>
      exact List.nodup_append.mpr ⟨ih hg, by simp, fun a ha b hb e => hx.2.1 (by
        rw [List.mem_singleton] at hb; rw [← hb, ← e]; exact ha)⟩
    | _ => simpa using ih hg

/-! ### The result -/

/-- The log holds some of the evaluations accepted, in their order. -/
theorem logged_sublist : ∀ ev, (loggedOf ev).Sublist (acceptedOf ev) := by
  refine snoc_induction List.Sublist.slnil fun l x ih => ?_
  rw [loggedOf_snoc, acceptedOf_snoc]
  cases x with
  | accepted r => exact ih.append (List.Sublist.refl _)
  | resumed c n => simpa using (List.take_sublist _ _).trans ih
  | _ => simpa using ih

/-- The result is the best of the evaluations the log held when it was last renewed. -/
theorem result_at_update : ∀ ev, AfterEach (Fine c₀) ev →
    (atUpdate ev = [] ∧ lastResult ev = none) ∨
      ∃ x fx i, lastResult ev = some (x, fx, i) ∧ IsBest x fx i (loggedOf (atUpdate ev)) := by
  refine snoc_induction (fun _ => .inl ⟨rfl, rfl⟩) fun l x ih => ?_
  intro hg
  obtain ⟨hg, hx⟩ := afterEach_snoc.mp hg
  have ih := ih hg
  rw [atUpdate_snoc, lastResult_snoc]
  cases x with
  | updated v f i =>
    refine .inr ⟨v, f, i, rfl, ?_⟩
    show IsBest v f i (loggedOf (l ++ [_]))
    rw [loggedOf_snoc]; exact hx
  | _ => exact ih

theorem isBest_mono {es es' : List IterRes} {x x' : Vec} {fx fx' : PyF} {i i' : Nat} (h : IsBest x fx i es)
    (h' : IsBest x' fx' i' (es ++ es')) : PyF.lt fx fx' = false := by
  rcases h with ⟨h1, -, rfl, -⟩ | ⟨k, r, ⟨r0, hr0, -, hlt, hmin⟩, hk, -, rfl, -⟩
  · cases fx' <;> rfl
  · rw [hk] at hr0; cases hr0
    have hk' : (es ++ es')[k]? = some r := by
      rw [List.getElem?_append_left]
      · exact hk
      · exact (List.getElem?_eq_some_iff.mp hk).1
    rcases h' with ⟨h1', -, rfl, -⟩ | ⟨k', r', ⟨r1, hr1, -, hlt', hmin'⟩, hk1, -, rfl, -⟩
    · have := h1' r (List.mem_of_getElem? hk') trivial
      rw [this] at hlt; cases hlt
    · rw [hk1] at hr1; cases hr1
      exact (hmin' k r hk' trivial).1

theorem accepted_after {pre post : List Ev} : ∃ es, acceptedOf (pre ++ post) = acceptedOf pre ++ es :=
  ⟨_, acceptedOf_append pre post⟩

/-! ### The queue -/

theorem dueAux_snoc (ev : List Ev) (x : Ev) : dueAux (ev ++ [x]) =
    (match x with
    | .killed i _ => ((dueAux ev).1 ++ [i], (dueAux ev).2)
    | .received (.res r) => if r.optId ∈ (dueAux ev).1 then dueAux ev else ((dueAux ev).1, (dueAux ev).2 ++ [r])
    | _ => dueAux ev) := by
  rw [dueAux, List.foldl_append]; rfl

theorem due_killed : ∀ ev, (dueAux ev).1 = killedOf ev := by
  refine snoc_induction rfl fun l x ih => ?_
  rw [dueAux_snoc, killedOf_snoc]
  cases x with
  | received m =>
    cases m with
    | fin i => simpa using ih
    | res r =>
      simp only [List.append_nil]
      split <;> exact ih
  | _ => simp [ih]

theorem due_ok : ∀ ev, AfterEach (Fine c₀) ev → dueOf ev = acceptedOf ev ++
    (match inHand ev with | some r => if r.optId ∈ killedOf ev then [] else [r] | none => []) := by
  refine snoc_induction ?_ fun l x ih => ?_
  · intro _; rfl
  · intro hg
    replace hg := afterEach_snoc.mp hg
    obtain ⟨hg, hx⟩ := hg
    have ih := ih hg
    have hd := due_killed l
    simp only [dueOf] at ih ⊢
    rw [dueAux_snoc, acceptedOf_snoc, inHand_snoc, killedOf_snoc]
    cases x with
    | received m =>
      have hn := hx.2
      rw [hn] at ih
      cases m with
      | fin i => simpa [hn] using ih
      | res r =>
        simp only [List.append_nil] at ih ⊢
        rw [hd]
        split
        · simpa using ih
        · simp [ih]
    | accepted r =>
      obtain ⟨-, h2, -, h4, -⟩ := hx
      rw [h4] at ih
      simpa [h2] using ih
    | ignored r =>
      obtain ⟨h2, h4⟩ := hx
      rw [h4] at ih
      simpa [h2] using ih
    | killed v h =>
      have hn := hx.2.2.2.2.2.1
      rw [hn] at ih ⊢
      simpa using ih
    | _ => simpa using ih

/-! ### Hunts -/

theorem sinceHunt_le (pre post : List Ev) : sinceHunt (pre ++ post) ≤ sinceHunt pre + (acceptedOf post).length := by
  refine snoc_induction (P := fun post => sinceHunt (pre ++ post) ≤ sinceHunt pre + (acceptedOf post).length) ?_
    (fun l x ih => ?_) post
  · simp
  · rw [← List.append_assoc, sinceHunt_snoc, acceptedOf_snoc]
    cases x <;> simp <;> omega

/-! ### Checks of the convergence criterion -/

theorem sinceCheck_split : ∀ ev, (lastCheck ev = none ∧ (∀ c n, Ev.resumed c n ∉ ev) ∧
      sinceCheck ev = (acceptedOf ev).length) ∨
    (lastCheck ev = none ∧ ∃ c n, Ev.resumed c n ∈ ev) ∨
    ∃ pre b post, ev = pre ++ .checked b :: post ∧ lastCheck ev = some b ∧
      (acceptedOf ev).length = (acceptedOf pre).length + sinceCheck ev := by
  refine snoc_induction (.inl ⟨rfl, by simp, rfl⟩) fun l x ih => ?_
  rw [lastCheck_snoc, sinceCheck_snoc, acceptedOf_snoc]
  cases x with
  | checked b => exact .inr (.inr ⟨l, b, [], rfl, rfl, by simp⟩)
  | resumed c n => exact .inr (.inl ⟨rfl, c, n, by simp⟩)
  | accepted r =>
    rcases ih with ⟨h1, h0, h2⟩ | ⟨h1, c, n, h2⟩ | ⟨pre, b, post, h1, h2, h3⟩
    · exact .inl ⟨h1, by simpa using h0, by simp [h2]⟩
    · exact .inr (.inl ⟨h1, c, n, List.mem_append_left _ h2⟩)
    · exact .inr (.inr ⟨pre, b, post ++ [.accepted r], by rw [h1]; simp, h2, by simp [h3]; omega⟩)
  | _ =>
    simp only [List.append_nil]
    rcases ih with ⟨h1, h0, h2⟩ | ⟨h1, c, n, h2⟩ | ⟨pre, b, post, h1, h2, h3⟩
    · exact .inl ⟨h1, by simpa using h0, h2⟩
    · exact .inr (.inl ⟨h1, c, n, List.mem_append_left _ h2⟩)
    · exact .inr (.inr ⟨pre, b, post ++ [_], by rw [h1]; simp; rfl, h2, h3⟩)

/-- The last accepted evaluation. -/
theorem last_accepted : ∀ ev, acceptedOf ev = [] ∨ ∃ pre r post, ev = pre ++ .accepted r :: post ∧
    (acceptedOf ev).length = (acceptedOf pre).length + 1 := by
  refine snoc_induction (.inl rfl) fun l x ih => ?_
  rw [acceptedOf_snoc]
  cases x with
  | accepted r => exact .inr ⟨l, r, [], rfl, by simp⟩
  | _ =>
    simp only [List.append_nil]
    rcases ih with h | ⟨pre, r, post, h1, h2⟩
    · exact .inl h
    · exact .inr ⟨pre, r, post ++ [_], by rw [h1]; simp; rfl, h2⟩

theorem lastCheck_mem {ev : List Ev} {b : Bool} (h : lastCheck ev = some b) : Ev.checked b ∈ ev := by
  rcases sinceCheck_split ev with ⟨h1, -⟩ | ⟨h1, -⟩ | ⟨pre, b', post, h1, h2, -⟩
  · rw [h1] at h; cases h
  · rw [h1] at h; cases h
  · rw [h2] at h; cases h; rw [h1]; simp

/-- A loading is preceded by a checkpoint. -/
theorem fresh_of_noCkpt {ev : List Ev} (hg : AfterEach (Fine c₀) ev) (hc : Ev.ckptBegin ∉ ev) (c : Cfg) (n : Nat) :
    Ev.resumed c n ∉ ev := by
  intro h
  obtain ⟨pre, post, e⟩ := List.append_of_mem h
  obtain ⟨-, -, a, b, e', -⟩ := hg pre _ post e
  exact hc (by rw [e, e']; simp)

theorem ckptFree_of_noCkpt : ∀ ev : List Ev, Ev.ckptBegin ∉ ev → ckptFree ev = true := by
  refine snoc_induction (fun _ => rfl) fun l x ih => ?_
  intro h
  have ih := ih fun h' => h (List.mem_append_left _ h')
  rw [ckptFree_snoc]
  cases x with
  | ckptBegin => simp at h
  | _ => first | rfl | exact ih

/-! ### Ends of optimizers -/

theorem ended_nodup : ∀ ev, AfterEach (Fine c₀) ev → 
    (∀ pre i post, ev = pre ++ .finished i :: post → ckptFree pre = true) → (finishedOf ev ++ killedOf ev).Nodup := by
  refine snoc_induction ?_ fun l x ih => ?_
  · intro _ _; simp [finishedOf, killedOf]
  · intro hg hc
    replace hg := afterEach_snoc.mp hg
    obtain ⟨hg, hx⟩ := hg
    have ih := ih hg fun pre i post e => hc pre i (post ++ [x]) (by rw [e]; simp)
    rw [finishedOf_snoc, killedOf_snoc]
    cases x with
    | finished i =>
      have := hx.2 (hc l i [] rfl)
      simp only [List.append_nil]
      rw [List.nodup_append] at ih ⊢
      refine ⟨List.nodup_append.mpr ⟨ih.1, by simp, ?_⟩, ih.2.1, ?_⟩
      · intro a ha b hb e
        rw [List.mem_singleton] at hb
        exact this.1 (by rw [← hb, ← e]; exact ha)
      · intro a ha b hb e
        rw [List.mem_append, List.mem_singleton] at ha
        rcases ha with ha | rfl
        · exact ih.2.2 a ha b hb e
        · exact this.2 (e ▸ hb)
    | killed v h =>
      obtain ⟨-, h2, h3, -⟩ := hx
      simp only [List.append_nil, ← List.append_assoc]
      refine List.nodup_append.mpr ⟨ih, by simp, ?_⟩
      intro a ha b hb e
      rw [List.mem_singleton] at hb
      rw [List.mem_append] at ha
      rcases ha with ha | ha
      · exact h3 (by rw [← hb, ← e]; exact ha)
      · exact h2 (by rw [← hb, ← e]; exact ha)
    | _ => simpa using ih

theorem ended_ids : ∀ ev, AfterEach (Fine c₀) ev → ∀ i ∈ finishedOf ev ++ killedOf ev, i ∈ newIdsOf ev := by
  refine snoc_induction ?_ fun l x ih => ?_
  · intro _; simp [finishedOf, killedOf]
  · intro hg i hi
    replace hg := afterEach_snoc.mp hg
    obtain ⟨hg, hx⟩ := hg
    have ih := ih hg
    rw [finishedOf_snoc, killedOf_snoc] at hi
    rw [newIdsOf_snoc]
    apply List.mem_append_left
    cases x with
    | finished j =>
      simp only [List.mem_append, List.append_nil, List.mem_singleton] at hi
      rcases hi with (hi | rfl) | hi
      · exact ih i (List.mem_append_left _ hi)
      · exact hx.1
      · exact ih i (List.mem_append_right _ hi)
    | killed v h =>
      simp only [List.mem_append, List.append_nil, List.mem_singleton] at hi
      rcases hi with hi | hi | rfl
      · exact ih i (List.mem_append_left _ hi)
      · exact ih i (List.mem_append_right _ hi)
      · exact hx.1
    | _ => exact ih i (by simpa using hi)

/-- A list of different elements of another is not longer. -/
theorem nodup_length_le {l m : List Nat} (h : l.Nodup) (hs : ∀ i ∈ l, i ∈ m) : l.length ≤ m.length := by
  induction l generalizing m with
  | nil => simp
  | cons a t ih =>
    have ha := hs a List.mem_cons_self
    rw [List.nodup_cons] at h
    have := ih (m := m.erase a) h.2 fun i hi => by
      have : i ≠ a := fun e => h.1 (e ▸ hi)
      exact (List.mem_erase_of_ne this).mpr (hs i (List.mem_cons_of_mem _ hi))
    rw [List.length_erase_of_mem ha] at this
    have := List.length_pos_of_mem ha
    simp; omega

/-! ### Crash loops -/

theorem sinceCrash_some {ev : List Ev} {i : Nat} (h : Ev.crashReport i true ∈ session ev) : ∃ n, sinceCrash ev = some n := by
  revert h
  refine snoc_induction (P := fun ev => Ev.crashReport i true ∈ session ev → ∃ n, sinceCrash ev = some n) ?_
    (fun l x ih => ?_) ev
  · intro h; cases h
  · intro h
    rw [sinceCrash_snoc]
    rw [session_snoc] at h
    cases x with
    | resumed c n => cases h
    | crashReport j b =>
      rcases List.mem_append.mp h with h | h
      · obtain ⟨n, hn⟩ := ih h
        cases b <;> simp [hn]
      · rw [List.mem_singleton] at h; cases h; exact ⟨_, rfl⟩
    | _ =>
      rcases List.mem_append.mp h with h | h
      · obtain ⟨n, hn⟩ := ih h
        simp [hn]
      · rw [List.mem_singleton] at h; cases h

theorem sinceCrash_ge {pre : List Ev} (hp : ∃ n, sinceCrash pre = some n) (mid : List Ev) :
    acceptedOf mid = [] → (∀ c n, Ev.resumed c n ∉ mid) →
    ∃ n, sinceCrash (pre ++ mid) = some n ∧ (newIdsOf mid).length ≤ n := by
  refine snoc_induction (P := fun mid => acceptedOf mid = [] → (∀ c n, Ev.resumed c n ∉ mid) →
    ∃ n, sinceCrash (pre ++ mid) = some n ∧ (newIdsOf mid).length ≤ n) ?_ (fun l x ih => ?_) mid
  · intro _ _; obtain ⟨n, hn⟩ := hp; exact ⟨n, by simpa using hn, by simp [newIdsOf]⟩
  · intro ha hr
    rw [acceptedOf_snoc] at ha
    have ha' := (List.append_eq_nil_iff.mp ha)
    obtain ⟨n, h1, h2⟩ := ih ha'.1 fun c n h => hr c n (List.mem_append_left _ h)
    rw [← List.append_assoc, sinceCrash_snoc, h1, newIdsOf_snoc]
    cases x with
    | accepted r => simp at ha'
    | resumed c n => exact absurd (by simp) (hr c n)
    | newId i => exact ⟨n + 1, rfl, by simp; omega⟩
    | crashReport j b => cases b <;> exact ⟨n, rfl, by simpa using h2⟩
    | _ => exact ⟨n, rfl, by simpa using h2⟩

theorem settings_append {pre : List Ev} : ∀ mid, (∀ c n, Ev.resumed c n ∉ mid) →
    settings c₀ (pre ++ mid) = settings c₀ pre := by
  refine snoc_induction (fun _ => by simp) fun l x ih => ?_
  intro hr
  have ih := ih fun c n h => hr c n (List.mem_append_left _ h)
  rw [← List.append_assoc, settings_snoc]
  cases x with
  | resumed c n => exact absurd (by simp) (hr c n)
  | _ => exact ih

theorem crashLoop_bound {pre : List Ev} (h0 : 0 ≤ (settings c₀ pre).maxJobs) (hp : ∃ n, sinceCrash pre = some n)
    (mid : List Ev) :
    AfterEach (Fine c₀) (pre ++ mid) → SelectorPos (pre ++ mid) → acceptedOf mid = [] → (∀ c n, Ev.resumed c n ∉ mid) →
    ((newIdsOf mid).length : Int) ≤ 2 * (settings c₀ pre).maxJobs + 5 := by
  refine snoc_induction (P := fun mid => AfterEach (Fine c₀) (pre ++ mid) → SelectorPos (pre ++ mid) →
    acceptedOf mid = [] → (∀ c n, Ev.resumed c n ∉ mid) →
    ((newIdsOf mid).length : Int) ≤ 2 * (settings c₀ pre).maxJobs + 5) ?_ (fun l x ih => ?_) mid
  · intro _ _ _ _; simp [newIdsOf]; omega
  · intro hg hs ha hr
    rw [← List.append_assoc] at hg hs
    obtain ⟨hg, hx⟩ := afterEach_snoc.mp hg
    have hs' := pos_snoc hs
    rw [acceptedOf_snoc] at ha
    have ha' := (List.append_eq_nil_iff.mp ha)
    have hr' : ∀ c n, Ev.resumed c n ∉ l := fun c n h => hr c n (List.mem_append_left _ h)
    have ih := ih hg hs' ha'.1 hr'
    rw [newIdsOf_snoc]
    cases x with
    | newId i =>
      obtain ⟨n, h1, h2⟩ := sinceCrash_ge hp l ha'.1 hr'
      have hx : Good (settings c₀ (pre ++ l)) (pre ++ l) (.newId i) := hx
      rw [settings_append l hr'] at hx
      have := hx.2.2 h0 hs' n h1
      simp; omega
    | _ => simpa using ih

/-! ### Statistics -/

theorem atUpdate_accepted : ∀ ev, UpToDate ev = true → acceptedOf (atUpdate ev) = acceptedOf ev := by
  refine snoc_induction (fun _ => rfl) fun l x ih => ?_
  rw [UpToDate_snoc, atUpdate_snoc, acceptedOf_snoc]
  cases x with
  | accepted r => intro h; cases h
  | updated v f i => intro _; simp [acceptedOf_snoc]
  | _ => simpa using ih

theorem loaded_saved {s : State} {k : Saved} {found : List (Nat × Bool)} {saved : List Saved}
    (h : loadCheckpoint cfg k found saved = .ok s) : s.saved = saved := by
  unfold loadCheckpoint at h
  split at h
  · cases h
  · split at h
    · cases h
    · split at h
      · cases h
      · cases h; rfl

theorem Startable.spec {s : State} (h : Startable cfg s) : Start cfg s ∧ Disk s := by
  induction h with
  | fresh cfg => exact ⟨start_init cfg, fun k hk => by cases hk⟩
  | setup cfg fuel e e' s h => exact start_setup fuel e e' h
  | loaded cfg₀ cfg s₀ s fuel e k found h hk hp hl ih =>
    have hd := (startManager_spec fuel ih.1 e).1.disk ih.2
    exact ⟨(hd k hk).1 cfg found _ s hp hl, fun k' hk' => hd k' (by rw [loaded_saved hl] at hk'; exact hk')⟩
  | loadedSetup cfg₀ cfg s fuel e k found hk hp hl =>
    have hd : Disk (checkpoint cfg₀ fuel (init cfg₀) e).2.1 := setup_disk fuel e
    exact ⟨(hd k hk).1 cfg found _ s hp hl, fun k' hk' => hd k' (by rw [loaded_saved hl] at hk'; exact hk')⟩

theorem moment_inv {s : State} (h : Startable cfg s) (fuel : Nat) (e : Env) : Inv cfg (moment cfg s fuel e) :=
  (startManager_spec fuel h.spec.1 e).1.inv h.spec.1.inv

theorem moment_good {s : State} (h : Startable cfg s) (fuel : Nat) (e : Env) :
    AfterEach (Fine (moment cfg s fuel e).first) (happened cfg s fuel e) := (moment_inv h fuel e).good

theorem Inv.nobody {s : State} (inv : Inv cfg s) (h : s.livingSlots.length = 0) (i : Nat) : ¬ Running s.ev i := by
  rintro ⟨⟨w, hw⟩, hd⟩
  have : (i, w) ∈ s.packs.filter fun p => s.alive p.1 := by
    rw [inv.living]; exact List.mem_filter.mpr ⟨hw, by simpa using hd⟩
  rw [State.livingSlots, List.length_map, List.length_eq_zero_iff] at h
  rw [h] at this; cases this

theorem loggedOf_append {pre : List Ev} : ∀ mid, (∀ c n, Ev.resumed c n ∉ mid) →
    loggedOf (pre ++ mid) = loggedOf pre ++ acceptedOf mid := by
  refine snoc_induction (fun _ => by simp [acceptedOf]) fun l x ih => ?_
  intro hr
  have ih := ih fun c n h => hr c n (List.mem_append_left _ h)
  rw [← List.append_assoc, loggedOf_snoc, acceptedOf_snoc]
  cases x with
  | resumed c n => exact absurd (by simp) (hr c n)
  | accepted r => simp [ih]
  | _ => simpa using ih

theorem logged_length_le (pre mid : List Ev) : (loggedOf (pre ++ mid)).length ≤ (loggedOf pre).length + (acceptedOf mid).length := by
  refine snoc_induction (P := fun mid => (loggedOf (pre ++ mid)).length ≤ (loggedOf pre).length + (acceptedOf mid).length)
    (by simp) (fun l x ih => ?_) mid
  rw [← List.append_assoc, loggedOf_snoc, acceptedOf_snoc]
  cases x with
  | accepted r => simp; omega
  | resumed c n => simp [List.length_take]; omega
  | _ => simpa using ih

/-- A result renewed since the loading is that of the log as it is. -/
theorem atUpdate_logged : ∀ ev {x fx i}, Ev.updated x fx i ∈ session ev → UpToDate ev = true →
    loggedOf (atUpdate ev) = loggedOf ev := by
  refine snoc_induction (fun h => by cases h) fun l x ih => ?_
  intro v f i
  rw [session_snoc, UpToDate_snoc, atUpdate_snoc]
  cases x with
  | accepted r => intro _ h; cases h
  | resumed c n => intro h; cases h
  | updated v f i => intro _ _; rfl
  | _ =>
    intro h hu
    rw [loggedOf_snoc]
    exact ih (x := v) (fx := f) (i := i) (by simpa using h) hu

theorem crash_of_sinceCrash : ∀ ev, (sinceCrash ev).isSome = true → ∃ i, Ev.crashReport i true ∈ session ev := by
  refine snoc_induction (fun h => by cases h) fun l x ih => ?_
  rw [sinceCrash_snoc, session_snoc]
  cases x with
  | crashReport j b =>
    cases b with
    | true => intro _; exact ⟨j, by simp⟩
    | false => intro h; obtain ⟨i, hi⟩ := ih h; exact ⟨i, List.mem_append_left _ hi⟩
  | resumed c n => intro h; cases h
  | _ =>
    intro h
    obtain ⟨i, hi⟩ := ih (by simpa using h)
    exact ⟨i, List.mem_append_left _ hi⟩

theorem keeps_restarted {A : Lab → Prop} (P : List (Nat × Int)) :
    Keeps cfg A (fun s => ∀ p ∈ P, Ev.restarted p.1 p.2 ∈ session s.ev) :=
  fun lab s t st ha inv hr p hp => keeps_session (A := A) _ lab s t st ha inv (hr p hp)

theorem walk_tryBlock_all (fuel : Nat) (P : List (Nat × Int)) :
    Walk cfg Lab.any (fun s => Launch cfg s.packs s ∧ s.packs = P ∧ s.restart = true) (tryBlock cfg fuel)
      (fun _ s => ∀ p ∈ P, Ev.restarted p.1 p.2 ∈ session s.ev) (fun _ _ => True) := by
  have hU : Keeps cfg Lab.died (fun s => Launch cfg s.packs s ∧ s.packs = P ∧ s.restart = true) := by
    intro lab s t st ha inv hr
    have := keeps_launch s.packs lab s t st ha inv hr.1
    cases st with
    | die _ i hi => exact ⟨this, hr.2⟩
    | plain _ x hx => cases x <;> simp [Plain] at hx <;> exact absurd ha id
    | _ => exact absurd ha id
  have head : Walk cfg Lab.any (fun s => Launch cfg s.packs s ∧ s.packs = P ∧ s.restart = true) (loopPart cfg fuel)
      (fun _ s => Settled s ∧ ∀ p ∈ P, Ev.restarted p.1 p.2 ∈ session s.ev) (fun _ _ => True) := by
    refine Walk.bind (((side_askUnit hU).mono fun _ _ => trivial).exc fun _ _ _ _ => trivial) fun _ => ?_
    refine Walk.bind (Q := fun a s => Launch cfg a.packs s ∧ a.packs = P ∧ a.restart = true) (Walk.get fun s _ p => p) fun a => ?_
    refine Walk.bind (Q := fun _ s => Ready cfg s ∧ ∀ p ∈ P, Ev.restarted p.1 p.2 ∈ session s.ev) ?_ fun _ =>
      (((walk_mainLoop fuel fuel).mono (B := Lab.any) fun _ _ => trivial).frame (keeps_restarted P)).conseq (fun _ _ p => p) (fun _ _ _ p => ⟨p.1.1, p.2⟩) fun _ _ _ _ => trivial
    by_cases ha : a.packs = P ∧ a.restart = true
    · obtain ⟨rfl, hr⟩ := ha
      rw [if_pos hr]
      exact ((walk_restartLoop _).mono fun _ _ => trivial).conseq (fun _ _ p => p.1) (fun _ _ _ p => p) fun _ _ _ _ => trivial
    · intro s e i p
      exact absurd p.2 ha
  have fin : Walk cfg Lab.any (fun s => Settled s ∧ ∀ p ∈ P, Ev.restarted p.1 p.2 ∈ session s.ev)
      (stopAllChildren "GloMPO Convergence") (fun _ s => ∀ p ∈ P, Ev.restarted p.1 p.2 ∈ session s.ev) (fun _ _ => True) :=
    (((walk_stopAllChildren _).frame (keeps_restarted P)).mono fun _ _ => trivial).conseq
      (fun _ _ p => ⟨trivial, p.2⟩) (fun _ _ _ p => p.2) fun _ _ _ _ => trivial
  by_cases hc : cfg.checkpointing = true ∧ cfg.checkpointAtConv = true
  · have eq : tryBlock cfg fuel = M.bind (M.bind (loopPart cfg fuel) fun _ =>
        checkpoint cfg fuel) fun _ => stopAllChildren "GloMPO Convergence" := by
      unfold loopPart
      rw [bind_assoc', bind_assoc']
      simp only [tryBlock, hc, and_self, if_true]
      refine congrArg (M.bind askUnit) (funext fun _ => ?_)
      rw [bind_assoc']
      refine congrArg (M.bind M.get) (funext fun a => ?_)
      rw [bind_assoc']
      split <;> rfl
    rw [eq]
    have ck : Walk cfg Lab.any (fun s => Settled s ∧ ∀ p ∈ P, Ev.restarted p.1 p.2 ∈ session s.ev) (checkpoint cfg fuel)
        (fun _ s => Settled s ∧ ∀ p ∈ P, Ev.restarted p.1 p.2 ∈ session s.ev) (fun _ _ => True) :=
      (((walk_checkpoint fuel).frame (keeps_restarted P)).mono fun _ _ => trivial).conseq
        (fun _ _ p => p) (fun _ _ _ p => ⟨p.1.2, p.2⟩) fun _ _ _ _ => trivial
    exact Walk.bind (Walk.bind head fun _ => ck) fun _ => fin
  · have eq : tryBlock cfg fuel = M.bind (loopPart cfg fuel)
        fun _ => stopAllChildren "GloMPO Convergence" := by
      unfold loopPart
      rw [bind_assoc']
      simp only [tryBlock, hc, if_false]
      refine congrArg (M.bind askUnit) (funext fun _ => ?_)
      rw [bind_assoc']
      refine congrArg (M.bind M.get) (funext fun a => ?_)
      rw [bind_assoc']
      split <;> rfl
    rw [eq]
    exact Walk.bind head fun _ => fin

/-- A run which ends regularly has started again all optimizers loaded. -/
theorem startManager_restarts {sI : State} (hI : Start cfg sI) (hR : sI.restart = true) (fuel : Nat) (e : Env)
    (h : ended cfg sI fuel e = some .regular) :
    ∀ p ∈ sI.packs, Ev.restarted p.1 p.2 ∈ session (happened cfg sI fuel e) := by
  have i0 := hI.inv
  have hW : Keeps cfg Lab.died (fun s => Waiting cfg s ∧ s.packs = sI.packs ∧ s.restart = true) := by
    intro lab s t st ha inv hr
    have := keeps_waiting lab s t st ha inv hr.1
    cases st with
    | die _ i hi => exact ⟨this, hr.2⟩
    | plain _ x hx => cases x <;> simp [Plain] at hx <;> exact absurd ha id
    | _ => exact absurd ha id
  obtain ⟨h1, h2, h3, h4⟩ := walk_askBool (E := fun x s => Waiting cfg s ∧ s.packs = sI.packs ∧ s.restart = true) hW
    (fun x _ h => h) sI e i0 ⟨hI.waiting, rfl, hR⟩
  have h1 := h1.mono (B := Lab.any) fun _ _ => trivial
  unfold happened moment
  unfold ended at h
  unfold startManager at h ⊢
  generalize askBool sI e = r at h h1 h2 h3 h4
  obtain ⟨o, s0, e1⟩ := r
  have i1 := h1.inv i0
  have fin : ∀ s1, Inv cfg s1 → Launch cfg s1.packs s1 → s1.packs = sI.packs → s1.restart = true →
      ∀ out, out = afterCheck cfg fuel s1 e1 → out.1 = some .regular →
      ∀ p ∈ sI.packs, Ev.restarted p.1 p.2 ∈ session out.2.1.ev := by
    intro s1 hi hu hp hr out hout hreg
    unfold afterCheck at hout
    have k := (walk_tryBlock_all (cfg := cfg) fuel sI.packs s1 e1 hi ⟨hu, hp, hr⟩).2.1
    generalize tryBlock cfg fuel s1 e1 = r at k hout
    obtain ⟨o, s2, e2⟩ := r
    cases o with
    | ok a => subst hout; exact k a rfl
    | pending => subst hout; cases hreg
    | raised x =>
      simp only [] at hout
      split at hout
      · generalize stopAllChildren "GloMPO Crash" s2 e2 = r at hout
        obtain ⟨o, s3, e3⟩ := r
        cases o <;> subst hout <;> cases hreg
      · generalize stopAllChildren "User Interrupt" s2 e2 = r at hout
        obtain ⟨o, s3, e3⟩ := r
        cases o <;> subst hout <;> cases hreg
  cases o with
  | pending => cases h
  | raised x =>
    obtain ⟨⟨hr, hl, hn⟩, hp, hR⟩ := h3 x rfl
    simp only [] at h ⊢
    by_cases hx : x.isException = true
    · rw [if_pos hx] at h ⊢
      exact fin { s0 with converged := false } ((Step.setConverged s0 hl).inv i1) ⟨⟨hr.1.1, rfl⟩, hr.2⟩ hp hR _ rfl h
    · rw [if_neg hx] at h; cases h
  | ok b =>
    obtain ⟨⟨hr, hl, hn⟩, hp, hR⟩ := h2 b rfl
    simp only [] at h ⊢
    by_cases hb : (b || (s0.packs.isEmpty && !s0.spawning)) = true
    · rw [if_pos hb] at h; cases h
    · rw [if_neg hb] at h ⊢
      have hb : b = false := by
        cases b with
        | false => rfl
        | true => simp at hb
      subst hb
      refine fin _ ((Step.verdict s0 false false ⟨hr.1.2, hr.1.1.1.1.1⟩ (unasked_of_lastCheck hl) (fun h => h) fun h => by cases h).inv i1) ?_ hp hR _ rfl h
      refine ⟨⟨ready_snoc (s := s0) hr.1.1 rfl rfl rfl rfl (by rw [UpToDate_snoc]) (by rw [inHand_snoc])
        (by rw [sinceCrash_snoc]) fun _ => by rw [sinceCheck_snoc], rfl⟩, hr.2.1, hr.2.2.1, fun p hp =>
          (hr.2.2.2.1 p hp).imp (fun ⟨k, c, hh⟩ => ⟨k, c, List.mem_append_left _ hh⟩) id, fun hne hf => ?_⟩
      show load (s0.ev ++ [_]) + _ ≤ _
      rw [load_snoc (by simp) (by simp)]
      exact hr.2.2.2.2 hne (fits_snoc hf)

/-- Without an exception from outside there is none of that kind at the end. -/
theorem startManager_clean {sI : State} (hI : Start cfg sI) (fuel : Nat) (e : Env) (h : raisesOf e = 0) :
    ended cfg sI fuel e ≠ some .userInterrupt ∧ ∀ x, ended cfg sI fuel e ≠ some (.crash (.env x)) := by
  have i0 := hI.inv
  obtain ⟨h1, h2, h3, h4⟩ := walk_askBool (E := fun x s => Waiting cfg s) keeps_waiting (fun x _ h => h) sI e i0 hI.waiting
  have h1 := h1.mono (B := Lab.any) fun _ _ => trivial
  unfold ended startManager
  generalize askBool sI e = r at h1 h2 h3 h4
  obtain ⟨o, s0, e1⟩ := r
  have hr1 : raisesOf e1 ≤ raisesOf e := raisesOf_suffix h4.1
  have key : ∀ s1, Inv cfg s1 → Launch cfg s1.packs s1 → ∀ x, (tryBlock cfg fuel s1 e1).1 ≠ .raised (.env x) := by
    intro s1 hi hu x hx
    have : raisesOf (tryBlock cfg fuel s1 e1).2.2 < raisesOf e1 := ((walk_tryBlock (cfg := cfg) fuel).1 s1 e1 hi hu).2.2.2.2 x hx
    omega
  have i1 := h1.inv i0
  have fin : ∀ s1, Inv cfg s1 → Launch cfg s1.packs s1 → ∀ out, out = afterCheck cfg fuel s1 e1 →
      out.1 ≠ some .userInterrupt ∧ ∀ x, out.1 ≠ some (.crash (.env x)) := by
    intro s1 hi hu out hout
    unfold afterCheck at hout
    have k := key s1 hi hu
    generalize tryBlock cfg fuel s1 e1 = r at k hout
    obtain ⟨o, s2, e2⟩ := r
    cases o with
    | ok a => subst hout; exact ⟨by simp, by simp⟩
    | pending => subst hout; exact ⟨by simp, by simp⟩
    | raised x =>
      simp only [] at hout
      have hx : x.isException = true := by
        cases x with
        | env y => exact absurd rfl (k y)
        | _ => rfl
      rw [if_pos hx] at hout
      generalize stopAllChildren "GloMPO Crash" s2 e2 = r at hout
      obtain ⟨o, s3, e3⟩ := r
      have hy : ∀ y, x ≠ .env y := fun y hy => k y (by rw [hy])
      cases o <;> subst hout <;> refine ⟨by simp, fun y => ?_⟩ <;> simp
      all_goals exact hy y
  cases o with
  | pending => exact ⟨by simp, by simp⟩
  | raised x =>
    obtain ⟨hr, hl, hn⟩ := h3 x rfl
    simp only []
    split
    · exact fin { s0 with converged := false } ((Step.setConverged s0 hl).inv i1) ⟨⟨hr.1.1, rfl⟩, hr.2⟩ _ rfl
    · exact ⟨by simp, by simp⟩
  | ok b =>
    obtain ⟨hr, hl, hn⟩ := h2 b rfl
    simp only []
    split
    · exact ⟨by simp, by simp⟩
    · rename_i hb
      have hb : b = false := by
        cases b with
        | false => rfl
        | true => simp at hb
      subst hb
      refine fin _ ((Step.verdict s0 false false ⟨hr.1.2, hr.1.1.1.1.1⟩ (unasked_of_lastCheck hl) (fun h => h) fun h => by cases h).inv i1) ?_ _ rfl
      refine ⟨⟨ready_snoc (s := s0) hr.1.1 rfl rfl rfl rfl (by rw [UpToDate_snoc]) (by rw [inHand_snoc])
        (by rw [sinceCrash_snoc]) fun _ => by rw [sinceCheck_snoc], rfl⟩, hr.2.1, hr.2.2.1, fun p hp =>
          (hr.2.2.2.1 p hp).imp (fun ⟨k, c, hh⟩ => ⟨k, c, List.mem_append_left _ hh⟩) id, fun hne hf => ?_⟩
      show load (s0.ev ++ [_]) + _ ≤ _
      rw [load_snoc (by simp) (by simp)]
      exact hr.2.2.2.2 hne (fits_snoc hf)

end Glompo.Manager
