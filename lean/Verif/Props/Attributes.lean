import Verif.Model.Attributes

/-!
# C104: what checkpoints keep of objects; C105: resuming without the log file
-/

namespace Glompo.Props

open Glompo Glompo.Attributes

variable {V : Type}

/-! ### Helpers -/

theorem get_cons (a : Attr V) (t : Obj V) (n : String) : getA (a :: t) n = if a.name = n then some a.val else getA t n := by
  unfold getA
  by_cases h : a.name = n
  · simp [h]
  · have : (a.name == n) = false := by simpa using h
    simp [List.find?_cons, this, h]

theorem set_ok (o : Obj V) (n : String) (v : Val V) (h : ∀ a ∈ o, a.name = n → a.readonly = false) :
    ∃ o', setA o n v = .ok o' ∧ getA o' n = some v ∧ (∀ m, m ≠ n → getA o' m = getA o m) ∧
      (∀ a ∈ o', a.readonly = true → ∃ b ∈ o, b.name = a.name ∧ b.readonly = true) := by
  induction o with
  | nil =>
    refine ⟨[⟨n, v, false⟩], rfl, by simp [get_cons], fun m hm => ?_, ?_⟩
    · rw [get_cons, if_neg (fun hh => hm hh.symm)]
    · intro a ha hr
      simp only [List.mem_singleton] at ha
      subst ha
      cases hr
  | cons a t ih =>
    by_cases hn : a.name = n
    · have hr := h a (by simp) hn
      refine ⟨{ a with val := v } :: t, by simp [setA, hn, hr], by simp [get_cons, hn], fun m hm => ?_, ?_⟩
      · rw [get_cons, get_cons, if_neg, if_neg]
        · exact fun hh => hm (hh.symm.trans hn)
        · exact fun hh => hm (hh.symm.trans hn)
      · intro b hb hbr
        rcases List.mem_cons.mp hb with rfl | hb
        · exact ⟨a, by simp, rfl, hbr⟩
        · exact ⟨b, by simp [hb], rfl, hbr⟩
    · obtain ⟨o', h1, h2, h3, h4⟩ := ih fun b hb => h b (by simp [hb])
      refine ⟨a :: o', by simp [setA, hn, h1], by rw [get_cons, if_neg hn, h2], fun m hm => ?_, ?_⟩
      · rw [get_cons, get_cons, h3 m hm]
      · intro b hb hbr
        rcases List.mem_cons.mp hb with rfl | hb
        · exact ⟨b, by simp, rfl, hbr⟩
        · obtain ⟨c, hc, hc'⟩ := h4 b hb hbr
          exact ⟨c, by simp [hc], hc'⟩

theorem setAll_ok (d : Dump V) : ∀ (o : Obj V), (d.map (·.1)).Nodup → (∀ a ∈ o, a.name ∈ d.map (·.1) → a.readonly = false) →
    ∃ o', setAll o d = .ok o' ∧ (∀ p ∈ d, getA o' p.1 = some p.2) ∧ (∀ m, m ∉ d.map (·.1) → getA o' m = getA o m) ∧
      (∀ a ∈ o', a.readonly = true → ∃ b ∈ o, b.name = a.name ∧ b.readonly = true) := by
  induction d with
  | nil => exact fun o _ _ => ⟨o, rfl, by simp, fun _ _ => rfl, fun a ha hr => ⟨a, ha, rfl, hr⟩⟩
  | cons p t ih =>
    intro o hn hr
    obtain ⟨n, v⟩ := p
    simp only [List.map_cons, List.nodup_cons] at hn
    obtain ⟨o1, h1, h2, h3, h4⟩ := set_ok o n v fun a ha hname => hr a ha (by simp [hname])
    obtain ⟨o2, g1, g2, g3, g4⟩ := ih o1 hn.2 fun a ha hname => by
      cases hro : a.readonly with
      | false => rfl
      | true =>
        obtain ⟨b, hb, hb1, hb2⟩ := h4 a ha hro
        rw [hr b hb (by rw [hb1]; simp only [List.map_cons, List.mem_cons]; exact .inr hname)] at hb2
        cases hb2
    refine ⟨o2, by simp [setAll, h1, g1], fun p hp => ?_, fun m hm => ?_, fun a ha hro => ?_⟩
    · rcases List.mem_cons.mp hp with rfl | hp
      · rw [g3 _ hn.1, h2]
      · exact g2 p hp
    · simp only [List.map_cons, List.mem_cons, not_or] at hm
      rw [g3 m hm.2, h3 m hm.1]
    · obtain ⟨b, hb, hb1, hb2⟩ := g4 a ha hro
      obtain ⟨c, hc, hc1, hc2⟩ := h4 b hb hb2
      exact ⟨c, hc, hc1.trans hb1, hc2⟩

theorem set_refuses (o : Obj V) (n : String) (v : Val V) (hu : (o.map (·.name)).Nodup) (a : Attr V) (ha : a ∈ o) (hn : a.name = n)
    (hr : a.readonly = true) : setA o n v = .error .attributeError := by
  induction o with
  | nil => cases ha
  | cons b t ih =>
    simp only [List.map_cons, List.nodup_cons] at hu
    rcases List.mem_cons.mp ha with rfl | ha
    · simp [setA, hn, hr]
    · have : b.name ≠ n := fun hh => hu.1 (by rw [hh, ← hn]; exact List.mem_map_of_mem ha)
      simp [setA, this, ih hu.2 ha]

theorem set_names {o o' : Obj V} {n : String} {v : Val V} (h : setA o n v = .ok o') :
    ((o.map (·.name)).Nodup → (o'.map (·.name)).Nodup) ∧ (∀ a ∈ o', a.name = n ∨ a.name ∈ o.map (·.name)) ∧
    (∀ a ∈ o, a.readonly = true → a ∈ o') := by
  induction o generalizing o' with
  | nil => cases h; exact ⟨fun _ => by simp, fun a ha => by simp at ha; simp [ha], fun a ha => by cases ha⟩
  | cons b t ih =>
    unfold setA at h
    split at h
    · split at h
      · cases h
      · rename_i hn hr
        cases h
        refine ⟨fun hu => by simpa using hu, fun a ha => ?_, fun a ha hro => ?_⟩
        · rcases List.mem_cons.mp ha with rfl | ha
          · exact .inl hn
          · exact .inr (by simp only [List.map_cons, List.mem_cons]; exact .inr (List.mem_map_of_mem ha))
        · rcases List.mem_cons.mp ha with rfl | ha
          · exact absurd hro hr
          · simp [ha]
    · rename_i hn
      split at h
      · cases h
      · rename_i t' ht
        cases h
        obtain ⟨i1, i2, i3⟩ := ih ht
        refine ⟨fun hu => ?_, fun a ha => ?_, fun a ha hro => ?_⟩
        · simp only [List.map_cons, List.nodup_cons] at hu ⊢
          refine ⟨fun hm => ?_, i1 hu.2⟩
          obtain ⟨c, hc, hcn⟩ := List.mem_map.mp hm
          rcases i2 c hc with h' | h'
          · exact hn (hcn.symm.trans h')
          · exact hu.1 (hcn ▸ h')
        · rcases List.mem_cons.mp ha with rfl | ha
          · exact .inr (by simp)
          · rcases i2 a ha with h' | h'
            · exact .inl h'
            · exact .inr (by simp only [List.map_cons, List.mem_cons]; exact .inr h')
        · rcases List.mem_cons.mp ha with rfl | ha
          · simp
          · exact List.mem_cons_of_mem _ (i3 a ha hro)

theorem setA_error {o : Obj V} {n : String} {v : Val V} {e : Fault} (h : setA o n v = .error e) : e = .attributeError := by
  induction o generalizing e with
  | nil => cases h
  | cons b t ih =>
    unfold setA at h
    split at h
    · split at h <;> cases h
      rfl
    · split at h
      · rename_i e' he'
        cases h
        exact ih he'
      · cases h

theorem setAll_refuses (d : Dump V) : ∀ (o : Obj V), (o.map (·.name)).Nodup → ∀ a ∈ o, a.readonly = true → a.name ∈ d.map (·.1) →
    ∃ e, setAll o d = .error e ∧ e = .attributeError := by
  induction d with
  | nil => intro o _ a _ _ h; cases h
  | cons p t ih =>
    intro o hu a ha hro hm
    obtain ⟨n, v⟩ := p
    unfold setAll
    cases hs : setA o n v with
    | error e =>
      exact ⟨e, rfl, setA_error hs⟩
    | ok o1 =>
      have hne : a.name ≠ n := fun hh => by rw [set_refuses o n v hu a ha hh hro] at hs; cases hs
      obtain ⟨s1, _, s3⟩ := set_names hs
      simp only [List.map_cons, List.mem_cons] at hm
      exact ih o1 (s1 hu) a (s3 a ha hro) hro (hm.resolve_left hne)

theorem dump_ok {keep : Attr V → Bool} {o : Obj V} {d : Dump V} (h : dump keep o = .ok d) :
    d = (o.filter keep).map fun a => (a.name, a.val) := by
  unfold dump at h
  split at h <;> cases h
  rfl

theorem dump_names {keep : Attr V → Bool} {o : Obj V} {d : Dump V} (h : dump keep o = .ok d) :
    d.map (·.1) = (o.filter keep).map (·.name) := by
  rw [dump_ok h, List.map_map]; rfl

/-- Saving what a filter keeps and setting it on another object. -/
theorem round_trip {keep : Attr V → Bool} {o fresh : Obj V} {d : Dump V} (hn : (o.map (·.name)).Nodup) (hd : dump keep o = .ok d)
    (hr : ∀ a ∈ o, keep a = true → ∀ b ∈ fresh, b.name = a.name → b.readonly = false) :
    ∃ o', setAll fresh d = .ok o' ∧ (∀ a ∈ o, keep a = true → getA o' a.name = some a.val) ∧
      (∀ m, (∀ a ∈ o, a.name = m → keep a = false) → getA o' m = getA fresh m) ∧
      (∀ a ∈ o', a.readonly = true → ∃ b ∈ fresh, b.name = a.name ∧ b.readonly = true) := by
  obtain ⟨o', h1, h2, h3, h4⟩ := setAll_ok d fresh (by
      rw [dump_names hd]; exact (List.filter_sublist.map _).nodup hn) (fun b hb hm => by
      rw [dump_names hd] at hm
      obtain ⟨a, ha, hab⟩ := List.mem_map.mp hm
      obtain ⟨ha, hk⟩ := List.mem_filter.mp ha
      exact hr a ha hk b hb hab.symm)
  refine ⟨o', h1, fun a ha hk => ?_, fun m hm => h3 m fun hmem => ?_, h4⟩
  · exact h2 (a.name, a.val) (by rw [dump_ok hd]; exact List.mem_map.mpr ⟨a, List.mem_filter.mpr ⟨ha, hk⟩, rfl⟩)
  · rw [dump_names hd] at hmem
    obtain ⟨a, ha, hab⟩ := List.mem_map.mp hmem
    obtain ⟨ha, hk⟩ := List.mem_filter.mp ha
    rw [hm a ha hab] at hk
    cases hk

/-! ### C104 -/

/-- The name contains two underscores. -/
def Dunder (n : String) : Prop := ∃ pre post, n.toList = pre ++ '_' :: '_' :: post

theorem twoUnderscores_iff : ∀ l : List Char, twoUnderscores l = true ↔ ∃ pre post, l = pre ++ '_' :: '_' :: post
  | [] => by simp [twoUnderscores]
  | [c] => by
    refine iff_of_false (by simp [twoUnderscores]) ?_
    rintro ⟨pre, post, h⟩
    have := congrArg List.length h
    simp at this
    omega
  | c :: d :: t => by
    by_cases hcd : c = '_' ∧ d = '_'
    · obtain ⟨rfl, rfl⟩ := hcd
      exact iff_of_true rfl ⟨[], t, rfl⟩
    · have : twoUnderscores (c :: d :: t) = twoUnderscores (d :: t) := by
        exact twoUnderscores.eq_2 c (d :: t) (fun t' h1 h2 => hcd ⟨h1, (List.cons.inj h2).1⟩)
      rw [this, twoUnderscores_iff (d :: t)]
      constructor
      · rintro ⟨pre, post, h⟩
        exact ⟨c :: pre, post, by rw [h]; rfl⟩
      · rintro ⟨pre, post, h⟩
        cases pre with
        | nil => cases h; exact absurd ⟨rfl, rfl⟩ hcd
        | cons b pre => exact ⟨pre, post, (List.cons.inj h).2⟩

theorem same_name {o : Obj V} (hn : (o.map (·.name)).Nodup) {a b : Attr V} (ha : a ∈ o) (hb : b ∈ o) (h : b.name = a.name) : a = b := by
  induction o with
  | nil => cases ha
  | cons c t ih =>
    simp only [List.map_cons, List.nodup_cons] at hn
    rcases List.mem_cons.mp ha with e | ha' <;> rcases List.mem_cons.mp hb with e' | hb'
    · rw [e, e']
    · exact absurd (by rw [← e, ← h]; exact List.mem_map_of_mem hb') hn.1
    · exact absurd (by rw [← e', h]; exact List.mem_map_of_mem ha') hn.1
    · exact ih hn.2 ha' hb'

theorem dunder_iff (n : String) : twoUnderscores n.toList = true ↔ Dunder n := twoUnderscores_iff _

/-- **C104, partial (optimizers).** An optimizer `o` has been saved to `d`. The new manager builds `fresh` with its own pipes, `workers` and
`backend`, the class of the optimizer having no properties without setter but `is_restart`, `opt_id` and `n_iter`. Then the optimizer is
continued; it uses the workers and the backend of the new manager and knows that it is continued; every other attribute whose name does not begin
with an underscore and which is not callable has the value it had when it was saved, and all further attributes are those of
`fresh`. Missing: callable attributes are not restored, and other properties without setter prevent loading (see below). -/
theorem C104_optimizer_partial (o fresh : Obj V) (force : List String) (yes workers backend : Val V) (d : Dump V)
    (hn : (o.map (·.name)).Nodup) (hd : dump (keepOptimizer force) o = .ok d)
    (hr : ∀ b ∈ fresh, b.readonly = true → b.name ∈ ["is_restart", "opt_id", "n_iter"] ∧ b.name ∉ force) :
    ∃ o', resumeOptimizer fresh yes workers backend (.ok d) = some o' ∧
      getA o' "workers" = some workers ∧ getA o' "_backend" = some backend ∧ getA o' "_is_restart" = some yes ∧
      (∀ a ∈ o, a.name ∉ ["workers", "_backend", "_is_restart"] →
        (a.val.callable = false ∧ a.name.toList.head? ≠ some '_' ∧ a.name ∉ ["logger", "is_restart", "opt_id", "n_iter"] ∨
          a.name ∈ force) → getA o' a.name = some a.val) ∧
      (∀ m, m ∉ ["workers", "_backend", "_is_restart"] → m ∉ force →
        (m.toList.head? = some '_' ∨ m ∈ ["logger", "is_restart", "opt_id", "n_iter"] ∨ (∀ a ∈ o, a.name = m → a.val.callable = true)) →
        getA o' m = getA fresh m) := by
  have hpriv : ∀ n : String, isPrivate n = true ↔ n.toList.head? = some '_' := by
    intro n
    unfold isPrivate
    cases n.toList with
    | nil => simp
    | cons c t =>
      by_cases hc : c = '_'
      · subst hc; simp
      · simp only [List.head?_cons, Option.some.injEq, hc, iff_false]
        split
        · rename_i h'; exact absurd (List.cons.inj h').1 hc
        · simp
  have hlog : ∀ b ∈ fresh, b.readonly = true → ∀ n : String, n = b.name → n ∉ ["workers", "_backend", "_is_restart"] := by
    intro b hb hro n hnm
    have := (hr b hb hro).1
    rw [← hnm] at this
    intro hmem
    simp only [List.mem_cons, List.not_mem_nil, or_false] at this hmem
    rcases this with rfl | rfl | rfl <;> simp at hmem
  obtain ⟨o1, h1, h2, h3, h4⟩ := round_trip (fresh := fresh) hn hd (fun a ha hk b hb hab => by
    cases hro : b.readonly with
    | false => rfl
    | true =>
      obtain ⟨h', h''⟩ := hr b hb hro
      rw [hab] at h' h''
      simp only [keepOptimizer, Bool.or_eq_true, Bool.and_eq_true, Bool.not_eq_true', List.contains_eq_mem, decide_eq_true_eq, decide_eq_false_iff_not] at hk
      rcases hk with ⟨_, hk⟩ | hk
      · simp only [List.mem_cons, List.not_mem_nil, or_false, not_or] at h' hk
        rcases h' with h' | h' | h' <;> simp [h'] at hk
      · exact absurd hk h'')
  have ro : ∀ (x : Obj V), (∀ a ∈ x, a.readonly = true → ∃ b ∈ fresh, b.name = a.name ∧ b.readonly = true) →
      ∀ n ∈ ["workers", "_backend", "_is_restart"], ∀ a ∈ x, a.name = n → a.readonly = false := by
    intro x hx n hn a ha han
    cases hro : a.readonly with
    | false => rfl
    | true =>
      obtain ⟨b, hb, hb1, hb2⟩ := hx a ha hro
      exact absurd hn (hlog b hb hb2 n (by rw [hb1, han]))
  obtain ⟨o2, g1, g2, g3, g4⟩ := set_ok o1 "_is_restart" yes (ro o1 h4 _ (by simp))
  have r2 : ∀ a ∈ o2, a.readonly = true → ∃ b ∈ fresh, b.name = a.name ∧ b.readonly = true := fun a ha hro => by
    obtain ⟨b, hb, hb1, hb2⟩ := g4 a ha hro
    obtain ⟨c, hc, hc1, hc2⟩ := h4 b hb hb2
    exact ⟨c, hc, hc1.trans hb1, hc2⟩
  obtain ⟨o3, k1, k2, k3, _⟩ := setAll_ok [("workers", workers), ("_backend", backend)] o2 (by simp) (fun a ha hm => by
    simp only [List.map_cons, List.map_nil, List.mem_cons, List.not_mem_nil, or_false] at hm
    rcases hm with hm | hm
    · exact ro o2 r2 "workers" (by simp) a ha hm
    · exact ro o2 r2 "_backend" (by simp) a ha hm)
  have through : ∀ m, m ∉ ["workers", "_backend", "_is_restart"] → getA o3 m = getA o1 m := by
    intro m hm
    simp only [List.mem_cons, List.not_mem_nil, or_false, not_or] at hm
    rw [k3 m (by simp [hm.1, hm.2.1]), g3 m hm.2.2]
  refine ⟨o3, ?_, k2 ("workers", workers) (by simp), k2 ("_backend", backend) (by simp), ?_, fun a ha hm hk => ?_, fun m hm hf hk => ?_⟩
  · simp [resumeOptimizer, loadOptimizer, needsPackage, h1, g1, k1]
  · rw [k3 _ (by simp), g2]
  · rw [through _ hm]
    apply h2 a ha
    simp only [keepOptimizer, Bool.or_eq_true, Bool.and_eq_true, Bool.not_eq_true', List.contains_eq_mem, decide_eq_true_eq, decide_eq_false_iff_not]
    rcases hk with ⟨hk1, hk2, hk3⟩ | hk
    · refine .inl ⟨⟨hk1, ?_⟩, hk3⟩
      cases hp : isPrivate a.name with
      | false => rfl
      | true => exact absurd ((hpriv _).mp hp) hk2
    · exact .inr hk
  · rw [through _ hm]
    apply h3 m
    intro a ha ham
    subst ham
    simp only [keepOptimizer, Bool.or_eq_false_iff, List.contains_eq_mem, decide_eq_false_iff_not, Bool.and_eq_false_iff, Bool.not_eq_false', decide_eq_true_eq]
    refine ⟨?_, hf⟩
    rcases hk with hk | hk | hk
    · exact .inl (.inr ((hpriv _).mpr hk))
    · exact .inr hk
    · exact .inl (.inl (hk a ha rfl))

/-- **C104 (scope).** Every attribute of the scope but the writer and the logger whose name does not contain two underscores and whose
value is not callable is restored on a newly made scope, whose only property without setter is `is_setup`; nothing else is touched. -/
theorem C104_scope (o fresh : Obj V) (d : Dump V) (hn : (o.map (·.name)).Nodup) (hd : dump keepScope o = .ok d)
    (hr : ∀ b ∈ fresh, b.readonly = true → b.name = "is_setup") :
    ∃ o', setAll fresh d = .ok o' ∧
      (∀ a ∈ o, ¬ Dunder a.name → a.val.callable = false → a.name ∉ ["_writer", "logger", "is_setup"] →
        getA o' a.name = some a.val) ∧
      (∀ a ∈ o, Dunder a.name ∨ a.val.callable = true → getA o' a.name = getA fresh a.name) ∧
      getA o' "_writer" = getA fresh "_writer" ∧ getA o' "logger" = getA fresh "logger" := by
  obtain ⟨o', h1, h2, h3, _⟩ := round_trip (fresh := fresh) hn hd (fun a ha hk b hb hab => by
    cases hro : b.readonly with
    | false => rfl
    | true =>
      have h' := hr b hb hro
      rw [hab] at h'
      simp [keepScope, h'] at hk)
  refine ⟨o', h1, fun a ha hu hc hm => h2 a ha ?_, fun a ha hu => h3 _ fun b hb hba => ?_, h3 _ fun a ha ham => ?_, h3 _ fun a ha ham => ?_⟩
  · simp only [List.mem_cons, List.not_mem_nil, or_false, not_or] at hm
    rw [← dunder_iff, Bool.not_eq_true] at hu
    simp [keepScope, hu, hc, hm]
  · cases same_name hn ha hb hba
    rcases hu with hu | hu
    · simp [keepScope, (dunder_iff _).mpr hu]
    · simp [keepScope, hu]
  · simp [keepScope, ham]
  · simp [keepScope, ham]

/-- A scope and the one it is loaded into. -/
example : ([⟨"_writer", ⟨1, false, false, false⟩, false⟩, ⟨"is_setup", ⟨1, false, false, true⟩, true⟩, ⟨"opt_streams", ⟨8, false, false, true⟩, false⟩] :
      Obj Nat).map (·.name) |>.Nodup := by decide

example : ∃ d, dump keepScope ([⟨"_writer", ⟨1, false, false, false⟩, false⟩, ⟨"is_setup", ⟨1, false, false, true⟩, true⟩,
      ⟨"opt_streams", ⟨8, false, false, true⟩, false⟩] : Obj Nat) = .ok d ∧
    (setAll ([⟨"_writer", ⟨0, false, false, true⟩, false⟩, ⟨"is_setup", ⟨0, false, false, true⟩, true⟩] : Obj Nat) d).toOption.map (getA · "opt_streams") =
      some (some ⟨8, false, false, true⟩) := ⟨_, rfl, by decide⟩

/-- **C104 (manager).** Every attribute of the manager, callable or not, is restored, but its methods, those whose names contain two
underscores, and those which `load_checkpoint` builds anew. What cannot be pickled makes the checkpoint fail with
`CheckpointingError`: it is never left out silently. -/
theorem C104_manager (o fresh : Obj V) (hn : (o.map (·.name)).Nodup)
    (hr : ∀ b ∈ fresh, b.readonly = true → b.name = "is_initialised") :
    ((∃ a ∈ o, keepManager a = true ∧ a.val.pickles = false) → dumpManager o = .error .checkpointingError) ∧
    ((∀ a ∈ o, keepManager a = true → a.val.pickles = true) →
      ∃ d o', dumpManager o = .ok d ∧ setAll fresh d = .ok o' ∧
        (∀ a ∈ o, Dunder a.name ∨ a.val.callable = true ∧ a.val.bound = true → getA o' a.name = getA fresh a.name) ∧
        (∀ a ∈ o, ¬ Dunder a.name → (a.val.callable = true → a.val.bound = false) →
          a.name ∉ ["logger", "_process", "_mp_manager", "_optimizer_packs", "scope", "task", "optimizer_queue", "is_initialised", "opt_log"] →
          getA o' a.name = some a.val) ∧
        (∀ m ∈ ["logger", "_process", "_mp_manager", "_optimizer_packs", "scope", "task", "optimizer_queue", "opt_log"],
          getA o' m = getA fresh m)) := by
  refine ⟨fun ⟨a, ha, hk, hp⟩ => ?_, fun hp => ?_⟩
  · unfold dumpManager dump
    rw [if_neg]
    rw [List.all_eq_true]
    intro hall
    have := hall a (List.mem_filter.mpr ⟨ha, hk⟩)
    rw [hp] at this
    cases this
  · have hd : dump keepManager o = .ok ((o.filter keepManager).map fun a => (a.name, a.val)) := by
      unfold dump
      rw [if_pos]
      rw [List.all_eq_true]
      intro a ha
      obtain ⟨ha, hk⟩ := List.mem_filter.mp ha
      exact hp a ha hk
    obtain ⟨o', h1, h2, h3, _⟩ := round_trip (fresh := fresh) hn hd (fun a ha hk b hb hab => by
      cases hro : b.readonly with
      | false => rfl
      | true =>
        have h' := hr b hb hro
        rw [hab] at h'
        simp [keepManager, h'] at hk)
    refine ⟨_, o', by simp [dumpManager, hd], h1, fun a ha hu => h3 _ fun b hb hba => ?_, fun a ha hu hc hm => h2 a ha ?_,
      fun m hm => h3 m fun a ha ham => ?_⟩
    · cases same_name hn ha hb hba
      rcases hu with hu | ⟨hu, hu'⟩
      · simp [keepManager, (dunder_iff _).mpr hu]
      · simp [keepManager, hu, hu']
    · rw [← dunder_iff, Bool.not_eq_true] at hu
      simp only [keepManager, Bool.and_eq_true, Bool.not_eq_true', hu, List.contains_eq_mem, decide_eq_false_iff_not]
      refine ⟨⟨?_, trivial⟩, hm⟩
      cases hca : a.val.callable with
      | false => rfl
      | true => simp [hc hca]
    · simp only [keepManager, ham, Bool.and_eq_false_iff, Bool.not_eq_false', List.contains_eq_mem, decide_eq_true_eq]
      right
      simp only [List.mem_cons, List.not_mem_nil, or_false] at hm
      rcases hm with h | h | h | h | h | h | h | h <;> simp [h]

/-- A manager: `overwrite_existing` is data, `selector` callable and no method, `task` saved apart. -/
example : ∃ d, dumpManager ([⟨"is_initialised", ⟨1, false, false, true⟩, true⟩, ⟨"overwrite_existing", ⟨6, false, false, true⟩, false⟩,
      ⟨"selector", ⟨7, true, false, true⟩, false⟩, ⟨"start_manager", ⟨0, true, true, true⟩, false⟩, ⟨"task", ⟨9, true, false, false⟩, false⟩] : Obj Nat) = .ok d ∧
    (setAll ([⟨"is_initialised", ⟨0, false, false, true⟩, true⟩, ⟨"start_manager", ⟨0, true, true, true⟩, false⟩] : Obj Nat) d).toOption.map
      (fun o => (getA o "overwrite_existing", getA o "selector", getA o "task")) =
      some (some ⟨6, false, false, true⟩, some ⟨7, true, false, true⟩, none) := ⟨_, rfl, by decide⟩

/-- The same with a selector that cannot be dumped. -/
example : dumpManager ([⟨"overwrite_existing", ⟨6, false, false, true⟩, false⟩, ⟨"selector", ⟨7, true, false, false⟩, false⟩] : Obj Nat) =
    .error .checkpointingError := rfl

/-- **C104, refuted (properties).** An optimizer whose class has one more public property without setter is saved and can never be loaded
again: the new manager goes on without it. -/
theorem C104_property_refuted (o fresh : Obj V) (force : List String) (yes workers backend : Val V) (d : Dump V)
    (hf : (fresh.map (·.name)).Nodup) (hd : dump (keepOptimizer force) o = .ok d) (a b : Attr V) (ha : a ∈ o) (hb : b ∈ fresh)
    (hab : b.name = a.name) (hro : b.readonly = true) (hk : keepOptimizer force a = true) :
    resumeOptimizer fresh yes workers backend (.ok d) = none := by
  obtain ⟨e, he, rfl⟩ := setAll_refuses d fresh hf b hb hro (by
    rw [dump_names hd, hab]; exact List.mem_map_of_mem (List.mem_filter.mpr ⟨ha, hk⟩))
  simp [resumeOptimizer, loadOptimizer, needsPackage, he]

/-- A user's optimizer: `x` is data, `rate` a property without setter, `step` callable. -/
def userOpt : Obj Nat :=
  [⟨"_opt_id", ⟨3, false, false, true⟩, false⟩, ⟨"is_restart", ⟨0, false, false, true⟩, true⟩, ⟨"minimize", ⟨0, true, true, true⟩, false⟩,
   ⟨"step", ⟨7, true, false, true⟩, false⟩, ⟨"workers", ⟨4, false, false, true⟩, false⟩, ⟨"x", ⟨5, false, false, true⟩, false⟩]

/-- The same as the new manager builds it, before loading. -/
def userFresh : Obj Nat :=
  [⟨"_opt_id", ⟨3, false, false, true⟩, false⟩, ⟨"is_restart", ⟨0, false, false, true⟩, true⟩, ⟨"minimize", ⟨0, true, true, true⟩, false⟩,
   ⟨"workers", ⟨2, false, false, true⟩, false⟩]

def natVal (n : Nat) : Val Nat := ⟨n, false, false, true⟩

/-- What is continued: the data is there, the workers are those of the new manager, the callable attribute is gone. -/
theorem C104_callable_refuted : ∃ d o', dump (keepOptimizer []) userOpt = .ok d ∧
    resumeOptimizer userFresh (natVal 1) (natVal 2) (natVal 0) (.ok d) = some o' ∧
    getA o' "x" = some (natVal 5) ∧ getA o' "workers" = some (natVal 2) ∧
    (getA userOpt "step").isSome = true ∧ getA o' "step" = none := ⟨_, _, rfl, rfl, by decide⟩

example : (userOpt.map (·.name)).Nodup ∧
    (∀ b ∈ userFresh, b.readonly = true → b.name ∈ ["is_restart", "opt_id", "n_iter"] ∧ b.name ∉ ([] : List String)) := by decide

/-- With the property `rate`. -/
example : (dump (keepOptimizer []) (⟨"rate", natVal 9, true⟩ :: userOpt)).toOption.isSome = true ∧
    resumeOptimizer (⟨"rate", natVal 9, true⟩ :: userFresh) (natVal 1) (natVal 2) (natVal 0)
      (dump (keepOptimizer []) (⟨"rate", natVal 9, true⟩ :: userOpt)) = none := by decide

/-- **C104, refuted (missing modules).** If the log of a checkpoint cannot be read because a module is missing, loading does not fail: the manager
is left without log. Any other failure is passed on. -/
theorem C104_missing_module_refuted (bare : Obj V) :
    loadLog bare (.error .importError) = .ok none ∧ loadLog bare (.error .pickleError) = .error .pickleError := ⟨rfl, rfl⟩

/-! ### C105 -/

/-- The log loaded from the checkpoint of a manager which wrote a log file. -/
def loadedFile (s : FileLogger) : Except Fault (Option (Obj LogVal)) := loadLog bareLog (dump (keepLog fileBlock) (bareLog ++ fileAttrs s))

/-- The log loaded as file log, from the checkpoint of a manager which wrote none. -/
def loadedMemory (s : Logger) : Except Fault (Option (Obj LogVal)) := loadLog bareLog (dump (keepLog []) (bareLog ++ baseAttrs s))

/-- The attributes which a loaded file log has. -/
def savedFile (s : FileLogger) : Obj LogVal :=
  baseAttrs s.base ++ [plain "expected_rows" .misc, plain "n_task_dims" .misc, plain "_o_counter" (.count s.oCounter),
    plain "_writing_chunk" (.chunk s.chunk), plain "_est_iter_size" (.count s.est)]

theorem bare_dropped (block : List String) : bareLog.filter (keepLog block) = [] := by
  simp [bareLog, keepLog, method]

theorem loadedFile_eq (s : FileLogger) : loadedFile s = .ok (some (bareLog ++ savedFile s)) := by
  have h : (fileAttrs s).filter (keepLog fileBlock) = savedFile s := by
    simp [fileAttrs, baseAttrs, savedFile, plain, keepLog, fileBlock, twoUnderscores]
  have h2 : dump (keepLog fileBlock) (bareLog ++ fileAttrs s) = .ok ((savedFile s).map fun a => (a.name, a.val)) := by
    unfold dump
    rw [List.filter_append, bare_dropped, List.nil_append, h]
    rfl
  unfold loadedFile loadLog
  rw [h2]
  simp [needsPackage, savedFile, baseAttrs, plain, setAll, bareLog, method, setA]

theorem loadedMemory_eq (s : Logger) : loadedMemory s = .ok (some (bareLog ++ baseAttrs s)) := by
  have h : (baseAttrs s).filter (keepLog []) = baseAttrs s := by
    simp [baseAttrs, plain, keepLog, twoUnderscores]
  have h2 : dump (keepLog []) (bareLog ++ baseAttrs s) = .ok ((baseAttrs s).map fun a => (a.name, a.val)) := by
    unfold dump
    rw [List.filter_append, bare_dropped, List.nil_append, h]
    rfl
  unfold loadedMemory loadLog
  rw [h2]
  simp [needsPackage, baseAttrs, plain, setAll, bareLog, method, setA]

/-- **C105, partial.** Resuming where the log file is: the log is the one saved, with the groups and tables found in the file. Missing:
resuming without the file, see below. -/
theorem C105_existing_file_partial (s : FileLogger) (f : Rollback.LogFile) :
    ∃ o o', loadedFile s = .ok (some o) ∧ openResumed o (some f) = .ok o' ∧ asFileLogger o' = some (Rollback.reopen s f) ∧
      (∀ i, hasHistory o' i = .ok (dictGet f.tables i).isSome) ∧ newOptimizer o' = .ok () ∧ (∀ i ∈ f.groups, groupOf o' i = .ok ()) := by
  have hg : ∀ (a : Obj LogVal) (t) (i : Nat), getA a "_groups" = some ⟨.groups f.groups, t, false, false⟩ → i ∈ f.groups → groupOf a i = .ok () := by
    intro a t i h hi
    simp [groupOf, h, hi]
  exact ⟨_, bareLog ++ savedFile s ++ [⟨"pytab_file", ⟨.file, false, false, false⟩, false⟩, ⟨"_groups", ⟨.groups f.groups, false, false, false⟩, false⟩,
    ⟨"_tables", ⟨.tables f.tables, false, false, false⟩, false⟩], loadedFile_eq s, rfl, rfl, fun _ => rfl, rfl,
    fun i hi => hg _ false i rfl hi⟩

/-- **C105, refuted.** Resuming without the log file, e.g. in another working directory: a new file is opened, but the log lacks the
attributes which hold groups and tables. Whatever was logged before: recording any evaluation of any optimizer raises `AttributeError`, and so do
starting an optimizer, any message and any metadata. -/
theorem C105_new_file_refuted (s : FileLogger) :
    ∃ o o', loadedFile s = .ok (some o) ∧ openResumed o none = .ok o' ∧
      (∀ i, hasHistory o' i = .error .attributeError) ∧ newOptimizer o' = .error .attributeError ∧
      (∀ i, groupOf o' i = .error .attributeError) := by
  exact ⟨_, bareLog ++ savedFile s ++ [⟨"pytab_file", ⟨.file, false, false, false⟩, false⟩], loadedFile_eq s, rfl, fun _ => rfl, rfl, fun _ => rfl⟩

/-- **C105, refuted (log file asked for when resuming).** The checkpoint was made without a log file, and one is asked for when resuming (`summary_files=3`): no
optimizer can be started, whether or not a file is there. -/
theorem C105_file_wanted_refuted (s : Logger) (there : Option Rollback.LogFile) :
    ∃ o o', loadedMemory s = .ok (some o) ∧ openResumed o there = .ok o' ∧ newOptimizer o' = .error .attributeError := by
  cases there with
  | none => exact ⟨_, bareLog ++ baseAttrs s ++ [⟨"pytab_file", ⟨.file, false, false, false⟩, false⟩], loadedMemory_eq s, rfl, rfl⟩
  | some f =>
    exact ⟨_, bareLog ++ baseAttrs s ++ [⟨"pytab_file", ⟨.file, false, false, false⟩, false⟩, ⟨"_groups", ⟨.groups f.groups, false, false, false⟩, false⟩,
      ⟨"_tables", ⟨.tables f.tables, false, false, false⟩, false⟩], loadedMemory_eq s, rfl, rfl⟩

end Glompo.Props
