import Verif.Spec.Summary

/-! # Lemmas on summary files -/

namespace Glompo.Summary

theorem trim_filter : ∀ s : List Char, (trim s).filter (· ≠ ' ') = s.filter (· ≠ ' ')
  | [] => rfl
  | [c] => by
    rw [trim]
    · simp [trim]
    · rintro t' - h; cases h
  | a :: b :: t => by
    by_cases h : a = ' ' ∧ b = '\n'
    · obtain ⟨rfl, rfl⟩ := h
      have := trim_filter t
      simp only [trim]
      simpa using this
    · have e : trim (a :: b :: t) = a :: trim (b :: t) := by
        rw [trim]
        rintro t' rfl ht
        injection ht with h1 h2
        exact h ⟨rfl, h1⟩
      rw [e, List.filter_cons, List.filter_cons (xs := b :: t), trim_filter (b :: t)]

mutual
theorem load_represent (o : Obj) (h : ∀ p, Inside p o → ¬ Foreign p) : ∃ v, load (represent o) = some v ∧ Same o v := by
  cases o with
  | scal v => exact ⟨_, rfl, .scal v⟩
  | literal s => exact ⟨_, rfl, .literal s _ (trim_filter s)⟩
  | list l =>
    obtain ⟨vs, h1, h2⟩ := load_representL l fun o ho p hp => h p (.item ho hp)
    exact ⟨.list vs, by simp [represent, load, h1], h2⟩
  | dict l =>
    obtain ⟨vs, h1, h2⟩ := load_representD l fun k o ho p hp => h p (.entry ho hp)
    exact ⟨.dict vs, by simp [represent, load, h1], h2⟩
  | tuple l => exact absurd trivial (h _ .self)
  | npScalar v => exact ⟨_, rfl, .npScalar v⟩
  | npArray l =>
    obtain ⟨vs, h1, h2⟩ := load_representL l fun o ho p hp => h p (.cell ho hp)
    exact ⟨.list vs, by simp [represent, load, h1], .npArray h2⟩
  | function n => exact absurd trivial (h _ .self)
  | cls m n =>
    cases m with
    | false => exact absurd rfl (h _ .self)
    | true => exact ⟨_, rfl, .cls _ _⟩
  | inst n l =>
    cases l with
    | nil => exact ⟨_, rfl, .bare n⟩
    | cons a t =>
      obtain ⟨vs, h1, h2⟩ := load_representA (a :: t) fun k o ho p hp => h p (.attr ho hp)
      exact ⟨_, by simp [represent, load, loadD, h1], .inst (by simp) h2⟩
theorem load_representL (l : List Obj) (h : ∀ o ∈ l, ∀ p, Inside p o → ¬ Foreign p) :
    ∃ vs, loadL (representL l) = some vs ∧ Same (.list l) (.list vs) := by
  cases l with
  | nil => exact ⟨_, rfl, .noItem⟩
  | cons o t =>
    obtain ⟨v, h1, h2⟩ := load_represent o (h o (by simp))
    obtain ⟨vs, h3, h4⟩ := load_representL t fun o' ho => h o' (by simp [ho])
    exact ⟨v :: vs, by simp [representL, loadL, h1, h3], .items h2 h4⟩
theorem load_representD (l : List (Key × Obj)) (h : ∀ k o, (k, o) ∈ l → ∀ p, Inside p o → ¬ Foreign p) :
    ∃ vs, loadD (representD l) = some vs ∧ Same (.dict l) (.dict vs) := by
  cases l with
  | nil => exact ⟨_, rfl, .noEntry⟩
  | cons a t =>
    obtain ⟨k, o⟩ := a
    obtain ⟨v, h1, h2⟩ := load_represent o (h k o (by simp))
    obtain ⟨vs, h3, h4⟩ := load_representD t fun k' o' ho => h k' o' (by simp [ho])
    exact ⟨(k, v) :: vs, by simp [representD, loadD, h1, h3], .entries h2 h4⟩
theorem load_representA (l : List (List Char × Obj)) (h : ∀ k o, (k, o) ∈ l → ∀ p, Inside p o → ¬ Foreign p) :
    ∃ vs, loadD (representA l) = some vs ∧ Same (.dict (l.map fun a => (.str a.1, a.2))) (.dict vs) := by
  cases l with
  | nil => exact ⟨_, rfl, .noEntry⟩
  | cons a t =>
    obtain ⟨k, o⟩ := a
    obtain ⟨v, h1, h2⟩ := load_represent o (h k o (by simp))
    obtain ⟨vs, h3, h4⟩ := load_representA t fun k' o' ho => h k' o' (by simp [ho])
    exact ⟨(.str k, v) :: vs, by simp [representA, loadD, h1, h3], .entries h2 h4⟩
end

theorem loadL_none {o : Obj} : ∀ {l : List Obj}, o ∈ l → load (represent o) = none → loadL (representL l) = none
  | a :: t, h, hn => by
    rcases List.mem_cons.mp h with rfl | h
    · simp [representL, loadL, hn]
    · cases hl : load (represent a) <;> simp [representL, loadL, hl, loadL_none h hn]

theorem loadD_none {k : Key} {o : Obj} : ∀ {l : List (Key × Obj)}, (k, o) ∈ l → load (represent o) = none →
    loadD (representD l) = none
  | (k', a) :: t, h, hn => by
    rcases List.mem_cons.mp h with h | h
    · cases h
      simp [representD, loadD, hn]
    · cases hl : load (represent a) <;> simp [representD, loadD, hl, loadD_none h hn]

theorem loadA_none {k : List Char} {o : Obj} : ∀ {l : List (List Char × Obj)}, (k, o) ∈ l → load (represent o) = none →
    loadD (representA l) = none
  | (k', a) :: t, h, hn => by
    rcases List.mem_cons.mp h with h | h
    · cases h
      simp [representA, loadD, hn]
    · cases hl : load (represent a) <;> simp [representA, loadD, hl, loadA_none h hn]

theorem load_foreign {p : Obj} (hp : Foreign p) {o : Obj} (h : Inside p o) : load (represent o) = none := by
  induction h with
  | self =>
    cases p with
    | tuple l => rfl
    | function n => rfl
    | cls m n => cases hp; rfl
    | _ => exact absurd hp id
  | item h _ ih => simp [represent, load, loadL_none h ih]
  | entry h _ ih => simp [represent, load, loadD_none h ih]
  | place => rfl
  | cell h _ ih => simp [represent, load, loadL_none h ih]
  | @attr k o n l h _ ih =>
    cases l with
    | nil => cases h
    | cons a t => simp [represent, load, loadD, loadA_none h ih]

theorem clean_scal (v) : Clean (.scal v) := fun p h hf => by cases h; exact hf

theorem clean_literal (v) : Clean (.literal v) := fun p h hf => by cases h; exact hf

theorem clean_dict {l : List (Key × Obj)} (h : ∀ a ∈ l, Clean a.2) : Clean (.dict l) := fun p hp hf => by
  cases hp with
  | self => exact hf
  | entry hm hi => exact h _ hm p hi hf

theorem clean_list {l : List Obj} (h : ∀ a ∈ l, Clean a) : Clean (.list l) := fun p hp hf => by
  cases hp with
  | self => exact hf
  | item hm hi => exact h _ hm p hi hf

theorem clean_optEntries : ∀ (l : List (List Obj)) (i : Nat), (∀ o ∈ l, ∀ x ∈ o, Clean x) → ∀ a ∈ optEntries i l, Clean a.2
  | [], _, _, a, ha => by cases ha
  | o :: t, i, h, a, ha => by
    rcases List.mem_cons.mp ha with rfl | ha
    · refine clean_dict fun b hb => h o (by simp) b.2 ?_
      exact (List.of_mem_zip hb).2
    · exact clean_optEntries t (i + 1) (fun o' ho => h o' (by simp [ho])) a ha

theorem clean_bounds {text : Helpers.Bound → List Char} {bs : List Helpers.Bound} {o : Obj} (h : presentBounds text bs = .ok o) : Clean o := by
  unfold presentBounds at h
  split at h
  · cases h
  · cases h
    refine clean_dict fun a ha => ?_
    obtain ⟨p, -, rfl⟩ := List.mem_map.mp ha
    refine clean_list fun b hb => ?_
    obtain ⟨q, -, rfl⟩ := List.mem_map.mp hb
    exact clean_scal _

theorem clean_time {m : Facts} {o : Obj} (h : timeEntry m = .ok o) : Clean o := by
  have key : ∀ s : Obj, Clean s → ∀ t, Clean (.dict [(Summary.key "Optimization Periods", .list
      ((m.clock.starts.zip m.clock.ends).map fun p =>
        Obj.dict [(Summary.key "Start", .scal (.str (m.moment p.1))), (Summary.key "End", .scal (.str (m.moment p.2)))])),
    (Summary.key "Total", .scal t), (Summary.key "Session", s)]) := by
    intro s hs t
    refine clean_dict fun a ha => ?_
    simp only [List.mem_cons, List.not_mem_nil, or_false] at ha
    rcases ha with rfl | rfl | rfl
    · refine clean_list fun b hb => ?_
      obtain ⟨q, -, rfl⟩ := List.mem_map.mp hb
      refine clean_dict fun c hc => ?_
      simp only [List.mem_cons, List.not_mem_nil, or_false] at hc
      rcases hc with rfl | rfl <;> exact clean_scal _
    · exact clean_scal _
    · exact hs
  unfold timeEntry at h
  split at h
  · cases h; exact key _ (clean_scal _) _
  · cases h
  · cases h; exact key _ (clean_scal _) _

theorem clean_data {m : Facts} (hm : CleanSettings m) (c : Counters) (r : Solution) (reason : List Char) {time bounds : Obj}
    (ht : Clean time) (hb : Clean bounds) : Clean (dataDict m c r reason time bounds) := by
  obtain ⟨h1, h2, h3⟩ := hm
  refine clean_dict fun a ha => ?_
  simp only [List.mem_append, List.mem_cons, List.not_mem_nil, or_false] at ha
  rcases ha with ((rfl | rfl | rfl) | ha) | rfl
  · refine clean_dict fun b hb => ?_
    simp only [List.mem_cons, List.not_mem_nil, or_false] at hb
    rcases hb with rfl | rfl | rfl | rfl | rfl | rfl <;> first | exact clean_scal _ | exact ht
  · refine clean_dict fun b hb' => ?_
    simp only [settings, List.mem_append, List.mem_cons, List.not_mem_nil, or_false] at hb'
    rcases hb' with (rfl | rfl | rfl | rfl | rfl) | rfl
    · refine clean_dict fun d hd => ?_
      rcases List.mem_cons.mp hd with rfl | hd
      · exact clean_scal _
      · obtain ⟨q, hq, rfl⟩ := List.mem_map.mp hd
        exact h1 q (List.mem_filter.mp hq).1
    · exact clean_literal _
    · cases m.hunters with
      | none => exact clean_scal _
      | some t => exact clean_literal _
    · refine clean_dict fun d hd => ?_
      simp only [List.mem_cons, List.not_mem_nil, or_false] at hd
      rcases hd with rfl | rfl | rfl
      · exact clean_scal _
      · exact h2
      · exact clean_dict (clean_optEntries _ _ h3)
    · exact clean_scal _
    · exact hb
  · refine clean_dict fun b hb => ?_
    simp only [List.mem_cons, List.not_mem_nil, or_false] at hb
    rcases hb with rfl | rfl | rfl
    · exact clean_scal _
    · exact clean_scal _
    · refine clean_dict fun d hd => ?_
      simp only [List.mem_cons, List.not_mem_nil, or_false] at hd
      rcases hd with rfl | rfl | rfl <;> exact clean_scal _
  · unfold checkpointing at ha
    split at ha
    · cases ha
    · simp only [List.mem_cons, List.not_mem_nil, or_false] at ha
      subst ha
      refine clean_dict fun b hb => ?_
      simp only [List.mem_cons, List.not_mem_nil, or_false] at hb
      rcases hb with rfl | rfl
      · exact clean_scal _
      · refine clean_list fun d hd => ?_
        obtain ⟨q, -, rfl⟩ := List.mem_map.mp hd
        exact clean_scal _
  · refine clean_dict fun b hb => ?_
    simp only [List.mem_cons, List.not_mem_nil, or_false] at hb
    rcases hb with rfl | rfl | rfl | rfl
    · cases r.fx <;> exact clean_scal _
    · cases r.origin with
      | none => exact clean_scal _
      | some q =>
        refine clean_dict fun d hd => ?_
        simp only [List.mem_cons, List.not_mem_nil, or_false] at hd
        rcases hd with rfl | rfl <;> exact clean_scal _
    · exact clean_literal _
    · cases r.x with
      | none => exact clean_scal _
      | some x =>
        refine clean_list fun d hd => ?_
        obtain ⟨q, -, rfl⟩ := List.mem_map.mp hd
        exact clean_scal _

/-- The object found by following keys. -/
def Obj.at : Obj → List Key → Option Obj
  | o, [] => some o
  | .dict l, k :: ks =>
    match dictGet l k with
    | none => none
    | some o => o.at ks
  | _, _ :: _ => none

theorem same_get {k : Key} {p : Obj} : ∀ {l : List (Key × Obj)} {vs}, Same (.dict l) (.dict vs) → dictGet l k = some p →
    ∃ w, dictGet vs k = some w ∧ Same p w
  | [], _, _, h => by cases h
  | (k', o) :: t, _, .entries (v := v) (vs := vs) hs ht, h => by
    rw [dictGet] at h ⊢
    split at h
    · rename_i e
      cases h
      exact ⟨v, by simp [e], hs⟩
    · rename_i e
      obtain ⟨w, h1, h2⟩ := same_get ht h
      exact ⟨w, by simp [e, h1], h2⟩

theorem same_at : ∀ (ks : List Key) {o p : Obj} {v : Val}, Same o v → o.at ks = some p → ∃ w, v.at ks = some w ∧ Same p w
  | [], o, p, v, hs, h => by
    have : o = p := by simpa [Obj.at] using h
    exact ⟨v, by simp [Val.at], this ▸ hs⟩
  | k :: ks, o, p, v, hs, h => by
    cases o with
    | dict l =>
      cases v with
      | dict vs =>
        simp only [Obj.at] at h
        cases hg : dictGet l k with
        | none => rw [hg] at h; cases h
        | some q =>
          rw [hg] at h
          obtain ⟨w, h1, h2⟩ := same_get hs hg
          obtain ⟨u, h3, h4⟩ := same_at ks h2 h
          exact ⟨u, by simp [Val.at, h1, h3], h4⟩
      | _ => cases hs
    | _ => simp [Obj.at] at h

theorem same_scals (f : α → Scal) : ∀ (l : List α) {w : Val}, Same (.list (l.map fun a => .scal (f a))) w →
    w = .list (l.map fun a => .scal (f a))
  | [], _, h => by cases h; rfl
  | a :: t, _, .items (v := v) (vs := vs) h1 h2 => by
    cases h1
    have := same_scals f t h2
    injection this with this
    rw [this]; rfl

theorem get_optEntries : ∀ (l : List (List Obj)) (i j : Nat) (o : List Obj), l[j]? = some o →
    dictGet (optEntries i l) (.int (i + j)) = some (optEntry o)
  | [], _, _, _, h => by simp at h
  | a :: t, i, 0, o, h => by
    have : a = o := by simpa using h
    subst this
    simp [optEntries, dictGet]
  | a :: t, i, j + 1, o, h => by
    have := get_optEntries t (i + 1) j o (by simpa using h)
    have e : i + (j + 1) = i + 1 + j := by omega
    rw [e, optEntries, dictGet, if_neg, this]
    intro hc
    injection hc with hc
    omega

theorem get_bounds {text : Helpers.Bound → List Char} {b : Helpers.Bound} : ∀ (d : List (Helpers.Bound × List Nat)) {l : List Nat},
    (∀ a ∈ d.map Prod.fst, text a = text b → a = b) → dictGet d b = some l →
    dictGet (d.map fun p => (Key.str (text p.1), Obj.list (p.2.map nat))) (.str (text b)) = some (.list (l.map nat))
  | [], _, _, h => by cases h
  | (a, k) :: t, l, hi, h => by
    rw [dictGet] at h
    by_cases e : a = b
    · subst e
      simp at h
      subst h
      simp [dictGet]
    · have : ¬ text a = text b := fun he => e (hi a (by simp) he)
      have h' : dictGet t b = some l := by simpa [e] using h
      simp only [List.map_cons, dictGet]
      rw [if_neg (by intro hc; injection hc with hc; exact this hc)]
      exact get_bounds t (fun a ha => hi a (by simp only [List.map_cons, List.mem_cons]; exact .inr ha)) h'

theorem same_scal {v : Scal} {w : Val} (h : Same (.scal v) w) : w = .scal v := by cases h; rfl

end Glompo.Summary
