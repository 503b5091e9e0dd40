import Verif.Props.Manager

/-!
# C111: the headings of a run
-/

namespace Glompo
namespace Logger

open Spec

/-- One row of a history in memory. -/
def rowCells (n : Nat) (r : IterRes) : List Cell :=
  Cell.nat n :: Cell.vec r.x :: Cell.num r.fx :: r.extras.map Cell.num

/-- What is stored for an optimizer whose history was opened with the headings `hs`. -/
theorem columns_run (traj : Bool) (ops : List Op) (i : Nat) (hs : List String) (h : WellFormed ops)
    (hc : traj = true ∨ ¬ Cleared ops i) (hm : Op.addHist i hs ∈ ops) :
    ∃ st ids, dictGet ((init traj).run ops).storage i = some st ∧ ids.length = (evalsOf (evals ops) i).length ∧
      st.cols = (List.zipWith rowCells ids (evalsOf (evals ops) i)).foldl appendRow (setHeaders [] (["call_id", "x", "fx"] ++ hs)) := by
  induction ops using snoc_induction with
  | h0 => cases hm
  | hs l op ih =>
    have ih := ih h.init (hc.imp id Cleared_snoc)
    have hl := h.last
    have hbest := bestInv_run traj l h.init
    have hist := histInv_run traj l i h.init (hc.imp id Cleared_snoc)
    have htraj : ((init traj).run l).buildTrajPlot = traj := by rw [run_traj]; rfl
    rw [run_snoc]
    generalize hrun : (init traj).run l = s at ih hbest hist htraj ⊢
    have old : (∀ k, op ≠ .addHist i k) → Op.addHist i hs ∈ l := by
      intro hne
      rcases List.mem_append.mp hm with h' | h'
      · exact h'
      · exact absurd (List.mem_singleton.mp h').symm (hne _)
    cases op with
    | add j t =>
      simp only [OpOk] at hl
      have he : evals (l ++ [Op.add j t]) = evals l := by simp [evals]
      obtain ⟨st, ids, h1, h2⟩ := ih (old (by simp))
      have hij : i ≠ j := by
        rintro rfl
        rw [(hist.absent hl.2).1] at h1; cases h1
      rw [he]
      exact ⟨st, ids, by simp only [step, addOptimizer]; rw [dictGet_set_ne _ _ hij]; exact h1, h2⟩
    | addHist j hs' =>
      simp only [OpOk] at hl
      have he : evals (l ++ [Op.addHist j hs']) = evals l := by simp [evals]
      rw [he]
      by_cases hij : i = j
      · subst hij
        obtain ⟨st, h1, h2, h3⟩ := hist.fresh hl.1 hl.2
        have hn : Op.addHist i hs ∉ l := fun h' => hl.2 (by simp only [opened, List.mem_filterMap]; exact ⟨_, h', rfl⟩)
        rcases List.mem_append.mp hm with h' | h'
        · exact absurd h' hn
        · cases List.mem_singleton.mp h'
          refine ⟨_, [], by simp only [step, addIterHistory, h1]; exact dictGet_set_self _ _ _, by rw [h3]; rfl, ?_⟩
          rw [h3, h2]; rfl
      · obtain ⟨st, ids, h1, h2⟩ := ih (old (by simp [Ne.symm hij]))
        refine ⟨st, ids, ?_, h2⟩
        simp only [step, addIterHistory]; split
        · exact h1
        · simp only []; rw [dictGet_set_ne _ _ hij]; exact h1
    | put r =>
      simp only [OpOk] at hl
      obtain ⟨st, ids, h1, h2, h3⟩ := ih (old (by simp))
      have he : evals (l ++ [Op.put r]) = evals l ++ [r] := by simp [evals]
      rw [he, evalsOf_snoc]
      by_cases hij : i = r.optId
      · subst hij
        obtain ⟨t0, ht0⟩ := mem_added.mp hl.1
        obtain ⟨b, hb, -⟩ := hbest.known _ _ ht0
        simp only [step]
        rw [(put_storage_self s r b st hb h1).1]
        refine ⟨_, ids ++ [s.fCounter + 1], dictGet_set_self _ _ _, by simp [h2], ?_⟩
        simp only [if_true, h3]
        rw [List.zipWith_append h2, List.foldl_append]
        rfl
      · refine ⟨st, ids, ?_, by simpa [Ne.symm hij] using h2, by simpa [Ne.symm hij] using h3⟩
        simp only [step]; rw [put_storage_ne s r i hij]; exact h1
    | clear j =>
      have he : evals (l ++ [Op.clear j]) = evals l := by simp [evals]
      obtain ⟨st, ids, h1, h2⟩ := ih (old (by simp))
      rw [he]
      refine ⟨st, ids, ?_, h2⟩
      rcases hc with hc | hc
      · subst hc; simpa [step, clearCache, htraj] using h1
      · simp only [step, clearCache]
        split
        · exact h1
        · simp only [Cleared, List.mem_append, List.mem_singleton, not_or] at hc
          match j, hc with
          | none, hc => exact absurd rfl hc.1.2
          | some 0, hc => exact absurd rfl hc.2.1.2
          | some (n + 1), hc =>
            simp only []
            rw [delKeys_ne]
            · exact h1
            · simp only [List.mem_singleton]
              intro e; exact hc.2.2.2 (by rw [e])
    | putMeta j k v =>
      have he : evals (l ++ [Op.putMeta j k v]) = evals l := by simp [evals]
      obtain ⟨st, ids, h1, h2⟩ := ih (old (by simp))
      rw [he]
      by_cases hij : i = j
      · subst hij
        exact ⟨{ st with metadata := dictSet st.metadata k v }, ids, by simp only [step, putMetadata, h1]; exact dictGet_set_self _ _ _, h2⟩
      · refine ⟨st, ids, ?_, h2⟩
        simp only [step, putMetadata]; split
        · exact h1
        · simp only []; rw [dictGet_set_ne _ _ hij]; exact h1
    | putMsg j m =>
      have he : evals (l ++ [Op.putMsg j m]) = evals l := by simp [evals]
      obtain ⟨st, ids, h1, h2⟩ := ih (old (by simp))
      rw [he]
      by_cases hij : i = j
      · subst hij
        exact ⟨{ st with messages := st.messages ++ [m] }, ids, by simp only [step, putMessage, h1]; exact dictGet_set_self _ _ _, h2⟩
      · refine ⟨st, ids, ?_, h2⟩
        simp only [step, putMessage]; split
        · exact h1
        · simp only []; rw [dictGet_set_ne _ _ hij]; exact h1

theorem appendRows_keys (rows : List (List Cell)) : ∀ cols, (rows.foldl appendRow cols).map (·.1) = cols.map (·.1) := by
  induction rows with
  | nil => intro cols; rfl
  | cons v t ih => intro cols; rw [List.foldl_cons, ih, appendRow_keys]

theorem setHeaders_keys (hs : List String) : ∀ cols : List (String × List Cell), ∀ k,
    k ∈ (setHeaders cols hs).map (·.1) ↔ k ∈ cols.map (·.1) ∨ k ∈ hs := by
  induction hs with
  | nil => intro cols k; simp [setHeaders]
  | cons a t ih =>
    intro cols k
    have : setHeaders cols (a :: t) = setHeaders (dictSet cols a []) t := rfl
    rw [this, ih]
    have hd : ∀ cols : List (String × List Cell), k ∈ (dictSet cols a []).map (·.1) ↔ k ∈ cols.map (·.1) ∨ k = a := by
      intro cols
      induction cols with
      | nil => simp [dictSet]
      | cons p q ih2 =>
        simp only [dictSet]
        split
        · rename_i e
          simp only [List.map_cons, List.mem_cons]
          constructor
          · rintro (h | h)
            · exact .inl (.inl h)
            · exact .inl (.inr h)
          · rintro ((h | h) | h)
            · exact .inl h
            · exact .inr h
            · exact .inl (by rw [h, e])
        · simp only [List.map_cons, List.mem_cons, ih2]; tauto
    rw [hd]; simp only [List.mem_cons]; tauto

theorem setHeaders_new (hs : List String) : ∀ cols : List (String × List Cell), hs.Nodup → (∀ k ∈ hs, k ∉ cols.map (·.1)) →
    setHeaders cols hs = cols ++ hs.map fun k => (k, []) := by
  induction hs with
  | nil => intro cols _ _; simp [setHeaders]
  | cons a t ih =>
    intro cols hn hd
    have e : setHeaders cols (a :: t) = setHeaders (dictSet cols a []) t := rfl
    have : ∀ cols : List (String × List Cell), a ∉ cols.map (·.1) → dictSet cols a [] = cols ++ [(a, [])] := by
      intro cols h
      induction cols with
      | nil => rfl
      | cons p q ih2 =>
        simp only [List.map_cons, List.mem_cons, not_or] at h
        simp [dictSet, Ne.symm h.1, ih2 h.2]
    rw [e, this _ (hd a (by simp)), ih _ (List.nodup_cons.mp hn).2]
    · simp
    · intro k hk hm
      simp only [List.map_append, List.mem_append, List.map_cons, List.map_nil, List.mem_singleton] at hm
      rcases hm with hm | rfl
      · exact hd k (List.mem_cons_of_mem _ hk) hm
      · exact (List.nodup_cons.mp hn).1 hk

/-- The column number `n` holds the cells number `n` of the rows. -/
theorem appendRows_col (rows : List (List Cell)) : ∀ (cols : List (String × List Cell)) (n : Nat) (k : String) (c : List Cell),
    (∀ v ∈ rows, n < v.length) → cols[n]? = some (k, c) →
    ∃ d, (rows.foldl appendRow cols)[n]? = some (k, c ++ d) ∧ d.map some = rows.map fun v => v[n]? := by
  induction rows with
  | nil => intro cols n k c _ h; exact ⟨[], by simpa using h, rfl⟩
  | cons v t ih =>
    intro cols n k c hv h
    have one : ∀ (cols : List (String × List Cell)) (v : List Cell) (n : Nat), cols[n]? = some (k, c) → ∀ x, v[n]? = some x →
        (appendRow cols v)[n]? = some (k, c ++ [x]) := by
      intro cols
      induction cols with
      | nil => intro v n h; simp at h
      | cons p q ih2 =>
        intro v n h x hx
        cases v with
        | nil => simp at hx
        | cons y w =>
          cases n with
          | zero => simp at h hx; subst h hx; rfl
          | succ n => simp at h hx; simpa [appendRow] using ih2 w n h x hx
    have hx : v[n]? = some (v[n]'(hv v (by simp))) := List.getElem?_eq_getElem _
    obtain ⟨d, h1, h2⟩ := ih _ n k _ (fun w hw => hv w (by simp [hw])) (one cols v n h _ hx)
    exact ⟨v[n]'(hv v (by simp)) :: d, by rw [List.foldl_cons, h1]; simp, by simp [h2, hx]⟩

theorem dictGet_nth {α : Type} : ∀ (l : List (String × α)) (n : Nat) (k : String) (c : α), (l.map (·.1)).Nodup → l[n]? = some (k, c) →
    dictGet l k = some c := by
  intro l
  induction l with
  | nil => intro n k c _ h; simp at h
  | cons p t ih =>
    intro n k c hn h
    cases n with
    | zero => simp at h; subst h; simp [dictGet]
    | succ n =>
      simp at h
      simp only [List.map_cons, List.nodup_cons] at hn
      have : p.1 ≠ k := by
        rintro rfl
        exact hn.1 (List.mem_map.mpr ⟨_, List.mem_of_getElem? h, rfl⟩)
      simp only [dictGet, this, if_false]
      exact ih n k c hn.2 h

theorem dictGet_keys {α : Type} (l : List (String × α)) (k : String) : (dictGet l k).isSome = true ↔ k ∈ l.map (·.1) := by
  induction l with
  | nil => simp [dictGet]
  | cons p t ih =>
    simp only [dictGet]
    split
    · rename_i e; simp [e]
    · rename_i e; rw [ih]; simp only [List.map_cons, List.mem_cons]
      constructor
      · exact .inr
      · rintro (h | h)
        · exact absurd h.symm e
        · exact h

/-- The first evaluation after a history was opened is the first one of the optimizer. -/
theorem first_eval {ops pre post : List Op} {i : Nat} {hs : List String} {r : IterRes} (h : WellFormed ops)
    (e : ops = pre ++ .addHist i hs :: .put r :: post) (hr : r.optId = i) : (evalsOf (evals ops) i).head? = some r := by
  have hn : evalsOf (evals pre) i = [] := by
    rw [evalsOf, List.filter_eq_nil_iff]
    intro q hq
    simp only [evals, List.mem_filterMap] at hq
    obtain ⟨op, h1, h2⟩ := hq
    cases op <;> simp at h2
    subst h2
    intro hc
    obtain ⟨a, b, rfl⟩ := List.append_of_mem h1
    rename_i q
    have h3 := h a (.put q) (b ++ .addHist i hs :: .put r :: post) (by rw [e]; simp)
    have h4 := h (a ++ .put _ :: b) _ _ e
    simp only [OpOk] at h3 h4
    refine h4.2 ?_
    rw [opened_append, ← eq_of_beq hc]
    exact List.mem_append_left _ h3.2
  have he : evals ops = evals pre ++ r :: evals post := by rw [e]; simp [evals]
  rw [he, evalsOf, List.filter_append, show List.filter (fun r => r.optId == i) (evals pre) = [] from hn]
  simp [hr]

end Logger

namespace Props

open Manager Spec Logger Runs

/-- **C111 (runs).** At any moment of a run, fresh or resumed, take an optimizer with logged evaluations whose memory is still there (it has not sent
its last message, or histories are kept). Its history was opened with the headings which were given for its first evaluation, with none if this had
no extra results. The log has exactly the columns `call_id`, `x`, `fx` and these. If the headings differ from each other and from the three, and all
its evaluations have one extra result for each, then the column of a heading holds exactly the extra results in its place, in order. -/
theorem C111_run_headings {cfg : Cfg} {s : State} (hs : Startable cfg s) (fuel : Nat) (e : Env)
    (h0 : Ev.received (.fin 0) ∉ happened cfg s fuel e) (i : Nat)
    (hm : (inForce cfg s fuel e []).traj = true ∨ Ev.received (.fin i) ∉ happened cfg s fuel e) (r : IterRes)
    (hr : ((loggedOf (happened cfg s fuel e)).filter fun r => r.optId == i).head? = some r) :
    ∃ names, ((r.extras = [] → names = []) ∧ (r.extras ≠ [] → Ev.named i names ∈ happened cfg s fuel e)) ∧
      (∀ k, (∃ c, (moment cfg s fuel e).log.getHistory i k = .ok c) ↔ k ∈ ["call_id", "x", "fx"] ∨ k ∈ names) ∧
      (names.Nodup → (∀ k ∈ names, k ∉ ["call_id", "x", "fx"]) →
        (∀ q ∈ loggedOf (happened cfg s fuel e), q.optId = i → q.extras.length = names.length) →
        ∀ (n : Nat) (k : String), names[n]? = some k → ∃ vals : List PyF, (moment cfg s fuel e).log.getHistory i k = .ok (vals.map Cell.num) ∧
          vals.map some = ((loggedOf (happened cfg s fuel e)).filter fun r => r.optId == i).map fun q => q.extras[n]?) := by
  have inv := moment_inv hs fuel e
  have hev : evals (moment cfg s fuel e).ops = loggedOf (happened cfg s fuel e) := inv.evs
  rw [← hev] at hr ⊢
  have hri : r.optId = i := by
    have := List.mem_of_mem_head? hr
    simpa using (List.mem_filter.mp this).2
  have hop : i ∈ opened (moment cfg s fuel e).ops := by
    have hr' := (List.mem_filter.mp (List.mem_of_mem_head? hr)).1
    simp only [evals, List.mem_filterMap] at hr'
    obtain ⟨op, h1, h2⟩ := hr'
    cases op <;> simp at h2
    subst h2
    obtain ⟨p, q, hpq⟩ := List.append_of_mem h1
    have := (inv.wf p _ q hpq).2
    rw [hpq, opened_append, ← hri]
    exact List.mem_append_left _ this
  have hcl : (moment cfg s fuel e).first.traj = true ∨ ¬ Cleared (moment cfg s fuel e).ops i := by
    refine hm.imp id fun hn hc => ?_
    rcases hc with hc | hc | hc
    · obtain ⟨j, hj, -⟩ := inv.rel _ hc; cases hj
    · obtain ⟨j, hj, hj'⟩ := inv.rel _ hc; cases hj; exact h0 hj'
    · obtain ⟨j, hj, hj'⟩ := inv.rel _ hc; cases hj; exact hn hj'
  simp only [opened, List.mem_filterMap] at hop
  obtain ⟨op, h1, h2⟩ := hop
  cases op <;> simp at h2
  rename_i i' names
  subst i'
  obtain ⟨pre, post, e1⟩ := List.append_of_mem h1
  obtain ⟨r', post', rfl, e2, e3⟩ := inv.heads pre i names post e1
  have hfirst := first_eval inv.wf e1 e2
  have : r' = r := by
    have h : some r' = some r := by rw [← hfirst, ← hr]; rfl
    simpa using h
  subst this
  obtain ⟨st, ids, g1, g2, g3⟩ := columns_run _ _ i names inv.wf hcl h1
  rw [← inv.log] at g1
  have hkeys : ∀ k, k ∈ st.cols.map (·.1) ↔ k ∈ ["call_id", "x", "fx"] ∨ k ∈ names := by
    intro k
    rw [g3, appendRows_keys, setHeaders_keys]
    simp only [List.map_nil, List.not_mem_nil, false_or, List.mem_append]
  have hhas : (moment cfg s fuel e).log.hasIterHistory i = true := by
    have : (dictGet st.cols "fx").isSome = true := (dictGet_keys _ _).mpr ((hkeys _).mpr (by simp))
    simp [hasIterHistory, g1, this]
  have hget : ∀ k, (moment cfg s fuel e).log.getHistory i k = match dictGet st.cols k with | none => .error .keyError | some c => .ok c := by
    intro k
    simp only [getHistory, hhas, if_true, g1]
    cases dictGet st.cols k <;> rfl
  refine ⟨names, ⟨e3.1, fun h => by have := e3.2 h; rw [hri] at this; exact this⟩, fun k => ?_, fun hn hd hl n k hk => ?_⟩
  · rw [hget, ← hkeys, ← dictGet_keys]
    cases dictGet st.cols k <;> simp
  · have hrows : ∀ v ∈ List.zipWith rowCells ids (evalsOf (evals (moment cfg s fuel e).ops) i), n + 3 < v.length := by
      intro v hv
      obtain ⟨j, hj, rfl⟩ := List.mem_iff_getElem.mp hv
      rw [List.getElem_zipWith]
      have hq := List.mem_filter.mp (List.getElem_mem (l := evalsOf (evals (moment cfg s fuel e).ops) i) (by simp at hj; omega : j < _))
      have := hl _ hq.1 (by simpa using hq.2)
      have hn' : n < names.length := (List.getElem?_eq_some_iff.mp hk).1
      simp only [rowCells, List.length_cons, List.length_map]
      omega
    have hset : setHeaders [] (["call_id", "x", "fx"] ++ names) = (["call_id", "x", "fx"] ++ names).map fun k => (k, ([] : List Cell)) := by
      rw [setHeaders_new _ _ ?_ (by simp)]
      · simp
      · rw [List.nodup_append]
        exact ⟨by decide, hn, fun a ha b hb hab => hd b hb (hab ▸ ha)⟩
    have hcol : (setHeaders [] (["call_id", "x", "fx"] ++ names))[n + 3]? = some (k, []) := by
      rw [hset, List.getElem?_map, List.getElem?_append_right (by simp)]
      simp [hk]
    obtain ⟨d, d1, d2⟩ := appendRows_col _ _ _ _ _ hrows hcol
    rw [← g3] at d1
    have hnd : (st.cols.map (·.1)).Nodup := by
      rw [g3, appendRows_keys, hset, List.map_map]
      have : ((fun x : String × List Cell => x.1) ∘ fun k => (k, ([] : List Cell))) = id := rfl
      rw [this, List.map_id, List.nodup_append]
      exact ⟨by decide, hn, fun a ha b hb hab => hd b hb (hab ▸ ha)⟩
    have hgk : dictGet st.cols k = some d := by simpa using dictGet_nth _ _ _ _ hnd d1
    have hfill : ∀ (rs : List IterRes) (ids : List Nat) (d : List Cell), ids.length = rs.length →
        (∀ q ∈ rs, q.extras.length = names.length) → d.map some = (List.zipWith rowCells ids rs).map (fun v => v[n + 3]?) →
        ∃ vals : List PyF, d = vals.map Cell.num ∧ vals.map some = rs.map fun q => q.extras[n]? := by
      intro rs
      induction rs with
      | nil => intro ids d _ _ h; cases d <;> cases ids <;> simp at h ⊢
      | cons q t ih =>
        intro ids d hlen hq h
        cases ids with
        | nil => simp at hlen
        | cons a ids =>
          cases d with
          | nil => simp at h
          | cons x d =>
            simp only [List.map_cons, List.zipWith_cons_cons, List.cons.injEq] at h
            obtain ⟨vals, v1, v2⟩ := ih ids d (by simpa using hlen) (fun q hq' => hq q (by simp [hq'])) h.2
            have hn' : n < q.extras.length := by rw [hq q (by simp)]; exact (List.getElem?_eq_some_iff.mp hk).1
            have hx : x = Cell.num q.extras[n] := by
              have := h.1
              simp [rowCells, List.getElem?_eq_getElem hn'] at this
              exact this
            exact ⟨q.extras[n] :: vals, by simp [hx, v1], by simp [v2, List.getElem?_eq_getElem hn']⟩
    obtain ⟨vals, v1, v2⟩ := hfill _ ids d g2 (fun q hq => by
      have := List.mem_filter.mp hq
      exact hl q this.1 (by simpa using this.2)) d2
    refine ⟨vals, by rw [hget, hgk, v1], v2⟩

/-- Two evaluations with an extra result each; the task calls it `energy`. -/
def detailed : Env := start2 ++ [ch [.res ⟨1, [4], .fin 4, [.fin 7]⟩, .res ⟨1, [5], .fin 3, [.fin 8]⟩], ⟨[], .names ["energy"]⟩, u, u]

example : Ev.named 1 ["energy"] ∈ happened cfg2 (Manager.init cfg2) 20 detailed ∧
    (loggedOf (happened cfg2 (Manager.init cfg2) 20 detailed)).map (·.optId) = [1, 1] ∧
    (∀ i, Ev.received (.fin i) ∉ happened cfg2 (Manager.init cfg2) 20 detailed) ∧
    ((moment cfg2 (Manager.init cfg2) 20 detailed).log.getHistory 1 "energy").toOption = some [.num (.fin 7), .num (.fin 8)] := by
  refine ⟨by decide +kernel, by decide +kernel, fun i hi => ?_, by decide +kernel⟩
  have : (happened cfg2 (Manager.init cfg2) 20 detailed).all (fun x => match x with | .received (.fin _) => false | _ => true) = true := by
    decide +kernel
  have := List.all_eq_true.mp this _ hi
  cases this

end Props
end Glompo
