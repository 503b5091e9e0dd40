import Verif.Spec.Reweigh

/-!
# C115 and C116: weights of residuals; error functions in checkpoints
-/

namespace Glompo.Props

open Glompo Glompo.Params Glompo.Reweigh Glompo.Spec.Reweigh Glompo.Spec.Params

theorem pyIdx_iff (n : Nat) (i : Int) (m : Nat) : pyIdx n i = some m ↔ m < n ∧ (i = m ∨ i = (m : Int) - n) := by
  unfold pyIdx
  split
  · split <;> simp <;> omega
  · split <;> simp <;> omega

theorem find_iff (d : DSet) (k : Key) (n : Nat) : Reweigh.find d k = .ok n ↔ Means d k n := by
  cases k with
  | idx i =>
    have h := pyIdx_iff d.length i n
    simp only [Reweigh.find, Means]
    constructor
    · intro hf
      cases hp : pyIdx d.length i with
      | none => simp [hp] at hf
      | some m =>
        simp [hp] at hf
        subst hf
        obtain ⟨hl, ho⟩ := h.1 hp
        exact ⟨d[m], by simp [hl], by rcases ho with ho | ho <;> simp [ho]⟩
    · rintro ⟨e, he, ho⟩
      have hl : n < d.length := by
        rcases Nat.lt_or_ge n d.length with h' | h'
        · exact h'
        · simp [List.getElem?_eq_none h'] at he
      have : pyIdx d.length i = some n := h.2 ⟨hl, by simpa using ho⟩
      simp [this]
  | str s =>
    simp only [Reweigh.find, Means]
    constructor
    · intro hf
      cases hp : d.findIdx? (fun e => decide (e.key = s)) with
      | none => simp [hp] at hf
      | some m =>
        simp [hp] at hf
        subst hf
        rw [List.findIdx?_eq_some_iff_getElem] at hp
        obtain ⟨hl, hk, hb⟩ := hp
        have hk' : d[m].key = s := by simpa using hk
        refine ⟨d[m], by simp [hl], Or.inr (Or.inr ⟨by simp [hk'], ?_⟩)⟩
        intro j e' hj hd
        have hjl : j < d.length := by omega
        rw [List.getElem?_eq_getElem hjl] at hd
        cases hd
        have := hb j hj
        rw [hk']
        simpa using this
    · rintro ⟨e, he, ho⟩
      rcases ho with ho | ho | ⟨ho, hb⟩
      · cases ho
      · cases ho
      · have hs : s = e.key := by simpa using ho
        have hl : n < d.length := by
          rcases Nat.lt_or_ge n d.length with h' | h'
          · exact h'
          · simp [List.getElem?_eq_none h'] at he
        have : d.findIdx? (fun e => decide (e.key = s)) = some n := by
          rw [List.findIdx?_eq_some_iff_getElem]
          refine ⟨hl, ?_, ?_⟩
          · rw [List.getElem?_eq_getElem hl] at he
            cases he
            simp [hs]
          · intro j hj
            have hjl : j < d.length := by omega
            have := hb j d[j] hj (List.getElem?_eq_getElem hjl)
            simpa [hs] using this
        simp [this]

theorem setWeight_get (d : DSet) (n m : Nat) (w : Rat) :
    (setWeight d n w)[m]? = (d[m]?).map fun e => if n = m then { e with weight := w } else e := by
  unfold setWeight
  rw [List.getElem?_modify]
  split <;> simp_all

theorem setWeight_length (d : DSet) (n : Nat) (w : Rat) : (setWeight d n w).length = d.length := by
  simp [setWeight]

theorem setWeight_key (d : DSet) (n m : Nat) (w : Rat) : ((setWeight d n w)[m]?).map (·.key) = (d[m]?).map (·.key) := by
  rw [setWeight_get]
  cases d[m]? with
  | none => rfl
  | some e => simp; split <;> rfl

/-- What references mean depends on the keys only. -/
theorem means_congr {d d' : DSet} (hl : d'.length = d.length) (hk : ∀ m : Nat, (d'[m]?).map (·.key) = (d[m]?).map (·.key)) (k : Key) (n : Nat) :
    Means d k n → Means d' k n := by
  rintro ⟨e, he, ho⟩
  have h1 := hk n
  rw [he] at h1
  cases hd : d'[n]? with
  | none => simp [hd] at h1
  | some e' =>
    have hke : e'.key = e.key := by simpa [hd] using h1
    refine ⟨e', hd, ?_⟩
    rw [hl, hke]
    rcases ho with ho | ho | ⟨ho, hb⟩
    · exact Or.inl ho
    · exact Or.inr (Or.inl ho)
    · refine Or.inr (Or.inr ⟨ho, ?_⟩)
      intro m f hm hf
      have h2 := hk m
      rw [hf] at h2
      cases hdm : d[m]? with
      | none => simp [hdm] at h2
      | some f' =>
        have : f.key = f'.key := by simpa [hdm] using h2
        rw [this]
        exact hb m f' hm hdm

theorem means_setWeight (d : DSet) (m : Nat) (w : Rat) (k : Key) (n : Nat) : Means (setWeight d m w) k n ↔ Means d k n :=
  ⟨means_congr (setWeight_length d m w).symm (fun j => (setWeight_key d m j w).symm) k n,
   means_congr (setWeight_length d m w) (fun j => setWeight_key d m j w) k n⟩

theorem loop_ok (d : DSet) (l : List (Key × Rat)) (h : ∀ q ∈ l, Known d q.1) :
    ∃ d', Reweigh.loop d l = (d', none) ∧ d'.length = d.length ∧ ∀ (n : Nat) e, d[n]? = some e →
      ((∀ q ∈ l, ¬ Means d q.1 n) ∧ d'[n]? = some e) ∨ ∃ x, LastFor d l n x ∧ d'[n]? = some { e with weight := x } := by
  induction l generalizing d with
  | nil => exact ⟨d, rfl, rfl, fun n e he => Or.inl ⟨by simp, he⟩⟩
  | cons q l ih =>
    obtain ⟨k, w⟩ := q
    obtain ⟨m, hm⟩ := h (k, w) (by simp)
    have hf := (find_iff d k m).2 hm
    obtain ⟨d', hd', hlen, hall⟩ := ih (setWeight d m w) (by
      intro q hq
      obtain ⟨j, hj⟩ := h q (by simp [hq])
      exact ⟨j, (means_setWeight d m w q.1 j).2 hj⟩)
    refine ⟨d', by simp only [Reweigh.loop]; rw [hf]; exact hd', by rw [hlen, setWeight_length], ?_⟩
    intro n e he
    have hg : (setWeight d m w)[n]? = some (if m = n then { e with weight := w } else e) := by
      rw [setWeight_get, he]; rfl
    have huniq : Means d k n → n = m := by
      intro hn
      have := (find_iff d k n).2 hn
      rw [hf] at this
      cases this
      rfl
    rcases hall n _ hg with ⟨hno, hv⟩ | ⟨x, hx, hv⟩
    · by_cases hmn : m = n
      · subst hmn
        refine Or.inr ⟨w, ⟨[], k, l, rfl, hm, ?_⟩, by simpa using hv⟩
        intro q hq hq'
        exact hno q hq ((means_setWeight d m w q.1 m).2 hq')
      · refine Or.inl ⟨?_, by simpa [hmn] using hv⟩
        intro q hq
        rcases List.mem_cons.1 hq with rfl | hq
        · intro hn; exact hmn (huniq hn).symm
        · intro hn; exact hno q hq ((means_setWeight d m w q.1 n).2 hn)
    · obtain ⟨pre, k', post, hl, hk', hpost⟩ := hx
      refine Or.inr ⟨x, ⟨(k, w) :: pre, k', post, by simp [hl], (means_setWeight d m w k' n).1 hk', ?_⟩, ?_⟩
      · intro q hq hq'
        exact hpost q hq ((means_setWeight d m w q.1 n).2 hq')
      · rw [hv]
        split <;> rfl

theorem reweigh_asked (d : DSet) (r : Resids) (w : Option Rat) (l : List (Key × Rat)) (h : asked r w = some l) :
    reweigh d r w = Reweigh.loop d l := by
  cases r with
  | dict l' => simp [asked] at h; subst h; rfl
  | seq l' =>
    cases w with
    | none => simp [asked] at h
    | some w => simp [asked] at h; subst h; rfl

/-- **C115.** If all references are known, each entry gets the last new weight given for it, and entries not referred to, keys, sigmas and
order stay as they are. -/
theorem C115_exact (d : DSet) (r : Resids) (w : Option Rat) (l : List (Key × Rat)) (ha : asked r w = some l) (h : ∀ q ∈ l, Known d q.1) :
    ∃ d', reweigh d r w = (d', none) ∧ d'.length = d.length ∧ ∀ (n : Nat) e, d[n]? = some e →
      ((∀ q ∈ l, ¬ Means d q.1 n) ∧ d'[n]? = some e) ∨ ∃ x, LastFor d l n x ∧ d'[n]? = some { e with weight := x } := by
  rw [reweigh_asked d r w l ha]
  exact loop_ok d l h

/-- A data set. -/
def threeEntries : DSet := [⟨"energy", 1, 1⟩, ⟨"force", 2, 1/10⟩, ⟨"charge", 3, 1⟩]

/-- References by position and, from the end, by position; the last entry is named twice. -/
example : ∃ d', reweigh threeEntries (.dict [(.idx 0, 5), (.idx 2, 6), (.idx (-1), 7)]) none = (d', none) ∧
    d' = [⟨"energy", 5, 1⟩, ⟨"force", 2, 1/10⟩, ⟨"charge", 7, 1⟩] := ⟨_, rfl, by decide +kernel⟩

example : ∀ q ∈ [(Key.str "force", (0 : Rat)), (.str "charge", 0)], Known threeEntries q.1 := by
  intro q hq
  rcases List.mem_cons.1 hq with rfl | hq
  · exact ⟨1, (find_iff _ _ _).1 rfl⟩
  · rcases List.mem_cons.1 hq with rfl | hq
    · exact ⟨2, (find_iff _ _ _).1 rfl⟩
    · cases hq

/-- **C115.** A sequence without new weight is refused, and nothing is changed. -/
theorem C115_missing (d : DSet) (r : Resids) (w : Option Rat) : (reweigh d r w).2 = some .valueError ↔ asked r w = none := by
  have hl : ∀ (l : List (Key × Rat)) d, (Reweigh.loop d l).2 ≠ some .valueError := by
    intro l
    induction l with
    | nil => intro d h; cases h
    | cons q l ih =>
      intro d
      obtain ⟨k, x⟩ := q
      simp only [Reweigh.loop]
      cases hf : Reweigh.find d k with
      | ok n => exact ih _
      | error r =>
        intro h
        have hr : r = .valueError := by simpa using h
        subst hr
        cases k with
        | idx i => simp only [Reweigh.find] at hf; split at hf <;> simp at hf
        | str s => simp only [Reweigh.find] at hf; split at hf <;> simp at hf
  cases r with
  | dict l => simp [asked, reweigh]; exact hl l d
  | seq l =>
    cases w with
    | none => simp [asked, reweigh]
    | some w => simp [asked, reweigh]; exact hl _ d

/-- **C115.** … and nothing is changed. -/
theorem C115_missing_unchanged (d : DSet) (r : Resids) (w : Option Rat) (h : asked r w = none) : (reweigh d r w).1 = d := by
  cases r with
  | dict l => simp [asked] at h
  | seq l =>
    cases w with
    | none => rfl
    | some w => simp [asked] at h

example : asked (.seq [.idx 0]) none = none := rfl

theorem loop_append (d : DSet) (pre post : List (Key × Rat)) (h : ∀ q ∈ pre, Known d q.1) :
    Reweigh.loop d (pre ++ post) = Reweigh.loop (Reweigh.loop d pre).1 post := by
  induction pre generalizing d with
  | nil => rfl
  | cons q l ih =>
    obtain ⟨k, w⟩ := q
    obtain ⟨m, hm⟩ := h (k, w) (by simp)
    have hf := (find_iff d k m).2 hm
    simp only [List.cons_append, Reweigh.loop]
    rw [hf]
    refine ih (setWeight d m w) ?_
    intro q hq
    obtain ⟨j, hj⟩ := h q (by simp [hq])
    exact ⟨j, (means_setWeight d m w q.1 j).2 hj⟩

/-- **C115.** An unknown reference raises `IndexError` or `KeyError`; the weights given before it are set, those after it are not. -/
theorem C115_unknown (d : DSet) (r : Resids) (w : Option Rat) (pre post : List (Key × Rat)) (k : Key) (x : Rat)
    (ha : asked r w = some (pre ++ (k, x) :: post)) (h : ∀ q ∈ pre, Known d q.1) (hk : ¬ Known d k) :
    reweigh d r w = ((reweigh d (.dict pre) none).1, some (match k with | .idx _ => .indexError | .str _ => .keyError)) := by
  rw [reweigh_asked d r w _ ha, loop_append d pre _ h]
  obtain ⟨d', hd', hlen, hall⟩ := loop_ok d pre h
  have hkeys : ∀ m : Nat, (d[m]?).map (·.key) = (d'[m]?).map (·.key) := by
    intro m
    cases hm : d[m]? with
    | none =>
      have : d'[m]? = none := by
        rw [List.getElem?_eq_none_iff] at hm ⊢
        omega
      rw [this]
    | some e =>
      rcases hall m e hm with ⟨_, hv⟩ | ⟨x, _, hv⟩ <;> rw [hv] <;> rfl
  have hk' : ∀ n, Reweigh.find d' k ≠ .ok n := by
    intro n hn
    exact hk ⟨n, means_congr hlen.symm hkeys k n ((find_iff d' k n).1 hn)⟩
  simp only [reweigh, hd', Reweigh.loop]
  cases k with
  | idx i =>
    simp only [Reweigh.find] at hk' ⊢
    cases hp : pyIdx d'.length i with
    | none => rfl
    | some n => exact absurd (by simp [hp]) (hk' n)
  | str s =>
    simp only [Reweigh.find] at hk' ⊢
    cases hp : d'.findIdx? (fun e => decide (e.key = s)) with
    | none => rfl
    | some n => exact absurd (by simp [hp]) (hk' n)

/-- Refuted: that a call which raises changes nothing. -/
theorem C115_atomic_refuted : ∃ (d : DSet) (l : List Key), (reweigh d (.seq l) (some 0)).2 = some .keyError ∧ (reweigh d (.seq l) (some 0)).1 ≠ d :=
  ⟨threeEntries, [.str "energy", .str "nosuch"], by decide +kernel, by decide +kernel⟩

theorem plain_get (d : DSet) (n : Nat) : d.plain[n]? = (d[n]?).map fun e => (e.weight, e.sigma) := by
  simp [DSet.plain]

theorem resids_get (d : DSet) (v : PyF) (rs : List Rat) (hl : rs.length = d.length) (vs : Option Outcome) (hv : vs ≠ some (.error ())) :
    resids true d.plain true (.ok (v, rs.map .fin)) vs = .ok (List.zipWith scaleResid d.plain (rs.map .fin)) := by
  have hc : (calculate true (.ok (v, rs.map .fin)) vs).1.2 = rs.map .fin := by
    cases vs with
    | none => rfl
    | some o =>
      cases o with
      | error u => exact absurd rfl hv
      | ok o => rfl
  unfold resids report
  rw [hc]
  simp [scaleResids, DSet.plain, hl]

/-- **C115, partly.** Setting weights to zero deactivates exactly the residuals named, if the jobs succeed with finite residuals and no sigma
is zero: with scaled residuals these are zero, and all others are what they were. Missing: failed evaluations. -/
theorem C115_off_partial (d : DSet) (l : List Key) (h : ∀ k ∈ l, Known d k) (hs : ∀ e ∈ d, e.sigma ≠ 0)
    (v : PyF) (rs : List Rat) (hl : rs.length = d.length) (vs : Option Outcome) (hv : vs ≠ some (.error ())) :
    ∃ d' out out', reweigh d (.seq l) (some 0) = (d', none) ∧
      resids true d.plain true (.ok (v, rs.map .fin)) vs = .ok out ∧ resids true d'.plain true (.ok (v, rs.map .fin)) vs = .ok out' ∧
      out'.length = d.length ∧
      ∀ n, n < d.length → ((∃ k ∈ l, Means d k n) → out'[n]? = some (.fin 0)) ∧ ((¬ ∃ k ∈ l, Means d k n) → out'[n]? = out[n]?) := by
  obtain ⟨d', hd', hlen, hall⟩ := C115_exact d (.seq l) (some 0) _ rfl (by
    intro q hq
    obtain ⟨k, hk, rfl⟩ := List.mem_map.1 hq
    exact h k hk)
  refine ⟨d', _, _, hd', resids_get d v rs hl vs hv, resids_get d' v rs (by rw [hlen]; exact hl) vs hv, by simp [DSet.plain, hlen, hl], ?_⟩
  intro n hn
  have he : d[n]? = some d[n] := List.getElem?_eq_getElem hn
  have hr : rs[n]? = some rs[n] := List.getElem?_eq_getElem (by omega)
  have hsn := hs d[n] (List.getElem_mem hn)
  rcases hall n _ he with ⟨hno, hv'⟩ | ⟨x, hx, hv'⟩
  · refine ⟨?_, ?_⟩
    · rintro ⟨k, hk, hm⟩
      exact absurd hm (hno (k, 0) (List.mem_map.2 ⟨k, hk, rfl⟩))
    · intro _
      simp [List.getElem?_zipWith, plain_get, he, hv', hr]
  · obtain ⟨pre, k, post, hl', hm, _⟩ := hx
    have hkx : (k, x) ∈ l.map fun k => (k, (0 : Rat)) := by rw [hl']; simp
    obtain ⟨k', hk', hkk⟩ := List.mem_map.1 hkx
    simp only [Prod.mk.injEq] at hkk
    obtain ⟨rfl, rfl⟩ := hkk
    refine ⟨?_, ?_⟩
    · intro _
      simp [List.getElem?_zipWith, plain_get, hv', hr, scaleResid, hsn]
    · intro hno
      exact absurd ⟨k', hk', hm⟩ hno

example : ∀ e ∈ threeEntries, e.sigma ≠ 0 := by decide +kernel

/-- Refuted: that entries of weight zero never contribute. When the jobs fail, their scaled residuals are not numbers. -/
theorem C115_off_refuted (d : DSet) (n : Nat) (e : Entry) (he : d[n]? = some e) (h0 : e.weight = 0) (ts : Outcome) (vs : Option Outcome) :
    ∃ out, resids true d.plain false ts vs = .ok out ∧ out[n]? = some .nan := by
  have hc : (calculate false ts vs).1.2 = [.pinf] := rfl
  unfold resids report
  rw [hc]
  by_cases hl : d.plain.length = 1
  · have hlen : d.length = 1 := by simpa [DSet.plain] using hl
    have hn : n = 0 := by
      rcases Nat.lt_or_ge n d.length with h' | h'
      · omega
      · simp [List.getElem?_eq_none h'] at he
    subst hn
    exact ⟨List.zipWith scaleResid d.plain [.pinf], by simp [scaleResids, hl], by simp [List.getElem?_zipWith, plain_get, he, scaleResid, h0]⟩
  · exact ⟨d.plain.map (scaleResid · .pinf), by simp [scaleResids, Ne.symm hl], by simp [plain_get, he, scaleResid, h0]⟩

example : (reweigh threeEntries (.seq [.str "force"]) (some 0)).1[1]? = some ⟨"force", 0, 1/10⟩ := by decide +kernel

theorem loop_length (d : DSet) (l : List (Key × Rat)) : (Reweigh.loop d l).1.length = d.length := by
  induction l generalizing d with
  | nil => rfl
  | cons q l ih =>
    obtain ⟨k, w⟩ := q
    simp only [Reweigh.loop]
    cases Reweigh.find d k with
    | error r => rfl
    | ok n => simp only [ih, setWeight_length]

theorem reweigh_length (d : DSet) (r : Resids) (w : Option Rat) : (reweigh d r w).1.length = d.length := by
  cases r with
  | dict l => exact loop_length d l
  | seq l =>
    cases w with
    | none => rfl
    | some w => exact loop_length d _

theorem report_congr {scale : Bool} {a b : Params.DataSet} (h : b.length = a.length) (rs out : List PyF) (ho : report scale a rs = .ok out) :
    ∃ out', report scale b rs = .ok out' := by
  cases scale with
  | false => exact ⟨rs, rfl⟩
  | true =>
    simp only [report, if_true, scaleResids] at ho ⊢
    rw [h]
    by_cases h1 : rs.length = a.length
    · rw [if_pos h1]; exact ⟨_, rfl⟩
    · rw [if_neg h1] at ho ⊢
      cases rs with
      | nil =>
        by_cases h2 : a.length = 1
        · simp [h2]
        · simp [h2] at ho
      | cons r rs =>
        cases rs with
        | nil => exact ⟨_, rfl⟩
        | cons r' rs =>
          by_cases h2 : a.length = 1
          · simp [h2]
          · simp [h2] at ho

/-- **C115.** New weights of the training set change neither the result for the validation set, nor the value, nor the columns; detailed calls which
succeeded go on to succeed. -/
theorem C115_validation (f : ErrFn) (r : Resids) (w : Option Rat) (engine : Bool) (ts vs : Outcome) (out : List Datum)
    (h : f.detailed engine ts vs = .ok out) :
    ∃ out', { f with dat := (reweigh f.dat r w).1 }.detailed engine ts vs = .ok out' ∧ out'.drop 2 = out.drop 2 ∧ out'.head? = out.head? ∧
      { f with dat := (reweigh f.dat r w).1 }.headers = f.headers := by
  have hl : (DSet.plain (reweigh f.dat r w).1).length = f.dat.plain.length := by
    simp [DSet.plain, reweigh_length]
  have hh : { f with dat := (reweigh f.dat r w).1 }.headers = f.headers := by
    simp only [ErrFn.headers, Params.headers, hl]
  simp only [hh, and_true]
  generalize (reweigh f.dat r w).1 = d' at hl
  simp only [ErrFn.detailed, detailedCall] at h ⊢
  cases hr : report f.scale f.dat.plain (Params.calculate engine ts ((f.val.map fun v => (v.plain, vs)).map (·.2))).1.2 with
  | error e => rw [hr] at h; cases h
  | ok rt =>
    obtain ⟨rt', hrt'⟩ := report_congr hl _ _ hr
    rw [hr] at h
    rw [hrt']
    cases hv : f.val with
    | none =>
      simp only [hv, Option.map_none] at h ⊢
      simp only [Except.ok.injEq] at h
      subst h
      exact ⟨_, rfl, rfl, rfl⟩
    | some v =>
      simp only [hv, Option.map_some] at h ⊢
      cases hr2 : report f.scale v.plain (Params.calculate engine ts (some vs)).2.2 with
      | error e => rw [hr2] at h; cases h
      | ok rv =>
        rw [hr2] at h
        simp only [Except.ok.injEq] at h
        subst h
        exact ⟨_, rfl, rfl, rfl⟩

/-! ## C116 -/

/-- **C116, partly.** A ReaxFF error function saved in a directory without YAML files is loaded with the same data, jobs and parameters
(values, ranges and activity), whatever was saved there before. The rest is that of the arguments given at loading. -/
theorem C116_reax_partial (L : Loaders) (f : ErrFn) (d : Dir) (k : Kwargs) (hd : d.datYml = none) (hj : d.jobsYml = none) :
    ∃ g, loadReax L (saveReax f d) k = .ok g ∧ SameProblem f g ∧ g.val = k.val ∧ g.scale = k.scale := by
  refine ⟨init f.dat f.jobs f.eng k, ?_, ⟨rfl, rfl, rfl⟩, rfl, rfl⟩
  simp [loadReax, collections, loadOne, saveReax, hd, hj]

/-- **C116, partly.** If the arguments given at loading are those of the saved error function, the loaded one announces the same columns and
returns the same values. -/
theorem C116_same_partial (L : Loaders) (f : ErrFn) (d : Dir) (hd : d.datYml = none) (hj : d.jobsYml = none) :
    ∃ g, loadReax L (saveReax f d) { val := f.val, scale := f.scale } = .ok g ∧ g.headers = f.headers ∧
      (∀ engine ts vs, g.detailed engine ts vs = f.detailed engine ts vs ∧ g.call engine ts vs = f.call engine ts vs) ∧
      ∀ x, scaled2real g.eng x = scaled2real f.eng x := by
  obtain ⟨g, hg, ⟨h1, h2, h3⟩, h4, h5⟩ := C116_reax_partial L f d { val := f.val, scale := f.scale } hd hj
  refine ⟨g, hg, ?_, ?_, ?_⟩
  · simp [ErrFn.headers, h1, h4]
  · intro engine ts vs
    simp [ErrFn.detailed, ErrFn.call, h1, h4, h5]
  · intro x
    rw [h3]

/-- An error function with a validation set and scaled residuals. -/
def fullErr : ErrFn :=
  { dat := threeEntries, jobs := ["water"], eng := [⟨"a", 1, 0, 2, true⟩, ⟨"b", 5, 4, 6, false⟩], val := some [⟨"energy2", 1, 1⟩], scale := true,
    loss := 1, parLevels := 1 }

/-- Detailed results with a validation set, weighed. -/
example : (fullErr.detailed true (.ok (.fin 3, [.fin 1, .fin 1, .fin 0])) (.ok (.fin 4, [.fin 2]))).toOption =
    some [.num (.fin 3), .arr [.fin 1, .fin 200, .fin 0], .num (.fin 4), .arr [.fin 4]] := by decide +kernel

example : (saveReax fullErr {}).datYml = none ∧ (saveReax fullErr {}).jobsYml = none := ⟨rfl, rfl⟩

/-- Refuted: that the loader alone gives the error function back. Its validation set is lost, so that it announces fewer columns than the
one saved, and no result of it fits the columns of the log being continued. -/
theorem C116_validation_refuted (L : Loaders) (f : ErrFn) (v : DSet) (hf : f.val = some v) (hv : v ≠ []) :
    ∃ g, loadReax L (saveReax f {}) {} = .ok g ∧ g.val = none ∧ g.headers ≠ f.headers ∧
      ∀ engine ts vs out, g.detailed engine ts vs = .ok out → ¬ Matches out f.headers := by
  have hlen : f.headers.length = 4 := by
    have : v.length ≠ 0 := by simpa using hv
    simp [ErrFn.headers, Params.headers, hf, DSet.plain, this]
  refine ⟨init f.dat f.jobs f.eng {}, by simp [loadReax, collections, loadOne, saveReax], rfl, ?_, ?_⟩
  · intro h
    rw [← h] at hlen
    simp [ErrFn.headers, Params.headers, init] at hlen
  · intro engine ts vs out ho hm
    have hm' : ∀ {o c}, Matches o c → o.length = c.length := by
      intro o c h
      induction h <;> simp_all
    have h4 := hm' hm
    rw [hlen] at h4
    simp only [ErrFn.detailed, detailedCall, init] at ho
    split at ho
    · cases ho
    · simp at ho
      rw [← ho] at h4
      simp at h4

example : fullErr.val = some [⟨"energy2", 1, 1⟩] := rfl

/-- Refuted: scaling of residuals and the loss are lost too. -/
theorem C116_settings_refuted (L : Loaders) (f : ErrFn) (hf : f.scale = true) (hl : f.loss ≠ 0) (k : Kwargs) :
    ∃ g, loadReax L (saveReax f {}) {} = .ok g ∧ g.scale ≠ f.scale ∧ ∀ g', loadReax L (saveReax f {}) k = .ok g' → g'.loss ≠ f.loss := by
  refine ⟨init f.dat f.jobs f.eng {}, by simp [loadReax, collections, loadOne, saveReax], by simp [init, hf], ?_⟩
  intro g' hg
  simp [loadReax, collections, loadOne, saveReax] at hg
  subst hg
  simpa [init] using Ne.symm hl

example : fullErr.scale = true ∧ fullErr.loss ≠ 0 := ⟨rfl, by decide⟩

/-- Refuted: that what was saved last is loaded. If the directory has an older YAML file whose loading changes the data set, the older
contents come back. -/
theorem C116_stale_refuted (L : Loaders) (f : ErrFn) (old : DSet) (h : L.dat f.dat old ≠ f.dat) (k : Kwargs) (g : ErrFn)
    (hg : loadReax L (saveReax f { datYml := some old }) k = .ok g) : g.dat = L.dat f.dat old ∧ g.dat ≠ f.dat := by
  have : g.dat = L.dat f.dat old := by
    simp [loadReax, collections, loadOne, saveReax] at hg
    subst hg
    rfl
  exact ⟨this, this ▸ h⟩

/-- Loaders which replace what was there. -/
def replacing : Loaders := { dat := fun _ b => b, jobs := fun _ b => b, xtb := fun v => v.map fun q => ⟨q.1, q.2, 0, 1, true⟩ }

example : ∃ g, loadReax replacing (saveReax fullErr { datYml := some [] }) {} = .ok g ∧ g.dat = [] := ⟨_, rfl, rfl⟩

/-- **C116, partly.** A GFN-xTB error function is loaded with the same data, jobs, names and values of parameters, if ParAMS reads the names and
values it has written. -/
theorem C116_xtb_partial (L : Loaders) (hL : ∀ v, values (L.xtb v) = v) (f : ErrFn) (d : Dir) (k : Kwargs) (hd : d.datYml = none) (hj : d.jobsYml = none) :
    ∃ g, loadXtb L (saveXtb f d) k = .ok g ∧ g.dat = f.dat ∧ g.jobs = f.jobs ∧ values g.eng = values f.eng ∧ g.val = k.val ∧ g.scale = k.scale := by
  refine ⟨init f.dat f.jobs (L.xtb (values f.eng)) k, ?_, rfl, rfl, hL _, rfl, rfl⟩
  simp [loadXtb, collections, loadOne, saveXtb, hd, hj]

example : ∀ v, values (replacing.xtb v) = v := by
  intro v
  simp [values, replacing, Function.comp_def]

/-- Refuted: that the active parameters of a GFN-xTB error function are those saved. However ParAMS reads its files, there is one which comes back
with another number of active parameters: optimizers resumed from the checkpoint have another dimension. -/
theorem C116_xtb_refuted (L : Loaders) : ∃ f : ErrFn, ∀ k g, loadXtb L (saveXtb f {}) k = .ok g → nParms g.eng ≠ nParms f.eng := by
  by_cases h : nParms (L.xtb [("a", 1)]) = 1
  · refine ⟨{ fullErr with eng := [⟨"a", 1, 0, 2, false⟩] }, ?_⟩
    intro k g hg
    simp [loadXtb, collections, loadOne, saveXtb, values] at hg
    subst hg
    simp only [init, h]
    decide
  · refine ⟨{ fullErr with eng := [⟨"a", 1, 0, 2, true⟩] }, ?_⟩
    intro k g hg
    simp [loadXtb, collections, loadOne, saveXtb, values] at hg
    subst hg
    exact h

/-- Refuted: that what `save` writes can be loaded. In an empty directory neither loader finds the parameters. -/
theorem C116_save_refuted (L : Loaders) (f : ErrFn) (k : Kwargs) : loadReax L (save f {}) k = .error .osError ∧ loadXtb L (save f {}) k = .error .osError := by
  simp [loadReax, loadXtb, collections, loadOne, save]

end Glompo.Props
