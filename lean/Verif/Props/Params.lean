import Verif.Spec.Params
import Verif.Lemmas.Basic
import Mathlib.Tactic.FieldSimp
import Mathlib.Tactic.Linarith
import Mathlib.Tactic.Ring
import Mathlib.Data.List.Nodup
import Mathlib.Algebra.Order.Field.Rat

/-!
# C52, C53, C72-C76: the ParAMS interface
-/

namespace Glompo.Props

open Glompo Glompo.Params Glompo.Spec.Params

/-! ## C52 -/

theorem core_fits {e : Eng} {x : List Rat} (h : Fits e x) : core e x.length = .ok (concerned e x.length) ∧ (concerned e x.length).length = x.length := by
  obtain ⟨h0, h⟩ := h
  have hx : x.length ≠ 0 := fun h => h0 (List.length_eq_zero_iff.1 h)
  unfold core concerned nParms act nAll
  split
  · rename_i h1
    refine ⟨?_, h1.symm⟩
    unfold unpack
    rw [if_neg (fun h2 => hx (by rw [h1, h2]; rfl))]
  · rename_i h1
    have h2 := h.resolve_left h1
    rw [if_pos h2]
    refine ⟨?_, h2.symm⟩
    unfold unpack
    rw [if_neg (fun h3 => hx (by rw [h2, h3]; rfl))]

theorem scale_unscale (p : Par) (h : p.lo ≠ p.hi) (v : Rat) : scale1 (unscale1 v p) p = .fin v := by
  have h' : p.hi - p.lo ≠ 0 := fun e => h (by linarith)
  unfold scale1 unscale1
  rw [if_neg h']
  congr 1
  field_simp
  ring

theorem zip_scale : ∀ (x : List Rat) (ps : List Par), x.length = ps.length → (∀ p ∈ ps, p.lo ≠ p.hi) →
    ∃ y : List Rat, y.length = x.length ∧ List.zipWith scale1 x ps = y.map .fin ∧ List.zipWith unscale1 y ps = x
  | [], [], _, _ => ⟨[], rfl, rfl, rfl⟩
  | v :: x, p :: ps, hl, hr => by
    obtain ⟨y, h0, h1, h2⟩ := zip_scale x ps (by simpa using hl) (fun q hq => hr q (.tail _ hq))
    have hp := hr p (.head _)
    have h' : p.hi - p.lo ≠ 0 := fun e => hp (by linarith)
    refine ⟨(v - p.lo) / (p.hi - p.lo) :: y, by simp [h0], ?_, ?_⟩
    · simp [h1, scale1, h']
    · simp only [List.zipWith_cons_cons, h2, List.cons.injEq, and_true, unscale1]
      field_simp
      ring
  | [], _ :: _, h, _ => by simp at h
  | _ :: _, [], h, _ => by simp at h

theorem zip_unscale : ∀ (y : List Rat) (ps : List Par), y.length = ps.length → (∀ p ∈ ps, p.lo ≠ p.hi) →
    List.zipWith scale1 (List.zipWith unscale1 y ps) ps = y.map .fin
  | [], [], _, _ => rfl
  | v :: y, p :: ps, hl, hr => by
    have := zip_unscale y ps (by simpa using hl) (fun q hq => hr q (.tail _ hq))
    simp [this, scale_unscale p (hr p (.head _))]
  | [], _ :: _, h, _ => by simp at h
  | _ :: _, [], h, _ => by simp at h

/-- **C52 (real to scaled and back).** For every vector which fits and ranges with different ends, `convert_parms_real2scaled` gives numbers
which `convert_parms_scaled2real` turns into the same vector. -/
theorem C52_round_trip_real (e : Eng) (x : List Rat) (hf : Fits e x) (hr : ∀ p ∈ concerned e x.length, p.lo ≠ p.hi) :
    ∃ y : List Rat, real2scaled e x = .ok (y.map .fin) ∧ scaled2real e y = .ok x := by
  obtain ⟨h1, h2⟩ := core_fits hf
  obtain ⟨y, h3, h4, h5⟩ := zip_scale x _ h2.symm hr
  refine ⟨y, by simp only [real2scaled, h1, h4], ?_⟩
  simp only [scaled2real, h3, h1, h5]

/-- **C52 (scaled to real and back).** -/
theorem C52_round_trip_scaled (e : Eng) (y : List Rat) (hf : Fits e y) (hr : ∀ p ∈ concerned e y.length, p.lo ≠ p.hi) :
    ∃ x : List Rat, scaled2real e y = .ok x ∧ real2scaled e x = .ok (y.map .fin) := by
  obtain ⟨h1, h2⟩ := core_fits hf
  refine ⟨List.zipWith unscale1 y (concerned e y.length), by simp only [scaled2real, h1], ?_⟩
  have hl : (List.zipWith unscale1 y (concerned e y.length)).length = y.length := by simp [h2]
  simp only [real2scaled, hl, h1, zip_unscale y _ h2.symm hr]

/-- **C52 (onto).** The scaled space is the image of the ranges: coordinate by coordinate, the real value lies in the range of its parameter
exactly if the scaled one lies in [0, 1], and 0 and 1 stand for the ends. -/
theorem C52_onto (e : Eng) (y x : List Rat) (hf : Fits e y) (h : scaled2real e y = .ok x) (i : Nat) (v w : Rat) (p : Par)
    (hv : y[i]? = some v) (hw : x[i]? = some w) (hp : (concerned e y.length)[i]? = some p) (hr : p.lo < p.hi) :
    (p.lo ≤ w ∧ w ≤ p.hi ↔ 0 ≤ v ∧ v ≤ 1) ∧ (w = p.lo ↔ v = 0) ∧ (w = p.hi ↔ v = 1) := by
  obtain ⟨h1, h2⟩ := core_fits hf
  simp only [scaled2real, h1, Except.ok.injEq] at h
  subst h
  rw [List.getElem?_zipWith, hv, hp] at hw
  simp only [Option.some.injEq, unscale1] at hw
  subst hw
  have hd : 0 < p.hi - p.lo := by linarith
  refine ⟨⟨fun ⟨ha, hb⟩ => ⟨?_, ?_⟩, fun ⟨ha, hb⟩ => ⟨?_, ?_⟩⟩, ⟨fun ha => ?_, fun ha => ?_⟩, ⟨fun ha => ?_, fun ha => ?_⟩⟩
  · by_contra hc
    have := mul_pos hd (by linarith : 0 < -v)
    linarith
  · by_contra hc
    have := mul_pos hd (by linarith : 0 < v - 1)
    linarith
  · have := mul_nonneg hd.le ha; linarith
  · have := mul_nonneg hd.le (by linarith : 0 ≤ 1 - v); linarith
  · have : (p.hi - p.lo) * v = 0 := by linarith
    exact (mul_eq_zero.1 this).resolve_left hd.ne'
  · subst ha; ring
  · have : (p.hi - p.lo) * (v - 1) = 0 := by linarith
    have := (mul_eq_zero.1 this).resolve_left hd.ne'
    linarith
  · subst ha; ring

/-- **C52 (bounds).** The bounds given to the optimizers are one interval per active parameter, and a vector inside them stands for values inside
the ranges of the active parameters. -/
theorem C52_bounds (e : Eng) (y : List Rat) (hr : ∀ p ∈ e, p.active = true → p.lo < p.hi) (h0 : y ≠ []) (hl : y.length = (bounds e).length)
    (hb : ∀ (i : Nat) (v : Rat) (b : Rat × Rat), y[i]? = some v → (bounds e)[i]? = some b → b.1 ≤ v ∧ v ≤ b.2) :
    y.length = (e.filter (·.active)).length ∧ ∃ x, scaled2real e y = .ok x ∧ x.length = (e.filter (·.active)).length ∧
      ∀ (i : Nat) (w : Rat) (p : Par), x[i]? = some w → (e.filter (·.active))[i]? = some p → p.lo ≤ w ∧ w ≤ p.hi := by
  have hl' : y.length = (e.filter (·.active)).length := by rw [hl]; simp [bounds, nParms, act]
  have hf : Fits e y := ⟨h0, .inl hl'⟩
  have hc : concerned e y.length = e.filter (·.active) := by simp [concerned, hl']
  obtain ⟨h1, h2⟩ := core_fits hf
  have hx : scaled2real e y = .ok (List.zipWith unscale1 y (concerned e y.length)) := by simp only [scaled2real, h1]
  refine ⟨hl', _, hx, by rw [List.length_zipWith, hc, hl']; simp, fun i w p hw hp => ?_⟩
  rw [List.getElem?_zipWith, hc, hp] at hw
  cases hv : y[i]? with
  | none => rw [hv] at hw; simp at hw
  | some v =>
    have hi : i < y.length := by
      rcases Nat.lt_or_ge i y.length with h | h
      · exact h
      · rw [List.getElem?_eq_none h] at hv; cases hv
    have hbi : (bounds e)[i]? = some (0, 1) := by
      rw [hl] at hi
      simp only [bounds, List.length_replicate] at hi ⊢
      simp [hi]
    have hp' := List.mem_filter.1 (List.mem_of_getElem? hp)
    refine ((C52_onto e y _ hf hx i v w p hv ?_ (by rw [hc]; exact hp) (hr p hp'.1 hp'.2)).1).2 (hb i v _ hv hbi)
    rw [List.getElem?_zipWith, hc, hp, hv]
    rw [hv] at hw
    exact hw

/-- **C52 (what does not fit).** Other lengths are refused in both directions. -/
theorem C52_refused (e : Eng) (x : List Rat) (h : ¬ Fits e x) : real2scaled e x = .error .valueError ∧ scaled2real e x = .error .valueError := by
  have : core e x.length = .error .valueError := by
    unfold core nParms act nAll
    by_cases hx : x = []
    · subst hx
      split
      · rename_i h1
        simp only [unpack, act]
        rw [if_pos (List.length_eq_zero_iff.1 h1.symm)]
      · split
        · rename_i h1
          simp only [unpack]
          rw [if_pos (List.length_eq_zero_iff.1 h1.symm)]
        · rfl
    · rw [if_neg (fun h1 => h ⟨hx, .inl h1⟩), if_neg (fun h1 => h ⟨hx, .inr h1⟩)]
  simp only [real2scaled, scaled2real, this, and_self]

/-- Three parameters, two of them active. -/
def eng0 : Eng := [⟨"a", 3, 2, 6, true⟩, ⟨"b", 5, 5, 5, false⟩, ⟨"c", 0, -1, 1, true⟩]

example : Fits eng0 [3, 0] ∧ (∀ p ∈ concerned eng0 2, p.lo ≠ p.hi) ∧ real2scaled eng0 [3, 0] = .ok [.fin (1/4), .fin (1/2)] ∧
    scaled2real eng0 [1/4, 1/2] = .ok [3, 0] := by
  refine ⟨⟨by simp, .inl (by decide +kernel)⟩, by decide +kernel, by decide +kernel, by decide +kernel⟩

example : [(1/4 : Rat), 1/2].length = (bounds eng0).length ∧ (∀ p ∈ eng0, p.active = true → p.lo < p.hi) ∧ bounds eng0 = [(0, 1), (0, 1)] := by
  decide +kernel

/-- The premise on the ranges is needed. -/
example : real2scaled eng0 [3, 5, 0] = .ok [.fin (1/4), .nan, .fin (1/2)] := by decide +kernel

/-! ## C53 -/

theorem enum_foldl (l : List String) : ∀ (n : Nat) (d : List (String × Nat)) (s : String), l.Nodup →
    (s ∉ l → dictGet ((l.zipIdx n).foldl (fun d p => dictSet d p.1 p.2) d) s = dictGet d s) ∧
    (∀ k, l[k]? = some s → dictGet ((l.zipIdx n).foldl (fun d p => dictSet d p.1 p.2) d) s = some (n + k)) := by
  induction l with
  | nil => intro n d s _; exact ⟨fun _ => rfl, fun k h => by simp at h⟩
  | cons a l ih =>
    intro n d s hn
    obtain ⟨hn1, hn2⟩ := List.nodup_cons.1 hn
    obtain ⟨i1, i2⟩ := ih (n + 1) (dictSet d a n) s hn2
    simp only [List.zipIdx_cons, List.foldl_cons]
    refine ⟨fun hs => ?_, fun k hk => ?_⟩
    · rw [i1 (fun h => hs (.tail _ h)), dictGet_set_ne _ _ (fun h => hs (by rw [h]; exact .head _))]
    · cases k with
      | zero =>
        simp at hk
        subst hk
        rw [i1 hn1, dictGet_set_self]
        rfl
      | succ k =>
        simp at hk
        rw [i2 k hk]
        congr 1; omega

theorem enum_get {l : List String} (hn : l.Nodup) {k : Nat} {s : String} (h : l[k]? = some s) : dictGet (enumDict l) s = some k := by
  have := (enum_foldl l 0 [] s hn).2 k h
  simpa [enumDict] using this

theorem enum_none {l : List String} (hn : l.Nodup) {s : String} (h : s ∉ l) : dictGet (enumDict l) s = none :=
  (enum_foldl l 0 [] s hn).1 h

theorem act_at : ∀ (e : Eng) (i : Nat) (p : Par), e[i]? = some p → p.active = true → (act e)[relOf e i]? = some p
  | [], i, p, h, _ => by simp at h
  | q :: e, 0, p, h, ha => by
    simp at h; subst h
    simp [act, relOf, ha]
  | q :: e, i + 1, p, h, ha => by
    have := act_at e i p (by simpa using h) ha
    unfold act relOf at *
    cases hq : q.active <;> simp [List.filter_cons, hq, this]

theorem act_unique {e : Eng} (h : Unique e) : ((act e).map (·.name)).Nodup :=
  h.sublist ((List.filter_sublist ..).map _)

theorem act_not {e : Eng} (h : Unique e) {i : Nat} {p : Par} (hp : e[i]? = some p) (ha : p.active = false) :
    p.name ∉ (act e).map (·.name) := by
  intro hm
  obtain ⟨q, hq, hn⟩ := List.mem_map.1 hm
  obtain ⟨hq1, hq2⟩ := List.mem_filter.1 hq
  obtain ⟨j, hj⟩ := List.mem_iff_getElem?.1 hq1
  have h1 : (e.map (·.name))[i]? = some p.name := by simp [hp]
  have h2 : (e.map (·.name))[j]? = some p.name := by simp [hj, hn]
  have hi : i < (e.map (·.name)).length := by
    rw [List.getElem?_eq_some_iff] at h1; exact h1.1
  have := (List.getElem?_inj hi h).1 (h1.trans h2.symm)
  subst this
  rw [hp] at hj
  cases hj
  rw [ha] at hq2; cases hq2

/-- **C53 (absolute to relative).** For every activity pattern and list of positions, the relative index of an active parameter is the
number of active parameters before it, and an inactive one gets `None`. -/
theorem C53_abs2rel (e : Eng) (hu : Unique e) (l : List Nat) (hl : ∀ i ∈ l, i < e.length) :
    abs2rel e (l.map Int.ofNat) = .ok (l.map fun i => if (e[i]?.map (·.active)).getD false then some (relOf e i) else none) := by
  have hn : namesAt e (l.map Int.ofNat) = .ok (l.map fun i => (e[i]?.map (·.name)).getD "") := by
    induction l with
    | nil => rfl
    | cons i l ih =>
      have hi := hl i (.head _)
      simp only [List.map_cons, namesAt, ih fun j hj => hl j (.tail _ hj)]
      have : pyIdx e.length (Int.ofNat i) = some i := by simp [pyIdx, hi]
      rw [this]
      simp [hi]
  simp only [abs2rel, hn, List.map_map]
  congr 1
  refine List.map_congr_left fun i hi => ?_
  have hi := hl i hi
  have he : e[i]? = some e[i] := List.getElem?_eq_getElem hi
  simp only [Function.comp, he, Option.map_some, Option.getD_some]
  cases ha : e[i].active with
  | true =>
    rw [if_pos rfl]
    refine enum_get (act_unique hu) ?_
    rw [List.getElem?_map, act_at e i _ he ha]; rfl
  | false =>
    simp only [Bool.false_eq_true, if_false]
    exact enum_none (act_unique hu) (act_not hu he ha)

/-- **C53 (relative to absolute).** Back from the relative indices of active parameters to their positions: the round trip is the identity. -/
theorem C53_rel2abs (e : Eng) (hu : Unique e) (l : List Nat) (hl : ∀ i ∈ l, ActiveAt e i) :
    rel2abs e (l.map fun i => (relOf e i : Int)) = .ok l := by
  induction l with
  | nil => rfl
  | cons i l ih =>
    obtain ⟨p, hp, ha⟩ := hl i (.head _)
    simp only [List.map_cons, rel2abs, ih fun j hj => hl j (.tail _ hj)]
    have h1 : ((act e).map (·.name))[relOf e i]? = some p.name := by rw [List.getElem?_map, act_at e i p hp ha]; rfl
    have h2 : dictGet (enumDict (e.map (·.name))) p.name = some i := enum_get hu (by rw [List.getElem?_map, hp]; rfl)
    simp [h1, h2]

theorem activeAbs_go (e : Eng) : ∀ n, (e.zipIdx n |>.filter (·.1.active)).map (·.2) =
    ((e.zipIdx 0 |>.filter (·.1.active)).map (·.2)).map (· + n) := by
  induction e with
  | nil => intro n; rfl
  | cons p e ih =>
    intro n
    simp only [List.zipIdx_cons, List.filter_cons]
    have h1 := ih (n + 1)
    have h2 := ih 1
    split
    · simp only [List.map_cons, h1, h2, List.map_map, Nat.zero_add, List.cons.injEq, true_and]
      refine List.map_congr_left fun a _ => ?_
      simp only [Function.comp]; omega
    · simp only [h1, h2, List.map_map, Nat.zero_add]
      refine List.map_congr_left fun a _ => ?_
      simp only [Function.comp]; omega

theorem activeAbs_cons (p : Par) (e : Eng) : activeAbs (p :: e) = (if p.active then [0] else []) ++ (activeAbs e).map (· + 1) := by
  unfold activeAbs
  have := activeAbs_go e 1
  simp only [List.zipIdx_cons, List.filter_cons, Nat.zero_add]
  split <;> simp_all

theorem mem_activeAbs (e : Eng) : ∀ i, i ∈ activeAbs e ↔ ActiveAt e i := by
  induction e with
  | nil => intro i; simp [activeAbs, ActiveAt]
  | cons p e ih =>
    intro i
    rw [activeAbs_cons]
    cases i with
    | zero => cases hp : p.active <;> simp [ActiveAt, hp]
    | succ i =>
      have := ih i
      cases hp : p.active <;> simp [ActiveAt] at this ⊢ <;> exact this

theorem sorted_activeAbs (e : Eng) : (activeAbs e).Pairwise (· < ·) := by
  induction e with
  | nil => exact .nil
  | cons p e ih =>
    rw [activeAbs_cons]
    rw [List.pairwise_append]
    refine ⟨by split <;> simp, ?_, ?_⟩
    · rw [List.pairwise_map]; exact ih.imp (by intro a b; omega)
    · intro a ha b hb
      split at ha
      · simp at ha; subst ha
        obtain ⟨c, -, rfl⟩ := List.mem_map.1 hb
        omega
      · cases ha

theorem rel_activeAbs (e : Eng) : (activeAbs e).map (relOf e) = List.range (nParms e) := by
  induction e with
  | nil => rfl
  | cons p e ih =>
    rw [activeAbs_cons]
    simp only [List.map_append, List.map_map]
    cases hp : p.active with
    | true =>
      have : relOf (p :: e) ∘ (· + 1) = (· + 1) ∘ relOf e := by
        funext i; simp [relOf, List.filter_cons, hp]
      rw [this, ← List.map_map, ih]
      simp [nParms, act, List.filter_cons, hp, relOf, List.range_succ_eq_map]
    | false =>
      have : relOf (p :: e) ∘ (· + 1) = relOf e := by
        funext i; simp [relOf, List.filter_cons, hp]
      rw [this, ih]
      simp [nParms, act, List.filter_cons, hp]

/-- **C53 (all of them).** The relative indices `0 .. n_parms-1` are turned into `active_abs_indices`: exactly the positions of active
parameters, each once, in increasing order. -/
theorem C53_enumerates (e : Eng) (hu : Unique e) :
    rel2abs e ((List.range (nParms e)).map Int.ofNat) = .ok (activeAbs e) ∧ (activeAbs e).Pairwise (· < ·) ∧
    (∀ i, i ∈ activeAbs e ↔ ActiveAt e i) ∧ nParms e = (activeAbs e).length := by
  refine ⟨?_, sorted_activeAbs e, mem_activeAbs e, ?_⟩
  · rw [← rel_activeAbs, List.map_map]
    exact C53_rel2abs e hu _ fun i hi => (mem_activeAbs e i).1 hi
  · have := congrArg List.length (rel_activeAbs e)
    simpa using this.symm

/-- **C53 (others).** A relative index that is negative or not below the number of active parameters is a `KeyError`, a position beyond the
parameters an `IndexError`. -/
theorem C53_refused (e : Eng) (i : Int) (l : List Int) :
    (i < 0 ∨ (nParms e : Int) ≤ i → rel2abs e (i :: l) = .error .keyError) ∧
    (i < -(e.length : Int) ∨ (e.length : Int) ≤ i → abs2rel e (i :: l) = .error .indexError) := by
  refine ⟨fun h => ?_, fun h => ?_⟩
  · rw [rel2abs]
    rcases h with h | h
    · rw [if_neg (by omega)]; rfl
    · rw [if_pos (by omega), List.getElem?_eq_none (by simp [nParms] at h ⊢; omega)]; rfl
  · have : pyIdx e.length i = none := by
      unfold pyIdx
      rcases h with h | h
      · rw [if_neg (by omega), if_neg (by omega)]
      · rw [if_pos (by omega), if_neg (by omega)]
    simp [abs2rel, namesAt, this]

example : Unique eng0 ∧ abs2rel eng0 [2, 0, 1, -1] = .ok [some 1, some 0, none, some 1] ∧ rel2abs eng0 [1, 0] = .ok [2, 0] ∧
    activeAbs eng0 = [0, 2] := by
  refine ⟨by unfold Spec.Params.Unique; decide +kernel, by decide +kernel, by decide +kernel, by decide +kernel⟩

/-! ## C72 -/

theorem fill_spec : ∀ (e : Eng) (x : List Rat), x.length = (e.filter (·.active)).length →
    SameButValues e (fill e x) ∧ ((fill e x).filter (·.active)).map (·.value) = x ∧
    ∀ (i : Nat) (p : Par), e[i]? = some p → p.active = false → (fill e x)[i]? = some p
  | [], x, h => by
    have : x = [] := List.length_eq_zero_iff.1 h
    subst this
    exact ⟨rfl, rfl, fun i p h => by simp at h⟩
  | q :: e, x, h => by
    cases hq : q.active with
    | true =>
      cases x with
      | nil => simp [List.filter_cons, hq] at h
      | cons v x =>
        obtain ⟨h1, h2, h3⟩ := fill_spec e x (by simpa [List.filter_cons, hq] using h)
        refine ⟨?_, ?_, ?_⟩
        · simp only [SameButValues, fill, hq, if_true, List.map_cons] at h1 ⊢
          rw [h1]
        · simp [fill, hq, List.filter_cons, h2]
        · intro i p hp ha
          cases i with
          | zero => simp at hp; subst hp; rw [hq] at ha; cases ha
          | succ i => simpa [fill, hq] using h3 i p (by simpa using hp) ha
    | false =>
      obtain ⟨h1, h2, h3⟩ := fill_spec e x (by simpa [List.filter_cons, hq] using h)
      refine ⟨?_, ?_, ?_⟩
      · simp only [SameButValues, fill, hq, Bool.false_eq_true, if_false, List.map_cons] at h1 ⊢
        rw [h1]
      · simp [fill, hq, List.filter_cons, h2]
      · intro i p hp ha
        cases i with
        | zero => simpa [fill, hq] using hp
        | succ i => simpa [fill, hq] using h3 i p (by simpa using hp) ha

/-- **C72 (active parameters).** Storing one value for each active parameter gives the active parameters these values in order, leaves the
inactive ones, and changes nothing but values. -/
theorem C72_active (e : Eng) (x : List Rat) (h : x.length = (e.filter (·.active)).length) :
    ∃ e' w, setParameters e x .real false = .ok (e', w) ∧ SameButValues e e' ∧ (e'.filter (·.active)).map (·.value) = x ∧
      ∀ (i : Nat) (p : Par), e[i]? = some p → p.active = false → e'[i]? = some p := by
  obtain ⟨h1, h2, h3⟩ := fill_spec e x h
  refine ⟨fill e x, (List.zipWith inside x e).any (!·), ?_, h1, h2, h3⟩
  simp only [setParameters, toReal, assignActive, nParms, act, h, if_true, Bool.false_eq_true, if_false]

theorem zip_value : ∀ (e : Eng) (x : List Rat), x.length = e.length →
    (List.zipWith (fun (p : Par) v => { p with value := v }) e x).map (·.value) = x ∧
    SameButValues e (List.zipWith (fun (p : Par) v => { p with value := v }) e x)
  | [], [], _ => ⟨rfl, rfl⟩
  | p :: e, v :: x, h => by
    obtain ⟨h1, h2⟩ := zip_value e x (by simpa using h)
    refine ⟨by simp [h1], ?_⟩
    simp only [SameButValues, List.zipWith_cons_cons, List.map_cons] at h2 ⊢
    rw [h2]
  | [], _ :: _, h => by simp at h
  | _ :: _, [], h => by simp at h

/-- **C72 (all parameters).** With `full`, every parameter gets its value. -/
theorem C72_full (e : Eng) (x : List Rat) (h : x.length = e.length) :
    ∃ e' w, setParameters e x .real true = .ok (e', w) ∧ SameButValues e e' ∧ e'.map (·.value) = x := by
  obtain ⟨h1, h2⟩ := zip_value e x h
  refine ⟨_, (List.zipWith inside x (act e)).any (!·), ?_, h2, h1⟩
  simp only [setParameters, toReal, assignAll, h, if_true]

theorem range_same {e e' : Eng} (h : SameButValues e e') :
    e'.map (fun p => (p.lo, p.hi, p.active)) = e.map (fun p => (p.lo, p.hi, p.active)) := by
  have := congrArg (List.map fun p : Par => (p.lo, p.hi, p.active)) h
  simpa [List.map_map, Function.comp_def] using this

theorem act_range {e e' : Eng} (h : e'.map (fun p => (p.lo, p.hi, p.active)) = e.map (fun p => (p.lo, p.hi, p.active))) :
    (e'.filter (·.active)).map (fun p => (p.lo, p.hi)) = (e.filter (·.active)).map (fun p => (p.lo, p.hi)) := by
  have h0 : ∀ l : Eng, (l.filter (·.active)).map (fun p => (p.lo, p.hi)) =
      ((l.map (fun p => (p.lo, p.hi, p.active))).filter (·.2.2)).map (fun q => (q.1, q.2.1)) := by
    intro l
    rw [List.filter_map, List.map_map]
    rfl
  rw [h0, h0, h]

theorem zip_congr : ∀ (x : List Rat) (a b : List Par), a.map (fun p => (p.lo, p.hi)) = b.map (fun p => (p.lo, p.hi)) →
    List.zipWith scale1 x a = List.zipWith scale1 x b
  | [], _, _, _ => by simp
  | _ :: _, [], [], _ => rfl
  | v :: x, p :: a, q :: b, h => by
    simp only [List.map_cons, List.cons.injEq, Prod.mk.injEq] at h
    simp only [List.zipWith_cons_cons, zip_congr x a b h.2, scale1, h.1.1, h.1.2]
  | _ :: _, [], _ :: _, h => by simp at h
  | _ :: _, _ :: _, [], h => by simp at h

/-- **C72 (scaled values).** Storing scaled values for the active parameters and reading the active parameters back in scaled space gives
the same numbers. -/
theorem C72_scaled (e : Eng) (y : List Rat) (h0 : y ≠ []) (h : y.length = (e.filter (·.active)).length)
    (hr : ∀ p ∈ e, p.active = true → p.lo ≠ p.hi) :
    ∃ e' w, setParameters e y .scaled false = .ok (e', w) ∧ SameButValues e e' ∧
      real2scaled e' ((e'.filter (·.active)).map (·.value)) = .ok (y.map .fin) ∧
      ∀ (i : Nat) (p : Par), e[i]? = some p → p.active = false → e'[i]? = some p := by
  have hc : concerned e y.length = e.filter (·.active) := by simp [concerned, h]
  have hf : Fits e y := ⟨h0, .inl h⟩
  obtain ⟨x, hx1, hx2⟩ := C52_round_trip_scaled e y hf (by
    rw [hc]; intro p hp; obtain ⟨h1, h2⟩ := List.mem_filter.1 hp; exact hr p h1 h2)
  have hl : x.length = (e.filter (·.active)).length := by
    obtain ⟨h1, h2⟩ := core_fits hf
    simp only [scaled2real, h1, Except.ok.injEq] at hx1
    subst hx1
    rw [List.length_zipWith, h2, h]
    simp
  obtain ⟨h1, h2, h3⟩ := fill_spec e x hl
  refine ⟨fill e x, (List.zipWith inside x e).any (!·), ?_, h1, ?_, h3⟩
  · simp only [setParameters, toReal, hx1, assignActive, nParms, act, hl, if_true, Bool.false_eq_true, if_false]
  · rw [h2]
    have hra := act_range (range_same h1)
    have hla : ((fill e x).filter (·.active)).length = x.length := by
      have := congrArg List.length h2
      simpa using this
    have hx0 : x ≠ [] := by
      intro hx; subst hx
      rw [← h] at hl
      exact h0 (List.length_eq_zero_iff.1 hl.symm)
    have hf' : Fits (fill e x) x := ⟨hx0, .inl hla.symm⟩
    obtain ⟨c1, -⟩ := core_fits hf'
    obtain ⟨c2, -⟩ := core_fits (x := x) (e := e) ⟨hx0, .inl hl⟩
    simp only [real2scaled, c2] at hx2
    simp only [real2scaled, c1, ← hx2]
    congr 1
    refine zip_congr _ _ _ ?_
    simp only [concerned, hl, if_true]
    rw [if_pos (by rw [hla, hl]), hra]

theorem zip_any : ∀ (x : List Rat) (ps : List Par), (List.zipWith inside x ps).any (!·) = true ↔
    ∃ (i : Nat) (v : Rat) (p : Par), x[i]? = some v ∧ ps[i]? = some p ∧ ¬ (p.lo < v ∧ v < p.hi)
  | [], ps => by simp
  | _ :: _, [] => by simp
  | v :: x, p :: ps => by
    simp only [List.zipWith_cons_cons, List.any_cons, Bool.or_eq_true, zip_any x ps]
    constructor
    · rintro (h | ⟨i, v', p', h1, h2, h3⟩)
      · refine ⟨0, v, p, rfl, rfl, ?_⟩
        simp only [inside, Bool.not_and, Bool.or_eq_true, Bool.not_eq_true', decide_eq_false_iff_not] at h
        exact fun hh => h.elim (fun h => h hh.1) (fun h => h hh.2)
      · exact ⟨i + 1, v', p', by simpa using h1, by simpa using h2, h3⟩
    · rintro ⟨i, v', p', h1, h2, h3⟩
      cases i with
      | zero =>
        simp at h1 h2; subst h1 h2
        refine .inl ?_
        simp only [inside, Bool.not_and, Bool.or_eq_true, Bool.not_eq_true', decide_eq_false_iff_not]
        by_cases hlt : p.lo < v
        · exact .inr fun h => h3 ⟨hlt, h⟩
        · exact .inl hlt
      | succ i => exact .inr ⟨i, v', p', by simpa using h1, by simpa using h2, h3⟩

/-- **C72 (warning).** If all parameters are active, a warning is given exactly if some value is not strictly between its bounds. Missing for
the full property: engines with inactive parameters, and values on a bound (both refuted below). -/
theorem C72_warning_partial (e : Eng) (x : List Rat) (full : Bool) (ha : ∀ p ∈ e, p.active = true) (h : x.length = e.length) :
    ∃ e' w, setParameters e x .real full = .ok (e', w) ∧
      (w = true ↔ ∃ (i : Nat) (v : Rat) (p : Par), x[i]? = some v ∧ e[i]? = some p ∧ ¬ (p.lo < v ∧ v < p.hi)) := by
  have he : e.filter (·.active) = e := List.filter_eq_self.2 ha
  cases full with
  | true =>
    refine ⟨_, _, by simp only [setParameters, toReal, assignAll, h, if_true]; rfl, ?_⟩
    simp only [act, he, if_true]
    exact zip_any x e
  | false =>
    refine ⟨_, _, by simp only [setParameters, toReal, assignActive, nParms, act, he, h, Bool.false_eq_true, if_true, if_false]; rfl, ?_⟩
    exact zip_any x e

/-- **C72, refuted (warning).** With inactive parameters the values of the active ones are compared with the ranges of the first parameters:
there is a warning about values inside their bounds, and none about a value outside; the same the other way round with `full`. A value on
its bound is reported as outside. -/
theorem C72_warning_refuted :
    (∃ e e' x, setParameters e x .real false = .ok (e', true) ∧ ∀ p ∈ e'.filter (·.active), p.lo < p.value ∧ p.value < p.hi) ∧
    (∃ e e' x, setParameters e x .real false = .ok (e', false) ∧ ∃ p ∈ e'.filter (·.active), p.hi < p.value) ∧
    (∃ e e' x, setParameters e x .real true = .ok (e', false) ∧ ∃ p ∈ e', p.hi < p.value) ∧
    (∃ e e' x, setParameters e x .real true = .ok (e', true) ∧ ∀ p ∈ e', p.lo ≤ p.value ∧ p.value ≤ p.hi) := by
  refine ⟨⟨[⟨"a", 0, 0, 1, false⟩, ⟨"b", 5, 4, 6, true⟩], [⟨"a", 0, 0, 1, false⟩, ⟨"b", 5, 4, 6, true⟩], [5], by decide +kernel, by decide +kernel⟩,
    ⟨[⟨"a", 0, 0, 1, false⟩, ⟨"b", 0, -2, -1, true⟩], [⟨"a", 0, 0, 1, false⟩, ⟨"b", 1/2, -2, -1, true⟩], [1/2], by decide +kernel, by decide +kernel⟩,
    ⟨[⟨"a", 0, 0, 1, false⟩, ⟨"b", 5, 4, 6, true⟩], [⟨"a", 5, 0, 1, false⟩, ⟨"b", 5, 4, 6, true⟩], [5, 5], by decide +kernel, by decide +kernel⟩,
    ⟨[⟨"b", 5, 4, 6, true⟩], [⟨"b", 4, 4, 6, true⟩], [4], by decide +kernel, by decide +kernel⟩⟩

example : setParameters eng0 [5/2, 1/2] .real false =
    .ok ([⟨"a", 5/2, 2, 6, true⟩, ⟨"b", 5, 5, 5, false⟩, ⟨"c", 1/2, -1, 1, true⟩], true) := by decide +kernel

example : [(1/4 : Rat), 1/2].length = (eng0.filter (·.active)).length ∧ (∀ p ∈ eng0, p.active = true → p.lo ≠ p.hi) := by decide +kernel

/-! ## C73 -/

theorem dictSet_fresh {K V : Type} [DecidableEq K] : ∀ (d : List (K × V)) (k : K) (v : V), k ∉ d.map (·.1) → dictSet d k v = d ++ [(k, v)]
  | [], _, _, _ => rfl
  | q :: d, k, v, h => by
    simp only [List.map_cons, List.mem_cons, not_or] at h
    simp only [dictSet, if_neg (Ne.symm h.1), dictSet_fresh d k v h.2, List.cons_append]

theorem foldl_fresh {K V : Type} [DecidableEq K] : ∀ (l d : List (K × V)), ((d ++ l).map (·.1)).Nodup →
    l.foldl (fun d p => dictSet d p.1 p.2) d = d ++ l
  | [], d, _ => by simp
  | q :: l, d, h => by
    have hq : q.1 ∉ d.map (·.1) := by
      rw [List.map_append, List.nodup_append] at h
      exact fun hm => h.2.2 _ hm _ (by simp) rfl
    rw [List.foldl_cons, dictSet_fresh _ _ _ hq, foldl_fresh l _ (by simpa using h)]
    simp

theorem mapping_idx (e : Eng) (i : Int) : mapping0 e (.idx i) = e.zipIdx.map (fun p => (Key.idx (p.2 : Nat), p.1.active)) := by
  have h := foldl_fresh (e.zipIdx.map (fun p => (Key.idx (p.2 : Nat), p.1.active))) [] (by
    have : (e.zipIdx.map (fun p => (Key.idx (p.2 : Nat), p.1.active))).map (·.1) = (List.range e.length).map (fun n : Nat => Key.idx n) := by
      rw [List.map_map]
      rw [show ((fun x : Key × Bool => x.1) ∘ fun p : Par × Nat => (Key.idx (p.2 : Nat), p.1.active)) = (fun n : Nat => Key.idx n) ∘ Prod.snd from rfl,
        ← List.map_map, List.zipIdx_map_snd, List.range_eq_range']
    simp only [List.nil_append, this]
    exact List.Nodup.map (fun a b h => by injection h with h; exact Int.ofNat.inj h) List.nodup_range)
  rw [List.foldl_map] at h
  exact h

theorem mapping_str (e : Eng) (hu : Spec.Params.Unique e) (s : String) : mapping0 e (.str s) = e.map (fun p => (Key.str p.name, p.active)) := by
  have h := foldl_fresh (e.map (fun p => (Key.str p.name, p.active))) [] (by
    have : (e.map (fun p => (Key.str p.name, p.active))).map (·.1) = (e.map (·.name)).map Key.str := by simp [List.map_map, Function.comp_def]
    simp only [List.nil_append, this]
    exact List.Nodup.map (fun a b h => by injection h) hu)
  rw [List.foldl_map] at h
  exact h

theorem dictSet_present {K V : Type} [DecidableEq K] : ∀ (d : List (K × V)) (k : K) (v : V), (d.map (·.1)).Nodup → k ∈ d.map (·.1) →
    dictSet d k v = d.map (fun q => (q.1, if q.1 = k then v else q.2))
  | [], _, _, _, h => by simp at h
  | q :: d, k, v, hn, h => by
    obtain ⟨hn1, hn2⟩ := List.nodup_cons.1 (by simpa using hn : (q.1 :: d.map (·.1)).Nodup)
    by_cases e : q.1 = k
    · subst e
      simp only [dictSet, if_true, List.map_cons, List.cons.injEq, true_and]
      symm
      conv_rhs => rw [← List.map_id d]
      refine List.map_congr_left fun r hr => ?_
      have : r.1 ≠ q.1 := fun h => hn1 (h ▸ List.mem_map_of_mem hr)
      simp [this]
    · have hk : k ∈ d.map (·.1) := by
        rw [List.map_cons] at h
        rcases List.mem_cons.1 h with h | h
        · exact absurd h.symm e
        · exact h
      simp only [dictSet, if_neg e, List.map_cons, dictSet_present d k v hn2 hk]

/-- The names in the request which the mapping does not know. -/
def unknown (keys : List Key) (l : List Key) : List String :=
  l.filterMap fun k => match k with | .str s => if .str s ∈ keys then none else some s | .idx _ => none

theorem marks_spec (v : Bool) : ∀ (l : List Key) (d : List (Key × Bool)), (d.map (·.1)).Nodup →
    (∀ i, Key.idx i ∈ l → Key.idx i ∈ d.map (·.1)) →
    marks v d l = (d.map (fun q => (q.1, if q.1 ∈ l then v else q.2)), unknown (d.map (·.1)) l)
  | [], d, _, _ => by simp [marks, unknown]
  | .idx i :: l, d, hn, hi => by
    have hk := hi i (.head _)
    have hkeys : (d.map (fun q => (q.1, if q.1 = Key.idx i then v else q.2))).map (·.1) = d.map (·.1) := by
      simp [List.map_map, Function.comp_def]
    rw [marks, dictSet_present d _ v hn hk, marks_spec v l _ (by rw [hkeys]; exact hn) (by rw [hkeys]; exact fun j hj => hi j (.tail _ hj)), hkeys]
    simp only [List.map_map, unknown, List.filterMap_cons, Prod.mk.injEq, and_true]
    refine List.map_congr_left fun q _ => ?_
    simp only [Function.comp, List.mem_cons, Prod.mk.injEq, true_and]
    by_cases h1 : q.1 = Key.idx i <;> by_cases h2 : q.1 ∈ l <;> simp [h1, h2]
  | .str s :: l, d, hn, hi => by
    have hs : (dictGet d (.str s)).isSome ↔ Key.str s ∈ d.map (·.1) := dictGet_isSome_iff d _
    rw [marks]
    by_cases hk : Key.str s ∈ d.map (·.1)
    · have hkeys : (d.map (fun q => (q.1, if q.1 = Key.str s then v else q.2))).map (·.1) = d.map (·.1) := by
        simp [List.map_map, Function.comp_def]
      rw [if_pos (hs.2 hk), dictSet_present d _ v hn hk,
        marks_spec v l _ (by rw [hkeys]; exact hn) (by rw [hkeys]; exact fun j hj => hi j (.tail _ hj)), hkeys]
      simp only [List.map_map, unknown, List.filterMap_cons, if_pos hk, Prod.mk.injEq, and_true]
      refine List.map_congr_left fun q _ => ?_
      simp only [Function.comp, List.mem_cons, Prod.mk.injEq, true_and]
      by_cases h1 : q.1 = Key.str s <;> by_cases h2 : q.1 ∈ l <;> simp [h1, h2]
    · rw [if_neg (fun h => hk (hs.1 h)), marks_spec v l d hn (fun j hj => hi j (.tail _ hj))]
      simp only [unknown, List.filterMap_cons, if_neg hk, Prod.mk.injEq, and_true]
      refine List.map_congr_left fun q hq => ?_
      have : q.1 ≠ Key.str s := fun h => hk (h ▸ List.mem_map_of_mem hq)
      simp [List.mem_cons, this]

/-- **C73 (positions).** Toggling parameters by position changes the activity of exactly these parameters, and nothing else. -/
theorem C73_positions (e : Eng) (ps : List Key) (t : Toggle) (v : Bool) (ht : t.val = some v) (h0 : ps ≠ [])
    (hp : ∀ k ∈ ps, ∃ i : Nat, k = .idx i ∧ i < e.length) :
    ∃ e', toggle e ps t = .ok (e', []) ∧ e'.length = e.length ∧
      ∀ (i : Nat) (p : Par), e[i]? = some p → e'[i]? = some { p with active := if Key.idx i ∈ ps then v else p.active } := by
  cases ps with
  | nil => exact absurd rfl h0
  | cons k l =>
    obtain ⟨i0, rfl, -⟩ := hp _ (.head _)
    have hkeys : (e.zipIdx.map (fun p => (Key.idx (p.2 : Nat), p.1.active))).map (·.1) = (List.range e.length).map (fun n : Nat => Key.idx n) := by
      rw [List.map_map]
      rw [show ((fun x : Key × Bool => x.1) ∘ fun p : Par × Nat => (Key.idx (p.2 : Nat), p.1.active)) = (fun n : Nat => Key.idx n) ∘ Prod.snd from rfl,
        ← List.map_map, List.zipIdx_map_snd, List.range_eq_range']
    have hm := marks_spec v (.idx i0 :: l) (mapping0 e (.idx i0)) (by
      rw [mapping_idx, hkeys]
      exact List.Nodup.map (fun a b h => by injection h with h; exact Int.ofNat.inj h) List.nodup_range) (by
      rw [mapping_idx, hkeys]
      intro j hj
      obtain ⟨i, hi, hlt⟩ := hp _ hj
      rw [hi]
      exact List.mem_map_of_mem (List.mem_range.2 hlt))
    have hun : unknown ((mapping0 e (.idx i0)).map (·.1)) (.idx i0 :: l) = [] := by
      rw [unknown, List.filterMap_eq_nil_iff]
      intro k hk
      obtain ⟨i, rfl, -⟩ := hp _ hk
      rfl
    refine ⟨List.zipWith (fun (p : Par) b => { p with active := b }) e
      (((mapping0 e (.idx i0)).map (fun q => (q.1, if q.1 ∈ Key.idx i0 :: l then v else q.2))).map (·.2)), ?_, ?_, ?_⟩
    · simp only [toggle, ht, hm, hun, setActive]
      rw [if_pos (by rw [mapping_idx]; simp)]
    · rw [mapping_idx]; simp
    · intro i p hi
      rw [List.getElem?_zipWith, hi, mapping_idx]
      simp only [List.map_map, List.getElem?_map, List.getElem?_zipIdx, hi, Option.map_some, Function.comp, Nat.zero_add]

/-- **C73 (names).** The same by name; names which do not exist are reported and ignored. -/
theorem C73_names (e : Eng) (hu : Spec.Params.Unique e) (ps : List Key) (t : Toggle) (v : Bool) (ht : t.val = some v) (h0 : ps ≠ [])
    (hp : ∀ k ∈ ps, ∃ s, k = .str s) :
    ∃ e' w, toggle e ps t = .ok (e', w) ∧ e'.length = e.length ∧ (∀ s, s ∈ w ↔ Key.str s ∈ ps ∧ s ∉ e.map (·.name)) ∧
      ∀ (i : Nat) (p : Par), e[i]? = some p → e'[i]? = some { p with active := if Key.str p.name ∈ ps then v else p.active } := by
  cases ps with
  | nil => exact absurd rfl h0
  | cons k l =>
    obtain ⟨s0, rfl⟩ := hp _ (.head _)
    have hkeys : (e.map (fun p => (Key.str p.name, p.active))).map (·.1) = (e.map (·.name)).map Key.str := by
      simp [List.map_map, Function.comp_def]
    have hm := marks_spec v (.str s0 :: l) (mapping0 e (.str s0)) (by
      rw [mapping_str e hu, hkeys]
      exact List.Nodup.map (fun a b h => by injection h) hu) (by
      intro j hj
      obtain ⟨s, hs⟩ := hp _ hj
      cases hs)
    refine ⟨List.zipWith (fun (p : Par) b => { p with active := b }) e
      (((mapping0 e (.str s0)).map (fun q => (q.1, if q.1 ∈ Key.str s0 :: l then v else q.2))).map (·.2)),
      unknown ((mapping0 e (.str s0)).map (·.1)) (.str s0 :: l), ?_, ?_, ?_, ?_⟩
    · simp only [toggle, ht, hm, setActive]
      rw [if_pos (by rw [mapping_str e hu]; simp)]
    · rw [mapping_str e hu]; simp
    · intro s
      rw [mapping_str e hu, hkeys, unknown, List.mem_filterMap]
      constructor
      · rintro ⟨k, hk, h⟩
        obtain ⟨s', rfl⟩ := hp _ hk
        simp only at h
        split at h
        · cases h
        · rename_i hn
          cases h
          exact ⟨hk, fun hm => hn (List.mem_map_of_mem hm)⟩
      · rintro ⟨hk, h⟩
        refine ⟨_, hk, ?_⟩
        simp only
        rw [if_neg]
        intro hm
        obtain ⟨s', hs', he⟩ := List.mem_map.1 hm
        injection he with he
        subst he
        exact h hs'
    · intro i p hi
      rw [List.getElem?_zipWith, hi, mapping_str e hu]
      simp only [List.map_map, List.getElem?_map, hi, Option.map_some, Function.comp]

theorem idOf_spec {e : Eng} (hu : Spec.Params.Unique e) (k : Key) (i : Nat) : idOf e k = some i ↔ StandsFor e k i := by
  cases k with
  | idx j =>
    simp only [idOf, StandsFor, pyIdx, reduceCtorEq, false_or, Key.idx.injEq]
    constructor
    · intro h
      split at h
      · split at h
        · cases h
          rename_i h1 h2
          exact ⟨_, List.getElem?_eq_getElem h2, .inl (by omega)⟩
        · cases h
      · split at h
        · cases h
          rename_i h1 h2
          exact ⟨_, List.getElem?_eq_getElem (by omega), .inr (by omega)⟩
        · cases h
    · rintro ⟨p, hp, h⟩
      have hlt : i < e.length := (List.getElem?_eq_some_iff.1 hp).1
      rcases h with h | h
      · subst h; simp [hlt]
      · subst h
        rw [if_neg (by omega), if_pos (by omega)]
        congr 1; omega
  | str s =>
    simp only [idOf, StandsFor, reduceCtorEq, or_false, Key.str.injEq]
    constructor
    · intro h
      obtain ⟨hlt, h1, -⟩ := List.findIdx?_eq_some_iff_getElem.1 h
      exact ⟨_, List.getElem?_eq_getElem hlt, (by simpa using h1 : e[i].name = s).symm⟩
    · rintro ⟨p, hp, rfl⟩
      obtain ⟨hlt, rfl⟩ := List.getElem?_eq_some_iff.1 hp
      rw [List.findIdx?_eq_some_iff_getElem]
      refine ⟨hlt, by simp, fun j hj => ?_⟩
      simp only [Bool.not_eq_true, decide_eq_false_iff_not]
      intro he
      have h1 : (e.map (·.name))[j]? = (e.map (·.name))[i]? := by
        rw [List.getElem?_map, List.getElem?_map, List.getElem?_eq_getElem (by omega), List.getElem?_eq_getElem hlt]
        simp [he]
      have := (List.getElem?_inj (by simp; omega) hu).1 h1
      omega

theorem idsOf_spec {e : Eng} (hu : Spec.Params.Unique e) : ∀ (ps : List Key) (ids : List Nat), idsOf e ps = some ids →
    ∀ i, i ∈ ids ↔ ∃ k ∈ ps, StandsFor e k i
  | [], ids, h, i => by simp [idsOf] at h; subst h; simp
  | k :: ps, ids, h, i => by
    rw [idsOf] at h
    split at h
    · rename_i j is h1 h2
      cases h
      have := idsOf_spec hu ps is h2 i
      rw [List.mem_cons, this]
      constructor
      · rintro (h | ⟨k', hk', h⟩)
        · subst h; exact ⟨k, .head _, (idOf_spec hu k i).1 h1⟩
        · exact ⟨k', .tail _ hk', h⟩
      · rintro ⟨k', hk', h⟩
        rcases List.mem_cons.1 hk' with rfl | hk'
        · have := (idOf_spec hu k' i).2 h
          rw [h1] at this
          exact .inl (by injection this with this; exact this.symm)
        · exact .inr ⟨k', hk', h⟩
    · cases h

theorem idsOf_some {e : Eng} (hu : Spec.Params.Unique e) : ∀ (ps : List Key), (∀ k ∈ ps, ∃ i, StandsFor e k i) → ∃ ids, idsOf e ps = some ids
  | [], _ => ⟨[], rfl⟩
  | k :: ps, h => by
    obtain ⟨is, h1⟩ := idsOf_some hu ps fun k' hk' => h k' (.tail _ hk')
    obtain ⟨i, hi⟩ := h k (.head _)
    exact ⟨i :: is, by rw [idsOf, (idOf_spec hu k i).2 hi, h1]⟩

/-- **C73 (ReaxFF).** Activating ReaxFF parameters without `force`, where at least one of them may be activated: exactly those that may be
become active in addition, the others are reported, nothing else changes. Missing for the full property: requests for parameters none of
which may be activated (refuted below). -/
theorem C73_reax_partial (e : Eng) (hu : Spec.Params.Unique e) (allowed : List Bool) (hl : allowed.length = e.length) (ps : List Key) (t : Toggle)
    (ht : t.val = some true) (hk : ∀ k ∈ ps, ∃ i, StandsFor e k i) (hv : ∃ k ∈ ps, ∃ i, StandsFor e k i ∧ allowed[i]? = some true) :
    ∃ e' w, reaxToggle e allowed ps t false = .ok (e', [], w) ∧ e'.length = e.length ∧
      (∀ i, i ∈ w ↔ (∃ k ∈ ps, StandsFor e k i) ∧ allowed[i]? = some false) ∧
      ∀ (i : Nat) (p : Par), e[i]? = some p → ∃ b, e'[i]? = some { p with active := b } ∧
        (b = true ↔ p.active = true ∨ (∃ k ∈ ps, StandsFor e k i) ∧ allowed[i]? = some true) := by
  obtain ⟨ids, hids⟩ := idsOf_some hu ps hk
  have hmem := idsOf_spec hu ps ids hids
  have hval : ∀ i, i ∈ validIds allowed ids ↔ (∃ k ∈ ps, StandsFor e k i) ∧ allowed[i]? = some true := by
    intro i
    rw [validIds, List.mem_filter, List.mem_range]
    constructor
    · rintro ⟨hlt, h⟩
      rw [Bool.and_eq_true, decide_eq_true_eq, hmem] at h
      refine ⟨h.2, ?_⟩
      rw [List.getElem?_eq_getElem hlt] at h ⊢
      simpa using h.1
    · rintro ⟨h1, h2⟩
      refine ⟨(List.getElem?_eq_some_iff.1 h2).1, ?_⟩
      rw [Bool.and_eq_true, decide_eq_true_eq, hmem, h2]
      exact ⟨rfl, h1⟩
  have hinv : ∀ i, i ∈ invalidIds allowed ids ↔ (∃ k ∈ ps, StandsFor e k i) ∧ allowed[i]? = some false := by
    intro i
    rw [invalidIds, List.mem_filter, List.mem_range]
    constructor
    · rintro ⟨hlt, h⟩
      rw [Bool.and_eq_true, decide_eq_true_eq, hmem] at h
      refine ⟨h.2, ?_⟩
      rw [List.getElem?_eq_getElem hlt] at h ⊢
      simpa using h.1
    · rintro ⟨h1, h2⟩
      refine ⟨(List.getElem?_eq_some_iff.1 h2).1, ?_⟩
      rw [Bool.and_eq_true, decide_eq_true_eq, hmem, h2]
      exact ⟨rfl, h1⟩
  obtain ⟨e', h1, h2, h3⟩ := C73_positions e ((validIds allowed ids).map (fun i => .idx (i : Nat))) t true ht (by
    obtain ⟨k, hk1, i, hi1, hi2⟩ := hv
    intro hnil
    have := (hval i).2 ⟨⟨k, hk1, hi1⟩, hi2⟩
    rw [List.map_eq_nil_iff] at hnil
    rw [hnil] at this; cases this) (by
    intro k hk
    obtain ⟨i, hi, rfl⟩ := List.mem_map.1 hk
    obtain ⟨-, h⟩ := (hval i).1 hi
    exact ⟨i, rfl, by rw [← hl]; exact (List.getElem?_eq_some_iff.1 h).1⟩)
  have htt : t = .true_ ∨ t = .on := by cases t <;> simp [Toggle.val] at ht ⊢
  refine ⟨e', invalidIds allowed ids, ?_, h2, hinv, fun i p hp => ?_⟩
  · simp only [reaxToggle, if_pos htt, hids, Bool.false_eq_true, if_false, h1]
  · refine ⟨_, h3 i p hp, ?_⟩
    have hmi : (Key.idx (i : Nat) ∈ (validIds allowed ids).map (fun i => Key.idx (i : Nat))) ↔ i ∈ validIds allowed ids := by
      rw [List.mem_map]
      constructor
      · rintro ⟨j, hj, he⟩
        injection he with he
        have : j = i := by omega
        exact this ▸ hj
      · exact fun h => ⟨i, h, rfl⟩
    split
    · rename_i hi
      simp only [true_iff]
      exact .inr ((hval i).1 (hmi.1 hi))
    · rename_i hi
      constructor
      · exact .inl
      · rintro (h | h)
        · exact h
        · exact absurd (hmi.2 ((hval i).2 h)) hi

/-- **C73 (ReaxFF, unknown parameters).** Activating with a name or position which stands for no parameter raises, with and without
`force`, and nothing is activated. -/
theorem C73_reax_unknown (e : Eng) (hu : Spec.Params.Unique e) (allowed : List Bool) (ps : List Key) (t : Toggle) (ht : t.val = some true)
    (force : Bool) (hk : ∃ k ∈ ps, ∀ i, ¬ StandsFor e k i) : reaxToggle e allowed ps t force = .error .keyError := by
  have hn : idsOf e ps = none := by
    induction ps with
    | nil => obtain ⟨k, hk, _⟩ := hk; cases hk
    | cons q ps ih =>
      obtain ⟨k, hkm, hk⟩ := hk
      rw [idsOf]
      rcases List.mem_cons.1 hkm with rfl | hkm
      · have : idOf e k = none := by
          cases h : idOf e k with
          | none => rfl
          | some i => exact absurd ((idOf_spec hu k i).1 h) (hk i)
        rw [this]
      · rw [ih ⟨k, hkm, hk⟩]
        cases idOf e q <;> rfl
  have ht' : t = .true_ ∨ t = .on := by
    cases t <;> simp [Toggle.val] at ht <;> simp
  unfold reaxToggle
  rw [if_pos ht', hn]

/-- **C73, refuted.** A request to activate a ReaxFF parameter which must not be activated is not ignored with a warning but raises
`IndexError` if it names no other parameter; so does an empty request. -/
theorem C73_all_forbidden_refuted :
    (∃ e allowed ps, ps ≠ [] ∧ (∀ k ∈ ps, idOf e k = some 0) ∧ allowed[0]? = some false ∧
      reaxToggle e allowed ps .on false = .error .indexError) ∧
    ∀ e t, t ≠ .other → toggle e [] t = .error .indexError := by
  refine ⟨⟨[⟨"a", 0, 0, 1, false⟩], [false], [.str "a"], by decide +kernel, by decide +kernel, by decide +kernel, by decide +kernel⟩, ?_⟩
  intro e t ht
  cases t <;> simp [toggle, Toggle.val] at ht ⊢

theorem dictSet_length {K V : Type} [DecidableEq K] (d : List (K × V)) (k : K) (v : V) :
    d.length ≤ (dictSet d k v).length ∧ (k ∉ d.map (·.1) → d.length < (dictSet d k v).length) := by
  induction d with
  | nil => simp [dictSet]
  | cons q d ih =>
    rw [dictSet]
    split
    · rename_i h; exact ⟨by simp, fun hn => absurd (by simp [h]) hn⟩
    · refine ⟨by simpa using ih.1, fun hn => ?_⟩
      have := ih.2 (fun h => hn (by rw [List.map_cons]; exact .tail _ h))
      simpa using this

theorem marks_length (v : Bool) : ∀ (l : List Key) (d : List (Key × Bool)), d.length ≤ (marks v d l).1.length ∧
    ∀ i, Key.idx i ∈ l → Key.idx i ∉ d.map (·.1) → d.length < (marks v d l).1.length
  | [], d => ⟨by simp [marks], fun i h => by cases h⟩
  | .str s :: l, d => by
    rw [marks]
    split
    · obtain ⟨h1, h2⟩ := marks_length v l (dictSet d (.str s) v)
      have h3 := dictSet_length d (.str s) v
      refine ⟨by omega, fun i hi hn => ?_⟩
      rcases List.mem_cons.1 hi with hi | hi
      · cases hi
      · have := h2 i hi (by
          intro hm
          rw [← dictGet_isSome_iff, dictGet_set_ne _ _ (by simp), dictGet_isSome_iff] at hm
          exact hn hm)
        omega
    · obtain ⟨h1, h2⟩ := marks_length v l d
      refine ⟨h1, fun i hi hn => ?_⟩
      rcases List.mem_cons.1 hi with hi | hi
      · cases hi
      · exact h2 i hi hn
  | .idx j :: l, d => by
    rw [marks]
    obtain ⟨h1, h2⟩ := marks_length v l (dictSet d (.idx j) v)
    have h3 := dictSet_length d (.idx j) v
    refine ⟨by omega, fun i hi hn => ?_⟩
    by_cases hji : j = i
    · subst hji; have := h3.2 hn; omega
    · rcases List.mem_cons.1 hi with hi | hi
      · injection hi with hi; exact absurd hi.symm hji
      · have := h2 i hi (by
          intro hm
          rw [← dictGet_isSome_iff, dictGet_set_ne _ _ (by simpa using fun h => hji h.symm), dictGet_isSome_iff] at hm
          exact hn hm)
        omega

/-- **C73 (bad positions).** A request with a position which does not exist (negative ones included) is refused as a whole, whatever else it
contains; so is one with an unknown `toggle`. -/
theorem C73_refused (e : Eng) (ps : List Key) (t : Toggle) :
    (t = .other → toggle e ps t = .error .valueError) ∧
    (∀ i0 l i, ps = .idx i0 :: l → Key.idx i ∈ ps → (i < 0 ∨ (e.length : Int) ≤ i) → ∃ r, toggle e ps t = .error r) := by
  refine ⟨fun h => by subst h; rfl, ?_⟩
  rintro i0 l i rfl hi hb
  cases ht : t.val with
  | none => exact ⟨.valueError, by simp only [toggle, ht]⟩
  | some v =>
    have hkeys : (mapping0 e (.idx i0)).length = e.length := by rw [mapping_idx]; simp
    have := (marks_length v (.idx i0 :: l) (mapping0 e (.idx i0))).2 i hi (by
      rw [mapping_idx]
      intro hm
      obtain ⟨q, hq, hqi⟩ := List.mem_map.1 hm
      obtain ⟨r, hr, rfl⟩ := List.mem_map.1 hq
      injection hqi with hqi
      have := (List.mem_zipIdx hr).2.1
      omega)
    refine ⟨.other, ?_⟩
    simp only [toggle, ht, setActive]
    rw [if_neg (by rw [List.length_map]; omega)]

example : toggle eng0 [.idx 0, .idx 1] .off = .ok ([⟨"a", 3, 2, 6, false⟩, ⟨"b", 5, 5, 5, false⟩, ⟨"c", 0, -1, 1, true⟩], []) ∧
    toggle eng0 [.str "b", .str "z"] .true_ = .ok ([⟨"a", 3, 2, 6, true⟩, ⟨"b", 5, 5, 5, true⟩, ⟨"c", 0, -1, 1, true⟩], ["z"]) ∧
    reaxToggle eng0 [true, true, false] [.idx (-1), .str "b"] .on false =
      .ok ([⟨"a", 3, 2, 6, true⟩, ⟨"b", 5, 5, 5, true⟩, ⟨"c", 0, -1, 1, true⟩], [], [2]) := by decide +kernel

/-! ## C74 -/

/-- The evaluation of a data set gives one residual for each entry. -/
def Regular (ds : DataSet) (o : Outcome) : Prop := ∀ r, o = .ok r → r.2.length = ds.length

theorem calc_fst (engine : Bool) (ts : Outcome) (vs : Option Outcome) :
    (calculate engine ts vs).1 = dflt ∨ ∃ t, ts = .ok t ∧ (calculate engine ts vs).1 = t := by
  unfold calculate
  split
  · split
    · exact .inr ⟨_, rfl, rfl⟩
    · exact .inr ⟨_, rfl, rfl⟩
    · exact .inl rfl
  · exact .inl rfl

theorem calc_snd (engine : Bool) (ts : Outcome) (o : Outcome) :
    (calculate engine ts (some o)).2 = dflt ∨ ∃ t, o = .ok t ∧ (calculate engine ts (some o)).2 = t := by
  unfold calculate
  split
  · split
    · exact .inl rfl
    · rename_i h; cases h; exact .inr ⟨_, rfl, rfl⟩
    · exact .inl rfl
  · exact .inl rfl

theorem report_length (scale : Bool) (ds : DataSet) (rs : List PyF) (h : rs.length = ds.length ∨ rs.length = 1) :
    ∃ l, report scale ds rs = .ok l ∧ (l.length = ds.length ∨ l.length = 1) := by
  unfold report
  cases scale with
  | false => exact ⟨rs, rfl, h⟩
  | true =>
    simp only [if_true, scaleResids]
    split
    · rename_i hl; exact ⟨_, rfl, .inl (by simp [hl])⟩
    · rename_i hl
      have h1 := h.resolve_left hl
      match rs, h1 with
      | [r], _ => exact ⟨_, rfl, .inl (by simp)⟩

/-- **C74 (columns).** What `detailed_call` returns matches the columns `headers` announces, entry by entry, for every outcome of the jobs,
scaled or not. Missing for the full property: an empty validation set (refuted below). -/
theorem C74_columns_partial (scale : Bool) (ds : DataSet) (engine : Bool) (ts : Outcome) (vs : Option (DataSet × Outcome))
    (h1 : Regular ds ts) (h2 : ∀ dv o, vs = some (dv, o) → Regular dv o ∧ dv ≠ []) :
    ∃ l, detailedCall scale ds engine ts vs = .ok l ∧ Matches l (headers ds (vs.map (·.1))) := by
  have ht : ∀ o, ((calculate engine ts o).1.2.length = ds.length ∨ (calculate engine ts o).1.2.length = 1) := by
    intro o
    rcases calc_fst engine ts o with h | ⟨t, h, h'⟩
    · rw [h]; exact .inr rfl
    · rw [h']; exact .inl (h1 t h)
  cases vs with
  | none =>
    obtain ⟨l, hl1, hl2⟩ := report_length scale ds _ (ht none)
    refine ⟨_, by simp only [detailedCall, Option.map_none, hl1]; rfl, ?_⟩
    exact .num (.arr hl2 .nil)
  | some q =>
    obtain ⟨dv, o⟩ := q
    obtain ⟨hr, hne⟩ := h2 dv o rfl
    obtain ⟨l, hl1, hl2⟩ := report_length scale ds _ (ht (some o))
    obtain ⟨lv, hv1, hv2⟩ := report_length scale dv (calculate engine ts (some o)).2.2 (by
      rcases calc_snd engine ts o with h | ⟨t, h, h'⟩
      · rw [h]; exact .inr rfl
      · rw [h']; exact .inl (hr t h))
    refine ⟨_, by simp only [detailedCall, Option.map_some, hl1, hv1]; rfl, ?_⟩
    have : dv.length ≠ 0 := fun h => hne (List.length_eq_zero_iff.1 h)
    simp only [headers, Option.map_some, if_neg this]
    exact .num (.arr hl2 (.num (.arr hv2 .nil)))

/-- **C74, refuted (columns).** With an empty validation set four values are returned for two columns. -/
theorem C74_columns_refuted : ∃ ds engine ts dv o l, Regular ds ts ∧ Regular dv o ∧
    detailedCall false ds engine ts (some (dv, o)) = .ok l ∧ l.length = 4 ∧ (headers ds (some dv)).length = 2 := by
  refine ⟨[(1, 1)], true, .ok (.fin 4, [.fin 2]), [], .ok (.fin 0, []), _, ?_, ?_, rfl, rfl, rfl⟩
  · intro r h; cases h; rfl
  · intro r h; cases h; rfl

/-- **C74 (one function).** The value optimizers minimise is the first entry of the detailed result, and `resids` is the second. -/
theorem C74_one_function (scale : Bool) (ds : DataSet) (engine : Bool) (ts : Outcome) (vs : Option (DataSet × Outcome)) (l : List Datum)
    (h : detailedCall scale ds engine ts vs = .ok l) :
    l[0]? = some (.num (call engine ts (vs.map (·.2)))) ∧
    ∃ r, resids scale ds engine ts (vs.map (·.2)) = .ok r ∧ l[1]? = some (.arr r) := by
  unfold detailedCall at h
  split at h
  · cases h
  · rename_i rt hrt
    refine ⟨?_, rt, hrt, ?_⟩ <;> split at h
    · cases h; rfl
    · split at h
      · cases h
      · cases h; rfl
    · cases h; rfl
    · split at h
      · cases h
      · cases h; rfl

/-- **C74 (values).** If engine, jobs and data sets can be evaluated, the value is that of the training set; if anything fails it is infinite,
never an exception. -/
theorem C74_values (ts : Outcome) (vs : Option Outcome) :
    (∀ t, ts = .ok t → (∀ o, vs = some o → ∃ v, o = .ok v) → call true ts vs = t.1) ∧
    call false ts vs = .pinf ∧ (ts = .error () → call true ts vs = .pinf) ∧ (vs = some (.error ()) → call true ts vs = .pinf) := by
  refine ⟨?_, rfl, ?_, ?_⟩
  · rintro t rfl hv
    cases vs with
    | none => rfl
    | some o => obtain ⟨v, rfl⟩ := hv o rfl; rfl
  · rintro rfl; rfl
  · rintro rfl
    cases ts <;> rfl

/-- **C74 (scaling).** The scaled residuals are `weight * (r / sigma) ** 2`, entry by entry. -/
theorem C74_scaling (ds : DataSet) (rs : List Rat) (hl : rs.length = ds.length) (hs : ∀ q ∈ ds, q.2 ≠ 0) :
    report true ds (rs.map .fin) = .ok (List.zipWith (fun (q : Rat × Rat) r => PyF.fin (q.1 * (r / q.2) ^ 2)) ds rs) := by
  simp only [report, if_true, scaleResids, List.length_map, hl]
  congr 1
  clear hl
  induction ds generalizing rs with
  | nil => rfl
  | cons q ds ih =>
    cases rs with
    | nil => rfl
    | cons r rs =>
      have := hs q (.head _)
      simp only [List.map_cons, List.zipWith_cons_cons, scaleResid, if_neg this]
      rw [ih rs (fun q hq => hs q (.tail _ hq))]

/-- **C74 (sizes).** Scaling is refused exactly if the number of residuals is neither 1 nor that of the entries and there is not just one
entry; otherwise there are as many scaled residuals as the larger of the two numbers, or none if one of them is 0. -/
theorem C74_sizes (ds : DataSet) (rs : List PyF) :
    (report true ds rs = .error .valueError ↔ rs.length ≠ ds.length ∧ rs.length ≠ 1 ∧ ds.length ≠ 1) ∧
    (∀ e, report true ds rs = .error e → e = .valueError) ∧
    (∀ l, report true ds rs = .ok l → l.length = if rs.length = 0 ∨ ds.length = 0 then 0 else max rs.length ds.length) := by
  simp only [report, if_true]
  unfold scaleResids
  split
  · rename_i h
    refine ⟨⟨fun hh => by simp at hh, fun hh => absurd h hh.1⟩, fun e he => by simp at he, fun l hl => ?_⟩
    cases hl
    rw [List.length_zipWith, h]
    split <;> omega
  · rename_i h
    split
    · refine ⟨⟨fun hh => by simp at hh, fun hh => absurd rfl hh.2.1⟩, fun e he => by simp at he, fun l hl => ?_⟩
      cases hl
      simp only [List.length_map, List.length_cons, List.length_nil] at h ⊢
      split <;> omega
    · rename_i hne
      have h1 : rs.length ≠ 1 := fun hh => by
        obtain ⟨r, rfl⟩ := List.length_eq_one_iff.1 hh
        exact hne r rfl
      split
      · rename_i h2
        refine ⟨⟨fun hh => by simp at hh, fun hh => absurd h2 hh.2.2⟩, fun e he => by simp at he, fun l hl => ?_⟩
        cases hl
        obtain ⟨d, rfl⟩ := List.length_eq_one_iff.1 h2
        simp only [List.map_cons, List.map_nil, List.length_cons, List.length_nil]
        have hl : (rs.flatMap fun r => [scaleResid d r]).length = rs.length := by
          simp [List.length_flatMap]
        rw [hl]
        split <;> omega
      · rename_i h2
        exact ⟨⟨fun _ => ⟨h, h1, h2⟩, fun _ => rfl⟩, fun e he => by cases he; rfl, fun l hl => by cases hl⟩

example : report true [(1, 1), (2, 1)] [.fin 1, .fin 2, .fin 3] = .error .valueError ∧
    report true [(2, 1)] [.fin 1, .fin 2] = .ok [.fin 2, .fin 8] := by decide +kernel

/-- **C74, refuted (values).** A failure of the validation set alone makes the training error infinite. -/
theorem C74_validation_refuted : ∃ ts : PyF × List PyF, ts.1 = .fin 4 ∧ call true (.ok ts) (some (.error ())) = .pinf :=
  ⟨(.fin 4, [.fin 2]), rfl, rfl⟩

example : detailedCall true [(2, 3), (1, 1)] true (.ok (.fin 5, [.fin 3, .fin (-1)])) (some ([(1, 2)], .ok (.fin 7, [.fin 4]))) =
    .ok [.num (.fin 5), .arr [.fin 2, .fin 1], .num (.fin 7), .arr [.fin 4]] := by decide +kernel

/-! ## C75 -/

/-- **C75 (some data).** Loading fails exactly if neither file exists, and with one file it is loaded, once. Missing for the full property:
both files present (refuted below). -/
theorem C75_priority_partial (f : Files) :
    (loads f = .error .osError ↔ f.pkl = false ∧ f.yml = false) ∧
    (f.pkl = true → f.yml = false → loads f = .ok [true]) ∧ (f.pkl = false → f.yml = true → loads f = .ok [false]) := by
  obtain ⟨a, b⟩ := f
  cases a <;> cases b <;> simp [loads]

/-- **C75, refuted.** With both files the YAML file is loaded after the pickle, on the same object, although the pickle is documented to be
given priority. -/
theorem C75_priority_refuted (f : Files) (h1 : f.pkl = true) (h2 : f.yml = true) : ∃ l, loads f = .ok l ∧ l.getLast? = some false := by
  refine ⟨[true, false], ?_, rfl⟩
  simp [loads, h1, h2]

/-! ## C76 -/

/-- **C76 (classic files).** Set up from the classic files with activity, minima and maxima, every active parameter has a proper range, the one
from the files, and starts strictly inside it; inactive parameters keep value and range. -/
theorem C76_extras (e : Eng) (ex : List (Rat × Rat × Rat)) (hl : ex.length = e.length) (i : Nat) (p q : Par) (b lo hi : Rat)
    (hp : e[i]? = some p) (hq : (classic e (some ex))[i]? = some q) (hx : ex[i]? = some (b, lo, hi)) :
    (q.active = true ↔ b ≠ 0 ∧ lo < hi) ∧ q.name = p.name ∧
    (q.active = true → q.lo = lo ∧ q.hi = hi ∧ lo < q.value ∧ q.value < hi ∧ (lo < p.value → p.value < hi → q.value = p.value)) ∧
    (q.active = false → q = { p with active := false }) := by
  simp only [classic, List.getElem?_map, List.getElem?_zipWith, hp, hx, Option.map_some, Option.some.injEq] at hq
  subst hq
  unfold fromExtras centre
  by_cases h1 : b = 0
  · simp [h1]
  · by_cases h2 : lo < hi
    · simp only [ne_eq, h1, not_false_eq_true, if_true, h2, and_self]
      split
      · rename_i h3
        exact ⟨by simp, rfl, fun _ => ⟨rfl, rfl, h3.1, h3.2, fun _ _ => rfl⟩, fun h => by cases h⟩
      · rename_i h3
        refine ⟨by simp, rfl, fun _ => ⟨rfl, rfl, ?_, ?_, fun h4 h5 => absurd ⟨h4, h5⟩ h3⟩, fun h => by cases h⟩
        · show lo < (lo + hi) / 2; linarith
        · show (lo + hi) / 2 < hi; linarith
    · simp [h1, h2]

/-- **C76 (force field only).** Without these files every active parameter with a proper range starts strictly inside it. -/
theorem C76_plain (e : Eng) (q : Par) (hq : q ∈ classic e none) (ha : q.active = true) (hr : q.lo < q.hi) : q.lo < q.value ∧ q.value < q.hi := by
  obtain ⟨p, -, rfl⟩ := List.mem_map.1 hq
  unfold centre at *
  split at ha
  · rename_i hpa
    simp only [hpa, if_true] at hr ⊢
    split at hr
    · rename_i h; rw [if_pos h]; exact h
    · rename_i h; rw [if_neg h]
      simp only at hr ⊢
      constructor <;> linarith
  · rename_i hpa; exact absurd ha hpa

example : classic eng0 (some [(1, 4, 6), (1, 3, 3), (0, 0, 0)]) =
    [⟨"a", 5, 4, 6, true⟩, ⟨"b", 5, 5, 5, false⟩, ⟨"c", 0, -1, 1, false⟩] := by decide +kernel

end Glompo.Props
