import Verif.Spec.Helpers
import Verif.Spec.Hunters
import Verif.Lemmas.Basic
import Mathlib.Tactic.FieldSimp
import Mathlib.Tactic.Ring

/-!
# C46–C49, C65: helpers
-/

namespace Glompo.Props

open Glompo Glompo.Spec Glompo.Helpers

/-! ### C46 -/

/-- **C46.** `is_bounds_valid` answers `True` exactly if every pair consists of finite numbers with min < max; otherwise
it answers `False`, or raises `ValueError` if that was asked for. -/
theorem C46_bounds_valid (bs : List (PyF × PyF)) (raise_ : Bool) :
    ((∀ b ∈ bs, ∃ lo hi : Rat, b = (.fin lo, .fin hi) ∧ lo < hi) → isBoundsValid bs raise_ = .ok true) ∧
    ((¬ ∀ b ∈ bs, ∃ lo hi : Rat, b = (.fin lo, .fin hi) ∧ lo < hi) →
      isBoundsValid bs raise_ = if raise_ then .error .valueError else .ok false) := by
  induction bs with
  | nil => exact ⟨fun _ => rfl, fun h => absurd (fun _ hb => by cases hb) h⟩
  | cons b t ih =>
    obtain ⟨lo, hi⟩ := b
    simp only [isBoundsValid]
    refine ⟨fun h => ?_, fun h => ?_⟩
    · obtain ⟨l, u, he, hlt⟩ := h (lo, hi) List.mem_cons_self
      cases he
      rw [if_neg (by simp [PyF.le]; exact hlt), if_neg (by simp [PyF.isFinite])]
      exact ih.1 fun b hb => h b (List.mem_cons_of_mem _ hb)
    · by_cases h1 : PyF.le hi lo = true
      · rw [if_pos h1]
      · rw [if_neg h1]
        by_cases h2 : lo.isFinite = true ∧ hi.isFinite = true
        · rw [if_neg (by simpa using h2)]
          refine ih.2 fun h3 => h ?_
          intro b hb
          rcases List.mem_cons.mp hb with rfl | hb
          · obtain ⟨h2, h4⟩ := h2
            cases lo <;> simp [PyF.isFinite] at h2
            cases hi <;> simp [PyF.isFinite] at h4
            exact ⟨_, _, rfl, by simpa [PyF.le] using h1⟩
          · exact h3 b hb
        · rw [if_pos h2]

example : isBoundsValid [(.fin 0, .fin 1), (.fin (-1), .fin 0)] true = .ok true := by rfl
example : isBoundsValid [(.fin 0, .fin 1), (.nan, .fin 0)] false = .ok false := by rfl
example : isBoundsValid [(.fin 0, .pinf)] true = .error .valueError := by rfl

/-! ### C47 -/

theorem pyMin2_least {a m : PyF} {l : List PyF} (ha : a ≠ .nan) (hl : ∀ b ∈ l, b ≠ .nan) (h : IsLeast m l) :
    IsLeast (pyMin2 a m) (l ++ [a]) := by
  have hm := hl m h.1
  unfold pyMin2
  split
  · rename_i hlt
    refine ⟨List.mem_append_left _ h.1, fun b hb => ?_⟩
    rcases List.mem_append.mp hb with hb | hb
    · exact h.2 b hb
    · rw [List.mem_singleton] at hb; subst hb; exact PyF.le_of_lt hlt
  · rename_i hlt
    have hle := PyF.le_of_not_lt ha hm (by simpa using hlt)
    refine ⟨by simp, fun b hb => ?_⟩
    rcases List.mem_append.mp hb with hb | hb
    · exact PyF.le_trans hle (h.2 b hb)
    · rw [List.mem_singleton] at hb; subst hb; exact PyF.le_refl ha

theorem least_unique {a b : PyF} {l : List PyF} (h : IsLeast a l) (h' : IsLeast b l) : a = b := by
  have h1 := h.2 b h'.1
  have h2 := h'.2 a h.1
  cases a <;> cases b <;> simp_all [PyF.le]
  exact _root_.le_antisymm h1 h2

/-- While the loop runs: entries before `i` are final, the others are untouched. -/
theorem rollingLoop_spec (x : List PyF) (hx : ∀ a ∈ x, a ≠ .nan) : ∀ (t : List PyF) (i : Nat) (y : List PyF), 1 ≤ i →
    x.drop i = t → y.length = x.length → (∀ k m, k < i → y[k]? = some m → IsLeast m (x.take (k + 1))) →
    (rollingLoop t i y).length = x.length ∧
    ∀ k m, (rollingLoop t i y)[k]? = some m → IsLeast m (x.take (k + 1)) := by
  intro t
  induction t with
  | nil =>
    intro i y hi hd hl hk
    refine ⟨hl, fun k m hm => hk k m ?_ hm⟩
    have := List.drop_eq_nil_iff.mp hd
    have : k < y.length := (List.getElem?_eq_some_iff.mp hm).1
    omega
  | cons v t ih =>
    intro i y hi hd hl hk
    have hlt : i < x.length := by
      by_contra hc
      rw [List.drop_eq_nil_of_le (by omega)] at hd; cases hd
    have hv : x[i]? = some v := by
      have : (x.drop i)[0]? = some v := by rw [hd]; rfl
      rwa [List.getElem?_drop, Nat.add_zero] at this
    have hvm := List.mem_of_getElem? hv
    simp only [rollingLoop]
    refine ih (i + 1) _ (by omega) ?_ (by simpa using hl) ?_
    · rw [← List.drop_drop, hd]; rfl
    · intro k m hk' hm
      by_cases hki : k = i
      · subst hki
        rw [List.getElem?_set_self (by omega)] at hm
        cases hm
        have hprev : y[k - 1]? = some (y.getD (k - 1) .nan) := by
          rw [List.getD_eq_getElem?_getD, List.getElem?_eq_getElem (by omega)]; rfl
        have := hk (k - 1) _ (by omega) hprev
        rw [show k - 1 + 1 = k by omega] at this
        rw [List.take_succ, hv]
        exact pyMin2_least (hx v hvm) (fun b hb => hx b (List.mem_of_mem_take hb)) this
      · rw [List.getElem?_set_ne (by omega)] at hm
        exact hk k m (by omega) hm

/-- **C47.** `rolling_min` of a list of numbers has the same length, and its entry `k` is the smallest of the first
`k + 1` entries; a list with a NaN raises `AssertionError`. -/
theorem C47_rolling_min (x : List PyF) :
    ((∀ a ∈ x, a ≠ .nan) → ∃ y, rollingMin x = .ok y ∧ y.length = x.length ∧
      ∀ k m, y[k]? = some m → IsLeast m (x.take (k + 1))) ∧
    (.nan ∈ x → rollingMin x = .error .assertionError) := by
  constructor
  · intro hx
    have hall : (x.all fun a => !a.isNan) = true := List.all_eq_true.mpr fun a ha => by
      have := hx a ha
      cases a <;> simp_all [PyF.isNan]
    refine ⟨_, by rw [rollingMin, if_pos hall], ?_⟩
    refine rollingLoop_spec x hx (x.drop 1) 1 x (Nat.le_refl _) rfl rfl ?_
    intro k m hk hm
    have : k = 0 := by omega
    subst this
    obtain ⟨h1, h2⟩ := List.getElem?_eq_some_iff.mp hm
    have hm' := List.mem_of_getElem? hm
    cases x with
    | nil => simp at h1
    | cons a t =>
      simp only [List.getElem_cons_zero] at h2
      subst h2
      exact ⟨by simp, fun b hb => by
        simp only [List.take_succ_cons, List.take_zero, List.mem_singleton] at hb
        subst hb; exact PyF.le_refl (hx _ hm')⟩
  · intro hn
    rw [rollingMin, if_neg]
    intro h
    have := List.all_eq_true.mp h _ hn
    simp [PyF.isNan] at this

/-- **C47, continued.** The result never increases, and applying `rolling_min` again changes nothing. -/
theorem C47_monotone_idempotent (x y : List PyF) (h : rollingMin x = .ok y) :
    (∀ (k k' : Nat) (m m' : PyF), k ≤ k' → y[k]? = some m → y[k']? = some m' → PyF.le m' m = true) ∧ rollingMin y = .ok y := by
  have hx : ∀ a ∈ x, a ≠ .nan := fun a ha e => by
    subst e
    rw [(C47_rolling_min x).2 ha] at h; cases h
  obtain ⟨y', h1, h2, h3⟩ := (C47_rolling_min x).1 hx
  rw [h] at h1; cases h1
  have mono : ∀ (k k' : Nat) (m m' : PyF), k ≤ k' → y[k]? = some m → y[k']? = some m' → PyF.le m' m = true := by
    intro k k' m m' hk hm hm'
    refine (h3 k' m' hm').2 m ?_
    have := (h3 k m hm).1
    have hp : x.take (k + 1) <+: x.take (k' + 1) := List.take_prefix_take_left (by omega)
    exact hp.subset this
  have hy : ∀ a ∈ y, a ≠ .nan := fun a ha => by
    obtain ⟨k, hk⟩ := List.getElem?_of_mem ha
    exact hx a (List.mem_of_mem_take (h3 k a hk).1)
  refine ⟨mono, ?_⟩
  obtain ⟨z, hz, hzl, hz3⟩ := (C47_rolling_min y).1 hy
  rw [hz]
  congr 1
  apply List.ext_getElem? 
  intro k
  by_cases hk : k < y.length
  · obtain ⟨m, hm⟩ : ∃ m, z[k]? = some m := ⟨_, List.getElem?_eq_getElem (by omega)⟩
    have hm' : y[k]? = some y[k] := List.getElem?_eq_getElem hk
    rw [hm, hm']
    congr 1
    refine least_unique (hz3 k m hm) ⟨?_, fun b hb => ?_⟩
    · refine List.mem_of_getElem? (i := k) ?_
      rw [List.getElem?_take_of_lt (by omega), hm']
    · obtain ⟨j, hj⟩ := List.getElem?_of_mem hb
      have hjl : j < k + 1 := by
        have := (List.getElem?_eq_some_iff.mp hj).1
        simp at this; omega
      rw [List.getElem?_take_of_lt hjl] at hj
      exact mono j k b _ (by omega) hj hm'
  · rw [List.getElem?_eq_none (by omega), List.getElem?_eq_none (by omega)]

example : rollingMin [.fin 3, .fin 4, .fin 2, .fin 3, .ninf, .pinf] =
    .ok [.fin 3, .fin 3, .fin 2, .fin 2, .ninf, .ninf] := by rfl

/-! ### C48 -/

/-- Bounds with the same minimum and the same maximum are written in the same way. -/
def WrittenAlike (bs : List Bound) : Prop := ∀ a ∈ bs, ∀ b ∈ bs, a.min.val = b.min.val → a.max.val = b.max.val → a = b

theorem pySet_spec (bs : List Bound) : ∀ acc, (∀ a ∈ pySet acc bs, a ∈ acc ∨ a ∈ bs) ∧ (∀ a ∈ acc, a ∈ pySet acc bs) ∧
    ∀ b ∈ bs, ∃ a ∈ pySet acc bs, a.pyEq b = true := by
  induction bs with
  | nil => intro acc; exact ⟨fun a h => .inl h, fun a h => h, fun b h => by cases h⟩
  | cons b t ih =>
    intro acc
    simp only [pySet]
    split
    · rename_i h
      obtain ⟨h1, h2, h3⟩ := ih acc
      refine ⟨fun a ha => (h1 a ha).imp id (List.mem_cons_of_mem _), h2, fun c hc => ?_⟩
      rcases List.mem_cons.mp hc with rfl | hc
      · obtain ⟨a, ha, he⟩ := List.any_eq_true.mp h
        exact ⟨a, h2 a ha, he⟩
      · exact h3 c hc
    · obtain ⟨h1, h2, h3⟩ := ih (acc ++ [b])
      refine ⟨fun a ha => ?_, fun a ha => h2 a (List.mem_append_left _ ha), fun c hc => ?_⟩
      · rcases h1 a ha with h | h
        · rcases List.mem_append.mp h with h | h
          · exact .inl h
          · rw [List.mem_singleton] at h; subst h; exact .inr List.mem_cons_self
        · exact .inr (List.mem_cons_of_mem _ h)
      · rcases List.mem_cons.mp hc with rfl | hc
        · exact ⟨c, h2 c (by simp), by simp [Bound.pyEq]⟩
        · exact h3 c hc

theorem groupLoop_spec (all : List Bound) : ∀ (t : List Bound) (i : Nat) (d : List (Bound × List Nat)),
    all.drop i = t → (∀ b ∈ t, (dictGet d b).isSome = true) →
    ∃ d', groupLoop t i d = .ok d' ∧ ∀ b l, dictGet d b = some l →
      dictGet d' b = some (l ++ (List.range' i t.length).filter fun k => decide (all[k]? = some b)) := by
  intro t
  induction t with
  | nil => intro i d _ _; exact ⟨d, rfl, fun b l h => by simpa using h⟩
  | cons c t ih =>
    intro i d hd hall
    obtain ⟨lc, hlc⟩ := Option.isSome_iff_exists.mp (hall c List.mem_cons_self)
    have hc : all[i]? = some c := by
      have : (all.drop i)[0]? = some c := by rw [hd]; rfl
      rwa [List.getElem?_drop, Nat.add_zero] at this
    obtain ⟨d', h1, h2⟩ := ih (i + 1) (dictSet d c (lc ++ [i])) (by rw [← List.drop_drop, hd]; rfl) (by
      intro b hb
      rw [dictGet_set]
      split
      · rfl
      · exact hall b (List.mem_cons_of_mem _ hb))
    refine ⟨d', by simp only [groupLoop, hlc]; exact h1, fun b l hb => ?_⟩
    rw [List.length_cons, List.range'_succ, List.filter_cons, hc]
    by_cases hbc : b = c
    · subst hbc
      rw [hlc] at hb; cases hb
      rw [h2 b (lc ++ [i]) (dictGet_set_self _ _ _)]
      simp
    · rw [if_neg (by simpa using fun e => hbc e.symm)]
      exact h2 b l (by rw [dictGet_set_ne _ _ hbc]; exact hb)

/-- **C48, partial.** If equal bounds are written alike (say all as floats), grouping succeeds, the group of every
bound is the increasing list of exactly the parameters with this bound, and nothing else is a group. So every parameter
is listed exactly once, under its own bound. Missing: bounds written both as integer and as float, see the refutation. -/
theorem C48_grouping_partial (bs : List Bound) (h : WrittenAlike bs) :
    ∃ d, boundGroups bs = .ok d ∧
      (∀ b ∈ bs, dictGet d b = some ((List.range bs.length).filter fun k => decide (bs[k]? = some b))) ∧
      ∀ b ∉ bs, dictGet d b = none := by
  obtain ⟨h1, -, h3⟩ := pySet_spec bs []
  have key : ∀ b, dictGet ((pySet [] bs).map fun b => (b, ([] : List Nat))) b = if b ∈ pySet [] bs then some [] else none := by
    intro b
    generalize pySet [] bs = l
    induction l with
    | nil => rfl
    | cons a t ih =>
      simp only [List.map_cons, dictGet, List.mem_cons]
      by_cases hab : a = b
      · simp [hab]
      · rw [if_neg hab, ih]
        have : (b = a ∨ b ∈ t) ↔ b ∈ t := ⟨fun h => h.resolve_left fun e => hab e.symm, .inr⟩
        simp only [this]
  have hin : ∀ b, b ∈ pySet [] bs ↔ b ∈ bs := by
    intro b
    refine ⟨fun hb => by simpa using h1 b hb, fun hb => ?_⟩
    obtain ⟨a, ha, he⟩ := h3 b hb
    have : a ∈ bs := by simpa using h1 a ha
    simp only [Bound.pyEq, decide_eq_true_eq] at he
    rw [← h a this b hb he.1 he.2]; exact ha
  obtain ⟨d, hd, hd2⟩ := groupLoop_spec bs bs 0 _ rfl fun b hb => by rw [key, if_pos ((hin b).mpr hb)]; rfl
  refine ⟨d, hd, fun b hb => ?_, fun b hb => ?_⟩
  · have := hd2 b [] (by rw [key, if_pos ((hin b).mpr hb)])
    rw [List.nil_append, ← List.range_eq_range'] at this
    exact this
  · -- a key not in the dictionary stays out
    have out : ∀ (t : List Bound) (i : Nat) (d0 d1 : List (Bound × List Nat)), b ∉ t → groupLoop t i d0 = .ok d1 →
        dictGet d0 b = none → dictGet d1 b = none := by
      intro t
      induction t with
      | nil => intro i d0 d1 _ h hn; simp only [groupLoop, Except.ok.injEq] at h; subst h; exact hn
      | cons c t ih =>
        intro i d0 d1 hb' h hn
        simp only [groupLoop] at h
        cases hc : dictGet d0 c with
        | none => rw [hc] at h; cases h
        | some l =>
          rw [hc] at h
          refine ih _ _ d1 (fun hm => hb' (List.mem_cons_of_mem _ hm)) h ?_
          rw [dictGet_set_ne _ _ (fun e => hb' (by rw [e]; exact List.mem_cons_self))]; exact hn
    exact out bs 0 _ d hb hd (by rw [key, if_neg (fun hm => hb ((hin b).mp hm))])

/-- **C48, refuted part.** The bounds `(0, 1)` and `(0.0, 1.0)` in one problem: equal, but written differently. The
grouping raises `KeyError`. -/
theorem C48_grouping_refuted : boundGroups [⟨⟨0, true⟩, ⟨1, true⟩⟩, ⟨⟨0, false⟩, ⟨1, false⟩⟩] = .error .keyError := by
  rfl

example : WrittenAlike [⟨⟨0, false⟩, ⟨1, false⟩⟩, ⟨⟨2, false⟩, ⟨3, false⟩⟩, ⟨⟨0, false⟩, ⟨1, false⟩⟩] := by
  unfold WrittenAlike; decide +kernel
example : boundGroups [⟨⟨0, false⟩, ⟨1, false⟩⟩, ⟨⟨2, false⟩, ⟨3, false⟩⟩, ⟨⟨0, false⟩, ⟨1, false⟩⟩] =
    .ok [(⟨⟨0, false⟩, ⟨1, false⟩⟩, [0, 2]), (⟨⟨2, false⟩, ⟨3, false⟩⟩, [1])] := by rfl

/-! ### C49 -/

mutual
/-- Positions of the items, depth first. -/
def itemPaths : Nest → List (List Nat)
  | .atom _ => [[]]
  | .str _ => [[]]
  | .seq l => itemPathsAll 0 l
def itemPathsAll : Nat → List Nest → List (List Nat)
  | _, [] => []
  | i, t :: ts => (itemPaths t).map (i :: ·) ++ itemPathsAll (i + 1) ts
end

theorem itemPathsAll_head (i : Nat) (l : List Nest) : ∀ p ∈ itemPathsAll i l, ∃ j q, p = j :: q ∧ i ≤ j := by
  induction l generalizing i with
  | nil => intro p hp; simp [itemPathsAll] at hp
  | cons t ts ih =>
    intro p hp
    rw [itemPathsAll, List.mem_append] at hp
    rcases hp with hp | hp
    · obtain ⟨q, -, rfl⟩ := List.mem_map.mp hp
      exact ⟨i, q, rfl, Nat.le_refl _⟩
    · obtain ⟨j, q, rfl, h⟩ := ih (i + 1) p hp
      exact ⟨j, q, rfl, by omega⟩

mutual
theorem itemPaths_spec : ∀ t : Nest, (itemPaths t).Pairwise (· < ·) ∧
    (∀ p, p ∈ itemPaths t ↔ ∃ v, Nest.at t p = some v ∧ Nest.isItem v = true) ∧
    (unravel t).map some = (itemPaths t).map (Nest.at t)
  | .atom v => by
    refine ⟨by simp [itemPaths], fun p => ?_, by simp [unravel, itemPaths, Nest.at]⟩
    cases p <;> simp [itemPaths, Nest.at, Nest.isItem]
  | .str v => by
    refine ⟨by simp [itemPaths], fun p => ?_, by simp [unravel, itemPaths, Nest.at]⟩
    cases p <;> simp [itemPaths, Nest.at, Nest.isItem]
  | .seq l => by
    obtain ⟨h1, h2, h3⟩ := itemPathsAll_spec l l 0 rfl
    refine ⟨h1, fun p => ?_, h3⟩
    rw [itemPaths, h2]
    constructor
    · rintro ⟨j, q, rfl, -, v, h, hv⟩; exact ⟨v, h, hv⟩
    · rintro ⟨v, h, hv⟩
      cases p with
      | nil => simp only [Nest.at, Option.some.injEq] at h; subst h; simp [Nest.isItem] at hv
      | cons j q => exact ⟨j, q, rfl, Nat.zero_le _, v, h, hv⟩
theorem itemPathsAll_spec (l : List Nest) : ∀ (r : List Nest) (i : Nat), l.drop i = r →
    (itemPathsAll i r).Pairwise (· < ·) ∧
    (∀ p, p ∈ itemPathsAll i r ↔ ∃ j q, p = j :: q ∧ i ≤ j ∧ ∃ v, Nest.at (.seq l) p = some v ∧ Nest.isItem v = true) ∧
    (unravel.unravelAll r).map some = (itemPathsAll i r).map (Nest.at (.seq l))
  | [], i, hr => by
    refine ⟨by simp [itemPathsAll], fun p => ?_, by simp [unravel.unravelAll, itemPathsAll]⟩
    simp only [itemPathsAll, List.not_mem_nil, false_iff]
    rintro ⟨j, q, rfl, hij, v, h, -⟩
    rw [Nest.at, List.getElem?_eq_none (by have := List.drop_eq_nil_iff.mp hr; omega)] at h
    cases h
  | t :: ts, i, hr => by
    obtain ⟨a1, a2, a3⟩ := itemPaths_spec t
    obtain ⟨b1, b2, b3⟩ := itemPathsAll_spec l ts (i + 1) (by rw [← List.drop_drop, hr]; rfl)
    have ht : l[i]? = some t := by
      have : (l.drop i)[0]? = some t := by rw [hr]; rfl
      rwa [List.getElem?_drop, Nat.add_zero] at this
    have hat : ∀ q, Nest.at (.seq l) (i :: q) = Nest.at t q := fun q => by rw [Nest.at, ht]
    refine ⟨?_, fun p => ?_, ?_⟩
    · rw [itemPathsAll]
      refine List.pairwise_append.mpr ⟨?_, b1, ?_⟩
      · rw [List.pairwise_map]
        exact a1.imp fun h => List.Lex.cons h
      · intro p hp q hq
        obtain ⟨p', -, rfl⟩ := List.mem_map.mp hp
        obtain ⟨j, q', rfl, hj⟩ := itemPathsAll_head _ _ q hq
        exact List.Lex.rel (by omega)
    · rw [itemPathsAll, List.mem_append, b2]
      constructor
      · rintro (hp | ⟨j, q, rfl, hj, v, h, hv⟩)
        · obtain ⟨q, hq, rfl⟩ := List.mem_map.mp hp
          obtain ⟨v, h, hv⟩ := (a2 q).mp hq
          exact ⟨i, q, rfl, Nat.le_refl _, v, by rw [hat]; exact h, hv⟩
        · exact ⟨j, q, rfl, by omega, v, h, hv⟩
      · rintro ⟨j, q, rfl, hj, v, h, hv⟩
        by_cases hij : j = i
        · subst hij
          left
          refine List.mem_map.mpr ⟨q, (a2 q).mpr ⟨v, by rw [← hat]; exact h, hv⟩, rfl⟩
        · right; exact ⟨j, q, rfl, by omega, v, h, hv⟩
    · have hu : unravel.unravelAll (t :: ts) = unravel t ++ unravel.unravelAll ts := by
        cases t <;> simp [unravel.unravelAll, unravel]
      rw [hu, itemPathsAll, List.map_append, List.map_append, a3, b3, List.map_map]
      congr 1
      exact List.map_congr_left fun q _ => (hat q).symm
end

/-- **C49.** `unravel` yields every item (what is not a sequence; strings are items) of an arbitrarily nested sequence
exactly once, in depth-first order: there is a strictly increasing (lexicographic) list of positions which are exactly
the positions of items, and the items yielded are those at these positions. -/
theorem C49_unravel (t : Nest) : ∃ ps : List (List Nat), ps.Pairwise (· < ·) ∧
    (∀ p, p ∈ ps ↔ ∃ v, Nest.at t p = some v ∧ Nest.isItem v = true) ∧ (unravel t).map some = ps.map (Nest.at t) :=
  ⟨_, itemPaths_spec t⟩

example : unravel (.seq [.atom 0, .seq [.str "a"], .seq [.atom 2, .seq []]]) = [.atom 0, .str "a", .atom 2] := by
  simp [unravel, unravel.unravelAll]

/-! ### C65 -/

theorem memLoop_spec (b : Rat) (u : Nat) : b = (memLoop b u).1 * 1024 ^ ((memLoop b u).2 - u) ∧ u ≤ (memLoop b u).2 ∧
    (memLoop b u).1 ≤ 1024 ∧ (u < (memLoop b u).2 → 1 < (memLoop b u).1) := by
  induction b, u using memLoop.induct with
  | case1 b u h ih =>
    rw [memLoop, if_pos h]
    obtain ⟨h1, h2, h3, h4⟩ := ih
    refine ⟨?_, by omega, h3, fun _ => ?_⟩
    · rw [show (memLoop (b / 1024) (u + 1)).2 - u = ((memLoop (b / 1024) (u + 1)).2 - (u + 1)) + 1 by omega, pow_succ,
        ← mul_assoc, ← h1]
      field_simp
    · by_cases hu : u + 1 < (memLoop (b / 1024) (u + 1)).2
      · exact h4 hu
      · rw [show (memLoop (b / 1024) (u + 1)).2 - (u + 1) = 0 by omega, pow_zero, mul_one] at h1
        rw [← h1, lt_div_iff₀ (by norm_num)]
        linarith
  | case2 b u h =>
    rw [memLoop, if_neg h]
    refine ⟨by simp, Nat.le_refl _, not_lt.mp h, fun h => absurd h (Nat.lt_irrefl _)⟩

/-- **C65.** A number of bytes is shown as a number between 1 and 1024 (at most 1024 without prefix) with the prefix for
which they agree; beyond 1024 yottabytes an `IndexError` is raised. -/
theorem C65_present_memory (b : Rat) (digits : Nat) :
    (b ≤ 1024 ^ 9 → ∃ v k, ∃ prefix_ : String, presentMemory b digits = .ok (v, if k = 0 then 0 else digits, prefix_) ∧
      ["", "k", "M", "G", "T", "P", "E", "Z", "Y"][k]? = some prefix_ ∧ b = v * 1024 ^ k ∧ v ≤ 1024 ∧ (k ≠ 0 → 1 < v)) ∧
    (1024 ^ 9 < b → presentMemory b digits = .error .indexError) := by
  obtain ⟨h1, -, h3, h4⟩ := memLoop_spec b 0
  simp only [Nat.sub_zero] at h1
  generalize hr : memLoop b 0 = r at h1 h3 h4
  obtain ⟨v, k⟩ := r
  simp only [] at h1 h3 h4
  have hb : b ≤ 1024 ^ 9 ↔ k ≤ 8 := by
    rw [h1]
    constructor
    · intro hb
      by_contra hk
      have hv := h4 (by omega)
      have h9 : (1024 : Rat) ^ 9 ≤ 1024 ^ k := pow_le_pow_right₀ (by norm_num) (by omega)
      have hp : (0 : Rat) < 1024 ^ k := by positivity
      nlinarith
    · intro hk
      have h8 : (1024 : Rat) ^ k ≤ 1024 ^ 8 := pow_le_pow_right₀ (by norm_num) hk
      have hp : (0 : Rat) < 1024 ^ k := by positivity
      by_cases hv : 0 ≤ v
      · calc v * 1024 ^ k ≤ 1024 * 1024 ^ 8 := by gcongr
          _ = 1024 ^ 9 := by norm_num
      · have : v * 1024 ^ k ≤ 0 := by nlinarith
        have : (0 : Rat) < 1024 ^ 9 := by positivity
        linarith
  constructor
  · intro h
    have hk := hb.mp h
    obtain ⟨pr, hpr⟩ : ∃ pr, (["", "k", "M", "G", "T", "P", "E", "Z", "Y"] : List String)[k]? = some pr :=
      ⟨_, List.getElem?_eq_getElem (by simp; omega)⟩
    refine ⟨v, k, pr, ?_, hpr, h1, h3, fun h0 => h4 (by omega)⟩
    simp only [presentMemory, hr, hpr]
  · intro h
    have hk : ¬ k ≤ 8 := fun hk => absurd (hb.mpr hk) (not_le.mpr h)
    have : (["", "k", "M", "G", "T", "P", "E", "Z", "Y"] : List String)[k]? = none :=
      List.getElem?_eq_none (by simp; omega)
    simp only [presentMemory, hr, this]

example : (2048 : Rat) ≤ 1024 ^ 9 ∧ (1024 : Rat) ^ 9 < 1024 ^ 10 := by constructor <;> norm_num

end Glompo.Props
