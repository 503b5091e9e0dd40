import Verif.Spec.CheckpointSeries
import Verif.Props.Checkpoint
import Mathlib.Data.List.Induction
import Mathlib.Tactic.Ring

/-! Lemmas for C123. -/

namespace Glompo.Checkpoint

open Glompo Glompo.Spec Glompo.Props

/-! ### Order of texts of the same length -/

theorem before_left {s t : Name} (h : s.length = t.length) (hb : Before s t) (x y : Name) : Before (s ++ x) (t ++ y) := by
  unfold Before at *
  simp only [List.map_append]
  have h' : (s.map Char.toNat).length = (t.map Char.toNat).length := by simpa using h
  revert hb h'
  generalize s.map Char.toNat = s'
  generalize t.map Char.toNat = t'
  generalize x.map Char.toNat = x'
  generalize y.map Char.toNat = y'
  intro hb h'
  induction s' generalizing t' with
  | nil =>
    cases t' with
    | nil => exact absurd hb (List.lt_irrefl _)
    | cons => cases h'
  | cons a s ih =>
    cases t' with
    | nil => cases h'
    | cons b t =>
      simp only [List.cons_append]
      rw [List.cons_lt_cons_iff] at hb ⊢
      exact hb.imp id fun ⟨h1, h2⟩ => ⟨h1, ih _ h2 (by simpa using h')⟩

theorem before_right (s : Name) {x y : Name} (hb : Before x y) : Before (s ++ x) (s ++ y) := by
  unfold Before at *
  simp only [List.map_append]
  induction s with
  | nil => exact hb
  | cons a s ih => simp only [List.map_cons, List.cons_append]; rw [List.cons_lt_cons_iff]; exact .inr ⟨rfl, ih⟩

theorem undec_append (s t : Name) : undec (s ++ t) = undec s * 10 ^ t.length + undec t := by
  unfold undec
  rw [List.foldl_append]
  generalize s.foldl (fun a c => 10 * a + (c.toNat - 48)) 0 = a
  induction t using List.reverseRecOn with
  | nil => simp
  | append_singleton t c ih =>
    rw [List.foldl_append, List.foldl_append, ih]
    simp only [List.foldl_cons, List.foldl_nil, List.length_append, List.length_singleton]
    rw [pow_succ]
    ring

theorem undec_lt (s : Name) (h : ∀ c ∈ s, isDigit c = true) : undec s < 10 ^ s.length := by
  induction s using List.reverseRecOn with
  | nil => decide
  | append_singleton s c ih =>
    have h1 := ih fun c hc => h c (List.mem_append_left _ hc)
    have h2 := h c (by simp)
    rw [isDigit, decide_eq_true_eq] at h2
    rw [undec_append]
    simp only [List.length_append, List.length_singleton, pow_succ, undec, List.foldl_cons, List.foldl_nil] at *
    omega

theorem before_digits {s t : Name} (hs : ∀ c ∈ s, isDigit c = true) (ht : ∀ c ∈ t, isDigit c = true)
    (hl : s.length = t.length) (h : undec s < undec t) : Before s t := by
  induction s generalizing t with
  | nil => cases t with
    | nil => exact absurd h (lt_irrefl _)
    | cons => cases hl
  | cons a s ih =>
    cases t with
    | nil => cases hl
    | cons b t =>
      have hl' : s.length = t.length := by simpa using hl
      have ha := hs a (by simp)
      have hb := ht b (by simp)
      rw [isDigit, decide_eq_true_eq] at ha hb
      have h1 := undec_lt s fun c hc => hs c (List.mem_cons_of_mem _ hc)
      have h2 := undec_lt t fun c hc => ht c (List.mem_cons_of_mem _ hc)
      have e1 : undec (a :: s) = (a.toNat - 48) * 10 ^ s.length + undec s := by
        have := undec_append [a] s
        simpa [undec] using this
      have e2 : undec (b :: t) = (b.toNat - 48) * 10 ^ t.length + undec t := by
        have := undec_append [b] t
        simpa [undec] using this
      rw [e1, e2, hl'] at h
      rw [hl'] at h1
      show (a.toNat :: s.map Char.toNat) < (b.toNat :: t.map Char.toNat)
      rw [List.cons_lt_cons_iff]
      rcases Nat.lt_trichotomy a.toNat b.toNat with h3 | h3 | h3
      · exact .inl h3
      · rw [h3] at h
        exact .inr ⟨h3, ih (fun c hc => hs c (List.mem_cons_of_mem _ hc)) (fun c hc => ht c (List.mem_cons_of_mem _ hc)) hl'
          (by omega)⟩
      · exfalso
        have : (b.toNat - 48 + 1) * 10 ^ t.length ≤ (a.toNat - 48) * 10 ^ t.length := Nat.mul_le_mul_right _ (by omega)
        rw [Nat.add_mul, Nat.one_mul] at this
        omega

theorem before_field {w i j : Nat} (hw : 0 < w) (hi : i < 10 ^ w) (hj : j < 10 ^ w) {x y : Name}
    (h : i < j ∨ i = j ∧ Before x y) : Before (pad w i ++ x) (pad w j ++ y) := by
  obtain ⟨a1, a2, a3⟩ := pad_spec w i
  obtain ⟨b1, b2, b3⟩ := pad_spec w j
  rcases h with h | ⟨rfl, h⟩
  · exact before_left (by rw [a3 hw hi, b3 hw hj]) (before_digits a1 b1 (by rw [a3 hw hi, b3 hw hj]) (by rw [a2, b2]; exact h)) _ _
  · exact before_right _ h

theorem before_pad {w i j : Nat} (hw : 0 < w) (h : i < j) (hj : j < 10 ^ w) : Before (pad w i) (pad w j) := by
  obtain ⟨a1, a2, a3⟩ := pad_spec w i
  obtain ⟨b1, b2, b3⟩ := pad_spec w j
  exact before_digits a1 b1 (by rw [a3 hw (by omega), b3 hw hj]) (by rw [a2, b2]; exact h)

/-! ### Names in the directory stay distinct -/

theorem unlinkLoop_nodup (l : List Name) (f : Option Nat) (d : Dir) (h : (names d).Nodup) :
    (names (unlinkLoop l f d).1).Nodup := by
  induction l generalizing f d with
  | nil => exact h
  | cons o t ih =>
    unfold unlinkLoop
    split
    · exact ih _ _ h
    · exact ih _ _ h
    · split
      · exact h
      · exact ih _ _ (dictDel_names _ _ h)
      · exact ih _ _ (dictDel_names _ _ h)

theorem setAside_nodup (t : Name) (d : Dir) (h : (names d).Nodup) : (names (setAside t d)).Nodup := by
  unfold setAside
  split
  · exact dictSet_names _ _ _ (dictDel_names _ _ h)
  · exact h

theorem checkpointFiles_nodup (fmt : List Char) (k : Int) (rf : Bool) (name : Name) (c : Nat) (b : Option (Err × Bool)) (d : Dir)
    (hist : List Name) (h : (names d).Nodup) : (names (checkpointFiles fmt k rf name c ⟨b, none, none, false⟩ d hist).1).Nodup := by
  have ht : (names (tryBlock fmt k name c ⟨b, none, none, false⟩ (dictSet d name .dir) hist).1).Nodup := by
    have h0 := dictSet_names d name .dir h
    unfold tryBlock
    split
    · exact h0
    · exact h0
    · have h1 : (names (dictSet (setAside (tarName name) (dictSet d name .dir)) (tarName name) (.file c))).Nodup :=
        dictSet_names _ _ _ (setAside_nodup _ _ h0)
      simp only [compress]
      unfold retention
      split
      · split
        · exact h1
        · exact unlinkLoop_nodup _ _ _ h1
      · exact h1
  unfold checkpointFiles
  split
  · exact h
  · exact h
  · exact dictDel_names _ _ (dictDel_names _ _ ht)

/-! ### What the directory holds -/

/-- After checkpoints of the names `l` (with what they hold), from the directory `d0`. -/
structure Kept (k : Nat) (d0 : Dir) (l : List (Name × Nat)) (d : Dir) : Prop where
  nodup : (names d).Nodup
  mine : ∀ i p, l[i]? = some p → dictGet d (tarName p.1) = if l.length ≤ i + k + 1 then some (.file p.2) else none
  other : ∀ o, o ≠ ovwName → (∀ p ∈ l, o ≠ tarName p.1) → dictGet d o = dictGet d0 o

/-- Names which can follow each other. -/
structure Row (fmt : List Char) (l : List (Name × Nat)) : Prop where
  nodot : ∀ p ∈ l, '.' ∉ p.1
  fits : ∀ p ∈ l, matchesFormat fmt p.1 = .ok true ∧ matchesFormat fmt (tarName p.1) = .ok true
  up : ∀ (i j : Nat) (p q : Name × Nat), i < j → l[i]? = some p → l[j]? = some q → Before (tarName p.1) q.1

theorem before_tar {name : Name} (h : '.' ∉ name) : Before name (tarName name) := by
  rw [tarName, stem_nodot h]; exact Before.append _ (by simp)

variable {fmt : List Char} {k : Nat} {d0 d : Dir} {l : List (Name × Nat)}

theorem Row.upTar (h : Row fmt l) {i j : Nat} {p q : Name × Nat} (hij : i < j) (hp : l[i]? = some p) (hq : l[j]? = some q) :
    Before (tarName p.1) (tarName q.1) := Before.trans (h.up i j p q hij hp hq) (before_tar (h.nodot q (List.mem_of_getElem? hq)))

/-- The names of the format in the directory are those of the checkpoints kept. -/
theorem Kept.iff (K : Kept k d0 l d) (R : Row fmt l) (h0 : ∀ o, matchesFormat fmt o = .ok true → dictGet d0 o = none)
    (hov : matchesFormat fmt ovwName = .ok false) (o : Name) :
    (o ∈ names d ∧ matchesFormat fmt o = .ok true) ↔ ∃ i p, l[i]? = some p ∧ l.length ≤ i + k + 1 ∧ o = tarName p.1 := by
  constructor
  · rintro ⟨h1, h2⟩
    have ho : o ≠ ovwName := fun e => by rw [e, hov] at h2; cases h2
    by_cases hm : ∀ p ∈ l, o ≠ tarName p.1
    · rw [mem_names, K.other o ho hm, h0 o h2] at h1; cases h1
    · push Not at hm
      obtain ⟨p, hp, rfl⟩ := hm
      obtain ⟨i, hi⟩ := List.mem_iff_getElem?.mp hp
      refine ⟨i, p, hi, ?_, rfl⟩
      rw [mem_names, K.mine i p hi] at h1
      by_contra hc
      rw [if_neg hc] at h1; cases h1
  · rintro ⟨i, p, hi, hk, rfl⟩
    refine ⟨?_, (R.fits p (List.mem_of_getElem? hi)).2⟩
    rw [mem_names, K.mine i p hi, if_pos hk]; rfl

theorem Kept.count (K : Kept k d0 l d) (R : Row fmt l) (h0 : ∀ o, matchesFormat fmt o = .ok true → dictGet d0 o = none)
    (hov : matchesFormat fmt ovwName = .ok false) {i : Nat} {p : Name × Nat} (hi : l[i]? = some p) {t : Name}
    (ht : ∀ q ∈ l, tarName q.1 ≠ t) :
    k ≤ ((names d).filter fun x => decide (matchesFormat fmt x = .ok true ∧ x ≠ t ∧ Before (tarName p.1) x)).length ↔
      i + k + 1 ≤ l.length := by
  have hlt : i < l.length := (List.getElem?_eq_some_iff.mp hi).1
  have hmem : ∀ m x, x ∈ (l.drop m).map (fun q => tarName q.1) ↔ ∃ j q, m ≤ j ∧ l[j]? = some q ∧ x = tarName q.1 := by
    intro m x
    rw [List.mem_map]
    simp only [List.mem_iff_getElem? (l := l.drop m), List.getElem?_drop]
    constructor
    · rintro ⟨q, ⟨j, hj⟩, rfl⟩; exact ⟨m + j, q, by omega, hj, rfl⟩
    · rintro ⟨j, q, hm, hj, rfl⟩; exact ⟨q, ⟨j - m, by rw [Nat.add_sub_cancel' hm]; exact hj⟩, rfl⟩
  have hnd : ((l.drop (max (i + 1) (l.length - (k + 1)))).map fun q => tarName q.1).Nodup := by
    have : (l.map fun q => tarName q.1).Nodup := by
      rw [List.Nodup, List.pairwise_iff_getElem]
      intro a b ha hb hab e
      simp only [List.getElem_map] at e
      have ha' : a < l.length := by simpa using ha
      have hb' : b < l.length := by simpa using hb
      have := R.upTar hab (List.getElem?_eq_getElem ha') (List.getElem?_eq_getElem hb')
      rw [e] at this
      exact Before.irrefl _ this
    rw [List.map_drop]
    exact this.sublist (List.drop_sublist _ _)
  have hperm := (List.perm_ext_iff_of_nodup (K.nodup.sublist (List.filter_sublist
    (p := fun x => decide (matchesFormat fmt x = .ok true ∧ x ≠ t ∧ Before (tarName p.1) x)))) hnd).mpr (by
      intro x
      rw [hmem, List.mem_filter, decide_eq_true_eq]
      constructor
      · rintro ⟨h1, h2, -, h3⟩
        obtain ⟨j, q, hj, hk, rfl⟩ := (K.iff R h0 hov x).mp ⟨h1, h2⟩
        refine ⟨j, q, ?_, hj, rfl⟩
        have : i < j := by
          rcases Nat.lt_trichotomy i j with h | h | h
          · exact h
          · rw [h] at hi; rw [hi] at hj; cases hj; exact absurd h3 (Before.irrefl _)
          · exact absurd (Before.trans h3 (R.upTar h hj hi)) (Before.irrefl _)
        omega
      · rintro ⟨j, q, hm, hj, rfl⟩
        obtain ⟨h1, h2⟩ := (K.iff R h0 hov _).mpr ⟨j, q, hj, by omega, rfl⟩
        exact ⟨h1, h2, ht q (List.mem_of_getElem? hj), R.upTar (by omega) hi hj⟩)
  rw [hperm.length_eq, List.length_map, List.length_drop]
  omega

/-- A successful checkpoint. -/
theorem Kept.ok (K : Kept k d0 l d) (h0 : ∀ o, matchesFormat fmt o = .ok true → dictGet d0 o = none)
    (hov : matchesFormat fmt ovwName = .ok false) (rf : Bool) (name : Name) (c : Nat) (hist : List Name)
    (R : Row fmt (l ++ [(name, c)])) :
    Kept k d0 (l ++ [(name, c)]) (checkpointFiles fmt k rf name c ⟨none, none, none, false⟩ d hist).1 ∧
    (checkpointFiles fmt k rf name c ⟨none, none, none, false⟩ d hist).2.2 = .ok () := by
  have hlast : (l ++ [(name, c)])[l.length]? = some (name, c) := by simp
  have hold : ∀ i p, l[i]? = some p → (l ++ [(name, c)])[i]? = some p := fun i p h => by
    rw [List.getElem?_append_left (List.getElem?_eq_some_iff.mp h).1]; exact h
  have R' : Row fmt l := ⟨fun p hp => R.nodot p (List.mem_append_left _ hp), fun p hp => R.fits p (List.mem_append_left _ hp),
    fun i j p q hij hp hq => R.up i j p q hij (hold _ _ hp) (hold _ _ hq)⟩
  have hdot : '.' ∉ name := R.nodot _ (List.mem_append_right _ (List.mem_singleton_self _))
  obtain ⟨hm1, hm2⟩ := R.fits (name, c) (by simp)
  have hpl : ∀ p ∈ l, Before (tarName p.1) name := fun p hp => by
    obtain ⟨i, hi⟩ := List.mem_iff_getElem?.mp hp
    exact R.up i l.length p (name, c) (List.getElem?_eq_some_iff.mp hi).1 (hold _ _ hi) hlast
  have hne : ∀ p ∈ l, tarName p.1 ≠ tarName name := fun p hp e => by
    have := Before.trans (hpl p hp) (before_tar hdot)
    rw [e] at this
    exact Before.irrefl _ this
  have hnew : name ∉ names d := fun h => by
    obtain ⟨i, p, hi, -, e⟩ := (K.iff R' h0 hov name).mp ⟨h, hm1⟩
    have := hpl p (List.mem_of_getElem? hi)
    rw [← e] at this
    exact Before.irrefl _ this
  obtain ⟨d', hist', h1, -, h2, h3, h4⟩ := C35_retention_partial fmt k rf name c d hist K.nodup hdot hnew hm1 hm2 hov (by
    intro o ho hm _
    obtain ⟨i, p, hi, -, rfl⟩ := (K.iff R' h0 hov o).mp ⟨ho, hm⟩
    exact hpl p (List.mem_of_getElem? hi))
  have hnd := checkpointFiles_nodup fmt k rf name c none d hist K.nodup
  rw [show (⟨none, none, none, false⟩ : Faults) = noFaults from rfl] at *
  rw [h1] at hnd ⊢
  refine ⟨⟨hnd, ?_, ?_⟩, rfl⟩
  · intro i p hp
    rw [List.length_append, List.length_singleton]
    by_cases hi : i < l.length
    · rw [List.getElem?_append_left hi] at hp
      have hpm := List.mem_of_getElem? hp
      have hno : tarName p.1 ≠ name := fun e => by
        have := hpl p hpm
        rw [e] at this
        exact Before.irrefl _ this
      have hoo : tarName p.1 ≠ ovwName := fun e => by
        have := (R'.fits p hpm).2
        rw [e, hov] at this
        cases this
      have hc := K.count R' h0 hov hp hne
      have hg := K.mine i p hp
      rw [h4 _ (hne p hpm) hno hoo]
      by_cases hk : l.length + 1 ≤ i + k + 1
      · rw [if_pos hk, if_neg (fun h => by have := hc.mp h.2.2; omega), hg, if_pos (by omega)]
      · rw [if_neg hk]
        by_cases hf : l.length ≤ i + k + 1
        · rw [if_pos ⟨by rw [hg, if_pos hf]; simp [IsFile], (R'.fits p hpm).2, hc.mpr (by omega)⟩]
        · rw [hg, if_neg hf]; simp
    · have hi' : i = l.length := by
        have := (List.getElem?_eq_some_iff.mp hp).1
        simp only [List.length_append, List.length_singleton] at this
        omega
      subst hi'
      rw [hlast] at hp
      cases hp
      rw [h2, if_pos (by omega)]
  · intro o ho hm
    have hot : o ≠ tarName name := hm (name, c) (by simp)
    have hml : ∀ p ∈ l, o ≠ tarName p.1 := fun p hp => hm p (List.mem_append_left _ hp)
    by_cases hon : o = name
    · rw [hon, h3, h0 name hm1]
    · rw [h4 o hot hon ho, if_neg, K.other o ho hml]
      rintro ⟨hf, hmo, -⟩
      rw [K.other o ho hml, h0 o hmo] at hf
      exact hf.1 rfl

/-- A checkpoint which fails while it is saved. -/
theorem Kept.fail (K : Kept k d0 l d) (rf : Bool) (name : Name) (c : Nat) (b : Err × Bool) (hist : List Name)
    (hnew : name ∉ names d) (hl : ∀ p ∈ l, tarName p.1 ≠ ovwName) :
    Kept k d0 l (checkpointFiles fmt k rf name c ⟨some b, none, none, false⟩ d hist).1 := by
  have hg : dictGet d name = none := by
    cases h : dictGet d name with
    | none => rfl
    | some n => exact absurd (mem_names.mpr (by rw [h]; rfl)) hnew
  have key : ∀ o, o ≠ ovwName → dictGet (checkpointFiles fmt k rf name c ⟨some b, none, none, false⟩ d hist).1 o = dictGet d o := by
    intro o ho
    have : (tryBlock fmt k name c ⟨some b, none, none, false⟩ (dictSet d name .dir) hist).1 = dictSet d name .dir := by
      obtain ⟨e, f⟩ := b
      cases f <;> rfl
    unfold checkpointFiles
    rw [hg]
    simp only [this]
    rw [dictGet_del, if_neg ho]
    simp only [Bool.false_eq_true, if_false]
    rw [dictGet_del]
    split
    · rename_i e; rw [e, hg]
    · rename_i e; rw [dictGet_set_ne _ _ e]
  refine ⟨checkpointFiles_nodup _ _ _ _ _ _ _ _ K.nodup, fun i p hp => ?_, fun o ho hm => ?_⟩
  · rw [key _ (hl p (List.mem_of_getElem? hp)), K.mine i p hp]
  · rw [key o ho, K.other o ho hm]

theorem Row.left {l r : List (Name × Nat)} (R : Row fmt (l ++ r)) : Row fmt l := by
  have hold : ∀ i p, l[i]? = some p → (l ++ r)[i]? = some p := fun i p h => by
    rw [List.getElem?_append_left (List.getElem?_eq_some_iff.mp h).1]; exact h
  exact ⟨fun p hp => R.nodot p (List.mem_append_left _ hp), fun p hp => R.fits p (List.mem_append_left _ hp),
    fun i j p q hij hp hq => R.up i j p q hij (hold _ _ hp) (hold _ _ hq)⟩

/-! ### A series -/

/-- Names and contents of the calls which succeed; `N i a` is the name of call `a` after `i` successes. -/
def made (N : Nat → Attempt → Name) : Nat → List Attempt → List (Name × Nat)
  | _, [] => []
  | i, a :: t => if a.fault = none then (N i a, a.content) :: made N (i + 1) t else made N i t

theorem series_kept {N : Nat → Attempt → Name} {B : Nat} (rf : Bool)
    (h0 : ∀ o, matchesFormat fmt o = .ok true → dictGet d0 o = none) (hov : matchesFormat fmt ovwName = .ok false) (T : List (Name × Nat))
    (R : Row fmt T) (hB : T.length < B)
    (hN : ∀ i a, i < B → IsTime a.now → '.' ∉ N i a ∧ matchesFormat fmt (N i a) = .ok true)
    (hG : ∀ l r a d, T = l ++ r → IsTime a.now → Kept k d0 l d → ∃ n, getName fmt a.now (some (names d)) = .ok (N l.length a, n)) :
    ∀ (as : List Attempt) (l : List (Name × Nat)) (d : Dir) (hist : List Name), (∀ a ∈ as, IsTime a.now) →
      T = l ++ made N l.length as → Kept k d0 l d → Kept k d0 T (attempts fmt k rf as d hist).1 ∧
        ∀ (i : Nat) (a : Attempt), as[i]? = some a → a.fault = none → (attempts fmt k rf as d hist).2.2[i]? = some (.ok ()) := by
  intro as
  induction as with
  | nil =>
    intro l d hist _ hT K
    rw [hT]
    exact ⟨by simpa [made, attempts] using K, fun i a h => by simp at h⟩
  | cons a t ih =>
    intro l d hist ht hT K
    have hta := ht a List.mem_cons_self
    have htt : ∀ a ∈ t, IsTime a.now := fun a h => ht a (List.mem_cons_of_mem _ h)
    obtain ⟨n, hg⟩ := hG l _ a d hT hta K
    have hl : l.length < B := by rw [hT, List.length_append] at hB; omega
    have hat : attempt fmt k rf a d hist = checkpointFiles fmt k rf (N l.length a) a.content ⟨a.fault, none, none, false⟩ d hist := by
      rw [attempt, show d.map (·.1) = names d from rfl, hg]
    have hRl : Row fmt l := by rw [hT] at R; exact R.left
    cases hf : a.fault with
    | none =>
      rw [made, if_pos hf] at hT
      have hT' : T = (l ++ [(N l.length a, a.content)]) ++ made N (l.length + 1) t := by rw [hT]; simp
      obtain ⟨K1, K2⟩ := K.ok h0 hov rf (N l.length a) a.content hist (by rw [hT'] at R; exact R.left)
      have := ih (l ++ [(N l.length a, a.content)]) (attempt fmt k rf a d hist).1 (attempt fmt k rf a d hist).2.1 htt (by rw [hT']; simp)
        (by rw [hat, hf]; exact K1)
      refine ⟨this.1, fun i b hb hbf => ?_⟩
      cases i with
      | zero => show some (attempt fmt k rf a d hist).2.2 = _; rw [hat, hf, K2]
      | succ i => exact this.2 i b hb hbf
    | some e =>
      rw [made, if_neg (by rw [hf]; simp)] at hT
      have hnew : N l.length a ∉ names d := fun h => by
        obtain ⟨h1, h2⟩ := hN l.length a hl hta
        obtain ⟨i, p, hi, -, e⟩ := (K.iff hRl h0 hov _).mp ⟨h, h2⟩
        rw [e, tarName] at h1
        exact h1 (List.mem_append_right _ (by decide))
      have K1 := K.fail (fmt := fmt) rf (N l.length a) a.content e hist hnew (fun p hp e => by
        have := (hRl.fits p hp).2
        rw [e, hov] at this
        cases this)
      have := ih l (attempt fmt k rf a d hist).1 (attempt fmt k rf a d hist).2.1 htt hT (by rw [hat, hf]; exact K1)
      refine ⟨this.1, fun i b hb hbf => ?_⟩
      cases i with
      | zero => cases hb; rw [hf] at hbf; cases hbf
      | succ i => exact this.2 i b hb hbf

theorem Kept.start (h : (names d0).Nodup) : Kept k d0 [] d0 := ⟨h, fun i p h => by simp at h, fun _ _ _ => rfl⟩

/-! ### Formats -/

theorem pass {α : Type} [DecidableEq α] (x : α) (key val l t : List α) (h : x ∉ l) :
    replaceAll (x :: key) val 0 (l ++ t) = l ++ replaceAll (x :: key) val 0 t := by
  induction l with
  | nil => rfl
  | cons c l ih =>
    have hc : x ≠ c := fun e => h (by rw [e]; exact List.mem_cons_self)
    rw [List.cons_append, replaceAll_cons _ _ (by simp), if_neg, ih fun hm => h (List.mem_cons_of_mem _ hm)]
    · rfl
    · simp [hc]

theorem pass_all {α : Type} [DecidableEq α] (x : α) (key val l : List α) (h : x ∉ l) : replaceAll (x :: key) val 0 l = l := by
  have := pass x key val l [] h
  simpa [replaceAll] using this

/-- A key which is not the one of the text. -/
theorem pass_key {α : Type} [DecidableEq α] (x : α) (key val u t : List α) (h : x ∉ u)
    (hn : (x :: key).isPrefixOf (x :: u ++ t) = false) :
    replaceAll (x :: key) val 0 (x :: u ++ t) = x :: u ++ replaceAll (x :: key) val 0 t := by
  rw [List.cons_append] at *
  rw [replaceAll_cons _ _ (by simp), if_neg (fun e => by rw [List.isPrefixOf_iff_prefix.mpr e] at hn; cases hn), pass _ _ _ _ _ h]
  rfl

theorem hit_key {α : Type} [DecidableEq α] (x : α) (key val t : List α) :
    replaceAll (x :: key) val 0 (x :: key ++ t) = val ++ replaceAll (x :: key) val 0 t := by
  rw [List.cons_append, replaceAll_cons _ _ (by simp), if_pos (by simp)]
  simp

theorem compile_index {p : List Item} (h1 : (p.filter fun i => decide (i = .index)).length ≤ 1) (h2 : .ch '?' ∉ p) (h3 : .ch '\\' ∉ p) :
    compile p = some (p.map toRe) := by
  rw [compile, if_neg (by omega), compileItems_plain p h2 h3]

/-- A pattern with digits matches no text without digits. -/
theorem no_digits (p : List Item) (hp : .index ∈ p ∨ ∃ n, 0 < n ∧ .digits n ∈ p) (s : List Char) (hs : ∀ c ∈ s, isDigit c = false) :
    matchRe (p.map toRe) s = none := by
  have hall : ∀ n, 0 < n → ¬ (n ≤ s.length ∧ (s.take n).all isDigit = true) := by
    rintro n hn ⟨h1, h2⟩
    cases s with
    | nil => simp at h1; omega
    | cons a s =>
      cases n with
      | zero => omega
      | succ n =>
        simp only [List.take_succ_cons, List.all_cons, Bool.and_eq_true] at h2
        rw [hs a List.mem_cons_self] at h2
        cases h2.1
  induction p generalizing s with
  | nil => rcases hp with h | ⟨n, -, h⟩ <;> cases h
  | cons i p ih =>
    cases i with
    | ch c =>
      have hp' : .index ∈ p ∨ ∃ n, 0 < n ∧ .digits n ∈ p := by
        simpa using hp
      simp only [List.map_cons, toRe, matchRe]
      cases s with
      | nil => rfl
      | cons a s =>
        simp only
        by_cases e : a = c
        · rw [if_pos e, ih hp' s (fun c hc => hs c (List.mem_cons_of_mem _ hc))]
          · rfl
          · rintro n hn ⟨h1, h2⟩
            cases s with
            | nil => simp at h1; omega
            | cons a s =>
              cases n with
              | zero => omega
              | succ n =>
                simp only [List.take_succ_cons, List.all_cons, Bool.and_eq_true] at h2
                rw [hs a (by simp)] at h2
                cases h2.1
        · rw [if_neg e]; rfl
    | digits n =>
      simp only [List.map_cons, toRe, matchRe]
      by_cases hn : 0 < n
      · rw [if_neg (hall n hn)]
      · have : n = 0 := by omega
        subst this
        rw [if_pos (by simp), List.drop_zero]
        refine ih ?_ s hs hall
        rcases hp with h | ⟨m, h1, h2⟩
        · exact .inl (by simpa using h)
        · refine .inr ⟨m, h1, ?_⟩
          rcases List.mem_cons.mp h2 with h | h
          · cases h; omega
          · exact h
    | index =>
      simp only [List.map_cons, toRe, matchRe]
      rw [if_neg (hall 3 (by omega))]

theorem ovw_digits : ∀ c ∈ ovwName, isDigit c = false := by decide

end Glompo.Checkpoint
