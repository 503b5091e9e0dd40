import Verif.Lemmas.Checkpoint
import Mathlib.Data.List.Perm.Basic
import Mathlib.Data.List.Nodup

/-!
# Lemmas on the order of names and on the directory of checkpoints
-/

namespace Glompo.Checkpoint

open Glompo.Spec

/-! ### Order -/

theorem nameLe_iff (a b : Name) : nameLe a b = true ↔ ¬ Before b a := by
  unfold Before
  induction a generalizing b with
  | nil => simp [nameLe]
  | cons x s ih =>
    cases b with
    | nil => simp [nameLe]
    | cons y t =>
      rw [nameLe, List.map_cons, List.map_cons, List.cons_lt_cons_iff]
      simp only [Bool.or_eq_true, Bool.and_eq_true, decide_eq_true_eq, ih]
      constructor
      · rintro (h | ⟨h1, h2⟩) (h' | ⟨h1', h2'⟩)
        · omega
        · omega
        · omega
        · exact h2 h2'
      · intro h
        rcases Nat.lt_trichotomy x.toNat y.toNat with h1 | h1 | h1
        · exact .inl h1
        · exact .inr ⟨h1, fun h2 => h (.inr ⟨h1.symm, h2⟩)⟩
        · exact absurd (.inl h1) h

theorem map_toNat_inj {a b : Name} (h : a.map Char.toNat = b.map Char.toNat) : a = b :=
  (List.map_inj_right (fun x y e => Char.toNat_inj.mp e)).mp h

theorem Before.irrefl (a : Name) : ¬ Before a a := List.lt_irrefl _

theorem Before.trans {a b c : Name} (h : Before a b) (h' : Before b c) : Before a c := List.lt_trans h h'

theorem Before.trichotomy (a b : Name) (h : ¬ Before a b) (h' : ¬ Before b a) : a = b :=
  map_toNat_inj (List.le_antisymm (List.not_lt.mp h') (List.not_lt.mp h))

theorem Before.append (a : Name) {r : Name} (hr : r ≠ []) : Before a (a ++ r) := by
  unfold Before
  induction a with
  | nil =>
    cases r with
    | nil => exact absurd rfl hr
    | cons x t => simp
  | cons x t ih => rw [List.cons_append, List.map_cons, List.map_cons, List.cons_lt_cons_iff]; exact .inr ⟨rfl, ih⟩

/-! ### Sorting -/

theorem insertDesc_perm (a : Name) (l : List Name) : (insertDesc a l).Perm (a :: l) := by
  induction l with
  | nil => exact .refl _
  | cons b t ih =>
    rw [insertDesc]
    split
    · exact .refl _
    · exact (List.Perm.cons _ ih).trans (List.Perm.swap _ _ _)

theorem sortDesc_perm (l : List Name) : (sortDesc l).Perm l := by
  induction l with
  | nil => exact .refl _
  | cons a t ih => exact (insertDesc_perm _ _).trans (List.Perm.cons _ ih)

theorem insertDesc_sorted (a : Name) (l : List Name) (h : l.Pairwise fun x y => ¬ Before x y) :
    (insertDesc a l).Pairwise fun x y => ¬ Before x y := by
  induction l with
  | nil => simp [insertDesc]
  | cons b t ih =>
    rw [insertDesc]
    split
    · rename_i hle
      rw [nameLe_iff] at hle
      refine List.pairwise_cons.mpr ⟨fun x hx hax => ?_, h⟩
      rcases List.mem_cons.mp hx with rfl | hx
      · exact hle hax
      · have hbx := (List.pairwise_cons.mp h).1 x hx
        -- x ≤ b ≤ a < x
        by_cases hxb : Before x b
        · exact hle (Before.trans hax hxb)
        · rw [Before.trichotomy x b hxb hbx] at hax; exact hle hax
    · rename_i hle
      have hab : Before a b := by
        by_contra hc
        exact hle ((nameLe_iff _ _).mpr hc)
      obtain ⟨h1, h2⟩ := List.pairwise_cons.mp h
      refine List.pairwise_cons.mpr ⟨fun x hx => ?_, ih h2⟩
      rcases List.mem_cons.mp ((insertDesc_perm a t).mem_iff.mp hx) with rfl | hx
      · exact fun hba => Before.irrefl _ (Before.trans hab hba)
      · exact h1 x hx

theorem sortDesc_sorted (l : List Name) : (sortDesc l).Pairwise fun x y => ¬ Before x y := by
  induction l with
  | nil => exact List.Pairwise.nil
  | cons a t ih => exact insertDesc_sorted _ _ ih

/-- What is left after the `m` greatest. -/
theorem mem_drop_sorted (l : List Name) (hn : l.Nodup) (hs : l.Pairwise fun x y => ¬ Before x y) (m : Nat) (o : Name) :
    o ∈ l.drop m ↔ o ∈ l ∧ m ≤ (l.filter fun x => decide (Before o x)).length := by
  induction l generalizing m with
  | nil => simp
  | cons a t ih =>
    cases m with
    | zero => simp
    | succ m =>
      obtain ⟨hn1, hn2⟩ := List.nodup_cons.mp hn
      obtain ⟨hs1, hs2⟩ := List.pairwise_cons.mp hs
      rw [List.drop_succ_cons, ih hn2 hs2]
      by_cases hoa : o = a
      · subst hoa
        constructor
        · intro h; exact absurd h.1 hn1
        · rintro ⟨-, h⟩
          have : ((o :: t).filter fun x => decide (Before o x)) = [] := by
            rw [List.filter_eq_nil_iff]
            intro x hx
            rcases List.mem_cons.mp hx with rfl | hx
            · simpa using Before.irrefl _
            · simpa using hs1 x hx
          rw [this] at h; simp at h
      · constructor
        · rintro ⟨h1, h2⟩
          have hb : Before o a := by
            by_contra hc
            exact hoa (Before.trichotomy _ _ hc (hs1 o h1))
          refine ⟨List.mem_cons_of_mem _ h1, ?_⟩
          rw [List.filter_cons_of_pos (by simpa using hb), List.length_cons]
          omega
        · rintro ⟨h1, h2⟩
          have h1 : o ∈ t := (List.mem_cons.mp h1).resolve_left hoa
          refine ⟨h1, ?_⟩
          rw [List.filter_cons] at h2
          split at h2
          · rw [List.length_cons] at h2; omega
          · omega

/-! ### Directory -/

theorem dictSet_names (d : Dir) (k : Name) (v : Node) (h : (names d).Nodup) : (names (dictSet d k v)).Nodup := by
  unfold names at *
  induction d with
  | nil => simp [dictSet]
  | cons p t ih =>
    obtain ⟨k', v'⟩ := p
    rw [List.map_cons, List.nodup_cons] at h
    rw [dictSet]
    split
    · rename_i e; subst e; rw [List.map_cons, List.nodup_cons]; exact h
    · rename_i e
      rw [List.map_cons, List.nodup_cons]
      refine ⟨fun hm => ?_, ih h.2⟩
      have : (dictGet (dictSet t k v) k').isSome = true := (dictGet_isSome_iff _ _).mpr hm
      rw [dictGet_set_ne _ _ e] at this
      exact h.1 ((dictGet_isSome_iff _ _).mp this)

theorem dictDel_names (d : Dir) (k : Name) (h : (names d).Nodup) : (names (dictDel d k)).Nodup := by
  unfold names dictDel at *
  exact h.sublist (List.Sublist.map _ List.filter_sublist)

theorem mem_names {d : Dir} {o : Name} : o ∈ names d ↔ (dictGet d o).isSome = true := (dictGet_isSome_iff _ _).symm

theorem dictGet_del (d : Dir) (k o : Name) : dictGet (dictDel d k) o = if o = k then none else dictGet d o := by
  by_cases h : o = k
  · subst h; simp
  · rw [dictGet_del_ne _ h, if_neg h]

theorem unlinkLoop_ok (l : List Name) (d : Dir) : ∃ d', unlinkLoop l none d = (d', .ok ()) ∧
    ∀ o, dictGet d' o = if o ∈ l ∧ IsFile (dictGet d o) then none else dictGet d o := by
  induction l generalizing d with
  | nil => exact ⟨d, rfl, fun o => by simp⟩
  | cons a t ih =>
    have skip : ¬ IsFile (dictGet d a) → ∀ o, (if o ∈ t ∧ IsFile (dictGet d o) then none else dictGet d o) =
        if o ∈ a :: t ∧ IsFile (dictGet d o) then none else dictGet d o := by
      intro hf o
      by_cases hoa : o = a
      · subst hoa; simp [hf]
      · simp [hoa]
    cases hg : dictGet d a with
    | none =>
      obtain ⟨d', h1, h2⟩ := ih d
      refine ⟨d', by rw [unlinkLoop, hg]; exact h1, fun o => ?_⟩
      rw [h2, skip (by rw [hg]; simp [IsFile])]
    | some n =>
      have file : n ≠ .dir → ∃ d', unlinkLoop (a :: t) none d = (d', .ok ()) ∧
          ∀ o, dictGet d' o = if o ∈ a :: t ∧ IsFile (dictGet d o) then none else dictGet d o := by
        intro hn
        obtain ⟨d', h1, h2⟩ := ih (dictDel d a)
        refine ⟨d', by cases n <;> first | exact absurd rfl hn | (rw [unlinkLoop, hg]; exact h1), fun o => ?_⟩
        rw [h2, dictGet_del]
        by_cases hoa : o = a
        · subst hoa
          have hf : IsFile (dictGet d o) := by rw [hg]; simp [IsFile, hn]
          rw [if_pos rfl, if_pos (⟨List.mem_cons_self, hf⟩ : o ∈ o :: t ∧ IsFile (dictGet d o))]
          simp
        · rw [if_neg hoa]
          simp [hoa]
      cases n with
      | dir =>
        obtain ⟨d', h1, h2⟩ := ih d
        refine ⟨d', by rw [unlinkLoop, hg]; exact h1, fun o => ?_⟩
        rw [h2, skip (by rw [hg]; simp [IsFile])]
      | file c => exact file (by simp)
      | broken => exact file (by simp)

/-- Whatever fails, only names of the list go. -/
theorem unlinkLoop_other (l : List Name) (f : Option Nat) (d : Dir) (o : Name) (ho : o ∉ l) :
    dictGet (unlinkLoop l f d).1 o = dictGet d o := by
  induction l generalizing d f with
  | nil => rfl
  | cons a t ih =>
    have hoa : o ≠ a := fun e => ho (by rw [e]; exact List.mem_cons_self)
    have hot : o ∉ t := fun h => ho (List.mem_cons_of_mem _ h)
    have del : ∀ f, dictGet (unlinkLoop t f (dictDel d a)).1 o = dictGet d o := fun f => by
      rw [ih f _ hot, dictGet_del, if_neg hoa]
    have key : unlinkLoop (a :: t) f d = match dictGet d a with
      | some .dir => unlinkLoop t f d
      | none => unlinkLoop t f d
      | some _ => match f with
        | some 0 => (d, .error .osError)
        | some (n + 1) => unlinkLoop t (some n) (dictDel d a)
        | none => unlinkLoop t none (dictDel d a) := by cases f <;> rfl
    rw [key]
    split
    · exact ih f d hot
    · exact ih f d hot
    · split
      · rfl
      · exact del _
      · exact del _

theorem stem_tar (s : Name) : stem (s ++ ".tar.gz".toList) = s ++ ".tar".toList := by
  unfold stem
  have : (s ++ ".tar.gz".toList).reverse = 'z' :: 'g' :: '.' :: ("rat.".toList ++ s.reverse) := by simp
  rw [this]
  simp [List.takeWhile, List.dropWhile]

theorem tarName_ne (name : Name) : tarName name ≠ name := by
  intro h
  unfold tarName at h
  have h1 : stem name = stem name ++ ".tar".toList := by
    conv_lhs => rw [← h]
    exact stem_tar _
  have := congrArg List.length h1
  simp at this

/-- Compression touches only the archive and the place where the old one is put. -/
theorem compress_other (name : Name) (c : Nat) (f : Option (Err × Bool)) (d : Dir) (o : Name) (h1 : o ≠ tarName name)
    (h2 : o ≠ ovwName) : dictGet (compress name c f d).1 o = dictGet d o := by
  have hs : dictGet (setAside (tarName name) d) o = dictGet d o := by
    unfold setAside
    split
    · rw [dictGet_set_ne _ _ h2, dictGet_del, if_neg h1]
    · rfl
  unfold compress
  cases f with
  | none => simp only [dictGet_set_ne _ _ h1, hs]
  | some ec =>
    obtain ⟨e, cr⟩ := ec
    have hs2 : dictGet (if cr = true then dictSet (setAside (tarName name) d) (tarName name) .broken
        else setAside (tarName name) d) o = dictGet d o := by
      split
      · rw [dictGet_set_ne _ _ h1, hs]
      · exact hs
    simp only
    split
    · split
      · rw [dictGet_set_ne _ _ h1, dictGet_del, if_neg h2, hs2]
      · exact hs2
    · exact hs2

end Glompo.Checkpoint
