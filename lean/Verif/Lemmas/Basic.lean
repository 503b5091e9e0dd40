import Verif.Model.Logger

namespace Glompo

theorem snoc_induction {α : Type _} {P : List α → Prop} (h0 : P []) (hs : ∀ l a, P l → P (l ++ [a])) :
    ∀ l, P l := by
  intro l
  have : ∀ l : List α, P l.reverse := by
    intro l
    induction l with
    | nil => simpa
    | cons a t ih => simpa using hs _ a ih
  simpa using this l.reverse

namespace PyF

theorem lt_irrefl (a : PyF) : lt a a = false := by cases a <;> simp [lt]

theorem lt_trans {a b c : PyF} (h : lt a b = true) (h' : lt b c = true) : lt a c = true := by
  cases a <;> cases b <;> cases c <;> simp_all [lt] <;> grind

theorem le_of_lt {a b : PyF} (h : lt a b = true) : le a b = true := by
  cases a <;> cases b <;> simp_all [lt, le] <;> grind

theorem lt_of_lt_of_le {a b c : PyF} (h : lt a b = true) (h' : le b c = true) : lt a c = true := by
  cases a <;> cases b <;> cases c <;> simp_all [lt, le] <;> grind

theorem lt_of_le_of_lt {a b c : PyF} (h : le a b = true) (h' : lt b c = true) : lt a c = true := by
  cases a <;> cases b <;> cases c <;> simp_all [lt, le] <;> grind

theorem le_trans {a b c : PyF} (h : le a b = true) (h' : le b c = true) : le a c = true := by
  cases a <;> cases b <;> cases c <;> simp_all [le] <;> grind

theorem not_lt_of_le {a b : PyF} (h : le a b = true) : lt b a = false := by
  cases a <;> cases b <;> simp_all [lt, le] <;> grind

theorem not_le_of_lt {a b : PyF} (h : lt a b = true) : le b a = false := by
  cases a <;> cases b <;> simp_all [lt, le] <;> grind

theorem lt_asymm {a b : PyF} (h : lt a b = true) : lt b a = false := by
  cases a <;> cases b <;> simp_all [lt] <;> grind

/-- Away from `nan`, `<=` is the negation of `>`. -/
theorem le_of_not_lt {a b : PyF} (ha : a ≠ nan) (hb : b ≠ nan) (h : lt b a = false) : le a b = true := by
  cases a <;> cases b <;> simp_all [lt, le] <;> grind

theorem ne_nan_of_lt_left {a b : PyF} (h : lt a b = true) : a ≠ nan := by
  cases a <;> simp_all [lt]

theorem ne_nan_of_lt_right {a b : PyF} (h : lt a b = true) : b ≠ nan := by
  cases a <;> cases b <;> simp_all [lt]

theorem le_refl {a : PyF} (h : a ≠ nan) : le a a = true := by
  cases a <;> simp_all [le]

/-- A value that is not below a bound which is itself below `+inf`, and is below `+inf` as well, is above it. -/
theorem lt_pinf_of_lt {a b : PyF} (h : lt a b = true) : lt a .pinf = true := by
  cases a <;> cases b <;> simp_all [lt]

theorem not_lt_of_not_lt_pinf {a b : PyF} (h : lt a .pinf = false) : lt a b = false := by
  cases a <;> cases b <;> simp_all [lt]

end PyF

section dict
variable {K V : Type} [DecidableEq K]

@[simp] theorem dictGet_nil (k : K) : dictGet ([] : List (K × V)) k = none := rfl

@[simp] theorem dictGet_set_self (d : List (K × V)) (k : K) (v : V) : dictGet (dictSet d k v) k = some v := by
  induction d with
  | nil => simp [dictSet, dictGet]
  | cons p t ih => obtain ⟨k', v'⟩ := p; by_cases h : k' = k <;> simp [dictSet, dictGet, h, ih]

theorem dictGet_set_ne (d : List (K × V)) {k k' : K} (v : V) (h : k' ≠ k) :
    dictGet (dictSet d k v) k' = dictGet d k' := by
  induction d with
  | nil => simp [dictSet, dictGet]; exact fun e => h e.symm
  | cons p t ih =>
    obtain ⟨a, b⟩ := p
    by_cases h1 : a = k
    · subst h1; simp only [dictSet, if_true, dictGet]; simp [Ne.symm h]
    · simp only [dictSet, h1, if_false, dictGet, ih]

theorem dictGet_set (d : List (K × V)) (k k' : K) (v : V) :
    dictGet (dictSet d k v) k' = if k' = k then some v else dictGet d k' := by
  by_cases h : k' = k
  · subst h; simp
  · simp [h, dictGet_set_ne _ _ h]

theorem dictGet_del_ne (d : List (K × V)) {k k' : K} (h : k' ≠ k) :
    dictGet (dictDel d k) k' = dictGet d k' := by
  simp only [dictDel]
  induction d with
  | nil => simp
  | cons p t ih =>
    obtain ⟨a, b⟩ := p
    by_cases h1 : a = k
    · subst h1; simp [dictGet, Ne.symm h]; simpa using ih
    · simp only [List.filter_cons, ne_eq, h1, not_false_eq_true, decide_true, if_true, dictGet]
      split
      · rfl
      · exact ih

@[simp] theorem dictGet_del_self (d : List (K × V)) (k : K) : dictGet (dictDel d k) k = none := by
  simp only [dictDel]
  induction d with
  | nil => simp
  | cons p t ih =>
    obtain ⟨a, b⟩ := p
    by_cases h1 : a = k
    · simp [h1]; simpa using ih
    · simp [h1, dictGet]; simpa using ih

theorem dictGet_isSome_iff (d : List (K × V)) (k : K) : (dictGet d k).isSome ↔ k ∈ d.map (·.1) := by
  induction d with
  | nil => simp
  | cons p t ih =>
    obtain ⟨a, b⟩ := p
    by_cases h1 : a = k
    · simp [dictGet, h1]
    · simp [dictGet, h1, ih]; intro hh; exact absurd hh.symm h1

theorem dictGet_eq_none_iff (d : List (K × V)) (k : K) : dictGet d k = none ↔ k ∉ d.map (·.1) := by
  rw [← dictGet_isSome_iff]; simp

theorem dictGet_mem {d : List (K × V)} {k : K} {v : V} (h : dictGet d k = some v) : (k, v) ∈ d := by
  induction d with
  | nil => simp at h
  | cons p t ih =>
    obtain ⟨a, b⟩ := p
    by_cases h1 : a = k
    · simp [dictGet, h1] at h; simp [h1, h]
    · simp [dictGet, h1] at h; exact List.mem_cons_of_mem _ (ih h)

theorem dictSet_keys (d : List (K × V)) (k : K) (v : V) :
    (dictSet d k v).map (·.1) = if k ∈ d.map (·.1) then d.map (·.1) else d.map (·.1) ++ [k] := by
  induction d with
  | nil => simp [dictSet]
  | cons p t ih =>
    obtain ⟨a, b⟩ := p
    by_cases h1 : a = k
    · simp [dictSet, h1]
    · simp only [dictSet, h1, if_false, List.map_cons, ih, List.mem_cons]
      have : ¬ k = a := fun e => h1 e.symm
      simp only [this, false_or]
      split <;> simp

end dict

end Glompo
