import Verif.Spec.Spawn
import Verif.Lemmas.Basic
import Mathlib.Order.Basic
import Mathlib.Order.Nat

/-! # Lemmas on the arguments of new optimizers -/

namespace Glompo.Spawn

open Glompo

variable {V : Type}

theorem view_append_left {σ τ : Store V} {a : Nat} (h : a < σ.length) : view (σ ++ τ) a = view σ a := by
  simp only [view, List.getD, List.getElem?_append_left h]

theorem view_append_right {σ τ : Store V} (n : Nat) : view (σ ++ τ) (σ.length + n) = view τ n := by
  simp only [view, List.getD, List.getElem?_append_right (Nat.le_add_right _ _), Nat.add_sub_cancel_left]

theorem view_set_self {σ : Store V} {a : Nat} {d : Dict V} (h : a < σ.length) : view (σ.set a d) a = d := by
  simp [view, List.getD, h]

theorem view_set_ne {σ : Store V} {a b : Nat} {d : Dict V} (h : a ≠ b) : view (σ.set a d) b = view σ b := by
  simp [view, List.getD, List.getElem?_set_ne h]

/-- What is found where `orNew` points to. -/
def found (σ : Store V) : Option Nat → Dict V
  | none => []
  | some a => view σ a

/-- Nothing changed but entries `workers` added to dictionaries in `A`. -/
structure Grown (one : V) (A : Nat → Prop) (σ σ' : Store V) : Prop where
  len : σ.length ≤ σ'.length
  other : ∀ a < σ.length, ∀ k, k ≠ "workers" → dictGet (view σ' a) k = dictGet (view σ a) k
  workers : ∀ a < σ.length, dictGet (view σ' a) "workers" = dictGet (view σ a) "workers" ∨
    (dictGet (view σ a) "workers" = none ∧ dictGet (view σ' a) "workers" = some one ∧ A a)

theorem Grown.refl (one : V) (A) (σ : Store V) : Grown one A σ σ := ⟨le_refl _, fun _ _ _ _ => rfl, fun _ _ => .inl rfl⟩

theorem Grown.trans {one : V} {A} {σ σ' σ'' : Store V} (h : Grown one A σ σ') (h' : Grown one A σ' σ'') : Grown one A σ σ'' := by
  refine ⟨h.len.trans h'.len, fun a ha k hk => (h'.other a (by have := h.len; omega) k hk).trans (h.other a ha k hk), fun a ha => ?_⟩
  rcases h.workers a ha with h1 | ⟨h1, h2, h3⟩ <;> rcases h'.workers a (by have := h.len; omega) with h4 | ⟨h4, h5, h6⟩
  · exact .inl (h4.trans h1)
  · exact .inr ⟨h1 ▸ h4, h5, h6⟩
  · exact .inr ⟨h1, h4.trans h2, h3⟩
  · rw [h2] at h4; cases h4

theorem Grown.mono {one : V} {A B : Nat → Prop} {σ σ' : Store V} (h : Grown one A σ σ') (hab : ∀ a, A a → B a) : Grown one B σ σ' :=
  ⟨h.len, h.other, fun a ha => (h.workers a ha).imp_right fun ⟨h1, h2, h3⟩ => ⟨h1, h2, hab a h3⟩⟩

theorem grown_append (one : V) (A) (σ τ : Store V) : Grown one A σ (σ ++ τ) :=
  ⟨by simp, fun a ha k _ => by rw [view_append_left ha], fun a ha => .inl (by rw [view_append_left ha])⟩

theorem grown_orNew (one : V) (A) (σ : Store V) (i : Option Nat) : Grown one A σ (orNew σ i).1 := by
  cases i with
  | none => exact grown_append one A σ [[]]
  | some a => exact .refl one A σ

theorem orNew_lt (σ : Store V) (i : Option Nat) (h : ∀ a, i = some a → a < σ.length) : (orNew σ i).2 < (orNew σ i).1.length := by
  cases i with
  | none => simp [orNew]
  | some a => exact h a rfl

theorem orNew_view (σ : Store V) (i : Option Nat) :
    view (orNew σ i).1 (orNew σ i).2 = found σ i := by
  cases i with
  | none => exact view_append_right (τ := [[]]) 0
  | some a => rfl

theorem grown_addWorkers (one : V) (σ : Store V) (a : Nat) (ha : a < σ.length) : Grown one (· = a) σ (addWorkers one σ a) := by
  unfold addWorkers
  split
  · exact .refl ..
  · rename_i h
    refine ⟨by simp, fun b hb k hk => ?_, fun b hb => ?_⟩
    · by_cases e : a = b
      · subst e; rw [view_set_self ha, dictGet_set_ne _ _ hk]
      · rw [view_set_ne e]
    · by_cases e : a = b
      · subst e
        rw [view_set_self ha, dictGet_set_self]
        exact .inr ⟨by simpa using h, rfl, rfl⟩
      · rw [view_set_ne e]; exact .inl rfl

theorem addWorkers_workers (one : V) (σ : Store V) (a : Nat) (ha : a < σ.length) :
    dictGet (view (addWorkers one σ a) a) "workers" = some ((dictGet (view σ a) "workers").getD one) := by
  unfold addWorkers
  split
  · rename_i h
    cases hd : dictGet (view σ a) "workers" with
    | none => rw [hd] at h; cases h
    | some v => rfl
  · rename_i h
    rw [view_set_self ha, dictGet_set_self]
    cases hd : dictGet (view σ a) "workers" with
    | none => rfl
    | some v => rw [hd] at h; simp at h

theorem length_addWorkers (one : V) (σ : Store V) (a : Nat) : (addWorkers one σ a).length = σ.length := by
  unfold addWorkers; split <;> simp

/-- What is known of an entry made from an element when the store was `σ`, in a later store `σ'`. -/
structure Parsed (one : V) (A : Nat → Prop) (σ σ' : Store V) (it : Item) (e : Entry) : Prop where
  cls : e.cls = it.cls
  initLt : e.init < σ'.length
  callLt : e.call < σ'.length
  initOld : ∀ a, it.initAddr = some a → e.init = a
  initNew : it.initAddr = none → σ.length ≤ e.init
  callOld : ∀ a, it.callAddr = some a → e.call = a
  callNew : it.callAddr = none → σ.length ≤ e.call
  args : ∀ k, k ≠ "workers" → dictGet (view σ' e.init) k = it.asked σ k
  workers : dictGet (view σ' e.init) "workers" = some ((it.asked σ "workers").getD one)
  calls : ¬ A e.call → ∀ k, dictGet (view σ' e.call) k = it.askedCall σ k

theorem Parsed.later {one : V} {A} {σ σ' σ'' : Store V} {it : Item} {e : Entry} (h : Parsed one A σ σ' it e)
    (g : Grown one A σ' σ'') : Parsed one A σ σ'' it e := by
  refine ⟨h.cls, h.initLt.trans_le g.len, h.callLt.trans_le g.len, h.initOld, h.initNew, h.callOld, h.callNew,
    fun k hk => (g.other _ h.initLt k hk).trans (h.args k hk), ?_, fun hn k => ?_⟩
  · rcases g.workers _ h.initLt with h1 | ⟨h1, -, -⟩
    · rw [h1, h.workers]
    · rw [h.workers] at h1; cases h1
  · by_cases hk : k = "workers"
    · subst hk
      rcases g.workers _ h.callLt with h1 | ⟨-, -, h1⟩
      · rw [h1, h.calls hn]
      · exact absurd h1 hn
    · rw [g.other _ h.callLt k hk, h.calls hn]

theorem Parsed.earlier {one : V} {A} {σ₀ σ σ' : Store V} {it : Item} {e : Entry} (g : Grown one A σ₀ σ)
    (hi : ∀ a, it.initAddr = some a ∨ it.callAddr = some a → a < σ₀.length) (h : Parsed one A σ σ' it e) : Parsed one A σ₀ σ' it e := by
  refine ⟨h.cls, h.initLt, h.callLt, h.initOld, fun hn => g.len.trans (h.initNew hn), h.callOld, fun hn => g.len.trans (h.callNew hn),
    fun k hk => ?_, ?_, fun hn k => ?_⟩
  · rw [h.args k hk]
    rcases it with c | ⟨c, _ | a, b⟩
    · rfl
    · rfl
    · exact g.other a (hi a (.inl rfl)) k hk
  · rw [h.workers]
    rcases it with c | ⟨c, _ | a, b⟩
    · rfl
    · rfl
    · simp only [Item.asked]
      rcases g.workers a (hi a (.inl rfl)) with h1 | ⟨h1, h2, -⟩
      · rw [h1]
      · rw [h1, h2]; rfl
  · rw [h.calls hn]
    rcases it with c | ⟨c, a, _ | b⟩
    · rfl
    · cases a <;> rfl
    · have hb := hi b (.inr rfl)
      simp only [Item.askedCall]
      by_cases hk : k = "workers"
      · subst hk
        rcases g.workers b hb with h1 | ⟨-, -, h1⟩
        · exact h1
        · rw [h.callOld b rfl] at hn
          exact absurd h1 hn
      · exact g.other b hb k hk

theorem parseOne_spec (one : V) (σ : Store V) (it : Item) (A : Nat → Prop) (hA : ∀ a, A a ↔ it.initAddr = some a ∨ A a)
    (hi : ∀ a, it.initAddr = some a ∨ it.callAddr = some a → a < σ.length) (hAl : ∀ a, A a → a < σ.length) :
    Grown one A σ (parseOne one σ it).1 ∧ Parsed one A σ (parseOne one σ it).1 it (parseOne one σ it).2 ∧
    ((parseOne one σ it).2.init = (parseOne one σ it).2.call → ∃ a, it.initAddr = some a ∧ it.callAddr = some a) := by
  rcases it with c | ⟨c, i, k⟩
  · have e0 : view (σ ++ [[("workers", one)], []]) σ.length = [("workers", one)] := view_append_right (τ := [[("workers", one)], []]) 0
    have e1 : view (σ ++ [[("workers", one)], []]) (σ.length + 1) = [] := view_append_right (τ := [[("workers", one)], []]) 1
    refine ⟨grown_append .., ⟨rfl, ?_, ?_, nofun, fun _ => le_refl _, nofun, fun _ => Nat.le_succ _, fun k hk => ?_, ?_, fun _ k => ?_⟩, ?_⟩
    · simp [parseOne]
    · simp [parseOne]
    · simp only [parseOne]
      rw [e0]
      simp [dictGet, Item.asked, Ne.symm hk]
    · simp only [parseOne]
      rw [e0]
      rfl
    · simp only [parseOne]
      rw [e1]
      rfl
    · simp [parseOne]
  · have g1 := grown_orNew one A σ i
    have g2 := grown_orNew one A (orNew σ i).1 k
    have l1 := orNew_lt σ i fun a ha => hi a (.inl ha)
    have l2 := orNew_lt (orNew σ i).1 k fun a ha => (hi a (.inr ha)).trans_le g1.len
    have l1' : (orNew σ i).2 < (orNew (orNew σ i).1 k).1.length := l1.trans_le g2.len
    have v1 : view (orNew (orNew σ i).1 k).1 (orNew σ i).2 = found σ i := by
      rw [← orNew_view]
      cases k with
      | none => exact view_append_left l1
      | some b => rfl
    have v2 := orNew_view (orNew σ i).1 k
    have e : parseOne one σ (.full c i k) =
      (addWorkers one (orNew (orNew σ i).1 k).1 (orNew σ i).2, ⟨c, (orNew σ i).2, (orNew (orNew σ i).1 k).2⟩) := rfl
    have g3 := grown_addWorkers one (orNew (orNew σ i).1 k).1 (orNew σ i).2 l1'
    rw [e]
    have eq_call : (orNew σ i).2 = (orNew (orNew σ i).1 k).2 → ∃ a, i = some a ∧ k = some a := by
      cases i with
      | none =>
        cases k with
        | none => simp [orNew]
        | some b =>
          intro h
          have h : σ.length = b := h
          have := hi b (.inr rfl)
          omega
      | some a =>
        cases k with
        | none =>
          intro h
          have h : a = σ.length := h
          have := hi a (.inl rfl)
          omega
        | some b => intro h; exact ⟨a, rfl, congrArg some (show b = a from (show a = b from h).symm)⟩
    refine ⟨?_, ⟨rfl, ?_, ?_, ?_, ?_, ?_, ?_, fun k' hk => ?_, ?_, fun hn k' => ?_⟩, eq_call⟩
    · have g12 := g1.trans g2
      refine ⟨g12.len.trans g3.len, fun a ha k' hk => ?_, fun a ha => ?_⟩
      · exact (g3.other a (ha.trans_le g12.len) k' hk).trans (g12.other a ha k' hk)
      · rcases g3.workers a (ha.trans_le g12.len) with h | ⟨h1, h2, h3⟩
        · rcases g12.workers a ha with h' | ⟨h4, h5, h6⟩
          · exact .inl (h.trans h')
          · exact .inr ⟨h4, h.trans h5, h6⟩
        · cases i with
          | none =>
            have h3 : a = σ.length := h3
            omega
          | some b =>
            have h3 : a = b := h3
            subst h3
            rcases g12.workers a ha with h' | ⟨h4, h5, h6⟩
            · exact .inr ⟨h' ▸ h1, h2, (hA a).mpr (.inl rfl)⟩
            · exact .inr ⟨h4, h2, h6⟩
    · show _ < (addWorkers one (orNew (orNew σ i).1 k).1 (orNew σ i).2).length
      rw [length_addWorkers]; exact l1'
    · show _ < (addWorkers one (orNew (orNew σ i).1 k).1 (orNew σ i).2).length
      rw [length_addWorkers]; exact l2
    · intro a ha
      have ha : i = some a := ha
      subst ha; rfl
    · intro hn
      have hn : i = none := hn
      subst hn; exact le_refl _
    · intro a ha
      have ha : k = some a := ha
      subst ha; rfl
    · intro hn
      have hn : k = none := hn
      subst hn; exact g1.len
    · rw [g3.other _ l1' k' hk, v1]
      cases i <;> rfl
    · show dictGet (view (addWorkers one _ (orNew σ i).2) (orNew σ i).2) "workers" = _
      rw [addWorkers_workers one _ _ l1', v1]
      cases i <;> rfl
    · have hne : (orNew (orNew σ i).1 k).2 ≠ (orNew σ i).2 := fun he => by
        obtain ⟨a, h1, h2⟩ := eq_call he.symm
        subst h1; subst h2
        exact hn ((hA a).mpr (.inl rfl))
      have : view (addWorkers one (orNew (orNew σ i).1 k).1 (orNew σ i).2) (orNew (orNew σ i).1 k).2 =
          view (orNew (orNew σ i).1 k).1 (orNew (orNew σ i).1 k).2 := by
        unfold addWorkers
        split
        · rfl
        · exact view_set_ne hne.symm
      show dictGet (view (addWorkers one (orNew (orNew σ i).1 k).1 (orNew σ i).2) (orNew (orNew σ i).1 k).2) k' = _
      rw [this, v2]
      cases k with
      | none => cases i <;> rfl
      | some b =>
        cases i with
        | none =>
          show dictGet (view (σ ++ [[]]) b) k' = _
          rw [view_append_left (hi b (.inr rfl))]
          rfl
        | some a => rfl

/-- The entries made from all elements, in a later store. -/
structure ParsedAll (one : V) (A : Nat → Prop) (σ σ' : Store V) (items : List Item) (es : List Entry) : Prop where
  grown : Grown one A σ σ'
  len : es.length = items.length
  each : ∀ (n : Nat) (it : Item) (e : Entry), items[n]? = some it → es[n]? = some e → Parsed one A σ σ' it e
  inits : ∀ (n n' : Nat) (it it' : Item) (e e' : Entry), items[n]? = some it → es[n]? = some e → items[n']? = some it' →
    es[n']? = some e' → e.init = e'.init → n = n' ∨ ∃ a, it.initAddr = some a ∧ it'.initAddr = some a
  calls : ∀ (n n' : Nat) (it it' : Item) (e e' : Entry), items[n]? = some it → es[n]? = some e → items[n']? = some it' →
    es[n']? = some e' → e.init = e'.call → ∃ a, it.initAddr = some a ∧ it'.callAddr = some a

theorem parse_spec (one : V) (A : Nat → Prop) : ∀ (items : List Item) (σ : Store V),
    (∀ it ∈ items, ∀ a, it.initAddr = some a → A a) → (∀ it ∈ items, ∀ a, it.initAddr = some a ∨ it.callAddr = some a → a < σ.length) →
    (∀ a, A a → a < σ.length) → ParsedAll one A σ (parse one σ items).1 items (parse one σ items).2
  | [], σ, _, _, _ => ⟨.refl .., rfl, by simp, by simp, by simp⟩
  | it :: t, σ, h1, h2, h3 => by
    obtain ⟨p1, p2, p3⟩ := parseOne_spec one σ it A (fun a => ⟨.inr, fun h => h.elim (h1 it (by simp) a) id⟩) (h2 it (by simp)) h3
    have q := parse_spec one A t (parseOne one σ it).1 (fun it' hi => h1 it' (by simp [hi]))
      (fun it' hi a ha => (h2 it' (by simp [hi]) a ha).trans_le p1.len) (fun a ha => (h3 a ha).trans_le p1.len)
    have e1 : (parse one σ (it :: t)).1 = (parse one (parseOne one σ it).1 t).1 := rfl
    have e2 : (parse one σ (it :: t)).2 = (parseOne one σ it).2 :: (parse one (parseOne one σ it).1 t).2 := rfl
    rw [e1, e2]
    have first := p2.later q.grown
    -- an entry of the rest has another fresh address than the first
    have apart : ∀ (n : Nat) (it' : Item) (e' : Entry), t[n]? = some it' → (parse one (parseOne one σ it).1 t).2[n]? = some e' →
        ((parseOne one σ it).2.init = e'.init → ∃ a, it.initAddr = some a ∧ it'.initAddr = some a) ∧
        ((parseOne one σ it).2.init = e'.call → ∃ a, it.initAddr = some a ∧ it'.callAddr = some a) ∧
        (e'.init = (parseOne one σ it).2.call → ∃ a, it'.initAddr = some a ∧ it.callAddr = some a) := by
      intro n it' e' hn he
      have q' := q.each n it' e' hn he
      have hm : it' ∈ t := List.mem_of_getElem? hn
      refine ⟨fun h => ?_, fun h => ?_, fun h => ?_⟩
      · cases hi' : it'.initAddr with
        | none => have := q'.initNew hi'; have := p2.initLt; omega
        | some b =>
          have hb := q'.initOld b hi'
          cases hi : it.initAddr with
          | none => have := p2.initNew hi; have := h2 it' (by simp [hm]) b (.inl hi'); omega
          | some a => have := p2.initOld a hi; exact ⟨a, rfl, by congr 1; omega⟩
      · cases hi' : it'.callAddr with
        | none => have := q'.callNew hi'; have := p2.initLt; omega
        | some b =>
          have hb := q'.callOld b hi'
          cases hi : it.initAddr with
          | none => have := p2.initNew hi; have := h2 it' (by simp [hm]) b (.inr hi'); omega
          | some a => have := p2.initOld a hi; exact ⟨a, rfl, by congr 1; omega⟩
      · cases hi' : it'.initAddr with
        | none => have := q'.initNew hi'; have := p2.callLt; omega
        | some b =>
          have hb := q'.initOld b hi'
          cases hi : it.callAddr with
          | none => have := p2.callNew hi; have := h2 it' (by simp [hm]) b (.inl hi'); omega
          | some a => have := p2.callOld a hi; exact ⟨b, rfl, by congr 1; omega⟩
    refine ⟨p1.trans q.grown, by simp [q.len], ?_, ?_, ?_⟩
    · rintro (_ | n) it' e' hn he
      · simp at hn he
        subst hn; subst he
        exact first
      · simp at hn he
        exact (q.each n it' e' hn he).earlier p1 (h2 it' (by simp [List.mem_of_getElem? hn]))
    · rintro (_ | n) (_ | n') i1 i2 e1 e2 ha hb hc hd heq
      · exact .inl rfl
      · simp at ha hb hc hd
        subst ha; subst hb
        exact .inr ((apart n' i2 e2 hc hd).1 heq)
      · simp at ha hb hc hd
        subst hc; subst hd
        obtain ⟨a, x, y⟩ := (apart n i1 e1 ha hb).1 heq.symm
        exact .inr ⟨a, y, x⟩
      · simp at ha hb hc hd
        exact (q.inits n n' i1 i2 e1 e2 ha hb hc hd heq).imp_left (congrArg (· + 1))
    · rintro (_ | n) (_ | n') i1 i2 e1 e2 ha hb hc hd heq
      · simp at ha hb hc hd
        subst ha; subst hb; subst hc; subst hd
        exact p3 heq
      · simp at ha hb hc hd
        subst ha; subst hb
        exact (apart n' i2 e2 hc hd).2.1 heq
      · simp at ha hb hc hd
        subst hc; subst hd
        exact (apart n i1 e1 ha hb).2.2 heq
      · simp at ha hb hc hd
        exact q.calls n n' i1 i2 e1 e2 ha hb hc hd heq

/-! ### Setting up with processes -/

/-- The store after optimizers with the dictionaries in `D` were set up, the one after parsing being `σ₁`. -/
structure Used (σ₁ σ : Store V) (D : Nat → Prop) : Prop where
  len : σ.length = σ₁.length
  other : ∀ a k, k ≠ "backend" → dictGet (view σ a) k = dictGet (view σ₁ a) k
  fresh : ∀ a, ¬ D a → dictGet (view σ a) "backend" = dictGet (view σ₁ a) "backend"
  used : ∀ a, D a → dictGet (view σ a) "backend" = none

theorem setUp_used {m : Mode V} (hm : m.processes = true) {σ₁ σ : Store V} {D} (u : Used σ₁ σ D) (e : Entry) (he : e.init < σ₁.length) :
    Used σ₁ (setUp m σ e).1 (fun a => D a ∨ a = e.init) ∧ (setUp m σ e).2.cls = e.cls ∧
    (∀ k, k ≠ "backend" → dictGet (setUp m σ e).2.init k = dictGet (view σ₁ e.init) k) ∧
    dictGet (setUp m σ e).2.init "backend" = none ∧
    (e.init ≠ e.call → ¬ D e.call → ∀ k, dictGet (setUp m σ e).2.call k = dictGet (view σ₁ e.call) k) ∧
    (D e.init → (setUp m σ e).2.backend = m.default) ∧
    (¬ D e.init → (setUp m σ e).2.backend = (dictGet (view σ₁ e.init) "backend").getD m.default) := by
  have hl : e.init < σ.length := u.len ▸ he
  simp only [setUp, hm, if_true]
  cases hb : dictGet (view σ e.init) "backend" with
  | none =>
    refine ⟨⟨u.len, u.other, fun a ha => u.fresh a fun h => ha (.inl h), fun a ha => ?_⟩, rfl, u.other _, hb, fun _ hn k => ?_, fun _ => rfl,
      fun hn => ?_⟩
    · rcases ha with ha | rfl
      · exact u.used a ha
      · exact hb
    · by_cases hk : k = "backend"
      · subst hk; exact u.fresh _ hn
      · exact u.other _ k hk
    · rw [← u.fresh _ hn, hb]; rfl
  | some v =>
    refine ⟨⟨by simp [u.len], fun a k hk => ?_, fun a ha => ?_, fun a ha => ?_⟩, rfl, fun k hk => ?_, ?_, fun hne hn k => ?_, fun hd => ?_,
      fun hn => ?_⟩
    · by_cases ha : e.init = a
      · subst ha; rw [view_set_self hl, dictGet_del_ne _ hk]; exact u.other _ k hk
      · rw [view_set_ne ha]; exact u.other a k hk
    · have : e.init ≠ a := fun h => ha (.inr h.symm)
      rw [view_set_ne this]; exact u.fresh a fun h => ha (.inl h)
    · by_cases h : e.init = a
      · subst h; rw [view_set_self hl, dictGet_del_self]
      · rw [view_set_ne h]
        rcases ha with ha | ha
        · exact u.used a ha
        · exact absurd ha.symm h
    · simp only [view_set_self hl]
      rw [dictGet_del_ne _ hk]; exact u.other _ k hk
    · simp only [view_set_self hl]
      rw [dictGet_del_self]
    · simp only [view_set_ne hne]
      by_cases hk : k = "backend"
      · subst hk; exact u.fresh _ hn
      · exact u.other _ k hk
    · rw [u.used _ hd] at hb; cases hb
    · rw [← u.fresh _ hn, hb]; rfl

/-- An optimizer with this dictionary was chosen before place `n`. -/
def Earlier (es : List Entry) (choices : List Nat) (n : Nat) (a : Nat) : Prop :=
  ∃ n' < n, ∃ j e', choices[n']? = some j ∧ es[j]? = some e' ∧ e'.init = a

theorem processes_spec {m : Mode V} (hm : m.processes = true) (es : List Entry) (σ₁ : Store V)
    (hl : ∀ e ∈ es, e.init < σ₁.length) (hc : ∀ e ∈ es, ∀ e' ∈ es, e.init ≠ e'.call) :
    ∀ (choices : List Nat) (σ : Store V) (D : Nat → Prop), Used σ₁ σ D → (∀ e ∈ es, ¬ D e.call) →
    ∀ (n i : Nat) (e : Entry), choices[n]? = some i → es[i]? = some e →
    ∃ o, (setUpAll m es σ choices).2[n]? = some (some o) ∧ o.cls = e.cls ∧
      (∀ k, k ≠ "backend" → dictGet o.init k = dictGet (view σ₁ e.init) k) ∧ dictGet o.init "backend" = none ∧
      (∀ k, dictGet o.call k = dictGet (view σ₁ e.call) k) ∧
      (D e.init ∨ Earlier es choices n e.init → o.backend = m.default) ∧
      (¬ (D e.init ∨ Earlier es choices n e.init) → o.backend = (dictGet (view σ₁ e.init) "backend").getD m.default)
  | [], _, _, _, _, n, i, e, hn, _ => by simp at hn
  | c :: t, σ, D, u, hd, n, i, e, hn, he => by
    have hmem := List.mem_of_getElem? he
    rcases n with _ | n
    · have hci : c = i := by simpa using hn
      subst hci
      obtain ⟨-, h2, h3, h4, h5, h6, h7⟩ := setUp_used hm u e (hl e hmem)
      refine ⟨(setUp m σ e).2, by simp [setUpAll, he], h2, h3, h4, h5 (hc e hmem e hmem) (hd e hmem), ?_, ?_⟩
      · rintro (h | ⟨n', h, -⟩)
        · exact h6 h
        · omega
      · exact fun h => h7 fun hh => h (.inl hh)
    · have hn' : t[n]? = some i := by simpa using hn
      cases hce : es[c]? with
      | none =>
        obtain ⟨o, h1, h2, h3, h4, h5, h6, h7⟩ := processes_spec hm es σ₁ hl hc t σ D u hd n i e hn' he
        have hiff : Earlier es (c :: t) (n + 1) e.init ↔ Earlier es t n e.init := by
          constructor
          · rintro ⟨_ | n', hlt, j, e', g1, g2, g3⟩
            · have : c = j := by simpa using g1
              rw [← this, hce] at g2; cases g2
            · exact ⟨n', by omega, j, e', by simpa using g1, g2, g3⟩
          · rintro ⟨n', hlt, j, e', g1, g2, g3⟩
            exact ⟨n' + 1, by omega, j, e', by simpa using g1, g2, g3⟩
        refine ⟨o, by simp [setUpAll, hce, h1], h2, h3, h4, h5, ?_, ?_⟩ <;> rw [hiff] <;> assumption
      | some ec =>
        have hcm := List.mem_of_getElem? hce
        obtain ⟨u', -⟩ := setUp_used hm u ec (hl ec hcm)
        obtain ⟨o, h1, h2, h3, h4, h5, h6, h7⟩ := processes_spec hm es σ₁ hl hc t (setUp m σ ec).1 _ u'
          (fun e' h' hh => hh.elim (hd e' h') fun hq => hc ec hcm e' h' hq.symm) n i e hn' he
        have hiff : (D e.init ∨ Earlier es (c :: t) (n + 1) e.init) ↔ ((D e.init ∨ e.init = ec.init) ∨ Earlier es t n e.init) := by
          constructor
          · rintro (h | ⟨_ | n', hlt, j, e', g1, g2, g3⟩)
            · exact .inl (.inl h)
            · have : c = j := by simpa using g1
              rw [← this, hce] at g2
              cases g2
              exact .inl (.inr g3.symm)
            · exact .inr ⟨n', by omega, j, e', by simpa using g1, g2, g3⟩
          · rintro ((h | h) | ⟨n', hlt, j, e', g1, g2, g3⟩)
            · exact .inl h
            · exact .inr ⟨0, by omega, c, ec, rfl, hce, h.symm⟩
            · exact .inr ⟨n' + 1, by omega, j, e', by simpa using g1, g2, g3⟩
        refine ⟨o, by simp [setUpAll, hce, h1], h2, h3, h4, h5, ?_, ?_⟩ <;> rw [hiff] <;> assumption

/-! ### Setting up with threads -/

theorem setUp_threads {m : Mode V} (hm : m.processes = false) (σ : Store V) (e : Entry) :
    (σ.length ≤ (setUp m σ e).1.length ∧ ∀ a < σ.length, view (setUp m σ e).1 a = view σ a) ∧ (setUp m σ e).2.cls = e.cls ∧
    (∀ k, k ≠ "backend" → dictGet (setUp m σ e).2.init k = dictGet (view σ e.init) k) ∧
    dictGet (setUp m σ e).2.init "backend" = none ∧ (setUp m σ e).2.call = view σ e.call ∧
    (setUp m σ e).2.backend = (dictGet (view σ e.init) "backend").getD m.default := by
  have v0 : view (σ ++ [view σ e.init, view σ e.call]) σ.length = view σ e.init := view_append_right (τ := [_, _]) 0
  have v1 : view (σ ++ [view σ e.init, view σ e.call]) (σ.length + 1) = view σ e.call := view_append_right (τ := [_, _]) 1
  have hl : σ.length < (σ ++ [view σ e.init, view σ e.call]).length := by simp
  simp only [setUp, hm, Bool.false_eq_true, if_false, v0]
  cases hb : dictGet (view σ e.init) "backend" with
  | none => exact ⟨⟨by simp, fun a ha => view_append_left ha⟩, rfl, fun k _ => rfl, hb, v1, rfl⟩
  | some v =>
    refine ⟨⟨by simp, fun a ha => ?_⟩, rfl, fun k hk => ?_, ?_, ?_, rfl⟩
    · rw [view_set_ne (by omega)]; exact view_append_left ha
    · simp only [view_set_self hl]; rw [dictGet_del_ne _ hk]
    · simp only [view_set_self hl]; rw [dictGet_del_self]
    · simp only []
      rw [view_set_ne (by omega)]; exact v1

theorem threads_spec {m : Mode V} (hm : m.processes = false) (es : List Entry) (σ₁ : Store V)
    (hl : ∀ e ∈ es, e.init < σ₁.length ∧ e.call < σ₁.length) :
    ∀ (choices : List Nat) (σ : Store V), σ₁.length ≤ σ.length → (∀ a < σ₁.length, view σ a = view σ₁ a) →
    (∀ a < σ₁.length, view (setUpAll m es σ choices).1 a = view σ₁ a) ∧
    ∀ (n i : Nat) (e : Entry), choices[n]? = some i → es[i]? = some e →
    ∃ o, (setUpAll m es σ choices).2[n]? = some (some o) ∧ o.cls = e.cls ∧
      (∀ k, k ≠ "backend" → dictGet o.init k = dictGet (view σ₁ e.init) k) ∧ dictGet o.init "backend" = none ∧
      (∀ k, dictGet o.call k = dictGet (view σ₁ e.call) k) ∧ o.backend = (dictGet (view σ₁ e.init) "backend").getD m.default
  | [], σ, _, hv => ⟨hv, fun n i e hn _ => by simp at hn⟩
  | c :: t, σ, hle, hv => by
    cases hce : es[c]? with
    | none =>
      obtain ⟨h1, h2⟩ := threads_spec hm es σ₁ hl t σ hle hv
      refine ⟨by simpa [setUpAll, hce] using h1, fun n i e hn he => ?_⟩
      rcases n with _ | n
      · have : c = i := by simpa using hn
        rw [this, he] at hce; cases hce
      · obtain ⟨o, h3, h4⟩ := h2 n i e (by simpa using hn) he
        exact ⟨o, by simp [setUpAll, hce, h3], h4⟩
    | some ec =>
      obtain ⟨⟨g1, g2⟩, -⟩ := setUp_threads hm σ ec
      obtain ⟨h1, h2⟩ := threads_spec hm es σ₁ hl t (setUp m σ ec).1 (hle.trans g1)
        fun a ha => (g2 a (ha.trans_le hle)).trans (hv a ha)
      refine ⟨by simpa [setUpAll, hce] using h1, fun n i e hn he => ?_⟩
      rcases n with _ | n
      · have : c = i := by simpa using hn
        subst this
        obtain rfl : e = ec := Option.some.inj (he.symm.trans hce)
        obtain ⟨l1, l2⟩ := hl e (List.mem_of_getElem? he)
        obtain ⟨-, q1, q2, q3, q4, q5⟩ := setUp_threads hm σ e
        refine ⟨(setUp m σ e).2, by simp [setUpAll, he], q1, fun k hk => ?_, q3, fun k => ?_, ?_⟩
        · rw [q2 k hk, hv _ l1]
        · rw [q4, hv _ l2]
        · rw [q5, hv _ l1]
      · obtain ⟨o, h3, h4⟩ := h2 n i e (by simpa using hn) he
        exact ⟨o, by simp [setUpAll, hce, h3], h4⟩

end Glompo.Spawn
