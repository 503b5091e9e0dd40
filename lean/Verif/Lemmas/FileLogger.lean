import Verif.Lemmas.LoggerHist
import Verif.Spec.FileLogger

namespace Glompo

open Spec
open Glompo.Logger (Op)
open Glompo.FileLogger

namespace Spec

theorem toOps_append (a b : List FOp) : toOps (a ++ b) = toOps a ++ toOps b := by simp [toOps]

theorem rowsOf_snoc (es : List IterRes) (r : IterRes) (i : Nat) :
    rowsOf (es ++ [r]) i = rowsOf es i ++
      if r.optId = i then [{ callId := es.length + 1, x := r.x, fx := r.fx, extras := r.extras }] else [] := by
  simp only [rowsOf, List.zipIdx_append, List.filter_append, List.map_append]
  by_cases h : r.optId = i <;> simp [h, Nat.add_comm]

theorem rowsOf_nil_iff (es : List IterRes) (i : Nat) : rowsOf es i = [] ↔ evalsOf es i = [] := by
  induction es using snoc_induction with
  | h0 => simp [rowsOf, evalsOf]
  | hs l a ih =>
    rw [rowsOf_snoc, evalsOf_snoc]
    by_cases h : a.optId = i <;> simp [h, ih]

theorem Released.mono {ops : List FOp} {i : Nat} (op : FOp) (h : Released ops i) : Released (ops ++ [op]) i := by
  rcases h with h | h | h
  · exact Or.inl (List.mem_append_left _ h)
  · exact Or.inr (Or.inl (List.mem_append_left _ h))
  · exact Or.inr (Or.inr (List.mem_append_left _ h))

theorem FWellFormed.init {ops : List FOp} {op : FOp} (h : FWellFormed (ops ++ [op])) : FWellFormed ops := by
  refine ⟨?_, fun pre o post e => h.2 pre o (post ++ [op]) (by simp [e])⟩
  intro pre o post e
  have := h.1
  rw [toOps_append] at this
  exact this pre o (post ++ toOps [op]) (by simp [e])

theorem FWellFormed.lastOp {ops : List FOp} {op : FOp} {o : Op} (h : FWellFormed (ops ++ [op]))
    (ho : toOps [op] = [o]) : OpOk (toOps ops) o := by
  have := h.1
  rw [toOps_append, ho] at this
  exact this.last

theorem mem_opened {ops : List Op} {i : Nat} : i ∈ opened ops ↔ ∃ t, Op.addHist i t ∈ ops := by
  simp only [opened, List.mem_filterMap]
  constructor
  · rintro ⟨op, h, he⟩
    cases op <;> simp at he
    subst he; exact ⟨_, h⟩
  · rintro ⟨t, h⟩; exact ⟨_, h, by simp⟩

theorem mem_toOps_addHist {ops : List FOp} {i : Nat} {hs : List String} :
    Op.addHist i hs ∈ toOps ops ↔ FOp.addHist i hs ∈ ops := by
  simp only [toOps, List.mem_filterMap]
  constructor
  · rintro ⟨op, h, he⟩
    cases op <;> simp at he
    obtain ⟨rfl, rfl⟩ := he; exact h
  · intro h; exact ⟨_, h, by simp⟩

/-- Appending one evaluation or registration of the right kind keeps a history well formed. -/
theorem WellFormed.snoc {ops : List Op} {op : Op} (h : WellFormed ops) (ho : OpOk ops op) :
    WellFormed (ops ++ [op]) := by
  intro pre o post e
  by_cases hp : post = []
  · subst hp
    have h1 := List.append_inj_left' e (by simp)
    have h2 := List.append_inj_right' e (by simp)
    simp at h2; subst h1; subst h2; exact ho
  · obtain ⟨post', x, hx⟩ : ∃ post' x, post = post' ++ [x] :=
      ⟨post.dropLast, post.getLast hp, (List.dropLast_concat_getLast hp).symm⟩
    subst hx
    have e' : ops ++ [op] = (pre ++ o :: post') ++ [x] := by simp [e]
    have h1 := List.append_inj_left' e' (by simp)
    exact h pre o post' h1

end Spec

namespace FileLogger

theorem run_snoc (s : FileLogger) (a : List FOp) (op : FOp) : s.run (a ++ [op]) = ((s.run a).step op).1 := by
  simp [run]

/-- State of the table and buffer of one optimizer. `hs` are its extra columns once its history is opened. -/
def FileOk (hs : Option (List String)) (added rel : Prop) (rows : List Row) (tb : Option Table)
    (ch : Option (List Row)) : Prop :=
  match hs with
  | none => tb = none ∧ rows = [] ∧ (ch = some [] ∨ (ch = none ∧ (added → rel)))
  | some hs => ∃ t, tb = some t ∧ t.extraHeaders = hs ∧
      ((∃ c, ch = some c ∧ t.rows ++ c = rows) ∨ (rel ∧ ch = none ∧ t.rows = rows))

/-- `FileOk` for all optimizers. -/
def AllOk (hs : Nat → Option (List String)) (added rel : Nat → Prop) (rows : Nat → List Row) (s : FileLogger) : Prop :=
  ∀ i, FileOk (hs i) (added i) (rel i) (rows i) (dictGet s.tables i) (dictGet s.chunk i)

theorem flush1_ok {hs : Nat → Option (List String)} {added rel : Nat → Prop} {rows : Nat → List Row} {s : FileLogger}
    (h : AllOk hs added rel rows s) (o : Nat) :
    AllOk hs added rel rows (s.flush1 o).1 ∧ (s.flush1 o).1.base = s.base ∧
    (s.flush1 o).1.groups = s.groups ∧ (s.flush1 o).1.oCounter = s.oCounter ∧
    (s.flush1 o).1.est = s.est ∧
    (s.flush1 o).1.chunk.map (·.1) = s.chunk.map (·.1) ∧
    ((dictGet s.chunk o).isSome → (s.flush1 o).2 = none ∧ dictGet (s.flush1 o).1.chunk o = some []) ∧
    (∀ i, i ≠ o → dictGet (s.flush1 o).1.chunk i = dictGet s.chunk i) := by
  simp only [flush1]
  cases hc : dictGet s.chunk o with
  | none => simp; exact h
  | some c =>
    by_cases hl : c.length > 0
    · simp only [hl, if_true]
      have ho := h o
      rw [hc] at ho
      cases hh : hs o with
      | none =>
        rw [hh] at ho
        obtain ⟨h1, h2, h3⟩ := ho
        rcases h3 with h3 | h3
        · cases h3; simp at hl
        · cases h3.1
      | some hd =>
        rw [hh] at ho
        obtain ⟨t, h1, h2, h3⟩ := ho
        rcases h3 with ⟨c', h3, h4⟩ | ⟨-, h3, -⟩
        · cases h3
          simp only [h1]
          refine ⟨?_, by trivial, by trivial, by trivial, by trivial, ?_, by simp, fun i hi => dictGet_set_ne _ _ hi⟩
          · intro i
            by_cases hi : i = o
            · subst hi
              simp only [dictGet_set_self, hh]
              exact ⟨_, rfl, h2, Or.inl ⟨[], rfl, by simp [h4]⟩⟩
            · simp only []
              rw [dictGet_set_ne _ _ hi, dictGet_set_ne _ _ hi]; exact h i
          · rw [dictSet_keys, if_pos]
            rw [← dictGet_isSome_iff, hc]; rfl
        · cases h3
    · simp only [hl, if_false]
      refine ⟨h, by trivial, by trivial, by trivial, by trivial, by trivial, fun _ => ⟨by trivial, ?_⟩, fun _ _ => by trivial⟩
      rw [hc]; cases c with
      | nil => rfl
      | cons a t => simp at hl

theorem flushList_ok {hs : Nat → Option (List String)} {added rel : Nat → Prop} {rows : Nat → List Row}
    (os : List Nat) : ∀ {s : FileLogger}, AllOk hs added rel rows s →
    AllOk hs added rel rows (s.flushList os).1 ∧ (s.flushList os).1.base = s.base ∧
    (s.flushList os).1.groups = s.groups ∧ (s.flushList os).1.oCounter = s.oCounter ∧
    (s.flushList os).1.chunk.map (·.1) = s.chunk.map (·.1) ∧
    ((∀ o ∈ os, (dictGet s.chunk o).isSome) → (s.flushList os).2 = none ∧
      (∀ o ∈ os, dictGet (s.flushList os).1.chunk o = some [])) ∧
    (∀ i, dictGet s.chunk i = some [] → dictGet (s.flushList os).1.chunk i = some []) := by
  induction os with
  | nil => intro s h; simp [flushList]; exact h
  | cons o os ih =>
    intro s h
    obtain ⟨a1, a2, a3, a4, -, a5, a6, a7⟩ := flush1_ok h o
    simp only [flushList]
    generalize hr : s.flush1 o = r at a1 a2 a3 a4 a5 a6 a7
    obtain ⟨s', e⟩ := r
    simp only at a1 a2 a3 a4 a5 a6 a7
    have hpres : ∀ i, dictGet s.chunk i = some [] → dictGet s'.chunk i = some [] := by
      intro i hi
      by_cases hio : i = o
      · subst hio; exact (a6 (by rw [hi]; rfl)).2
      · rw [a7 i hio]; exact hi
    cases e with
    | none =>
      simp only []
      obtain ⟨b1, b2, b3, b4, b5, b6, b7⟩ := ih a1
      refine ⟨b1, b2.trans a2, b3.trans a3, b4.trans a4, b5.trans a5, ?_, fun i hi => b7 i (hpres i hi)⟩
      intro hall
      have hall' : ∀ o' ∈ os, (dictGet s'.chunk o').isSome := by
        intro o' ho'
        rw [dictGet_isSome_iff, a5, ← dictGet_isSome_iff]
        exact hall o' (List.mem_cons_of_mem _ ho')
      refine ⟨(b6 hall').1, ?_⟩
      intro o' ho'
      rcases List.mem_cons.mp ho' with rfl | ho'
      · exact b7 _ (a6 (hall _ (List.mem_cons_self))).2
      · exact (b6 hall').2 o' ho'
    | some err =>
      simp only []
      refine ⟨a1, a2, a3, a4, a5, ?_, hpres⟩
      intro hall
      have := (a6 (hall o (List.mem_cons_self))).1
      cases this

theorem flush_ok {hs : Nat → Option (List String)} {added rel : Nat → Prop} {rows : Nat → List Row}
    {s : FileLogger} (h : AllOk hs added rel rows s) (i : Option Nat) :
    AllOk hs added rel rows (s.flush i).1 ∧ (s.flush i).1.base = s.base ∧
    (s.flush i).1.groups = s.groups ∧ (s.flush i).1.oCounter = s.oCounter := by
  have key : ∀ os, AllOk hs added rel rows (s.flushList os).1 ∧ (s.flushList os).1.base = s.base ∧
    (s.flushList os).1.groups = s.groups ∧ (s.flushList os).1.oCounter = s.oCounter := by
    intro os
    obtain ⟨h1, h2, h3, h4, -⟩ := flushList_ok os h
    exact ⟨h1, h2, h3, h4⟩
  match i with
  | none => exact key _
  | some 0 => exact key _
  | some (n + 1) => exact key _

/-- Reading a history may flush but keeps everything else. -/
theorem getHistory_ok {hs : Nat → Option (List String)} {added rel : Nat → Prop} {rows : Nat → List Row}
    {s : FileLogger} (h : AllOk hs added rel rows s) (i : Nat) (k : String) :
    AllOk hs added rel rows (s.getHistory i k).1 ∧ (s.getHistory i k).1.base = s.base ∧
    (s.getHistory i k).1.groups = s.groups ∧ (s.getHistory i k).1.oCounter = s.oCounter := by
  simp only [getHistory]
  split
  · exact ⟨h, rfl, rfl, rfl⟩
  · split
    · have := flush_ok h (some i)
      generalize s.flush (some i) = r at this
      obtain ⟨s', e⟩ := r
      cases e with
      | some e => exact this
      | none =>
        simp only []
        split
        · exact this
        · split <;> exact this
    · exact ⟨h, rfl, rfl, rfl⟩

/-- The base logger of a file logger history is the result of an ordinary logger history with the same evaluations,
registrations and openings, whose clearings are among the releases. -/
def BaseOk (traj : Bool) (ops : List FOp) (rel : Nat → Prop) (b : Logger) : Prop :=
  ∃ bops, WellFormed bops ∧ b = (Logger.init traj).run bops ∧ evals bops = evals (toOps ops) ∧
    (added bops = added (toOps ops)) ∧ (opened bops = opened (toOps ops)) ∧
    (∀ i, Cleared bops i → rel i)

/-- What one `clear_cache` pass does. -/
theorem clear1_ok {hs : Nat → Option (List String)} {added rel : Nat → Prop} {rows : Nat → List Row}
    {s : FileLogger} (h : AllOk hs added rel rows s) (o : Nat) (ho : rel o) :
    AllOk hs added rel rows (s.clear1 o).1 ∧ (s.clear1 o).1.groups = s.groups ∧
    (s.clear1 o).1.oCounter = s.oCounter ∧
    ((s.clear1 o).1.base = s.base ∨ (s.clear1 o).1.base = (s.base.clearCache (some o)).1) := by
  simp only [clear1]
  obtain ⟨a1, a2, a3, a4, -, a5, a6, a7⟩ := flush1_ok h o
  generalize hf : s.flush1 o = r at a1 a2 a3 a4 a5 a6 a7
  obtain ⟨s', e⟩ := r
  simp only at a1 a2 a3 a4 a5 a6 a7
  have fin : ∀ (q : FileLogger), AllOk hs added rel rows q → q.groups = s.groups → q.oCounter = s.oCounter →
      q.base = s.base →
      AllOk hs added rel rows (if (dictGet q.base.storage o).isSome = true then
          ({ q with base := (q.base.clearCache (some o)).1 }, (q.base.clearCache (some o)).2) else (q, none)).1 ∧
      (if (dictGet q.base.storage o).isSome = true then
          ({ q with base := (q.base.clearCache (some o)).1 }, (q.base.clearCache (some o)).2) else (q, none)).1.groups
          = s.groups ∧
      (if (dictGet q.base.storage o).isSome = true then
          ({ q with base := (q.base.clearCache (some o)).1 }, (q.base.clearCache (some o)).2) else (q, none)).1.oCounter
          = s.oCounter ∧
      ((if (dictGet q.base.storage o).isSome = true then
          ({ q with base := (q.base.clearCache (some o)).1 }, (q.base.clearCache (some o)).2) else (q, none)).1.base
          = s.base ∨
       (if (dictGet q.base.storage o).isSome = true then
          ({ q with base := (q.base.clearCache (some o)).1 }, (q.base.clearCache (some o)).2) else (q, none)).1.base
          = (s.base.clearCache (some o)).1) := by
    intro q h1 h2 h3 h4
    split
    · exact ⟨h1, h2, h3, Or.inr (by rw [h4])⟩
    · exact ⟨h1, h2, h3, Or.inl h4⟩
  cases hc : dictGet s.chunk o with
  | none =>
    simp only [Option.isSome_none, Bool.false_eq_true, if_false]
    exact fin s h rfl rfl rfl
  | some c =>
    simp only [Option.isSome_some, if_true]
    obtain ⟨b1, b2⟩ := a6 (by rw [hc]; rfl)
    subst b1
    simp only []
    refine fin { s' with chunk := dictDel s'.chunk o } ?_ a3 a4 a2
    intro i
    by_cases hi : i = o
    · subst hi
      have hi := a1 i
      simp only []
      rw [b2] at hi
      rw [dictGet_del_self]
      cases hh : hs i with
      | none =>
        rw [hh] at hi
        exact ⟨hi.1, hi.2.1, Or.inr ⟨rfl, fun _ => ho⟩⟩
      | some hd =>
        rw [hh] at hi
        obtain ⟨t, h1, h2, h3⟩ := hi
        rcases h3 with ⟨c', h3, h4⟩ | ⟨-, h3, -⟩
        · cases h3
          exact ⟨t, h1, h2, Or.inr ⟨ho, rfl, by simpa using h4⟩⟩
        · cases h3
    · simp only []
      rw [dictGet_del_ne _ hi]; exact a1 i

theorem clearList_ok {hs : Nat → Option (List String)} {added rel : Nat → Prop} {rows : Nat → List Row}
    (os : List Nat) : ∀ {s : FileLogger}, AllOk hs added rel rows s → (∀ o ∈ os, rel o ∧ o ≠ 0) →
    AllOk hs added rel rows (s.clearList os).1 ∧ (s.clearList os).1.groups = s.groups ∧
    (s.clearList os).1.oCounter = s.oCounter ∧
    ∃ ks : List Nat, (∀ k ∈ ks, k ∈ os) ∧
      (s.clearList os).1.base = s.base.run (ks.map fun k => Op.clear (some k)) := by
  induction os with
  | nil => intro s h _; exact ⟨h, rfl, rfl, [], by simp, by simp [clearList, Logger.run]⟩
  | cons o os ih =>
    intro s h hr
    obtain ⟨a1, a2, a3, a4⟩ := clear1_ok h o (hr o (List.mem_cons_self)).1
    simp only [clearList]
    generalize s.clear1 o = r at a1 a2 a3 a4
    obtain ⟨s', e⟩ := r
    simp only at a1 a2 a3 a4
    have hk : ∃ ks : List Nat, (∀ k ∈ ks, k = o) ∧ s'.base = s.base.run (ks.map fun k => Op.clear (some k)) := by
      rcases a4 with h | h
      · exact ⟨[], by simp, by simp [Logger.run, h]⟩
      · exact ⟨[o], by simp, by simp [Logger.run, Logger.step, h]⟩
    obtain ⟨ks, hk1, hk2⟩ := hk
    cases e with
    | some e =>
      refine ⟨a1, a2, a3, ks, ?_, hk2⟩
      intro k hk; rw [hk1 k hk]; exact List.mem_cons_self
    | none =>
      obtain ⟨b1, b2, b3, ks', b4, b5⟩ := ih a1 (fun o' ho' => hr o' (List.mem_cons_of_mem _ ho'))
      refine ⟨b1, b2.trans a2, b3.trans a3, ks ++ ks', ?_, ?_⟩
      · intro k hk
        rcases List.mem_append.mp hk with hk | hk
        · rw [hk1 k hk]; exact List.mem_cons_self
        · exact List.mem_cons_of_mem _ (b4 k hk)
      · simp only [List.map_append]
        rw [Logger.run_append, ← hk2]; exact b5

/-- The extra columns with which the history of optimizer `i` was opened. -/
def headersOf (ops : List FOp) (i : Nat) : Option (List String) :=
  ops.findSome? fun op => match op with
    | .addHist j hs => if j = i then some hs else none
    | _ => none

theorem headersOf_append (a b : List FOp) (i : Nat) : headersOf (a ++ b) i = (headersOf a i).or (headersOf b i) := by
  simp [headersOf]

theorem headersOf_none {ops : List FOp} {i : Nat} : headersOf ops i = none ↔ i ∉ opened (toOps ops) := by
  rw [mem_opened]
  simp only [mem_toOps_addHist, headersOf, List.findSome?_eq_none_iff]
  constructor
  · rintro h ⟨hs, hm⟩
    have := h _ hm
    simp at this
  · intro h op hop
    cases op <;> simp
    rename_i j hs
    intro e; subst e; exact h ⟨hs, hop⟩

structure FInv (traj : Bool) (ops : List FOp) (s : FileLogger) : Prop where
  base : BaseOk traj ops (Released ops) s.base
  groups : ∀ i, i ∈ s.groups ↔ i ∈ added (toOps ops)
  all : AllOk (headersOf ops) (fun i => i ∈ added (toOps ops)) (Released ops) (rowsOf (evals (toOps ops))) s

theorem FileOk.mono {hs : Option (List String)} {added added' rel rel' : Prop} {rows : List Row} {tb : Option Table}
    {ch : Option (List Row)} (h : FileOk hs added rel rows tb ch) (ha : added' → added) (hr : rel → rel') :
    FileOk hs added' rel' rows tb ch := by
  cases hs with
  | none => exact ⟨h.1, h.2.1, h.2.2.imp id (fun q => ⟨q.1, fun a => hr (q.2 (ha a))⟩)⟩
  | some hs =>
    obtain ⟨t, h1, h2, h3⟩ := h
    exact ⟨t, h1, h2, h3.imp id (fun q => ⟨hr q.1, q.2⟩)⟩

theorem BaseOk.mono {traj : Bool} {ops ops' : List FOp} {rel rel' : Nat → Prop} {b : Logger}
    (h : BaseOk traj ops rel b) (he : evals (toOps ops') = evals (toOps ops))
    (ha : added (toOps ops') = added (toOps ops)) (ho : opened (toOps ops') = opened (toOps ops))
    (hr : ∀ i, rel i → rel' i) : BaseOk traj ops' rel' b := by
  obtain ⟨bops, h1, h2, h3, h4, h5, h6⟩ := h
  exact ⟨bops, h1, h2, h3.trans he.symm, h4.trans ha.symm, h5.trans ho.symm, fun i hi => hr i (h6 i hi)⟩

/-- Clearing keeps the base logger an ordinary history. -/
theorem BaseOk.clears {traj : Bool} {ops : List FOp} {rel : Nat → Prop} {b : Logger} (h : BaseOk traj ops rel b)
    (ks : List Nat) (hk : ∀ k ∈ ks, k ≠ 0 ∧ rel k) :
    BaseOk traj ops rel (b.run (ks.map fun k => Op.clear (some k))) := by
  induction ks generalizing b with
  | nil => simpa [Logger.run] using h
  | cons k ks ih =>
    have : b.run ((k :: ks).map fun k => Op.clear (some k)) =
        (b.run [Op.clear (some k)]).run (ks.map fun k => Op.clear (some k)) := by
      rw [← Logger.run_append]; rfl
    rw [this]
    refine ih ?_ (fun k' hk' => hk k' (List.mem_cons_of_mem _ hk'))
    obtain ⟨bops, h1, h2, h3, h4, h5, h6⟩ := h
    refine ⟨bops ++ [Op.clear (some k)], h1.snoc trivial, by rw [Logger.run_append, h2], ?_, ?_, ?_, ?_⟩
    · rw [evals_append, h3]; simp [evals]
    · rw [added_append, h4]; simp [added]
    · rw [opened_append, h5]; simp [opened]
    · intro i hi
      have hk0 := hk k (List.mem_cons_self)
      rcases hi with hi | hi | hi
      · simp at hi; exact h6 i (Or.inl hi)
      · simp at hi
        rcases hi with hi | hi
        · exact h6 i (Or.inr (Or.inl hi))
        · exact absurd hi.symm hk0.1
      · simp at hi
        rcases hi with hi | hi
        · exact h6 i (Or.inr (Or.inr hi))
        · subst hi; exact hk0.2

/-- One operation keeps the invariant. -/
theorem finv_step {traj : Bool} {l : List FOp} {op : FOp} {s : FileLogger} (ih : FInv traj l s)
    (h : FWellFormed (l ++ [op])) : FInv traj (l ++ [op]) (s.step op).1 := by
  cases op with
  | flush i =>
    have e : toOps (l ++ [FOp.flush i]) = toOps l := by simp [toOps]
    have eh : headersOf (l ++ [FOp.flush i]) = headersOf l := by
      funext j; rw [headersOf_append]; simp [headersOf]
    obtain ⟨a1, a2, a3, a4⟩ := flush_ok ih.all i
    refine ⟨?_, ?_, ?_⟩
    · simp only [step]; rw [a2]
      exact ih.base.mono (by rw [e]) (by rw [e]) (by rw [e]) (fun i hi => hi.mono _)
    · intro j; simp only [step]; rw [a3, e]; exact ih.groups j
    · rw [e, eh]; intro j; exact (a1 j).mono id (fun hi => hi.mono _)
  | read i k =>
    have e : toOps (l ++ [FOp.read i k]) = toOps l := by simp [toOps]
    have eh : headersOf (l ++ [FOp.read i k]) = headersOf l := by
      funext j; rw [headersOf_append]; simp [headersOf]
    obtain ⟨a1, a2, a3, a4⟩ := getHistory_ok ih.all i k
    refine ⟨?_, ?_, ?_⟩
    · simp only [step]; rw [a2]
      exact ih.base.mono (by rw [e]) (by rw [e]) (by rw [e]) (fun i hi => hi.mono _)
    · intro j; simp only [step]; rw [a3, e]; exact ih.groups j
    · rw [e, eh]; intro j; exact (a1 j).mono id (fun hi => hi.mono _)
  | add i t =>
    have hl := h.lastOp (o := .add i t) rfl
    simp only [OpOk] at hl
    have e : toOps (l ++ [FOp.add i t]) = toOps l ++ [Op.add i t] := by simp [toOps]
    have eh : headersOf (l ++ [FOp.add i t]) = headersOf l := by
      funext j; rw [headersOf_append]; simp [headersOf]
    have hg : i ∉ s.groups := fun hh => hl.2 ((ih.groups i).mp hh)
    simp only [step, addOptimizer, hg, if_false]
    obtain ⟨bops, h1, h2, h3, h4, h5, h6⟩ := ih.base
    refine ⟨⟨bops ++ [Op.add i t], h1.snoc ⟨hl.1, by rw [h4]; exact hl.2⟩, ?_, ?_, ?_, ?_, ?_⟩, ?_, ?_⟩
    · rw [Logger.run_snoc, h2]; rfl
    · rw [e, evals_append, evals_append, h3]
    · rw [e, added_append, added_append, h4]
    · rw [e, opened_append, opened_append, h5]
    · intro j hj
      refine (h6 j ?_).mono _
      rcases hj with hj | hj | hj <;> simp at hj
      · exact Or.inl hj
      · exact Or.inr (Or.inl hj)
      · exact Or.inr (Or.inr hj)
    · intro j; rw [e, added_append]; simp [ih.groups j, added]
    · rw [eh, e]
      have hev : evals (toOps l ++ [Op.add i t]) = evals (toOps l) := by simp [evals]
      rw [hev]
      intro j
      simp only []
      by_cases hj : j = i
      · subst hj
        have hno : headersOf l j = none := by
          rw [headersOf_none]
          intro hh
          obtain ⟨hs, hm⟩ := mem_opened.mp hh
          obtain ⟨pre, post, e2⟩ := List.append_of_mem hm
          have := h.init.1 pre _ post e2
          simp only [OpOk] at this
          apply hl.2; rw [e2, added_append]; exact List.mem_append_left _ this.1
        have := ih.all j
        rw [hno] at this ⊢
        exact ⟨this.1, this.2.1, Or.inl (dictGet_set_self _ _ _)⟩
      · rw [dictGet_set_ne _ _ hj]
        refine (ih.all j).mono (fun hh => ?_) (fun hi => hi.mono _)
        rw [added_append] at hh
        rcases List.mem_append.mp hh with hh | hh
        · exact hh
        · simp [added] at hh; exact absurd hh hj
  | addHist i hs =>
    have hl := h.lastOp (o := .addHist i hs) rfl
    simp only [OpOk] at hl
    have hrel := (h.2 l _ [] rfl).2 i hs rfl
    have e : toOps (l ++ [FOp.addHist i hs]) = toOps l ++ [Op.addHist i hs] := by simp [toOps]
    obtain ⟨bops, h1, h2, h3, h4, h5, h6⟩ := ih.base
    have hh : headersOf l i = none := headersOf_none.mpr hl.2
    have hok := ih.all i
    rw [hh] at hok
    have hnc : ¬ Cleared bops i := fun hc => hrel (h6 i hc)
    obtain ⟨st, g1, g2, -⟩ := (Logger.histInv_run traj bops i h1 (Or.inr hnc)).fresh
      (by rw [h4]; exact hl.1) (by rw [h5]; exact hl.2)
    rw [← h2] at g1
    have herr : (s.base.addIterHistory i []).2 = none := by simp [Logger.addIterHistory, g1]
    have hcond : i ∈ s.groups ∧ s.hasIterHistory i = false :=
      ⟨(ih.groups i).mpr hl.1, by simp [hasIterHistory, hok.1]⟩
    simp only [step, addIterHistory, herr, hcond, and_self, if_true]
    have hev : evals (toOps l ++ [Op.addHist i hs]) = evals (toOps l) := by simp [evals]
    refine ⟨⟨bops ++ [Op.addHist i []], h1.snoc ⟨by rw [h4]; exact hl.1, by rw [h5]; exact hl.2⟩,
      ?_, ?_, ?_, ?_, ?_⟩, ?_, ?_⟩
    · rw [Logger.run_snoc, h2]; rfl
    · rw [e, evals_append, evals_append, h3]; simp [evals]
    · rw [e, added_append, added_append, h4]; simp [added]
    · rw [e, opened_append, opened_append, h5]; simp [opened]
    · intro j hj
      refine (h6 j ?_).mono _
      rcases hj with hj | hj | hj <;> simp at hj
      · exact Or.inl hj
      · exact Or.inr (Or.inl hj)
      · exact Or.inr (Or.inr hj)
    · intro j; rw [e, added_append]; simp [ih.groups j, added]
    · rw [e, hev]
      intro j
      simp only []
      rw [headersOf_append]
      by_cases hj : j = i
      · subst hj
        have h7 : headersOf [FOp.addHist j hs] j = some hs := by simp [headersOf]
        rw [hh, h7, dictGet_set_self]
        refine ⟨_, rfl, rfl, Or.inl ?_⟩
        rcases hok.2.2 with hc | ⟨hc, hc2⟩
        · exact ⟨[], hc, by rw [hok.2.1]; rfl⟩
        · exact absurd (hc2 hl.1) hrel
      · have h7 : headersOf [FOp.addHist i hs] j = none := by simp [headersOf, Ne.symm hj]
        rw [h7, dictGet_set_ne _ _ hj, Option.or_none]
        refine (ih.all j).mono (fun hh => ?_) (fun hi => hi.mono _)
        rw [added_append] at hh; simpa [added] using hh
  | put r n =>
    have hl := h.lastOp (o := .put r) rfl
    simp only [OpOk] at hl
    have hrel := (h.2 l _ [] rfl).1 r n rfl
    have e : toOps (l ++ [FOp.put r n]) = toOps l ++ [Op.put r] := by simp [toOps]
    have eh : headersOf (l ++ [FOp.put r n]) = headersOf l := by
      funext j; rw [headersOf_append]; simp [headersOf]
    have hev : evals (toOps l ++ [Op.put r]) = evals (toOps l) ++ [r] := by simp [evals]
    have had : added (toOps l ++ [Op.put r]) = added (toOps l) := by simp [added]
    obtain ⟨bops, h1, h2, h3, h4, h5, h6⟩ := ih.base
    have hbase : BaseOk traj (l ++ [FOp.put r n]) (Released (l ++ [FOp.put r n])) (s.base.putIteration r).1 := by
      refine ⟨bops ++ [Op.put r], h1.snoc ⟨by rw [h4]; exact hl.1, by rw [h5]; exact hl.2⟩, ?_, ?_, ?_, ?_, ?_⟩
      · rw [Logger.run_snoc, h2]; rfl
      · rw [e, evals_append, evals_append, h3]
      · rw [e, added_append, added_append, h4]
      · rw [e, opened_append, opened_append, h5]
      · intro j hj
        refine (h6 j ?_).mono _
        rcases hj with hj | hj | hj <;> simp at hj
        · exact Or.inl hj
        · exact Or.inr (Or.inl hj)
        · exact Or.inr (Or.inr hj)
    have hcount : (s.base.putIteration r).1.fCounter = (evals (toOps l)).length + 1 := by
      have hb := Logger.bestInv_run traj (bops ++ [Op.put r])
        (h1.snoc ⟨by rw [h4]; exact hl.1, by rw [h5]; exact hl.2⟩)
      have hb := hb.count
      rw [Logger.run_snoc, ← h2, evals_append, h3] at hb
      simpa [evals, Logger.step] using hb
    obtain ⟨hs, hhs⟩ : ∃ hs, headersOf l r.optId = some hs := by
      cases hq : headersOf l r.optId with
      | none => exact absurd hl.2 (headersOf_none.mp hq)
      | some hs => exact ⟨hs, rfl⟩
    have hok := ih.all r.optId
    rw [hhs] at hok
    obtain ⟨t, t1, t2, t3⟩ := hok
    obtain ⟨c, t3, t4⟩ : ∃ c, dictGet s.chunk r.optId = some c ∧ t.rows ++ c = rowsOf (evals (toOps l)) r.optId :=
      t3.elim id (fun q => absurd q.1 hrel)
    -- the state before the possible flush
    have key : ∀ est, AllOk (headersOf (l ++ [FOp.put r n])) (fun i => i ∈ added (toOps (l ++ [FOp.put r n])))
        (Released (l ++ [FOp.put r n])) (rowsOf (evals (toOps (l ++ [FOp.put r n]))))
        { base := (s.base.putIteration r).1, oCounter := s.oCounter,
          chunk := dictSet s.chunk r.optId (c ++ [Row.mk (s.base.putIteration r).1.fCounter r.x r.fx r.extras]),
          est := est, groups := s.groups, tables := s.tables } := by
      intro est j
      rw [eh, e, hev, had, rowsOf_snoc]
      simp only []
      by_cases hj : j = r.optId
      · subst hj
        rw [hhs, dictGet_set_self, t1]
        refine ⟨t, rfl, t2, Or.inl ⟨_, rfl, ?_⟩⟩
        rw [hcount, ← List.append_assoc, t4]; simp
      · rw [dictGet_set_ne _ _ hj]
        simp only [Ne.symm hj, if_false, List.append_nil]
        exact (ih.all j).mono id (fun hi => hi.mono _)
    have hgr : ∀ j, j ∈ s.groups ↔ j ∈ added (toOps (l ++ [FOp.put r n])) := by
      intro j; rw [e, had]; exact ih.groups j
    have fin : ∀ (q : FileLogger),
        AllOk (headersOf (l ++ [FOp.put r n])) (fun i => i ∈ added (toOps (l ++ [FOp.put r n])))
        (Released (l ++ [FOp.put r n])) (rowsOf (evals (toOps (l ++ [FOp.put r n])))) q →
        q.base = (s.base.putIteration r).1 → q.groups = s.groups →
        FInv traj (l ++ [FOp.put r n])
          (if q.est * q.pending > 100000000 then q.flush (some r.optId) else (q, none)).1 := by
      intro q q1 q2 q3
      split
      · obtain ⟨a1, a2, a3, -⟩ := flush_ok q1 (some r.optId)
        exact ⟨by rw [a2, q2]; exact hbase, by rw [a3, q3]; exact hgr, a1⟩
      · exact ⟨by rw [q2]; exact hbase, by rw [q3]; exact hgr, q1⟩
    simp only [step, putIteration]
    by_cases hest : s.est = 0
    · simp only [hest, if_true, t3]
      exact fin _ (key n) rfl rfl
    · simp only [hest, if_false, t3]
      exact fin _ (key s.est) rfl rfl
  | clear i =>
    have e1 : evals (toOps (l ++ [FOp.clear i])) = evals (toOps l) := by simp [toOps, evals]
    have e2 : added (toOps (l ++ [FOp.clear i])) = added (toOps l) := by simp [toOps, added]
    have e3 : opened (toOps (l ++ [FOp.clear i])) = opened (toOps l) := by simp [toOps, opened]
    have eh : headersOf (l ++ [FOp.clear i]) = headersOf l := by
      funext j; rw [headersOf_append]; simp [headersOf]
    have hall : AllOk (headersOf (l ++ [FOp.clear i])) (fun j => j ∈ added (toOps (l ++ [FOp.clear i])))
        (Released (l ++ [FOp.clear i])) (rowsOf (evals (toOps (l ++ [FOp.clear i])))) s := by
      rw [e1, eh, e2]; intro j; exact (ih.all j).mono id (fun hi => hi.mono _)
    have key : ∀ os : List Nat, (∀ o ∈ os, Released (l ++ [FOp.clear i]) o ∧ o ≠ 0) →
        FInv traj (l ++ [FOp.clear i]) (s.clearList os).1 := by
      intro os hos
      obtain ⟨a1, a2, a3, ks, a4, a5⟩ := clearList_ok os hall hos
      refine ⟨?_, ?_, a1⟩
      · rw [a5]
        refine (ih.base.mono e1 e2 e3 (fun i hi => hi.mono _)).clears ks ?_
        intro k hk; exact ⟨(hos k (a4 k hk)).2, (hos k (a4 k hk)).1⟩
      · intro j; rw [a2, e2]; exact ih.groups j
    match i, key with
    | none, key =>
      refine key _ ?_
      intro o ho
      rw [List.mem_range'_1] at ho
      exact ⟨Or.inl (by simp), by omega⟩
    | some 0, key =>
      refine key _ ?_
      intro o ho
      rw [List.mem_range'_1] at ho
      exact ⟨Or.inr (Or.inl (by simp)), by omega⟩
    | some (n + 1), key =>
      refine key _ ?_
      intro o ho
      simp at ho; subst ho
      exact ⟨Or.inr (Or.inr (by simp)), by omega⟩

theorem finv_init (traj : Bool) : FInv traj [] (init traj) := by
  refine ⟨⟨[], ?_, rfl, rfl, rfl, rfl, ?_⟩, ?_, ?_⟩
  · intro pre op post e; simp at e
  · intro i hi; rcases hi with h | h | h <;> simp at h
  · intro i; simp [init, toOps, added]
  · intro i; exact ⟨rfl, rfl, Or.inr ⟨rfl, by simp [toOps, added]⟩⟩

theorem finv_from {traj : Bool} {pre : List FOp} {s : FileLogger} (h0 : FInv traj pre s) (ops : List FOp)
    (h : FWellFormed (pre ++ ops)) : FInv traj (pre ++ ops) (s.run ops) := by
  induction ops using snoc_induction with
  | h0 => simpa [run] using h0
  | hs l op ih =>
    rw [run_snoc, ← List.append_assoc]
    rw [← List.append_assoc] at h
    exact finv_step (ih h.init) h

theorem finv_run (traj : Bool) (ops : List FOp) (h : FWellFormed ops) : FInv traj ops ((init traj).run ops) :=
  finv_from (finv_init traj) ops h

end FileLogger
end Glompo

namespace Glompo.Logger

/-- No column besides the three standard ones is kept in memory. -/
def NoExtra (s : Logger) : Prop :=
  ∀ i st, dictGet s.storage i = some st → ∀ k, (dictGet st.cols k).isSome → k = "call_id" ∨ k = "x" ∨ k = "fx"

theorem appendRow_isSome (cols : List (String × List Cell)) (vs : List Cell) (k : String) :
    (dictGet (appendRow cols vs) k).isSome = (dictGet cols k).isSome := by
  induction cols generalizing vs with
  | nil => cases vs <;> simp [appendRow]
  | cons p t ih =>
    obtain ⟨k', c⟩ := p
    cases vs with
    | nil => simp [appendRow]
    | cons v vs =>
      simp only [appendRow, dictGet]
      split
      · rfl
      · exact ih vs

theorem dictGet_del_some {K V : Type} [DecidableEq K] (d : List (K × V)) (k i : K) (v : V)
    (h : dictGet (dictDel d k) i = some v) : dictGet d i = some v := by
  by_cases hk : i = k
  · subst hk; rw [dictGet_del_self] at h; cases h
  · rwa [dictGet_del_ne _ hk] at h

theorem delKeys_some (ks : List Nat) : ∀ (st : List (Nat × Store)) (i : Nat) (v : Store),
    dictGet (delKeys st ks).1 i = some v → dictGet st i = some v := by
  induction ks with
  | nil => intro st i v h; simpa [delKeys] using h
  | cons k t ih =>
    intro st i v h
    simp only [delKeys] at h
    split at h
    · exact dictGet_del_some _ _ _ _ (ih _ _ _ h)
    · exact h

theorem NoExtra.clear {s : Logger} (h : NoExtra s) (i : Option Nat) : NoExtra (s.clearCache i).1 := by
  intro j st hj
  refine h j st ?_
  simp only [clearCache] at hj
  split at hj
  · exact hj
  · exact delKeys_some _ _ _ _ hj

theorem NoExtra.put {s : Logger} (h : NoExtra s) (r : IterRes) : NoExtra (s.putIteration r).1 := by
  intro j st hj
  simp only [putIteration] at hj
  split at hj
  · exact h j st hj
  · split at hj
    · simp only [putBest_storage] at hj; exact h j st hj
    · rename_i st0 h0
      simp only [putBest_storage] at hj h0
      by_cases hjr : j = r.optId
      · subst hjr
        rw [dictGet_set_self] at hj; cases hj
        intro k hk
        simp only [appendRow_isSome] at hk
        exact h _ st0 h0 k hk
      · rw [dictGet_set_ne _ _ hjr] at hj; exact h j st hj

theorem NoExtra.addOpt {s : Logger} (h : NoExtra s) (i : Nat) (t : String) : NoExtra (s.addOptimizer i t) := by
  intro j st hj
  simp only [addOptimizer] at hj
  by_cases hji : j = i
  · subst hji; rw [dictGet_set_self] at hj; cases hj; intro k hk; simp [dictGet] at hk
  · rw [dictGet_set_ne _ _ hji] at hj; exact h j st hj

theorem NoExtra.addHist {s : Logger} (h : NoExtra s) (i : Nat) : NoExtra (s.addIterHistory i []).1 := by
  intro j st hj
  simp only [addIterHistory] at hj
  split at hj
  · exact h j st hj
  · rename_i st0 h0
    by_cases hji : j = i
    · subst hji; simp only [dictGet_set_self] at hj; cases hj
      intro k hk
      simp only [setHeaders, List.append_nil, List.foldl_cons, List.foldl_nil] at hk
      by_cases h1 : k = "fx"
      · exact Or.inr (Or.inr h1)
      · rw [dictGet_set_ne _ _ h1] at hk
        by_cases h2 : k = "x"
        · exact Or.inr (Or.inl h2)
        · rw [dictGet_set_ne _ _ h2] at hk
          by_cases h3 : k = "call_id"
          · exact Or.inl h3
          · rw [dictGet_set_ne _ _ h3] at hk; exact h j st0 h0 k hk
    · simp only [dictGet_set_ne _ _ hji] at hj; exact h j st hj

end Glompo.Logger

namespace Glompo.FileLogger
open Glompo.Spec Glompo.Logger

theorem flush1_base (s : FileLogger) (o : Nat) : (s.flush1 o).1.base = s.base := by
  simp only [flush1]
  split
  · rfl
  · split
    · split <;> rfl
    · rfl

theorem flushList_base (os : List Nat) : ∀ s : FileLogger, (s.flushList os).1.base = s.base := by
  induction os with
  | nil => intro s; rfl
  | cons o os ih =>
    intro s
    have := flush1_base s o
    simp only [flushList]
    generalize s.flush1 o = r at this
    obtain ⟨s', e⟩ := r
    cases e with
    | none => exact (ih s').trans this
    | some e => exact this

theorem flush_base (s : FileLogger) (i : Option Nat) : (s.flush i).1.base = s.base := by
  match i with
  | none => exact flushList_base _ _
  | some 0 => exact flushList_base _ _
  | some (n + 1) => exact flushList_base _ _

theorem clear1_noExtra {s : FileLogger} (h : NoExtra s.base) (o : Nat) : NoExtra (s.clear1 o).1.base := by
  have hb := flush1_base s o
  simp only [clear1]
  generalize s.flush1 o = r at hb
  obtain ⟨s', e⟩ := r
  simp only at hb
  have fin : ∀ q : FileLogger, q.base = s.base → NoExtra
      (if (dictGet q.base.storage o).isSome = true then
          ({ q with base := (q.base.clearCache (some o)).1 }, (q.base.clearCache (some o)).2) else (q, none)).1.base := by
    intro q hq
    split
    · simp only []; rw [hq]; exact h.clear _
    · rw [hq]; exact h
  by_cases hc : (dictGet s.chunk o).isSome = true
  · simp only [hc, if_true]
    cases e with
    | some e => simpa [hb] using h
    | none => exact fin { s' with chunk := dictDel s'.chunk o } hb
  · simp only [hc]
    exact fin s rfl

theorem clearList_noExtra (os : List Nat) : ∀ {s : FileLogger}, NoExtra s.base → NoExtra (s.clearList os).1.base := by
  induction os with
  | nil => intro s h; exact h
  | cons o os ih =>
    intro s h
    have := clear1_noExtra h o
    simp only [clearList]
    generalize s.clear1 o = r at this
    obtain ⟨s', e⟩ := r
    cases e with
    | none => exact ih this
    | some e => exact this

theorem noExtra_run (traj : Bool) (ops : List FOp) : NoExtra ((init traj).run ops).base := by
  induction ops using snoc_induction with
  | h0 => intro i st h; simp [run, init, Logger.init] at h
  | hs l op ih =>
    rw [run_snoc]
    generalize (init traj).run l = s at ih
    cases op with
    | add i t =>
      simp only [step, addOptimizer]
      split <;> exact ih.addOpt i t
    | addHist i hs =>
      simp only [step, addIterHistory]
      split
      · exact ih.addHist i
      · split <;> exact ih.addHist i
    | put r n =>
      simp only [step, putIteration]
      have key : ∀ q : FileLogger, q.base = (s.base.putIteration r).1 → NoExtra (match dictGet q.chunk r.optId with
        | none => (q, some Err.keyError)
        | some c =>
          if ({ q with chunk := dictSet q.chunk r.optId (c ++ [Row.mk q.base.fCounter r.x r.fx r.extras]) } : FileLogger).est *
              ({ q with chunk := dictSet q.chunk r.optId (c ++ [Row.mk q.base.fCounter r.x r.fx r.extras]) } : FileLogger).pending > 100000000
          then ({ q with chunk := dictSet q.chunk r.optId (c ++ [Row.mk q.base.fCounter r.x r.fx r.extras]) } : FileLogger).flush (some r.optId)
          else ({ q with chunk := dictSet q.chunk r.optId (c ++ [Row.mk q.base.fCounter r.x r.fx r.extras]) }, none)).1.base := by
        intro q hq
        have h := ih.put r
        split
        · rw [hq]; exact h
        · split
          · rw [flush_base]; simp only []; rw [hq]; exact h
          · simp only []; rw [hq]; exact h
      by_cases hest : s.est = 0
      · simp only [hest, if_true]; exact key { base := (s.base.putIteration r).1, oCounter := s.oCounter, chunk := s.chunk, est := n, groups := s.groups, tables := s.tables } rfl
      · simp only [hest, if_false]; exact key { base := (s.base.putIteration r).1, oCounter := s.oCounter, chunk := s.chunk, est := s.est, groups := s.groups, tables := s.tables } rfl
    | flush i => simp only [step]; rw [flush_base]; exact ih
    | clear i =>
      match i with
      | none => exact clearList_noExtra _ ih
      | some 0 => exact clearList_noExtra _ ih
      | some (n + 1) => exact clearList_noExtra _ ih
    | read i k =>
      have hb := flush_base s (some i)
      simp only [step, getHistory]
      split
      · exact ih
      · split
        · generalize s.flush (some i) = r at hb
          obtain ⟨s', e⟩ := r
          simp only at hb
          cases e with
          | some e => simpa [hb] using ih
          | none =>
            simp only []
            split
            · rw [hb]; exact ih
            · split <;> (rw [hb]; exact ih)
        · exact ih

theorem rowsOf_maps (es : List IterRes) (i : Nat) :
    (rowsOf es i).map (·.fx) = (evalsOf es i).map (·.fx) ∧ (rowsOf es i).map (·.x) = (evalsOf es i).map (·.x) ∧
    (rowsOf es i).map (·.extras) = (evalsOf es i).map (·.extras) ∧ (rowsOf es i).map (·.callId) = callIds es i := by
  induction es using snoc_induction with
  | h0 => simp [rowsOf, evalsOf, callIds]
  | hs l a ih =>
    rw [rowsOf_snoc, evalsOf_snoc, callIds_snoc]
    simp only [List.map_append, ih]
    by_cases h : a.optId = i <;> simp [h]

/-- Closing writes everything. -/
theorem close_ok {hs : Nat → Option (List String)} {added rel : Nat → Prop} {rows : Nat → List Row} {s : FileLogger}
    (h : AllOk hs added rel rows s) :
    s.close.2 = none ∧ (∀ i hd, hs i = some hd → dictGet s.close.1.tables i = some ⟨hd, rows i⟩) ∧
    (∀ i, hs i = none → dictGet s.close.1.tables i = none ∧ rows i = []) := by
  have hall : ∀ o ∈ s.chunk.map (·.1), (dictGet s.chunk o).isSome := by
    intro o ho; rwa [dictGet_isSome_iff]
  obtain ⟨b1, b2, b3, b4, b5, b6, b7⟩ := flushList_ok (s.chunk.map (·.1)) h
  obtain ⟨c1, c2⟩ := b6 hall
  have hch : ∀ i, dictGet (s.flushList (s.chunk.map (·.1))).1.chunk i = none ∨
      dictGet (s.flushList (s.chunk.map (·.1))).1.chunk i = some [] := by
    intro i
    by_cases hi : i ∈ s.chunk.map (·.1)
    · exact Or.inr (c2 i hi)
    · left
      rw [dictGet_eq_none_iff, b5]; exact hi
  refine ⟨c1, ?_, ?_⟩
  · intro i hd hi
    have hb := b1 i
    rw [hi] at hb
    obtain ⟨t, h1, h2, h3⟩ := hb
    simp only [close, flush]
    rw [h1]
    obtain ⟨th, tr⟩ := t
    simp only at h2 h3
    subst h2
    rcases h3 with ⟨c, h3, h4⟩ | ⟨-, -, h4⟩
    · rcases hch i with h5 | h5
      · rw [h5] at h3; cases h3
      · rw [h5] at h3; cases h3; simp at h4; rw [h4]
    · rw [h4]
  · intro i hi
    have hb := b1 i
    rw [hi] at hb
    exact ⟨hb.1, hb.2.1⟩

end Glompo.FileLogger

namespace Glompo.Spec
open Glompo.Logger (Op)
open Glompo.FileLogger

/-- Executable check of `Released`. -/
def releasedB (ops : List FOp) (i : Nat) : Bool :=
  ops.any fun op => match op with
    | .clear none => true
    | .clear (some j) => j == 0 || j == i
    | _ => false

/-- Executable check of the second half of `FWellFormed`. -/
def fopsOkB (pre : List FOp) : List FOp → Bool
  | [] => true
  | op :: post =>
    (match op with
      | .put r _ => !releasedB pre r.optId
      | .addHist i _ => !releasedB pre i
      | _ => true) && fopsOkB (pre ++ [op]) post

theorem releasedB_of {ops : List FOp} {i : Nat} (h : Released ops i) : releasedB ops i = true := by
  simp only [releasedB, List.any_eq_true]
  rcases h with h | h | h
  · exact ⟨_, h, rfl⟩
  · exact ⟨_, h, rfl⟩
  · exact ⟨_, h, by simp⟩

theorem fopsOk_of (ops : List FOp) : ∀ pre0, fopsOkB pre0 ops = true → ∀ pre op post, ops = pre ++ op :: post →
    (∀ r n, op = .put r n → ¬ Released (pre0 ++ pre) r.optId) ∧
    (∀ i hs, op = .addHist i hs → ¬ Released (pre0 ++ pre) i) := by
  induction ops with
  | nil => intro pre0 _ pre op post e; simp at e
  | cons o ops ih =>
    intro pre0 h pre op post e
    simp only [fopsOkB, Bool.and_eq_true] at h
    cases pre with
    | nil =>
      simp at e
      obtain ⟨rfl, rfl⟩ := e
      refine ⟨?_, ?_⟩
      · rintro r n rfl hr
        have := releasedB_of hr
        simp at this h; rw [this] at h; exact absurd h.1 (by simp)
      · rintro i hs rfl hr
        have := releasedB_of hr
        simp at this h; rw [this] at h; exact absurd h.1 (by simp)
    | cons p pre =>
      simp at e
      obtain ⟨rfl, e⟩ := e
      have := ih _ h.2 pre op post e
      simpa using this

theorem fwellFormed_of_fwfB {ops : List FOp} (h : (wfB [] (toOps ops) && fopsOkB [] ops) = true) :
    FWellFormed ops := by
  simp only [Bool.and_eq_true] at h
  refine ⟨wellFormed_of_wfB h.1, ?_⟩
  intro pre op post e
  simpa using fopsOk_of ops [] h.2 pre op post e

end Glompo.Spec

namespace Glompo.FileLogger
open Glompo.Spec
open Glompo.Logger (Op)

theorem dictSet_none {K V : Type} [DecidableEq K] {d : List (K × V)} {i k : K} {v w : V}
    (h : dictGet d i = none) (hk : dictGet d k = some w) : dictGet (dictSet d k v) i = none := by
  have : i ≠ k := by intro e; subst e; rw [h] at hk; cases hk
  rw [dictGet_set_ne _ _ this]; exact h

theorem flush1_none {s : FileLogger} {i : Nat} (h : dictGet s.chunk i = none) (o : Nat) :
    dictGet (s.flush1 o).1.chunk i = none := by
  simp only [flush1]
  split
  · exact h
  · rename_i c hc
    split
    · split
      · exact h
      · exact dictSet_none h hc
    · exact h

theorem flushList_none {i : Nat} (os : List Nat) : ∀ {s : FileLogger}, dictGet s.chunk i = none →
    dictGet (s.flushList os).1.chunk i = none := by
  induction os with
  | nil => intro s h; exact h
  | cons o os ih =>
    intro s h
    have := flush1_none h o
    simp only [flushList]
    generalize s.flush1 o = r at this
    obtain ⟨s', e⟩ := r
    cases e with
    | none => exact ih this
    | some e => exact this

theorem flush_none {s : FileLogger} {i : Nat} (h : dictGet s.chunk i = none) (o : Option Nat) :
    dictGet (s.flush o).1.chunk i = none := by
  match o with
  | none => exact flushList_none _ h
  | some 0 => exact flushList_none _ h
  | some (n + 1) => exact flushList_none _ h

theorem clear1_none {s : FileLogger} {i : Nat} (h : dictGet s.chunk i = none) (o : Nat) :
    dictGet (s.clear1 o).1.chunk i = none := by
  have hf := flush1_none h o
  simp only [clear1]
  generalize s.flush1 o = r at hf
  obtain ⟨s', e⟩ := r
  simp only at hf
  have fin : ∀ q : FileLogger, dictGet q.chunk i = none → dictGet
      (if (dictGet q.base.storage o).isSome = true then
          ({ q with base := (q.base.clearCache (some o)).1 }, (q.base.clearCache (some o)).2)
        else (q, none)).1.chunk i = none := by
    intro q hq
    split <;> exact hq
  by_cases hc : (dictGet s.chunk o).isSome = true
  · simp only [hc, if_true]
    cases e with
    | some e => exact hf
    | none =>
      refine fin { s' with chunk := dictDel s'.chunk o } ?_
      by_cases hio : i = o
      · subst hio; exact dictGet_del_self _ _
      · simp only []; rw [dictGet_del_ne _ hio]; exact hf
  · simp only [hc]
    exact fin s h

theorem clearList_none {i : Nat} (os : List Nat) : ∀ {s : FileLogger}, dictGet s.chunk i = none →
    dictGet (s.clearList os).1.chunk i = none := by
  induction os with
  | nil => intro s h; exact h
  | cons o os ih =>
    intro s h
    have := clear1_none h o
    simp only [clearList]
    generalize s.clear1 o = r at this
    obtain ⟨s', e⟩ := r
    cases e with
    | none => exact ih this
    | some e => exact this

theorem step_chunk_none {s : FileLogger} {i : Nat} (h : dictGet s.chunk i = none) (op : FOp)
    (hop : ∀ t, op ≠ .add i t) : dictGet (s.step op).1.chunk i = none := by
  cases op with
  | add j t =>
    have hij : i ≠ j := by intro e; subst e; exact hop t rfl
    simp only [step, addOptimizer]
    split
    · exact h
    · simp only []; rw [dictGet_set_ne _ _ hij]; exact h
  | addHist j hs =>
    simp only [step, addIterHistory]
    split
    · exact h
    · split <;> exact h
  | put r n =>
    simp only [step, putIteration]
    have hch : ∀ q : FileLogger, q.chunk = s.chunk → dictGet (match dictGet q.chunk r.optId with
        | none => (q, some Err.keyError)
        | some c =>
          if ({ q with chunk := dictSet q.chunk r.optId (c ++ [Row.mk q.base.fCounter r.x r.fx r.extras]) } : FileLogger).est *
              ({ q with chunk := dictSet q.chunk r.optId (c ++ [Row.mk q.base.fCounter r.x r.fx r.extras]) } : FileLogger).pending > 100000000
          then ({ q with chunk := dictSet q.chunk r.optId (c ++ [Row.mk q.base.fCounter r.x r.fx r.extras]) } : FileLogger).flush (some r.optId)
          else ({ q with chunk := dictSet q.chunk r.optId (c ++ [Row.mk q.base.fCounter r.x r.fx r.extras]) }, none)).1.chunk i = none := by
      intro q hq
      split
      · rw [hq]; exact h
      · rename_i c hc
        rw [hq] at hc
        split
        · refine flush_none ?_ _
          simp only []; rw [hq]; exact dictSet_none h hc
        · simp only []; rw [hq]; exact dictSet_none h hc
    by_cases hest : s.est = 0
    · simp only [hest, if_true]; exact hch { base := (s.base.putIteration r).1, oCounter := s.oCounter, chunk := s.chunk, est := n, groups := s.groups, tables := s.tables } rfl
    · simp only [hest, if_false]; exact hch { base := (s.base.putIteration r).1, oCounter := s.oCounter, chunk := s.chunk, est := s.est, groups := s.groups, tables := s.tables } rfl
  | flush j => exact flush_none h j
  | clear j =>
    match j with
    | none => exact clearList_none _ h
    | some 0 => exact clearList_none _ h
    | some (n + 1) => exact clearList_none _ h
  | read j k =>
    simp only [step, getHistory]
    have hf := flush_none h (some j)
    split
    · exact h
    · split
      · generalize s.flush (some j) = r at hf
        obtain ⟨s', e⟩ := r
        simp only at hf
        cases e with
        | some e => exact hf
        | none =>
          simp only []
          split
          · exact hf
          · split <;> exact hf
      · exact h

theorem clear_chunk_none {hs : Nat → Option (List String)} {added rel : Nat → Prop} {rows : Nat → List Row}
    {s : FileLogger} (h : AllOk hs added rel rows s) (i : Nat) (h0 : i ≠ 0) :
    dictGet (s.step (.clear (some i))).1.chunk i = none := by
  cases hc : dictGet s.chunk i with
  | none => exact step_chunk_none hc _ (by intro t e; cases e)
  | some c =>
    obtain ⟨-, -, -, -, -, -, a6, -⟩ := flush1_ok h i
    have a6 := (a6 (by rw [hc]; rfl)).1
    obtain ⟨m, rfl⟩ : ∃ m, i = m + 1 := ⟨i - 1, by omega⟩
    simp only [step, clearCache, clearList, clear1, hc, Option.isSome_some, if_true]
    generalize s.flush1 (m + 1) = r at a6
    obtain ⟨s', e⟩ := r
    simp only at a6; subst a6
    simp only []
    have fin : ∀ p : FileLogger × Option Err, dictGet p.1.chunk (m + 1) = none →
        dictGet (match p with | (s', none) => (s', none) | (s', some e) => (s', some e) : FileLogger × Option Err).1.chunk (m + 1) = none := by
      rintro ⟨q, e⟩ hq; cases e <;> exact hq
    refine fin _ ?_
    split <;> exact dictGet_del_self _ _

end Glompo.FileLogger
