import Verif.Spec.Headers
import Verif.Lemmas.Basic
import Verif.Lemmas.Checkpoint

/-!
# Lemmas about headings of the log
-/

namespace Glompo.Headers

open Glompo
open Glompo.Headers.Spec
open Glompo.Checkpoint (Name dec nameLe)

theorem insert_head {A : Type} (le : A → A → Bool) (a : A) (l : List A) (h : ∀ b ∈ l.head?, le a b = true) : insert le a l = a :: l := by
  cases l with
  | nil => rfl
  | cons b t => simp only [insert, h b (by simp), if_true]

theorem sort_sorted {A : Type} (le : A → A → Bool) : ∀ l : List A, l.Pairwise (fun a b => le a b = true) → sort le l = l := by
  intro l
  induction l with
  | nil => intro _; rfl
  | cons a t ih =>
    intro h
    rw [List.pairwise_cons] at h
    rw [sort, ih h.2, insert_head]
    intro b hb
    exact h.1 b (List.mem_of_mem_head? hb)

/-- Headings all of which have positions, in growing order, become the columns in this order. -/
theorem columns_placed : ∀ h : Heads, (∀ p ∈ h, ∃ i : Int, p.2.pos = some i) →
    (h.Pairwise fun a b => ∀ i j, a.2.pos = some i → b.2.pos = some j → i < j) →
    columns h = h.map fun p => (p.1, p.2.kind) := by
  intro h h1 h2
  have hu : unplaced h = [] := by
    clear h2
    induction h with
    | nil => rfl
    | cons p t ih =>
      obtain ⟨n, k, q⟩ := p
      obtain ⟨i, hi⟩ := h1 _ List.mem_cons_self
      cases hi
      simp only [unplaced]
      exact ih fun p hp => h1 p (List.mem_cons_of_mem _ hp)
  have hp : (placed h).map (·.2) = h.map fun p => (p.1, p.2.kind) := by
    clear h2 hu
    induction h with
    | nil => rfl
    | cons p t ih =>
      obtain ⟨n, k, q⟩ := p
      obtain ⟨i, hi⟩ := h1 _ List.mem_cons_self
      cases hi
      simp only [placed, List.map_cons]
      rw [ih fun p hp => h1 p (List.mem_cons_of_mem _ hp)]
  have hm : ∀ (h : Heads) (y : Int × Name × Kind), y ∈ placed h → ∃ p ∈ h, p.2.pos = some y.1 := by
    intro h
    induction h with
    | nil => intro y hy; cases hy
    | cons p t ih =>
      obtain ⟨n, k, q⟩ := p
      intro y hy
      cases q with
      | none =>
        obtain ⟨p, hp, h⟩ := ih y hy
        exact ⟨p, List.mem_cons_of_mem _ hp, h⟩
      | some i =>
        rcases List.mem_cons.mp hy with rfl | hy
        · exact ⟨_, List.mem_cons_self, rfl⟩
        · obtain ⟨p, hp, h⟩ := ih y hy
          exact ⟨p, List.mem_cons_of_mem _ hp, h⟩
  have hs : (placed h).Pairwise (fun a b => posLe a b = true) := by
    clear hu hp
    induction h with
    | nil => exact .nil
    | cons p t ih =>
      obtain ⟨n, k, q⟩ := p
      obtain ⟨i, hi⟩ := h1 _ List.mem_cons_self
      cases hi
      rw [List.pairwise_cons] at h2
      simp only [placed, List.pairwise_cons]
      refine ⟨fun y hy => ?_, ih (fun p hp => h1 p (List.mem_cons_of_mem _ hp)) h2.2⟩
      obtain ⟨p, hp, h⟩ := hm t y hy
      have := h2.1 p hp i y.1 rfl h
      simp [posLe, this]
  rw [columns, sort_sorted _ _ hs, hp, hu]
  simp [sort]

theorem dictSet_new {V : Type} : ∀ (d : List (Name × V)) (k : Name) (v : V), k ∉ d.map (·.1) → dictSet d k v = d ++ [(k, v)] := by
  intro d
  induction d with
  | nil => intro k v _; rfl
  | cons p t ih =>
    intro k v h
    simp only [List.map_cons, List.mem_cons, not_or] at h
    simp only [dictSet, if_neg (fun e => h.1 (Eq.symm e)), ih k v h.2, List.cons_append]

theorem merge_new : ∀ (extra d : Heads), (extra.map (·.1)).Nodup → (∀ k ∈ extra.map (·.1), k ∉ d.map (·.1)) → merge d extra = d ++ extra := by
  intro extra
  induction extra with
  | nil => intro d _ _; simp [merge]
  | cons p t ih =>
    intro d hn hd
    rw [List.map_cons, List.nodup_cons] at hn
    have h1 : merge d (p :: t) = merge (dictSet d p.1 p.2) t := rfl
    rw [h1, dictSet_new d p.1 p.2 (hd _ (by simp)), ih _ hn.2]
    · simp
    · intro k hk
      simp only [List.map_append, List.map_cons, List.map_nil, List.mem_append, List.mem_singleton, not_or]
      exact ⟨hd k (by simp only [List.map_cons, List.mem_cons]; exact .inr hk), fun e => hn.1 (e ▸ hk)⟩

/-- The headings of a table for a documented dictionary. -/
theorem merge_documented (n : Nat) (h : Heads) (hd : Documented h) :
    merge (baseHeads n) h = (baseHeads n).take 2 ++ h := by
  cases h with
  | nil => have := hd.first; simp at this
  | cons p t =>
    have hf : p.1 = "fx".toList := by simpa using hd.first
    have hn := hd.distinct
    rw [List.map_cons, List.nodup_cons] at hn
    have h1 : merge (baseHeads n) (p :: t) = merge (dictSet (baseHeads n) p.1 p.2) t := rfl
    have h2 : dictSet (baseHeads n) p.1 p.2 = (baseHeads n).take 2 ++ [p] := by
      obtain ⟨a, c⟩ := p
      dsimp only at hf; subst hf
      rfl
    rw [h1, h2, merge_new t _ hn.2]
    · simp
    · intro k hk
      have hc := hd.call
      have hx := hd.x
      simp only [List.map_cons, List.mem_cons, not_or] at hc hx
      simp only [List.map_append, List.map_cons, List.map_nil, List.mem_append, List.mem_singleton, not_or]
      refine ⟨fun hm => ?_, fun e => hn.1 (e ▸ hk)⟩
      have : k = "call_id".toList ∨ k = "x".toList := by simpa [baseHeads] using hm
      rcases this with rfl | rfl
      · exact hc.2 hk
      · exact hx.2 hk

theorem columns_documented (n : Nat) (h : Heads) (hd : Documented h) (hp : Placed h) :
    columns (merge (baseHeads n) h) =
      [("call_id".toList, .uint32), ("x".toList, .array .float [n])] ++ h.map fun p => (p.1, p.2.kind) := by
  rw [merge_documented n h hd, columns_placed]
  · rfl
  · intro p hp'
    rcases List.mem_append.mp hp' with h' | h'
    · simp only [baseHeads, List.take, List.mem_cons, List.not_mem_nil, or_false] at h'
      rcases h' with rfl | rfl <;> exact ⟨_, rfl⟩
    · obtain ⟨i, hi, -⟩ := hp.1 p h'; exact ⟨i, hi⟩
  · have key : ∀ q ∈ h, ∀ i, q.2.pos = some i → -2 < i := by
      intro q hq i hi
      obtain ⟨j, hj, hlt⟩ := hp.1 q hq
      rw [hj] at hi; cases hi; exact hlt
    simp only [baseHeads, List.take, List.cons_append, List.nil_append, List.pairwise_cons]
    refine ⟨?_, ?_, hp.2⟩
    · intro q hq i j hi hj
      cases hi
      rcases List.mem_cons.mp hq with rfl | hq
      · cases hj; decide
      · have := key q hq j hj; omega
    · intro q hq i j hi hj
      cases hi
      exact key q hq j hj

/-! ### A run -/

/-- The rows a table gets. -/
def rowsOf (count : Nat) (ops : List Op) : List (List Val) := (numbered count ops).map fun p => row p.1 p.2

theorem all_fits {fits : Kind → Val → Bool} {cols : List (Name × Kind)} {l : List (List Val)} (h : ∀ r ∈ l, rowFits fits cols r = true) :
    l.all (rowFits fits cols) = true := List.all_eq_true.mpr h

/-- The table and the rows not written, when the columns are `cols`. -/
structure State (cols : List (Name × Kind)) (rows : List (List Val)) (s : File) : Prop where
  table : (s.table = none ∧ s.chunk = [] ∧ rows = []) ∨ ∃ t, s.table = some t ∧ t.cols = cols ∧ t.rows ++ s.chunk = rows ∧ rows ≠ []

theorem run_fits (fits : Kind → Val → Bool) (n : Nat) (task : Option Heads) (cols : List (Name × Kind)) :
    ∀ (ops : List Op) (s : File) (done : List (List Val)), State cols done s →
      (∀ r ∈ done, rowFits fits cols r = true) →
      (∀ e, Op.eval e ∈ ops → (∃ h, headings task e = .ok h ∧ columns (merge (baseHeads n) h) = cols) ∧
        ∀ c, rowFits fits cols (row c e) = true) →
      ∃ s', run fits n task s ops = (s', none) ∧ State cols (done ++ rowsOf s.count ops) s' := by
  intro ops
  induction ops with
  | nil => intro s done hs _ _; exact ⟨s, rfl, by simpa [rowsOf, numbered] using hs⟩
  | cons op t ih =>
    intro s done hs hf ho
    have ho' : ∀ e, Op.eval e ∈ t → _ := fun e he => ho e (List.mem_cons_of_mem _ he)
    cases op with
    | other =>
      obtain ⟨s', h1, h2⟩ := ih { s with count := s.count + 1 } done ⟨hs.table⟩ hf ho'
      exact ⟨s', h1, h2⟩
    | eval e =>
      obtain ⟨⟨h, hh, hc⟩, hr⟩ := ho e List.mem_cons_self
      have hf' : ∀ r ∈ done ++ [row (s.count + 1) e], rowFits fits cols r = true := by
        intro r hr'
        rcases List.mem_append.mp hr' with h | h
        · exact hf r h
        · rw [List.mem_singleton] at h; subst h; exact hr _
      have hrow : done ++ rowsOf s.count (Op.eval e :: t) = (done ++ [row (s.count + 1) e]) ++ rowsOf (s.count + 1) t := by
        simp [rowsOf, numbered]
      rw [hrow]
      rcases hs.table with ⟨h1, h2, h3⟩ | ⟨tb, h1, h2, h3, h4⟩
      · obtain ⟨s', g1, g2⟩ := ih { count := s.count + 1, table := some ⟨cols, []⟩, chunk := s.chunk ++ [row (s.count + 1) e] }
          (done ++ [row (s.count + 1) e]) ⟨.inr ⟨_, rfl, rfl, by simp [h2, h3], by simp⟩⟩ hf' ho'
        refine ⟨s', ?_, g2⟩
        rw [← g1]
        simp only [run, step, result, h1, hh, hc]
      · obtain ⟨s', g1, g2⟩ := ih { s with count := s.count + 1, chunk := s.chunk ++ [row (s.count + 1) e] }
          (done ++ [row (s.count + 1) e]) ⟨.inr ⟨tb, h1, h2, by rw [← h3]; simp, by simp⟩⟩ hf' ho'
        refine ⟨s', ?_, g2⟩
        rw [← g1]
        simp only [run, step, result, h1]
    | flush =>
      have hrow : rowsOf s.count (Op.flush :: t) = rowsOf s.count t := rfl
      rw [hrow]
      rcases hs.table with ⟨h1, h2, h3⟩ | ⟨tb, h1, h2, h3, h4⟩
      · obtain ⟨s', g1, g2⟩ := ih s done hs hf ho'
        refine ⟨s', ?_, g2⟩
        rw [← g1]
        simp only [run, step, flush, h2, if_true]
      · by_cases hcn : s.chunk = []
        · obtain ⟨s', g1, g2⟩ := ih s done hs hf ho'
          refine ⟨s', ?_, g2⟩
          rw [← g1]
          simp only [run, step, flush, hcn, if_true]
        · have hall : s.chunk.all (rowFits fits tb.cols) = true := by
            refine all_fits fun r hr => ?_
            rw [h2]; exact hf r (h3 ▸ List.mem_append_right _ hr)
          obtain ⟨s', g1, g2⟩ := ih { s with table := some { tb with rows := tb.rows ++ s.chunk }, chunk := [] } done
            ⟨.inr ⟨_, rfl, h2, by simpa using h3, h4⟩⟩ hf ho'
          refine ⟨s', ?_, g2⟩
          rw [← g1]
          simp only [run, step, flush, hcn, if_false, h1, append, hall, if_true]

/-- A run which ends with writing. -/
theorem run_table (fits : Kind → Val → Bool) (n : Nat) (task : Option Heads) (cols : List (Name × Kind)) (ops : List Op)
    (ho : ∀ e, Op.eval e ∈ ops → (∃ h, headings task e = .ok h ∧ columns (merge (baseHeads n) h) = cols) ∧
        ∀ c, rowFits fits cols (row c e) = true) (hne : numbered 0 ops ≠ []) :
    ∃ s', run fits n task newFile (ops ++ [.flush]) = (s', none) ∧ s'.chunk = [] ∧ s'.table = some ⟨cols, rowsOf 0 ops⟩ := by
  have append : ∀ (a b : List Op) (s : File), run fits n task s (a ++ b) =
      match run fits n task s a with
      | (s', some e) => (s', some e)
      | (s', none) => run fits n task s' b := by
    intro a
    induction a with
    | nil => intro b s; rfl
    | cons op t ih =>
      intro b s
      simp only [List.cons_append, run]
      rcases step fits n task s op with ⟨s1, e⟩
      cases e with
      | none => exact ih b s1
      | some e => rfl
  obtain ⟨s1, g1, g2⟩ := run_fits fits n task cols ops newFile [] ⟨.inl ⟨rfl, rfl, rfl⟩⟩ (by simp) ho
  rw [append, g1]
  have hr : rowsOf 0 ops ≠ [] := by simpa [rowsOf] using hne
  have hc0 : newFile.count = 0 := rfl
  rw [List.nil_append, hc0] at g2
  rcases g2.table with ⟨-, -, h⟩ | ⟨t, h1, h2, h3, -⟩
  · exact absurd h hr
  · have hfit : ∀ r ∈ rowsOf 0 ops, rowFits fits cols r = true := by
      intro r hm
      obtain ⟨p, hp, rfl⟩ := List.mem_map.mp hm
      have : ∀ (l : List Op) (c : Nat), p ∈ numbered c l → Op.eval p.2 ∈ l := by
        intro l
        induction l with
        | nil => intro c h; cases h
        | cons op t ih =>
          intro c h
          cases op with
          | eval e =>
            rcases List.mem_cons.mp h with rfl | h
            · exact List.mem_cons_self
            · exact List.mem_cons_of_mem _ (ih _ h)
          | other => exact List.mem_cons_of_mem _ (ih _ h)
          | flush => exact List.mem_cons_of_mem _ (ih _ h)
      exact (ho p.2 (this ops 0 hp)).2 _
    by_cases hcn : s1.chunk = []
    · refine ⟨s1, by simp only [run, step, flush, hcn, if_true], hcn, ?_⟩
      rw [h1, ← h2, ← h3, hcn, List.append_nil]
    · have hall : s1.chunk.all (rowFits fits t.cols) = true := by
        refine all_fits fun r hr => ?_
        rw [h2]; exact hfit r (by have := List.mem_append_right t.rows hr; rw [h3] at this; exact this)
      refine ⟨{ s1 with table := some { t with rows := t.rows ++ s1.chunk }, chunk := [] }, ?_, rfl, ?_⟩
      · simp only [run, step, flush, hcn, if_false, h1, Headers.append, hall, if_true]
      · dsimp only
        rw [h2]
        exact congrArg (fun r => some (⟨cols, r⟩ : Table)) h3

/-- A column by its place. -/
theorem holds_of (t : Table) (k : Nat) (name : Name) (kind : Kind) (vals : List Val) (hk : t.cols[k]? = some (name, kind))
    (hn : (t.cols.map (·.1)).Nodup) (hv : t.rows.map (·[k]?) = vals.map some) : Holds t name vals := by
  refine ⟨k, kind, hk, fun j c hj he => ?_, hv⟩
  have h1 : (t.cols.map (·.1))[k]? = some name := by rw [List.getElem?_map, hk]; rfl
  have h2 : (t.cols.map (·.1))[j]? = some name := by rw [List.getElem?_map, hj, ← he]; rfl
  have hjl : j < (t.cols.map (·.1)).length := by
    rcases Nat.lt_or_ge j (t.cols.map (·.1)).length with h | h
    · exact h
    · rw [List.getElem?_eq_none h] at h2; cases h2
  exact (List.getElem?_inj hjl hn).mp (h2.trans h1.symm)

theorem getElem?_rows (count : Nat) (ops : List Op) (k : Nat) (f : Nat × Eval → Val)
    (h : ∀ p ∈ numbered count ops, (row p.1 p.2)[k]? = some (f p)) :
    (rowsOf count ops).map (·[k]?) = ((numbered count ops).map f).map some := by
  rw [rowsOf, List.map_map, List.map_map]
  exact List.map_congr_left h

/-! ### The log in memory -/

/-- The storage has these columns after `metadata` and `messages`, with these evaluations in them. -/
def Stored (names : List Name) (evs : List (Nat × Eval)) (st : List (Name × List Val)) : Prop :=
  st.map (·.1) = "metadata".toList :: "messages".toList :: names ∧
  (st[0]? = some ("metadata".toList, []) ∧ st[1]? = some ("messages".toList, [])) ∧
  ∀ (k : Nat) (name : Name), names[k]? = some name → st[k + 2]? = some (name, evs.map fun q => (row q.1 q.2).getD k .none)

theorem putZip_keys : ∀ (st : List (Name × List Val)) (vs : List (Option Val)), (putZip st vs).map (·.1) = st.map (·.1) := by
  intro st
  induction st with
  | nil => intro vs; cases vs <;> rfl
  | cons p t ih =>
    intro vs
    obtain ⟨k, l⟩ := p
    cases vs with
    | nil => rfl
    | cons v vs => simp only [putZip, List.map_cons, ih]

theorem putZip_get : ∀ (st : List (Name × List Val)) (vs : List (Option Val)) (k : Nat) (name : Name) (l : List Val) (v : Val),
    st[k]? = some (name, l) → vs[k]? = some (some v) → name ≠ "metadata".toList → name ≠ "messages".toList →
    (putZip st vs)[k]? = some (name, l ++ [v]) := by
  intro st
  induction st with
  | nil => intro vs k name l v h; simp at h
  | cons p t ih =>
    intro vs k name l v h hv h1 h2
    obtain ⟨n', l'⟩ := p
    cases vs with
    | nil => simp at hv
    | cons w vs =>
      cases k with
      | zero =>
        simp only [List.getElem?_cons_zero, Option.some.injEq, Prod.mk.injEq] at h hv
        obtain ⟨rfl, rfl⟩ := h
        subst hv
        simp only [putZip, List.getElem?_cons_zero, h1, h2, or_self, if_false]
      | succ k =>
        simp only [putZip, List.getElem?_cons_succ] at h hv ⊢
        exact ih vs k name l v h hv h1 h2

theorem putZip_skip : ∀ (st : List (Name × List Val)) (vs : List (Option Val)) (k : Nat) (name : Name) (l : List Val),
    st[k]? = some (name, l) → (name = "metadata".toList ∨ name = "messages".toList) → (putZip st vs)[k]? = some (name, l) := by
  intro st
  induction st with
  | nil => intro vs k name l h; simp at h
  | cons p t ih =>
    intro vs k name l h h1
    obtain ⟨n', l'⟩ := p
    cases vs with
    | nil => exact h
    | cons w vs =>
      cases k with
      | zero =>
        simp only [List.getElem?_cons_zero, Option.some.injEq, Prod.mk.injEq] at h
        obtain ⟨rfl, rfl⟩ := h
        simp only [putZip, List.getElem?_cons_zero, h1, if_true]
      | succ k =>
        simp only [putZip, List.getElem?_cons_succ] at h ⊢
        exact ih vs k name l h h1

theorem stored_put {names : List Name} {evs : List (Nat × Eval)} {st : List (Name × List Val)} (h : Stored names evs st)
    (hm : "metadata".toList ∉ names) (hg : "messages".toList ∉ names) (c : Nat) (e : Eval) (hl : (row c e).length = names.length) :
    Stored names (evs ++ [(c, e)]) (putZip st (none :: none :: (row c e).map some)) := by
  refine ⟨by rw [putZip_keys, h.1], ⟨putZip_skip _ _ _ _ _ h.2.1.1 (.inl rfl), putZip_skip _ _ _ _ _ h.2.1.2 (.inr rfl)⟩, fun k name hk => ?_⟩
  have hlt : k < (row c e).length := by rw [hl]; exact (List.getElem?_eq_some_iff.mp hk).1
  have hmem := List.mem_of_getElem? hk
  rw [List.map_append]
  refine putZip_get st _ (k + 2) name _ _ (h.2.2 k name hk) ?_ (fun e => hm (e ▸ hmem)) (fun e => hg (e ▸ hmem))
  dsimp only
  rw [List.getElem?_cons_succ, List.getElem?_cons_succ, List.getElem?_map, List.getElem?_eq_getElem hlt,
    List.getD_eq_getElem?_getD, List.getElem?_eq_getElem hlt]
  rfl

theorem stored_get : ∀ (st : List (Name × List Val)) (k : Nat) (name : Name) (l : List Val), st[k]? = some (name, l) →
    (st.map (·.1)).Nodup → dictGet st name = some l := by
  intro st
  induction st with
  | nil => intro k name l h; simp at h
  | cons p t ih =>
    intro k name l h hd
    obtain ⟨n', l'⟩ := p
    rw [List.map_cons, List.nodup_cons] at hd
    cases k with
    | zero => cases h; simp [dictGet]
    | succ k =>
      rw [List.getElem?_cons_succ] at h
      have : n' ≠ name := fun e => hd.1 (e ▸ List.mem_map_of_mem (f := (·.1)) (List.mem_of_getElem? h))
      simp only [dictGet, this, if_false]
      exact ih k name l h hd.2

theorem runMem_stored (task : Option Heads) (names : List Name) (hm : "metadata".toList ∉ names) (hg : "messages".toList ∉ names)
    (hd : names.Nodup) (hf : "fx".toList ∈ names) :
    ∀ (ops : List Op) (s : Mem) (evs : List (Nat × Eval)), (∀ e, Op.eval e ∈ ops → ∀ c, (row c e).length = names.length) →
      Stored names evs s.store →
      ∃ s', runMem task s ops = (s', none) ∧ Stored names (evs ++ numbered s.count ops) s'.store := by
  have hnd : ("metadata".toList :: "messages".toList :: names).Nodup := by
    rw [List.nodup_cons, List.nodup_cons, List.mem_cons, not_or]
    exact ⟨⟨by decide, hm⟩, hg, hd⟩
  intro ops
  induction ops with
  | nil => intro s evs _ h; exact ⟨s, rfl, by simpa [numbered] using h⟩
  | cons op t ih =>
    intro s evs hl h
    have hl' := fun e (he : Op.eval e ∈ t) => hl e (List.mem_cons_of_mem _ he)
    cases op with
    | eval e =>
      obtain ⟨k, hk⟩ := List.getElem?_of_mem hf
      have hget := stored_get s.store (k + 2) _ _ (h.2.2 k _ hk) (by rw [h.1]; exact hnd)
      obtain ⟨s', h1, h2⟩ := ih ⟨s.count + 1, putZip s.store (none :: none :: (row (s.count + 1) e).map some)⟩ (evs ++ [(s.count + 1, e)]) hl'
        (stored_put h hm hg _ e (hl e List.mem_cons_self _))
      refine ⟨s', ?_, ?_⟩
      · simp only [runMem, stepMem, resultMem, hget, Option.isSome_some, if_true]
        exact h1
      · simp only [numbered]
        rw [List.append_cons]
        exact h2
    | other =>
      obtain ⟨s', h1, h2⟩ := ih { s with count := s.count + 1 } evs hl' h
      exact ⟨s', h1, h2⟩
    | flush =>
      obtain ⟨s', h1, h2⟩ := ih s evs hl' h
      exact ⟨s', h1, h2⟩

theorem runMem_table (task : Option Heads) (names : List Name) (hm : "metadata".toList ∉ names) (hg : "messages".toList ∉ names)
    (hd : names.Nodup) (hf : "fx".toList ∈ names) :
    ∀ (ops : List Op) (c : Nat), (∀ e, Op.eval e ∈ ops → (∀ c, (row c e).length = names.length) ∧
        ∃ h, headings task e = .ok h ∧ addHistory h newMem.store = newMem.store ++ names.map fun k => (k, [])) →
      numbered c ops ≠ [] →
      ∃ s', runMem task { newMem with count := c } ops = (s', none) ∧ Stored names (numbered c ops) s'.store := by
  intro ops
  induction ops with
  | nil => intro c _ h; exact absurd rfl h
  | cons op t ih =>
    intro c ho hne
    have ho' := fun e (he : Op.eval e ∈ t) => ho e (List.mem_cons_of_mem _ he)
    cases op with
    | eval e =>
      obtain ⟨hl, h, h1, h2⟩ := ho e List.mem_cons_self
      have hs : Stored names [] (newMem.store ++ names.map fun k => (k, [])) := by
        refine ⟨by simp [newMem, Function.comp_def], ⟨rfl, rfl⟩, fun k name hk => ?_⟩
        have : (newMem.store ++ names.map fun k => (k, ([] : List Val)))[k + 2]? = (names.map fun k => (k, ([] : List Val)))[k]? := rfl
        rw [this, List.getElem?_map, hk]
        rfl
      obtain ⟨s', g1, g2⟩ := runMem_stored task names hm hg hd hf t
        ⟨c + 1, putZip (newMem.store ++ names.map fun k => (k, [])) (none :: none :: (row (c + 1) e).map some)⟩ ([] ++ [(c + 1, e)])
        (fun e he => (ho' e he).1) (stored_put hs hm hg _ e (hl _))
      refine ⟨s', ?_, g2⟩
      have hn : dictGet newMem.store "fx".toList = none := by decide
      simp only [runMem, stepMem, resultMem, hn, Option.isSome_none, Bool.false_eq_true, if_false, h1, h2]
      exact g1
    | other => exact ih (c + 1) ho' hne
    | flush => exact ih c ho' hne

theorem foldl_new : ∀ (names : List Name) (d : List (Name × List Val)), names.Nodup → (∀ k ∈ names, k ∉ d.map (·.1)) →
    names.foldl (fun d k => dictSet d k []) d = d ++ names.map fun k => (k, []) := by
  intro names
  induction names with
  | nil => intro d _ _; simp
  | cons a t ih =>
    intro d hd hn
    rw [List.nodup_cons] at hd
    rw [List.foldl_cons, dictSet_new d a [] (hn a List.mem_cons_self), ih _ hd.2]
    · simp
    · intro k hk hm
      rw [List.map_append, List.mem_append] at hm
      rcases hm with hm | hm
      · exact hn k (List.mem_cons_of_mem _ hk) hm
      · simp only [List.map_cons, List.map_nil, List.mem_singleton] at hm
        exact hd.1 (hm ▸ hk)

theorem insert_length {A : Type} (le : A → A → Bool) (a : A) : ∀ l : List A, (insert le a l).length = l.length + 1 := by
  intro l
  induction l with
  | nil => rfl
  | cons b t ih =>
    simp only [insert]
    split
    · rfl
    · simp only [List.length_cons, ih]

theorem sort_length {A : Type} (le : A → A → Bool) : ∀ l : List A, (sort le l).length = l.length := by
  intro l
  induction l with
  | nil => rfl
  | cons b t ih => simp only [sort, insert_length, ih, List.length_cons]

theorem columns_length (h : Heads) : (columns h).length = h.length := by
  have : ∀ h : Heads, (placed h).length + (unplaced h).length = h.length := by
    intro h
    induction h with
    | nil => rfl
    | cons p t ih =>
      obtain ⟨n, k, q⟩ := p
      cases q <;> simp only [placed, unplaced, List.length_cons] <;> omega
  rw [columns, List.length_append, List.length_map, sort_length, sort_length, this]

end Glompo.Headers
