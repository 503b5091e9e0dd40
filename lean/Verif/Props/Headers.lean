import Verif.Lemmas.Headers
import Mathlib.Data.List.Nodup
import Mathlib.Data.List.Forall2

/-!
# C111: extra results are found under their names
-/

namespace Glompo.Props

open Glompo
open Glompo.Headers
open Glompo.Headers.Spec
open Glompo.Checkpoint (Name)

theorem rowFits_core {fits : Kind → Val → Bool} {n : Nat} {rcols : List (Name × Kind)} {e : Eval}
    (hl : (returned e).length = rcols.length) (h1 : ∀ c : Nat, fits .uint32 (.int c) = true)
    (h2 : fits (.array .float [n]) (.array .float [e.x.length] e.x) = true)
    (h3 : ∀ (k : Nat) (p : Name × Kind) (v : Val), rcols[k]? = some p → (returned e)[k]? = some v → fits p.2 v = true) (c : Nat) :
    rowFits fits ([("call_id".toList, .uint32), ("x".toList, .array .float [n])] ++ rcols) (row c e) = true := by
  have key : ∀ (h : List (Name × Kind)) (l : List Val),
      (∀ (k : Nat) (p : Name × Kind) (v : Val), h[k]? = some p → l[k]? = some v → fits p.2 v = true) →
      (h.zip l).all (fun p => fits p.1.2 p.2) = true := by
    intro h
    induction h with
    | nil => intro l _; rfl
    | cons p t ih =>
      intro l hf
      cases l with
      | nil => rfl
      | cons v vs =>
        simp only [List.zip_cons_cons, List.all_cons, Bool.and_eq_true]
        exact ⟨hf 0 p v rfl rfl, ih vs fun k p v hp hv => hf (k + 1) p v hp hv⟩
  have hz := key rcols (returned e) h3
  have hl' : rcols.length = e.extras.length + 1 := by rw [← hl]; rfl
  simp only [returned] at hz
  simp only [rowFits, row, List.cons_append, List.nil_append, List.length_cons, hl', List.zip_cons_cons, List.all_cons, h1, h2,
    hz, Bool.and_self, decide_true]

theorem numbered_evals : ∀ (l : List Op) (c : Nat) (p : Nat × Eval), p ∈ numbered c l → Op.eval p.2 ∈ l := by
  intro l
  induction l with
  | nil => intro c p h; cases h
  | cons op t ih =>
    intro c p h
    cases op with
    | eval e =>
      rcases List.mem_cons.mp h with rfl | h
      · exact List.mem_cons_self
      · exact List.mem_cons_of_mem _ (ih _ _ h)
    | other => exact List.mem_cons_of_mem _ (ih _ _ h)
    | flush => exact List.mem_cons_of_mem _ (ih _ _ h)

/-- The table when the columns come out as `call_id`, `x` and one for each element of the return. -/
theorem table_core (fits : Kind → Val → Bool) (n : Nat) (task : Option Heads) (rcols : List (Name × Kind)) (ops : List Op)
    (hd : (rcols.map (·.1)).Nodup) (hc : "call_id".toList ∉ rcols.map (·.1)) (hx : "x".toList ∉ rcols.map (·.1))
    (hl : ∀ e, Op.eval e ∈ ops → (returned e).length = rcols.length)
    (ho : ∀ e, Op.eval e ∈ ops → (∃ h, headings task e = .ok h ∧
        columns (merge (baseHeads n) h) = [("call_id".toList, .uint32), ("x".toList, .array .float [n])] ++ rcols) ∧
        ∀ c, rowFits fits ([("call_id".toList, .uint32), ("x".toList, .array .float [n])] ++ rcols) (row c e) = true)
    (hne : numbered 0 ops ≠ []) :
    ∃ s t, run fits n task newFile (ops ++ [.flush]) = (s, none) ∧ s.table = some t ∧
      (∀ (k : Nat) (p : Name × Kind), rcols[k]? = some p → ∃ vals, Holds t p.1 vals ∧
        vals.map some = (numbered 0 ops).map fun q => (returned q.2)[k]?) ∧
      Holds t "call_id".toList ((numbered 0 ops).map fun q => .int q.1) ∧
      Holds t "x".toList ((numbered 0 ops).map fun q => .array .float [q.2.x.length] q.2.x) ∧
      t.cols.length = rcols.length + 2 := by
  obtain ⟨s, h1, h2, h3⟩ := run_table fits n task _ ops ho hne
  have hnd : ((([("call_id".toList, Kind.uint32), ("x".toList, .array .float [n])] ++ rcols) : List (Name × Kind)).map (·.1)).Nodup := by
    simp only [List.map_append, List.map_cons, List.map_nil, List.cons_append, List.nil_append]
    rw [List.nodup_cons, List.nodup_cons]
    refine ⟨?_, hx, hd⟩
    rw [List.mem_cons, not_or]
    exact ⟨by decide, hc⟩
  refine ⟨s, _, h1, h3, ?_, ?_, ?_, by simp⟩
  · intro k p hk
    have hlt : k < rcols.length := (List.getElem?_eq_some_iff.mp hk).1
    have hsome : ∀ q ∈ numbered 0 ops, (row q.1 q.2)[k + 2]? = some ((returned q.2).getD k .none) := by
      intro q hq
      have hl := hl q.2 (numbered_evals ops 0 q hq)
      have hlt' : k < (returned q.2).length := by omega
      have : (row q.1 q.2)[k + 2]? = (returned q.2)[k]? := rfl
      rw [this, List.getD_eq_getElem?_getD, List.getElem?_eq_getElem hlt']
      rfl
    refine ⟨(numbered 0 ops).map fun q => (returned q.2).getD k .none, ?_, ?_⟩
    · refine holds_of _ (k + 2) p.1 p.2 _ ?_ hnd (getElem?_rows 0 ops (k + 2) _ hsome)
      simp only [List.cons_append, List.nil_append, List.getElem?_cons_succ, hk]
    · rw [List.map_map]
      refine List.map_congr_left fun q hq => ?_
      exact (hsome q hq).symm
  · exact holds_of _ 0 _ .uint32 _ rfl hnd (getElem?_rows 0 ops 0 _ fun q _ => rfl)
  · exact holds_of _ 1 _ (.array .float [n]) _ rfl hnd (getElem?_rows 0 ops 1 _ fun q _ => rfl)

/-- **C111, partial.** If the headings of a task are as documented and each has a position, in growing order, then, whatever other optimizers do and
whenever the log is written, nothing raises and in the log file the column with the name of an element of the return holds exactly this
element of every evaluation of the optimizer, in order; the columns `call_id` and `x` hold the number of the evaluation and the point, and there are no
others. Missing: headings without positions, see the refutations. -/
theorem C111_named_partial (fits : Kind → Val → Bool) (n : Nat) (h : Heads) (ops : List Op) (hd : Documented h) (hp : Placed h)
    (ho : ∀ e, Op.eval e ∈ ops → Returns fits n h e) (hne : numbered 0 ops ≠ []) :
    ∃ s t, run fits n (some h) newFile (ops ++ [.flush]) = (s, none) ∧ s.table = some t ∧
      (∀ (k : Nat) (p : Name × Col), h[k]? = some p → ∃ vals, Holds t p.1 vals ∧
        vals.map some = (numbered 0 ops).map fun q => (returned q.2)[k]?) ∧
      Holds t "call_id".toList ((numbered 0 ops).map fun q => .int q.1) ∧
      Holds t "x".toList ((numbered 0 ops).map fun q => .array .float [q.2.x.length] q.2.x) ∧
      t.cols.length = h.length + 2 := by
  have hcols := columns_documented n h hd hp
  have hm : (h.map fun p => (p.1, p.2.kind)).map (·.1) = h.map (·.1) := by rw [List.map_map]; rfl
  obtain ⟨s, t, h1, h2, h3, h4, h5, h6⟩ := table_core fits n (some h) (h.map fun p => (p.1, p.2.kind)) ops (by rw [hm]; exact hd.distinct)
    (by rw [hm]; exact hd.call) (by rw [hm]; exact hd.x) (fun e he => by rw [List.length_map]; exact (ho e he).2.1)
    (fun e he => ⟨⟨h, by simp only [headings, (ho e he).1, if_false], hcols⟩, fun c => by
      obtain ⟨-, g1, g2, g3, g4⟩ := ho e he
      refine rowFits_core (by rw [List.length_map]; exact g1) g2 g3 (fun k p v hp hv => ?_) c
      rw [List.getElem?_map] at hp
      cases hk : h[k]? with
      | none => rw [hk] at hp; cases hp
      | some q =>
        rw [hk] at hp
        cases hp
        exact g4 k q v hk hv⟩) hne
  refine ⟨s, t, h1, h2, fun k p hk => ?_, h4, h5, by rw [h6, List.length_map]⟩
  exact h3 k (p.1, p.2.kind) (by rw [List.getElem?_map, hk]; rfl)

/-! ### Without headings -/

theorem resultName_spec (i : Nat) : IsResultName i (resultName i) := by
  obtain ⟨h1, h2, h3, -⟩ := Checkpoint.decAux_spec (i + 1) i (by omega)
  exact ⟨_, rfl, fun h => by simp [Checkpoint.dec] at h; simp [h] at h3, h1, h2⟩

theorem resultName_inj {i j : Nat} {name : Name} (h1 : IsResultName i name) (h2 : IsResultName j name) : i = j := by
  obtain ⟨s, rfl, -, -, hs⟩ := h1
  obtain ⟨s', he, -, -, hs'⟩ := h2
  rw [← List.append_cancel_left he, hs] at hs'
  exact hs'

theorem infer_spec : ∀ (vs : List Val) (i : Nat) (ks : List Kind), List.Forall₂ Suits ks vs → ∃ l, infer i vs = .ok l ∧
    l.length = vs.length ∧ ∀ (j : Nat) (p : Name × Col), l[j]? = some p → p.1 = resultName (i + j) ∧ p.2.pos = some ((i + j : Nat) : Int) ∧ ks[j]? = some p.2.kind := by
  intro vs
  induction vs with
  | nil => intro i ks h; exact ⟨[], rfl, rfl, fun j p hp => by simp at hp⟩
  | cons v t ih =>
    intro i ks h
    cases h with
    | cons hv ht =>
      rename_i k ks
      obtain ⟨l, h1, h2, h3⟩ := ih (i + 1) ks ht
      have hk : inferKind v = .ok k := by cases hv <;> rfl
      refine ⟨(resultName i, ⟨k, some i⟩) :: l, by simp only [infer, hk, h1], by simp [h2], fun j p hp => ?_⟩
      cases j with
      | zero => cases hp; exact ⟨rfl, rfl, rfl⟩
      | succ j =>
        obtain ⟨g1, g2, g3⟩ := h3 j p hp
        have e : i + 1 + j = i + (j + 1) := by omega
        rw [e] at g1 g2
        exact ⟨g1, g2, g3⟩

/-- **C111 (inference).** Without headings, extra results of any of the documented types get columns `result_0`, `result_1`, ... in order, of types
which suit them; anything else raises `TypeError`. -/
theorem C111_inference (vs : List Val) :
    ((∀ v ∈ vs, ∃ k, Suits k v) → ∃ l, infer 0 vs = .ok l ∧ l.length = vs.length ∧
      ∀ (j : Nat) (p : Name × Col) (v : Val), l[j]? = some p → vs[j]? = some v →
        IsResultName j p.1 ∧ p.2.pos = some (j : Int) ∧ Suits p.2.kind v) ∧
    ((∃ v ∈ vs, ∀ k, ¬ Suits k v) → infer 0 vs = .error .typeError) := by
  constructor
  · intro h
    have : ∀ vs : List Val, (∀ v ∈ vs, ∃ k, Suits k v) → ∃ ks, List.Forall₂ Suits ks vs := by
      intro vs
      induction vs with
      | nil => intro _; exact ⟨[], .nil⟩
      | cons v t ih =>
        intro h
        obtain ⟨k, hk⟩ := h v List.mem_cons_self
        obtain ⟨ks, hks⟩ := ih fun v hv => h v (List.mem_cons_of_mem _ hv)
        exact ⟨k :: ks, .cons hk hks⟩
    obtain ⟨ks, hks⟩ := this vs h
    obtain ⟨l, h1, h2, h3⟩ := infer_spec vs 0 ks hks
    refine ⟨l, h1, h2, fun j p v hp hv => ?_⟩
    obtain ⟨g1, g2, g3⟩ := h3 j p hp
    rw [Nat.zero_add] at g1 g2
    refine ⟨g1 ▸ resultName_spec j, g2, ?_⟩
    have : ∀ (ks : List Kind) (vs : List Val), List.Forall₂ Suits ks vs → ∀ (j : Nat) (k : Kind) (v : Val),
        ks[j]? = some k → vs[j]? = some v → Suits k v := by
      intro ks vs h
      induction h with
      | nil => intro j k v hk; simp at hk
      | cons h _ ih =>
        intro j k v hk hv
        cases j with
        | zero => cases hk; cases hv; exact h
        | succ j => exact ih j k v hk hv
    exact this ks vs hks j _ v g3 hv
  · rintro ⟨v, hv, hn⟩
    have hother : ∀ v, (∀ k, ¬ Suits k v) → inferKind v = .error .typeError := by
      intro v h
      cases v with
      | float a => exact absurd (.float a) (h _)
      | bool a => exact absurd (.bool a) (h _)
      | int a => exact absurd (.int a) (h _)
      | str a => exact absurd (.str a) (h _)
      | array e s a => exact absurd (.array e s a) (h _)
      | none => exact absurd .none (h _)
      | complex a b => exact absurd (.complex a b) (h _)
      | other a => rfl
    have : ∀ (vs : List Val) (i : Nat), v ∈ vs → infer i vs = .error .typeError := by
      intro vs
      induction vs with
      | nil => intro i h; cases h
      | cons a t ih =>
        intro i h
        simp only [infer]
        cases ha : inferKind a with
        | error e => cases a <;> cases ha; rfl
        | ok k =>
          rcases List.mem_cons.mp h with rfl | h
          · rw [hother _ hn] at ha; cases ha
          · simp only [ih (i + 1) h]
    exact this vs 0 hv

example : infer 0 [.array .float [3] [.fin 1, .fin 2, .fin 3], .bool false, .str "valid".toList] =
    .ok [("result_0".toList, ⟨.array .float [3], some 0⟩), ("result_1".toList, ⟨.bool, some 1⟩), ("result_2".toList, ⟨.string 280, some 2⟩)] := by
  rfl

/-- **C111 (without headings).** If a task has no headings and all its evaluations return extra results of the same documented types, then in the log
file `result_k` holds exactly the extra result number `k` of every evaluation, in order, and `fx`, `call_id` and `x` what they should; there are no
other columns. -/
theorem C111_inferred (fits : Kind → Val → Bool) (n : Nat) (ks : List Kind) (ops : List Op)
    (ho : ∀ e, Op.eval e ∈ ops → Alike fits n ks e) (hne : numbered 0 ops ≠ []) :
    ∃ s t, run fits n none newFile (ops ++ [.flush]) = (s, none) ∧ s.table = some t ∧
      (∀ k < ks.length, ∃ name vals, IsResultName k name ∧ Holds t name vals ∧
        vals.map some = (numbered 0 ops).map fun q => q.2.extras[k]?) ∧
      Holds t "fx".toList ((numbered 0 ops).map fun q => .float q.2.fx) ∧
      Holds t "call_id".toList ((numbered 0 ops).map fun q => .int q.1) ∧
      Holds t "x".toList ((numbered 0 ops).map fun q => .array .float [q.2.x.length] q.2.x) ∧
      t.cols.length = ks.length + 3 := by
  -- the headings are the same for all evaluations
  have hinf : ∀ (vs : List Val) (i : Nat) (ks : List Kind), List.Forall₂ Suits ks vs →
      infer i vs = .ok (ks.mapIdx fun j k => (resultName (i + j), (⟨k, some ((i + j : Nat) : Int)⟩ : Col))) := by
    intro vs i ks h
    obtain ⟨l, h1, h2, h3⟩ := infer_spec vs i ks h
    rw [h1]
    congr 1
    refine List.ext_getElem? fun j => ?_
    have hlen : ks.length = vs.length := h.length_eq
    cases hj : l[j]? with
    | none =>
      have : l.length ≤ j := List.getElem?_eq_none_iff.mp hj
      rw [List.getElem?_eq_none]
      rw [List.length_mapIdx]; omega
    | some p =>
      obtain ⟨g1, g2, g3⟩ := h3 j p hj
      obtain ⟨a, c, q⟩ := p
      rw [List.getElem?_mapIdx, g3]
      dsimp only at g1 g2
      rw [g1, g2]
      rfl
  have hh : ∀ e, Op.eval e ∈ ops → headings none e = .ok (ks.mapIdx fun j k => (resultName j, (⟨k, some (j : Int)⟩ : Col))) := by
    intro e he
    have := hinf e.extras 0 ks (ho e he).2.1
    simp only [Nat.zero_add] at this
    simp only [headings, (ho e he).1, if_false, this]
  generalize hH : (ks.mapIdx fun j k => (resultName j, (⟨k, some (j : Int)⟩ : Col))) = H at hh
  have hget : ∀ (j : Nat) (p : Name × Col), H[j]? = some p → p.1 = resultName j ∧ p.2.pos = some (j : Int) ∧ ks[j]? = some p.2.kind := by
    intro j p hp
    rw [← hH, List.getElem?_mapIdx] at hp
    cases hk : ks[j]? with
    | none => rw [hk] at hp; cases hp
    | some k => rw [hk] at hp; cases hp; exact ⟨rfl, rfl, rfl⟩
  have hHl : H.length = ks.length := by rw [← hH, List.length_mapIdx]
  have hnm : ∀ k ∈ H.map (·.1), ∃ j, IsResultName j k := by
    intro k hk
    obtain ⟨p, hp, rfl⟩ := List.mem_map.mp hk
    obtain ⟨j, hj⟩ := List.getElem?_of_mem hp
    exact ⟨j, (hget j p hj).1 ▸ resultName_spec j⟩
  have hnot : ∀ name : Name, name.head? ≠ some 'r' → name ∉ H.map (·.1) := by
    intro name hn hm
    obtain ⟨j, s, rfl, -⟩ := hnm name hm
    exact hn rfl
  have hnodup : (H.map (·.1)).Nodup := by
    rw [List.nodup_iff_getElem?_ne_getElem?]
    intro i j hij hjl he
    rw [List.getElem?_map, List.getElem?_map] at he
    rw [List.length_map] at hjl
    have hi : H[i]? = some H[i] := List.getElem?_eq_getElem (by omega)
    have hj : H[j]? = some H[j] := List.getElem?_eq_getElem hjl
    rw [hi, hj] at he
    have e := Option.some.inj he
    have := resultName_inj (resultName_spec i) (by rw [← (hget i _ hi).1]; dsimp only at e; rw [e, (hget j _ hj).1]; exact resultName_spec j)
    omega
  have hmerge : merge (baseHeads n) H = baseHeads n ++ H := by
    refine merge_new H _ hnodup fun k hk hm => ?_
    obtain ⟨j, s, rfl, -⟩ := hnm k hk
    simp [baseHeads] at hm
  have hcols : columns (merge (baseHeads n) H) =
      [("call_id".toList, .uint32), ("x".toList, .array .float [n])] ++ (("fx".toList, Kind.float64) :: H.map fun p => (p.1, p.2.kind)) := by
    rw [hmerge, columns_placed]
    · rfl
    · intro p hp
      rcases List.mem_append.mp hp with h | h
      · simp only [baseHeads, List.mem_cons, List.not_mem_nil, or_false] at h
        rcases h with rfl | rfl | rfl <;> exact ⟨_, rfl⟩
      · obtain ⟨j, hj⟩ := List.getElem?_of_mem h
        exact ⟨_, (hget j p hj).2.1⟩
    · have hpos : ∀ q ∈ H, ∀ i, q.2.pos = some i → 0 ≤ i := by
        intro q hq i hi
        obtain ⟨j, hj⟩ := List.getElem?_of_mem hq
        rw [(hget j q hj).2.1] at hi
        cases hi; omega
      have hpw : H.Pairwise fun a b => ∀ i j, a.2.pos = some i → b.2.pos = some j → i < j := by
        rw [List.pairwise_iff_getElem]
        intro i j hi hj hij a b ha hb
        rw [(hget i _ (List.getElem?_eq_getElem hi)).2.1] at ha
        rw [(hget j _ (List.getElem?_eq_getElem hj)).2.1] at hb
        cases ha; cases hb; omega
      simp only [baseHeads, List.cons_append, List.nil_append, List.pairwise_cons]
      refine ⟨?_, ?_, ?_, hpw⟩ <;> intro q hq i j hi hj <;> cases hi
      · rcases List.mem_cons.mp hq with rfl | hq
        · cases hj; decide
        rcases List.mem_cons.mp hq with rfl | hq
        · cases hj; decide
        · have := hpos q hq j hj; omega
      · rcases List.mem_cons.mp hq with rfl | hq
        · cases hj; decide
        · have := hpos q hq j hj; omega
      · have := hpos q hq j hj; omega
  have hrm : ((("fx".toList, Kind.float64) :: H.map fun p => (p.1, p.2.kind)) : List (Name × Kind)).map (·.1) = "fx".toList :: H.map (·.1) := by
    rw [List.map_cons, List.map_map]; rfl
  obtain ⟨s, t, h1, h2, h3, h4, h5, h6⟩ := table_core fits n none (("fx".toList, Kind.float64) :: H.map fun p => (p.1, p.2.kind)) ops
    (by rw [hrm, List.nodup_cons]; exact ⟨hnot _ (by decide), hnodup⟩)
    (by rw [hrm, List.mem_cons, not_or]; exact ⟨by decide, hnot _ (by decide)⟩)
    (by rw [hrm, List.mem_cons, not_or]; exact ⟨by decide, hnot _ (by decide)⟩)
    (fun e he => by
      have := (ho e he).2.1.length_eq
      simp only [returned, List.length_cons, List.length_map]; omega)
    (fun e he => ⟨⟨H, hh e he, hcols⟩, fun c => by
      obtain ⟨-, g0, g1, g2, g3, g4⟩ := ho e he
      refine rowFits_core ?_ g1 g2 (fun k p v hp hv => ?_) c
      · have := g0.length_eq
        simp only [returned, List.length_cons, List.length_map]; omega
      · cases k with
        | zero => cases hp; cases hv; exact g3 _
        | succ k =>
          rw [List.getElem?_cons_succ, List.getElem?_map] at hp
          cases hk : H[k]? with
          | none => rw [hk] at hp; cases hp
          | some q => rw [hk] at hp; cases hp; exact g4 k _ v (hget k q hk).2.2 hv⟩) hne
  refine ⟨s, t, h1, h2, fun k hk => ?_, ?_, h4, h5, by rw [h6]; simp [hHl]⟩
  · have hk' : H[k]? = some H[k] := List.getElem?_eq_getElem (by omega)
    obtain ⟨vals, g1, g2⟩ := h3 (k + 1) (H[k].1, H[k].2.kind) (by rw [List.getElem?_cons_succ, List.getElem?_map, hk']; rfl)
    refine ⟨_, vals, (hget k _ hk').1 ▸ resultName_spec k, g1, ?_⟩
    rw [g2]
    exact List.map_congr_left fun q _ => rfl
  · obtain ⟨vals, g1, g2⟩ := h3 0 _ rfl
    have : vals = (numbered 0 ops).map fun q => .float q.2.fx := by
      have e : (numbered 0 ops).map (fun q => (returned q.2)[0]?) = ((numbered 0 ops).map fun q => Val.float q.2.fx).map some := by
        rw [List.map_map]; exact List.map_congr_left fun q _ => rfl
      rw [e] at g2
      exact List.map_injective_iff.mpr (fun a b h => Option.some.inj h) g2
    rw [← this]; exact g1

/-- Fitting types for the examples: numbers in numeric columns, strings in string columns, arrays in columns of their shape. -/
def sampleFits : Kind → Val → Bool
  | .uint32, .int n => decide (0 ≤ n)
  | .float64, .float _ => true
  | .int64, .int _ => true
  | .bool, .bool _ => true
  | .string _, .str _ => true
  | .complex128, .complex _ _ => true
  | .array e s, .array e' s' _ => decide (e = e' ∧ s = s')
  | _, _ => false

/-- Headings of the ParAMS interface (params.py:317-324) with three training and two validation residuals. -/
def paramsHeads : Heads :=
  [("fx".toList, ⟨.float64, some 0⟩), ("resids_ts".toList, ⟨.array .float [3], some 1⟩), ("fx_vs".toList, ⟨.float64, some 2⟩),
    ("resids_vs".toList, ⟨.array .float [2], some 3⟩)]

example : Documented paramsHeads ∧ Placed paramsHeads := by
  refine ⟨⟨rfl, by decide, by decide, by decide⟩, ?_, ?_⟩
  · intro p hp
    simp only [paramsHeads, List.mem_cons, List.not_mem_nil, or_false] at hp
    rcases hp with rfl | rfl | rfl | rfl <;> exact ⟨_, rfl, by decide⟩
  · simp only [paramsHeads, List.pairwise_cons, List.mem_cons, List.not_mem_nil, or_false]
    refine ⟨?_, ?_, ?_, ?_, List.Pairwise.nil⟩ <;> rintro p hp i j hi hj
    · cases hi; rcases hp with rfl | rfl | rfl <;> cases hj <;> decide
    · cases hi; rcases hp with rfl | rfl <;> cases hj <;> decide
    · cases hi; subst hp; cases hj; decide
    · cases hp

/-- An evaluation of such a task. -/
def paramsEval (fx fxv : Rat) : Eval :=
  ⟨[.fin 1, .fin 2], .fin fx, [.array .float [3] [.fin fx, .fin 0, .fin 0], .float (.fin fxv), .array .float [2] [.fin fxv, .fin 0]]⟩

theorem sampleFits_int (c : Nat) : sampleFits .uint32 (.int c) = true := by simp [sampleFits]

example (fx fxv : Rat) : Returns sampleFits 2 paramsHeads (paramsEval fx fxv) := by
  refine ⟨by simp [paramsEval], rfl, sampleFits_int, rfl, fun k p v hp hv => ?_⟩
  match k with
  | 0 => cases hp; cases hv; rfl
  | 1 => cases hp; cases hv; rfl
  | 2 => cases hp; cases hv; rfl
  | 3 => cases hp; cases hv; rfl
  | k + 4 => cases hp

example (fx fxv : Rat) : Alike sampleFits 2 [.array .float [3], .float64, .array .float [2]] (paramsEval fx fxv) := by
  refine ⟨by simp [paramsEval], .cons (.array ..) (.cons (.float _) (.cons (.array ..) .nil)), sampleFits_int, rfl, fun _ => rfl,
    fun k c v hc hv => ?_⟩
  match k with
  | 0 => cases hc; cases hv; rfl
  | 1 => cases hc; cases hv; rfl
  | 2 => cases hc; cases hv; rfl
  | k + 3 => cases hc

/-! ### In memory -/

theorem mem_core (task : Option Heads) (rnames : List Name) (ops : List Op)
    (hd : rnames.Nodup) (hf : "fx".toList ∈ rnames)
    (hc : "call_id".toList ∉ rnames) (hx : "x".toList ∉ rnames) (hm : "metadata".toList ∉ rnames) (hg : "messages".toList ∉ rnames)
    (ho : ∀ e, Op.eval e ∈ ops → (returned e).length = rnames.length ∧ ∃ h, headings task e = .ok h ∧
      addHistory h newMem.store = newMem.store ++ ("call_id".toList :: "x".toList :: rnames).map fun k => (k, []))
    (hne : numbered 0 ops ≠ []) :
    ∃ s, runMem task newMem ops = (s, none) ∧
      (∀ (k : Nat) (name : Name), rnames[k]? = some name → ∃ vals, HoldsMem s name vals ∧
        vals.map some = (numbered 0 ops).map fun q => (returned q.2)[k]?) ∧
      HoldsMem s "call_id".toList ((numbered 0 ops).map fun q => .int q.1) ∧
      HoldsMem s "x".toList ((numbered 0 ops).map fun q => .array .float [q.2.x.length] q.2.x) ∧
      (HoldsMem s "metadata".toList [] ∧ HoldsMem s "messages".toList []) ∧ s.store.length = rnames.length + 4 := by
  have hnd : ("call_id".toList :: "x".toList :: rnames).Nodup := by
    rw [List.nodup_cons, List.nodup_cons, List.mem_cons, not_or]
    exact ⟨⟨by decide, hc⟩, hx, hd⟩
  have hm' : "metadata".toList ∉ "call_id".toList :: "x".toList :: rnames := by
    rw [List.mem_cons, List.mem_cons, not_or, not_or]; exact ⟨by decide, by decide, hm⟩
  have hg' : "messages".toList ∉ "call_id".toList :: "x".toList :: rnames := by
    rw [List.mem_cons, List.mem_cons, not_or, not_or]; exact ⟨by decide, by decide, hg⟩
  obtain ⟨s, h1, h2⟩ := runMem_table task ("call_id".toList :: "x".toList :: rnames) hm' hg' hnd
    (List.mem_cons_of_mem _ (List.mem_cons_of_mem _ hf)) ops 0
    (fun e he => ⟨fun c => by
      have := (ho e he).1
      simp only [row, returned, List.length_cons] at this ⊢; omega, (ho e he).2⟩) hne
  have hkeys : (s.store.map (·.1)).Nodup := by
    rw [h2.1, List.nodup_cons, List.nodup_cons, List.mem_cons, not_or]
    exact ⟨⟨by decide, hm'⟩, hg', hnd⟩
  refine ⟨s, h1, fun k name hk => ?_, ?_, ?_, ?_, ?_⟩
  · have hlt : k < rnames.length := (List.getElem?_eq_some_iff.mp hk).1
    refine ⟨_, stored_get _ _ _ _ (h2.2.2 (k + 2) name (by simpa using hk)) hkeys, ?_⟩
    rw [List.map_map]
    refine List.map_congr_left fun q hq => ?_
    have hl := (ho q.2 (numbered_evals ops 0 q hq)).1
    have hlt' : k < (returned q.2).length := by omega
    have : (row q.1 q.2).getD (k + 2) .none = (returned q.2).getD k .none := rfl
    simp only [Function.comp_apply, this]
    rw [List.getD_eq_getElem?_getD, List.getElem?_eq_getElem hlt']
    rfl
  · exact stored_get _ _ _ _ (h2.2.2 0 _ rfl) hkeys
  · exact stored_get _ _ _ _ (h2.2.2 1 _ rfl) hkeys
  · exact ⟨stored_get _ _ _ _ h2.2.1.1 hkeys, stored_get _ _ _ _ h2.2.1.2 hkeys⟩
  · have := congrArg List.length h2.1
    simpa using this

theorem dictSet_fx (t : List Name) :
    ("fx".toList :: t).foldl (fun d k => dictSet d k []) ((["call_id".toList, "x".toList, "fx".toList] : List Name).foldl (fun d k => dictSet d k []) newMem.store) =
    t.foldl (fun d k => dictSet d k []) (newMem.store ++ [("call_id".toList, []), ("x".toList, []), ("fx".toList, [])]) := rfl

theorem addHistory_documented (h : Heads) (hd : Documented h) (hm : "metadata".toList ∉ h.map (·.1)) (hg : "messages".toList ∉ h.map (·.1)) :
    addHistory h newMem.store = newMem.store ++ ("call_id".toList :: "x".toList :: h.map (·.1)).map fun k => (k, []) := by
  obtain ⟨h1, h2, h3, h4⟩ := hd
  cases h with
  | nil => cases h1
  | cons p t =>
    simp only [List.head?_cons, Option.map_some, Option.some.injEq] at h1
    simp only [List.map_cons, h1] at h2 h3 h4 hm hg ⊢
    rw [addHistory, List.foldl_append, List.map_cons, h1, dictSet_fx]
    rw [List.nodup_cons] at h2
    simp only [List.mem_cons, not_or] at h3 h4 hm hg
    rw [foldl_new _ _ h2.2]
    · simp
    · intro k hk hmem
      simp only [newMem, List.cons_append, List.nil_append, List.map_cons, List.map_nil, List.mem_cons, List.not_mem_nil, or_false] at hmem
      rcases hmem with e | e | e | e | e <;> rw [e] at hk
      · exact hm.2 hk
      · exact hg.2 hk
      · exact h3.2 hk
      · exact h4.2 hk
      · exact h2.1 hk

/-- **C111 (in memory).** If the headings are as documented, with or without positions, and all evaluations of the task return one value for each of
them, then the log in memory holds, under the name of the heading number `k`, exactly the elements number `k` of the returns, in order, and under
`call_id` and `x` the numbers of the evaluations and their points; messages and metadata are left alone. -/
theorem C111_memory (h : Heads) (ops : List Op) (hd : Documented h)
    (hm : "metadata".toList ∉ h.map (·.1)) (hg : "messages".toList ∉ h.map (·.1))
    (ho : ∀ e, Op.eval e ∈ ops → e.extras ≠ [] ∧ (returned e).length = h.length) (hne : numbered 0 ops ≠ []) :
    ∃ s, runMem (some h) newMem ops = (s, none) ∧
      (∀ (k : Nat) (p : Name × Col), h[k]? = some p → ∃ vals, HoldsMem s p.1 vals ∧
        vals.map some = (numbered 0 ops).map fun q => (returned q.2)[k]?) ∧
      HoldsMem s "call_id".toList ((numbered 0 ops).map fun q => .int q.1) ∧
      HoldsMem s "x".toList ((numbered 0 ops).map fun q => .array .float [q.2.x.length] q.2.x) ∧
      (HoldsMem s "metadata".toList [] ∧ HoldsMem s "messages".toList []) ∧ s.store.length = h.length + 4 := by
  have hf : "fx".toList ∈ h.map (·.1) := by
    have := hd.first
    cases h with
    | nil => cases this
    | cons p t =>
      simp only [List.head?_cons, Option.map_some, Option.some.injEq] at this
      rw [List.map_cons, this]; exact List.mem_cons_self
  obtain ⟨s, h1, h2, h3, h4, h4', h5⟩ := mem_core (some h) (h.map (·.1)) ops hd.distinct hf hd.call hd.x hm hg
    (fun e he => ⟨by rw [List.length_map]; exact (ho e he).2, h, by simp only [headings, (ho e he).1, if_false],
      addHistory_documented h hd hm hg⟩) hne
  refine ⟨s, h1, fun k p hk => h2 k p.1 (by rw [List.getElem?_map, hk]; rfl), h3, h4, h4', by rw [h5, List.length_map]⟩

/-! ### Where it fails -/

/-- The example in the documentation of `BaseFunction.headers` (function.py:70-75). -/
def documentedExample : Heads :=
  [("fx".toList, ⟨.float64, none⟩), ("training_set_residuals".toList, ⟨.array .float [100], none⟩),
    ("validation_set_fx".toList, ⟨.float64, none⟩), ("errors".toList, ⟨.string 280, none⟩)]

example : Documented documentedExample ∧ "metadata".toList ∉ documentedExample.map (·.1) ∧ "messages".toList ∉ documentedExample.map (·.1) := by
  exact ⟨⟨rfl, by decide, by decide, by decide⟩, by decide, by decide⟩

/-- **C111, refuted.** The headings in the documentation have no positions. With them, the columns are in the order of the alphabet, whereas values
are stored in the order of the return. (1) No evaluation such a task can return is stored: what arrives under `errors` is the function value. Writing
raises `ValueError` for any evaluation, unless a number can be stored as a string. (2) With headings of equal types nothing is noticed: the
function value is found as `charge`, the charge as `energy`, and the energy as `fx`. -/
theorem C111_documented_refuted :
    (∀ (fits : Kind → Val → Bool) (n : Nat) (e : Eval), (∀ v, fits (.string 280) (.float v) = false) → e.extras ≠ [] →
      ∃ s, run fits n (some documentedExample) newFile [.eval e, .flush] = (s, some .valueError) ∧ ∀ t, s.table = some t → t.rows = []) ∧
    ∃ h : Heads, Documented h ∧ ∀ (fx charge energy : PyF),
      ∃ s t, run sampleFits 1 (some h) newFile [.eval ⟨[.fin 0], fx, [.float charge, .float energy]⟩, .flush] = (s, none) ∧ s.table = some t ∧
        h.map (·.1) = ["fx".toList, "charge".toList, "energy".toList] ∧
        Holds t "charge".toList [.float fx] ∧ Holds t "energy".toList [.float charge] ∧ Holds t "fx".toList [.float energy] := by
  constructor
  · intro fits n e hf he
    have hcols : columns (merge (baseHeads n) documentedExample) =
        [("call_id".toList, .uint32), ("x".toList, .array .float [n]), ("errors".toList, .string 280), ("fx".toList, .float64),
          ("training_set_residuals".toList, .array .float [100]), ("validation_set_fx".toList, .float64)] := rfl
    refine ⟨⟨1, some ⟨columns (merge (baseHeads n) documentedExample), []⟩, [row 1 e]⟩, ?_, fun t ht => by cases ht; rfl⟩
    have hrow : rowFits fits [("call_id".toList, .uint32), ("x".toList, .array .float [n]), ("errors".toList, .string 280), ("fx".toList, .float64),
          ("training_set_residuals".toList, .array .float [100]), ("validation_set_fx".toList, .float64)] (row 1 e) = false := by
      simp [rowFits, row, hf]
    simp only [run, step, result, newFile, headings, he, if_false, hcols, flush, append, List.nil_append, Nat.zero_add, List.all_cons, hrow,
      Bool.false_and, Bool.false_eq_true, List.cons_ne_nil]
  · refine ⟨[("fx".toList, ⟨.float64, none⟩), ("charge".toList, ⟨.float64, none⟩), ("energy".toList, ⟨.float64, none⟩)],
      ⟨rfl, by decide, by decide, by decide⟩, fun fx charge energy => ?_⟩
    refine ⟨⟨1, some ⟨[("call_id".toList, .uint32), ("x".toList, .array .float [1]), ("charge".toList, .float64), ("energy".toList, .float64),
      ("fx".toList, .float64)], [row 1 ⟨[.fin 0], fx, [.float charge, .float energy]⟩]⟩, []⟩, _, rfl, rfl, rfl, ?_, ?_, ?_⟩
    · exact holds_of _ 2 _ .float64 _ rfl (by dsimp only; decide) rfl
    · exact holds_of _ 3 _ .float64 _ rfl (by dsimp only; decide) rfl
    · exact holds_of _ 4 _ .float64 _ rfl (by dsimp only; decide) rfl

/-- **C111, refuted (names).** The documentation asks for a name for every element of the return. If the first one is not called `fx`, there is a
column too many, and no evaluation with one value for each heading can be written. -/
theorem C111_first_refuted (fits : Kind → Val → Bool) (n : Nat) (h : Heads) (e : Eval) (hd : (h.map (·.1)).Nodup)
    (hn : "call_id".toList ∉ h.map (·.1) ∧ "x".toList ∉ h.map (·.1) ∧ "fx".toList ∉ h.map (·.1))
    (hl : (returned e).length = h.length) (he : e.extras ≠ []) :
    ∃ s, run fits n (some h) newFile [.eval e, .flush] = (s, some .valueError) ∧ ∀ t, s.table = some t → t.rows = [] := by
  have hmerge : merge (baseHeads n) h = baseHeads n ++ h := by
    refine merge_new h _ hd fun k hk hm => ?_
    simp only [baseHeads, List.map_cons, List.map_nil, List.mem_cons, List.not_mem_nil, or_false] at hm
    rcases hm with rfl | rfl | rfl
    · exact hn.1 hk
    · exact hn.2.1 hk
    · exact hn.2.2 hk
  have hlen : (columns (merge (baseHeads n) h)).length = h.length + 3 := by
    rw [columns_length, hmerge, List.length_append]; simp [baseHeads]; omega
  have hrow : rowFits fits (columns (merge (baseHeads n) h)) (row 1 e) = false := by
    have : ¬ (columns (merge (baseHeads n) h)).length = (row 1 e).length := by
      rw [hlen]; simp only [row, returned, List.length_cons] at hl ⊢; omega
    simp only [rowFits, this, decide_false, Bool.false_and]
  refine ⟨⟨1, some ⟨columns (merge (baseHeads n) h), []⟩, [row 1 e]⟩, ?_, fun t ht => by cases ht; rfl⟩
  simp only [run, step, result, newFile, headings, he, if_false, flush, append, List.nil_append, Nat.zero_add, List.all_cons, hrow,
    Bool.false_and, Bool.false_eq_true, List.cons_ne_nil]

/-- **C111, refuted (mixed calls).** Optimizers choose with each call whether they want the extra results. If the first call of an optimizer is a plain
one and a later one is detailed, then the log file takes none of the evaluations which are waiting, whatever the types are; and in memory the
extra results are dropped. If the first is detailed and the second is not, the log file again raises, and in memory the value after it is
found beside the wrong evaluation. -/
theorem C111_mixed_refuted (fits : Kind → Val → Bool) (n : Nat) (task : Option Heads) (plain detailed : Eval)
    (hp : plain.extras = []) (hd : detailed.extras ≠ []) :
    (∃ s, run fits n task newFile [.eval plain, .eval detailed, .flush] = (s, some .valueError) ∧ ∀ t, s.table = some t → t.rows = []) ∧
    (∃ s, runMem task newMem [.eval plain, .eval detailed] = (s, none) ∧
      ∀ name vals, HoldsMem s name vals → name ∈ ["metadata".toList, "messages".toList, "call_id".toList, "x".toList, "fx".toList]) ∧
    ∃ s, runMem (some [("fx".toList, ⟨.float64, some 0⟩), ("energy".toList, ⟨.float64, some 1⟩)]) newMem
        [.eval ⟨[.fin 0], .fin 1, [.float (.fin 10)]⟩, .eval ⟨[.fin 0], .fin 2, []⟩, .eval ⟨[.fin 0], .fin 3, [.float (.fin 30)]⟩] = (s, none) ∧
      HoldsMem s "fx".toList [.float (.fin 1), .float (.fin 2), .float (.fin 3)] ∧
      HoldsMem s "energy".toList [.float (.fin 10), .float (.fin 30)] := by
  refine ⟨?_, ?_, ?_⟩
  · have hrow : rowFits fits (columns (merge (baseHeads n) [])) (row 2 detailed) = false := by
      have : ¬ (columns (merge (baseHeads n) [])).length = (row 2 detailed).length := by
        have h3 : (columns (merge (baseHeads n) [])).length = 3 := rfl
        have : detailed.extras.length ≠ 0 := fun h => hd (List.length_eq_zero_iff.mp h)
        rw [h3]; simp only [row, List.length_cons]; omega
      simp only [rowFits, this, decide_false, Bool.false_and]
    refine ⟨⟨2, some ⟨columns (merge (baseHeads n) []), []⟩, [row 1 plain, row 2 detailed]⟩, ?_, fun t ht => by cases ht; rfl⟩
    simp only [run, step, result, newFile, headings, hp, if_true, flush, append, List.nil_append, List.cons_append, Nat.zero_add, List.all_cons, hrow,
      Bool.false_and, Bool.and_false, Bool.false_eq_true, if_false, List.cons_ne_nil]
  · refine ⟨_, by simp only [runMem, stepMem, resultMem, headings, hp, if_true]; rfl, ?_⟩
    intro name vals h
    have := dictGet_mem h
    simp [addHistory, newMem, dictSet, putZip, row, hp] at this
    rcases this with h | h | h | h | h <;> simp [h.1]
  · exact ⟨_, rfl, by unfold HoldsMem; decide +kernel, by unfold HoldsMem; decide +kernel⟩

/-- **C111, refuted (numbers of numpy).** The first evaluation of a task without headings ends the run with `TypeError` if one of its extra results is
not of the listed types, among them numpy's integers and booleans, which `np.sum` or a comparison of arrays give. -/
theorem C111_numpy_refuted (fits : Kind → Val → Bool) (n id : Nat) (x : List PyF) (fx : PyF) (before after : List Val) (ops : List Op) :
    run fits n none newFile (.eval ⟨x, fx, before ++ .other id :: after⟩ :: ops) = (newFile, some .typeError) ∧
    runMem none newMem (.eval ⟨x, fx, before ++ .other id :: after⟩ :: ops) = (newMem, some .typeError) := by
  have h := (C111_inference (before ++ .other id :: after)).2 ⟨.other id, by simp, fun k hk => by cases hk⟩
  have hne : before ++ Val.other id :: after ≠ [] := by simp
  have hh : headings none ⟨x, fx, before ++ .other id :: after⟩ = .error .typeError := by
    simp only [headings, hne, if_false, h]
  constructor
  · simp only [run, step, result, newFile, hh]
  · have hn : dictGet newMem.store "fx".toList = none := by decide
    simp only [runMem, stepMem, resultMem, hn, hh, Option.isSome_none, Bool.false_eq_true, if_false]

end Glompo.Props
