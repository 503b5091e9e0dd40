import Verif.Spec.Scope
import Verif.Lemmas.Basic

/-!
# C55, C78: the scope
-/

namespace Glompo.Props

open Glompo Glompo.Scope Glompo.Spec.Scope

namespace ScopeInv

theorem dictGet_mapv {V : Type} (f : Nat → V → V) (l : List (Nat × V)) (k : Nat) :
    dictGet (l.map fun q => (q.1, f q.1 q.2)) k = (dictGet l k).map (f k) := by
  induction l with
  | nil => rfl
  | cons q l ih =>
    obtain ⟨a, b⟩ := q
    simp only [List.map_cons, dictGet]
    split
    · rename_i e; rw [e]; rfl
    · exact ih

theorem low_mono {x y : Int} (n : Nat) (h : x ≤ y) : low x n ≤ low y n := by unfold low; split <;> split <;> omega

theorem keep_keep {x y : Int} (n : Nat) (h : x ≤ y) (l : List Pt) : keep y n (keep x n l) = keep y n l := by
  simp only [keep, List.filter_filter]
  congr 1
  funext p
  have := low_mono n h
  by_cases a : low y n ≤ p.1 <;> by_cases b : low x n ≤ p.1 <;> simp [a, b] <;> omega

/-- How the data differ after `redraw`. -/
theorem redraw_eq (cfg : Cfg) (f : Bool) (s : St) :
    (redraw cfg f s).1.xMax = s.xMax ∧ (redraw cfg f s).1.marks = s.marks ∧ (redraw cfg f s).1.isSetup = s.isSetup ∧
    ((redraw cfg f s).1.streams = s.streams ∧ (redraw cfg f s).1.dead = s.dead ∧ (redraw cfg f s).1.redraws = s.redraws ∧
        (redraw cfg f s).1.frames = s.frames ∧ (redraw cfg f s).2 = none ∧ ¬ (cfg.epf ≤ s.counter || f) = true ∧
        (redraw cfg f s).1.counter = s.counter + 1 ∨
     (redraw cfg f s).1.streams = (purged cfg s).streams ∧ (redraw cfg f s).1.dead = (purged cfg s).dead ∧
        (redraw cfg f s).1.redraws = s.redraws + 1 ∧ (cfg.epf ≤ s.counter || f) = true ∧ (redraw cfg f s).1.counter = 1 ∧
        ((redraw cfg f s).1.frames = if cfg.recordMovie && s.isSetup then s.frames + 1 else s.frames) ∧
        ((redraw cfg f s).2 = if cfg.recordMovie && !s.isSetup then some .runtimeError else none)) := by
  unfold redraw
  split
  · rename_i hc
    unfold draw purged
    cases ht : cfg.truncated <;> cases hr : cfg.recordMovie <;> cases hs : s.isSetup <;> simp [purge, hs, hc]
  · rename_i hc
    exact ⟨rfl, rfl, rfl, .inl ⟨rfl, rfl, rfl, rfl, rfl, hc, rfl⟩⟩

/-- The data of the lines: the streams of optimizers added, and dead lines are empty. -/
structure Base (cfg : Cfg) (h : List Ev) (s : St) : Prop where
  added : ∀ i, Added h i ↔ ∃ l, dictGet s.streams i = some l
  dead : ∀ i ∈ s.dead, ∀ l, dictGet s.streams i = some l → l = []
  xs : ∀ i l, dictGet s.streams i = some l → ∀ p ∈ l, p.1 ≤ s.xMax
  big : ∀ x ∈ counts h, x ≤ s.xMax
  attained : s.xMax = 0 ∨ s.xMax ∈ counts h
  pos : 0 ≤ s.xMax
  nodup : (s.streams.map (·.1)).Nodup

theorem purged_get (cfg : Cfg) (s : St) (i : Nat) (l : List Pt) (h : dictGet (purged cfg s).streams i = some l) :
    ∃ l0, dictGet s.streams i = some l0 ∧ (cfg.truncated = none → l = l0) ∧
      ∀ n, cfg.truncated = some n → l = if i ∈ s.dead then l0 else keep s.xMax n l0 := by
  unfold purged at h
  cases ht : cfg.truncated with
  | none => rw [ht] at h; exact ⟨l, h, fun _ => rfl, fun n hn => by cases hn⟩
  | some n =>
    rw [ht] at h
    simp only [purge] at h
    rw [dictGet_mapv (fun k v => if k ∈ s.dead then v else keep s.xMax n v)] at h
    obtain ⟨l0, h1, h2⟩ := Option.map_eq_some_iff.1 h
    exact ⟨l0, h1, fun hn => (by cases hn), fun m hm => (by cases hm; exact h2.symm)⟩

theorem purged_mem (cfg : Cfg) (s : St) (i : Nat) : (∃ l, dictGet (purged cfg s).streams i = some l) ↔ ∃ l, dictGet s.streams i = some l := by
  unfold purged
  cases ht : cfg.truncated with
  | none => rfl
  | some n =>
    simp only [purge]
    rw [dictGet_mapv (fun k v => if k ∈ s.dead then v else keep s.xMax n v)]
    cases dictGet s.streams i <;> simp

theorem purged_dead (cfg : Cfg) (s : St) (i : Nat) (hi : i ∈ (purged cfg s).dead) :
    i ∈ s.dead ∨ ∃ n q, cfg.truncated = some n ∧ q ∈ s.streams ∧ q.1 = i ∧ keep s.xMax n q.2 = [] ∧ i ∉ s.dead := by
  unfold purged at hi
  cases ht : cfg.truncated with
  | none => rw [ht] at hi; exact .inl hi
  | some n =>
    rw [ht] at hi
    simp only [purge, List.mem_append, List.mem_map, List.mem_filter, Bool.and_eq_true, Bool.not_eq_true', decide_eq_false_iff_not,
      List.isEmpty_iff] at hi
    rcases hi with hi | ⟨q, ⟨h1, h2, h3⟩, rfl⟩
    · exact .inl hi
    · exact .inr ⟨n, q, rfl, h1, rfl, h3, h2⟩

theorem dictGet_of_mem {V : Type} {l : List (Nat × V)} (hn : (l.map (·.1)).Nodup) {q : Nat × V} (hq : q ∈ l) : dictGet l q.1 = some q.2 := by
  induction l with
  | nil => cases hq
  | cons a l ih =>
    obtain ⟨h1, h2⟩ := List.nodup_cons.1 hn
    rcases List.mem_cons.1 hq with rfl | hq
    · simp [dictGet]
    · have : a.1 ≠ q.1 := fun e => h1 (by show a.1 ∈ _; rw [e]; exact List.mem_map_of_mem (f := fun x => x.1) hq)
      simp only [dictGet, this, if_false]
      exact ih h2 hq

theorem keep_le {x : Int} {n : Nat} {l : List Pt} {p : Pt} (h : p ∈ keep x n l) : p ∈ l := (List.mem_filter.1 h).1

theorem Base.redraw {cfg : Cfg} {h : List Ev} {s : St} (B : Base cfg h s) (f : Bool) : Base cfg h (Scope.redraw cfg f s).1 := by
  obtain ⟨e1, e2, e3, ⟨e4, e5, _⟩ | ⟨e4, e5, _⟩⟩ := redraw_eq cfg f s
  · exact ⟨by rw [e4]; exact B.added, by rw [e4, e5]; exact B.dead, by rw [e4, e1]; exact B.xs, by rw [e1]; exact B.big, by rw [e1]; exact B.attained,
      by rw [e1]; exact B.pos, by rw [e4]; exact B.nodup⟩
  · refine ⟨fun i => by rw [e4, purged_mem]; exact B.added i, fun i hi l hl => ?_, fun i l hl p hp => ?_, by rw [e1]; exact B.big, by rw [e1]; exact B.attained,
      by rw [e1]; exact B.pos, ?_⟩
    · rw [e5] at hi
      rw [e4] at hl
      obtain ⟨l0, h1, h2, h3⟩ := purged_get cfg s i l hl
      rcases purged_dead cfg s i hi with hd | ⟨n, q, hn, hq, rfl, hk, hd⟩
      · have : l0 = [] := B.dead i hd l0 h1
        cases ht : cfg.truncated with
        | none => rw [h2 ht, this]
        | some n => rw [h3 n ht, if_pos hd, this]
      · rw [dictGet_of_mem B.nodup hq] at h1
        cases h1
        rw [h3 n hn, if_neg hd, hk]
    · rw [e4] at hl
      rw [e1]
      obtain ⟨l0, h1, h2, h3⟩ := purged_get cfg s i l hl
      refine B.xs i l0 h1 p ?_
      cases ht : cfg.truncated with
      | none => rw [← h2 ht]; exact hp
      | some n =>
        rw [h3 n ht] at hp
        split at hp
        · exact hp
        · exact keep_le hp
    · rw [e4]
      unfold purged
      cases cfg.truncated with
      | none => exact B.nodup
      | some n =>
        simp only [purge, List.map_map, Function.comp_def]
        exact B.nodup

theorem dictSet_nodup {V : Type} {d : List (Nat × V)} (hn : (d.map (·.1)).Nodup) (k : Nat) (v : V) : ((dictSet d k v).map (·.1)).Nodup := by
  rw [dictSet_keys]
  split
  · exact hn
  · rename_i hk
    rw [List.nodup_append]
    exact ⟨hn, by simp, by rintro a ha b hb rfl; simp only [List.mem_singleton] at hb; subst hb; exact hk ha⟩

theorem le_extend (s : St) (x : Int) : s.xMax ≤ (extend s x).xMax ∧ x ≤ (extend s x).xMax ∧ ((extend s x).xMax = s.xMax ∨ (extend s x).xMax = x) := by
  unfold extend
  simp only
  split <;> omega

/-- The data after a point is appended. -/
def pushed (s : St) (i : Nat) (l : List Pt) (p : Pt) : St := { extend (revive s i) p.1 with streams := dictSet s.streams i (l ++ [p]) }

theorem Base.push {cfg : Cfg} {h : List Ev} {s : St} (B : Base cfg h s) {i : Nat} {x : Int} {y : PyF} {l : List Pt} (hl : dictGet s.streams i = some l)
    (p : Pt) (hp : p.1 = x) : Base cfg (.update i x y :: h) (pushed s i l p) := by
  obtain ⟨a1, a2, a3⟩ := le_extend (revive s i) p.1
  have a1 : s.xMax ≤ (pushed s i l p).xMax := a1
  have a2 : p.1 ≤ (pushed s i l p).xMax := a2
  have a3 : (pushed s i l p).xMax = s.xMax ∨ (pushed s i l p).xMax = p.1 := a3
  refine ⟨fun j => ?_, fun j hj k hk => ?_, fun j k hk q hq => ?_, fun z hz => ?_, ?_, by have := B.pos; omega, dictSet_nodup B.nodup _ _⟩
  · simp only [pushed, dictGet_set, Added, List.mem_cons, reduceCtorEq, false_or]
    by_cases hj : j = i
    · subst hj
      simp only [if_true, Option.some.injEq, exists_eq', iff_true]
      exact (B.added j).2 ⟨l, hl⟩
    · simp only [hj, if_false]; exact B.added j
  · simp only [pushed, extend, revive, List.mem_filter, ne_eq, decide_not, Bool.not_eq_true', decide_eq_false_iff_not] at hj
    simp only [pushed, dictGet_set, hj.2, if_false] at hk
    exact B.dead j hj.1 k hk
  · simp only [pushed, dictGet_set] at hk
    by_cases hj : j = i
    · simp only [hj, if_true, Option.some.injEq] at hk
      subst hk
      rcases List.mem_append.1 hq with hq | hq
      · have := B.xs i l hl q hq; omega
      · simp only [List.mem_singleton] at hq; subst hq; exact a2
    · simp only [hj, if_false] at hk
      have := B.xs j k hk q hq; omega
  · simp only [counts, List.mem_cons] at hz
    rcases hz with rfl | hz
    · omega
    · have := B.big z hz; omega
  · rcases a3 with a3 | a3
    · rcases B.attained with b | b
      · left; omega
      · right; rw [a3]; exact List.mem_cons_of_mem _ b
    · right; rw [a3, hp]; exact List.mem_cons_self

theorem addPoint_pushed (cfg : Cfg) (s : St) {i : Nat} {l : List Pt} (hl : dictGet s.streams i = some l) (x : Int) (y : PyF) :
    addPoint cfg s i (x, y) = (pushed s i l (x, scale cfg y), none) := by
  simp only [addPoint, hl, pushed]

/-- The value shown for a point handed in. -/
def shown (cfg : Cfg) (l : List Pt) (y : PyF) : PyF := if cfg.elitism then elite cfg l y else y

theorem update_pushed (cfg : Cfg) (s : St) {i : Nat} {l : List Pt} (hl : dictGet s.streams i = some l) (x : Int) (y : PyF) :
    updateOptimizer cfg s i x y = Scope.redraw cfg false (pushed s i l (x, scale cfg (shown cfg l y))) := by
  unfold updateOptimizer shown
  split
  · simp only [hl, addPoint_pushed cfg s hl, thenDraw]
  · simp only [addPoint_pushed cfg s hl, thenDraw]

/-- The data after a mark. -/
def marked (s : St) (i : Nat) (t : Track) (l : List Pt) : St :=
  match l.getLast? with
  | none => revive s i
  | some p => { extend (revive s i) p.1 with marks := fun u => if u = t then s.marks u ++ [p] else s.marks u }

theorem mark_eq (cfg : Cfg) (s : St) {i : Nat} {l : List Pt} (hl : dictGet s.streams i = some l) (t : Track) :
    thenDraw cfg (addMark s i t) = Scope.redraw cfg false (marked s i t l) := by
  simp only [addMark, farthest, hl, marked]
  cases l.getLast? <;> rfl

theorem marked_same {cfg : Cfg} {h : List Ev} {s : St} (B : Base cfg h s) {i : Nat} {t : Track} {l : List Pt} (hl : dictGet s.streams i = some l) :
    (marked s i t l).streams = s.streams ∧ (marked s i t l).xMax = s.xMax ∧ (∀ j, j ∈ (marked s i t l).dead → j ∈ s.dead) ∧
    (marked s i t l).redraws = s.redraws ∧ (marked s i t l).frames = s.frames ∧ (marked s i t l).counter = s.counter ∧
    (marked s i t l).isSetup = s.isSetup := by
  unfold marked
  cases hg : l.getLast? with
  | none => exact ⟨rfl, rfl, fun j hj => (List.mem_filter.1 hj).1, rfl, rfl, rfl, rfl⟩
  | some p =>
    have := B.xs i l hl p (List.mem_of_getLast? hg)
    refine ⟨rfl, ?_, fun j hj => (List.mem_filter.1 hj).1, rfl, rfl, rfl, rfl⟩
    show (if s.xMax < p.1 then p.1 else s.xMax) = s.xMax
    rw [if_neg (by omega)]

theorem Base.mark {cfg : Cfg} {h : List Ev} {s : St} (B : Base cfg h s) {i : Nat} {t : Track} {l : List Pt} (hl : dictGet s.streams i = some l) :
    Base cfg (.mark t i :: h) (marked s i t l) := by
  obtain ⟨a, b, c, _⟩ := marked_same B hl (t := t)
  exact ⟨fun j => by rw [a]; simp only [Added, List.mem_cons, reduceCtorEq, false_or]; exact B.added j,
    fun j hj k hk => by rw [a] at hk; exact B.dead j (c j hj) k hk, by rw [a, b]; exact B.xs, by rw [b]; exact B.big, by rw [b]; exact B.attained,
    by rw [b]; exact B.pos, by rw [a]; exact B.nodup⟩

theorem base (cfg : Cfg) : ∀ h : List Ev, Known h → Base cfg h (after cfg h)
  | [], _ => ⟨by simp [after, Added], by simp [after], by simp [after], by simp [counts], .inl rfl, Int.le_refl 0, by simp [after]⟩
  | .add i :: h, hk => by
    have B := base cfg h hk
    refine ⟨fun j => ?_, fun j hj l hl => ?_, fun j l hl => ?_, B.big, B.attained, B.pos, dictSet_nodup B.nodup _ _⟩
    · simp only [after, step, addStream, dictGet_set, Added, List.mem_cons, Ev.add.injEq]
      by_cases hj : j = i
      · simp [hj]
      · simp only [hj, if_false, false_or]; exact B.added j
    · simp only [after, step, addStream, dictGet_set] at hl
      split at hl
      · cases hl; rfl
      · exact B.dead j hj l hl
    · simp only [after, step, addStream, dictGet_set] at hl
      split at hl
      · cases hl; intro p hp; cases hp
      · exact B.xs j l hl
  | .update i x y :: h, hk => by
    have B := base cfg h hk.2
    obtain ⟨l, hl⟩ := (B.added i).1 hk.1
    simp only [after, step, update_pushed cfg _ hl]
    exact (B.push hl (x, scale cfg (shown cfg l y)) rfl).redraw false
  | .mark t i :: h, hk => by
    have B := base cfg h hk.2
    obtain ⟨l, hl⟩ := (B.added i).1 hk.1
    simp only [after, step, mark_eq cfg _ hl]
    exact (B.mark hl).redraw false
  | .setup :: h, hk => by
    have B := base cfg h hk
    have e : ∀ j, Added (.setup :: h) j ↔ Added h j := fun j => by simp [Added]
    simp only [after, step, setupMovie]
    split
    · exact ⟨fun j => (e j).trans (B.added j), B.dead, B.xs, B.big, B.attained, B.pos, B.nodup⟩
    · exact ⟨fun j => (e j).trans (B.added j), B.dead, B.xs, B.big, B.attained, B.pos, B.nodup⟩
  | .force :: h, hk => by
    have B := base cfg h hk
    have e : ∀ j, Added (.force :: h) j ↔ Added h j := fun j => by simp [Added]
    have B' : Base cfg (.force :: h) (after cfg h) := ⟨fun j => (e j).trans (B.added j), B.dead, B.xs, B.big, B.attained, B.pos, B.nodup⟩
    exact B'.redraw true

/-- The points handed in, on the scale of the plot. -/
def ref (cfg : Cfg) (h : List Ev) (i : Nat) : List Pt := (given h i).map fun p => (p.1, scale cfg p.2)

/-- Within the window, what `g` sees of the lines is what it sees of the points handed in. -/
def Win {β : Type} (g : Pt → β) (cfg : Cfg) (n : Nat) (h : List Ev) (s : St) : Prop :=
  ∀ i l, dictGet s.streams i = some l → (keep s.xMax n l).map g = (keep s.xMax n (ref cfg h i)).map g

theorem keep_map {β : Type} {g : Pt → β} {π : β → Int} (hπ : ∀ p, π (g p) = p.1) (x : Int) (n : Nat) (l : List Pt) :
    (keep x n l).map g = (l.map g).filter fun b => decide (low x n ≤ π b) := by
  rw [keep, List.filter_map]
  congr 2
  funext p
  simp only [Function.comp, hπ]

theorem keep_up {β : Type} {g : Pt → β} {π : β → Int} (hπ : ∀ p, π (g p) = p.1) {x y : Int} (n : Nat) (hxy : x ≤ y) {l r : List Pt}
    (h : (keep x n l).map g = (keep x n r).map g) : (keep y n l).map g = (keep y n r).map g := by
  rw [← keep_keep n hxy l, ← keep_keep n hxy r, keep_map hπ y n (keep x n l), keep_map hπ y n (keep x n r), h]

theorem keep_append (x : Int) (n : Nat) (a b : List Pt) : keep x n (a ++ b) = keep x n a ++ keep x n b := List.filter_append ..

theorem Win.redraw {β : Type} {g : Pt → β} {cfg : Cfg} {n : Nat} {h : List Ev} {s : St} (hn : cfg.truncated = some n) (W : Win g cfg n h s) (f : Bool) :
    Win g cfg n h (Scope.redraw cfg f s).1 := by
  obtain ⟨e1, _, _, ⟨e4, _⟩ | ⟨e4, _⟩⟩ := redraw_eq cfg f s
  · intro i l hl; rw [e4] at hl; rw [e1]; exact W i l hl
  · intro i l hl
    rw [e4] at hl
    rw [e1]
    obtain ⟨l0, h1, _, h3⟩ := purged_get cfg s i l hl
    rw [← W i l0 h1, h3 n hn]
    split
    · rfl
    · rw [keep_keep n (Int.le_refl _)]

/-- After a redraw nothing outside the window is left. -/
theorem redraw_clean {cfg : Cfg} {n : Nat} {h : List Ev} {s : St} (hn : cfg.truncated = some n) (B : Base cfg h s) (f : Bool)
    (hr : (Scope.redraw cfg f s).1.redraws ≠ s.redraws) (i : Nat) (l : List Pt) (hl : dictGet (Scope.redraw cfg f s).1.streams i = some l) :
    l = keep (Scope.redraw cfg f s).1.xMax n l := by
  obtain ⟨e1, _, _, ⟨_, _, e4, _⟩ | ⟨e4, _⟩⟩ := redraw_eq cfg f s
  · exact absurd e4 hr
  · rw [e4] at hl
    rw [e1]
    obtain ⟨l0, h1, _, h3⟩ := purged_get cfg s i l hl
    rw [h3 n hn]
    split
    · rename_i hd; rw [B.dead i hd l0 h1]; rfl
    · rw [keep_keep n (Int.le_refl _)]

theorem win {β : Type} {g : Pt → β} {π : β → Int} (hπ : ∀ p, π (g p) = p.1) (cfg : Cfg) (n : Nat) (hn : cfg.truncated = some n)
    (hg : ∀ l x y, g (x, scale cfg (shown cfg l y)) = g (x, scale cfg y)) : ∀ h : List Ev, Known h → Win g cfg n h (after cfg h)
  | [], _ => by intro i l hl; cases hl
  | .add i :: h, hk => by
    have W := win hπ cfg n hn hg h hk
    intro j l hl
    simp only [after, step, addStream, dictGet_set] at hl ⊢
    by_cases hj : j = i
    · simp only [hj, if_true, Option.some.injEq] at hl
      subst hl
      simp [ref, given, hj]
    · simp only [hj, if_false] at hl
      have : ref cfg (.add i :: h) j = ref cfg h j := by simp [ref, given, Ne.symm hj]
      rw [this]; exact W j l hl
  | .update i x y :: h, hk => by
    have W := win hπ cfg n hn hg h hk.2
    have B := base cfg h hk.2
    obtain ⟨l, hl⟩ := (B.added i).1 hk.1
    simp only [after, step, update_pushed cfg _ hl]
    refine Win.redraw hn ?_ false
    intro j k hk'
    have hx : (after cfg h).xMax ≤ (pushed (after cfg h) i l (x, scale cfg (shown cfg l y))).xMax := (le_extend (revive _ i) x).1
    simp only [pushed, dictGet_set] at hk'
    by_cases hj : j = i
    · subst hj
      simp only [if_true, Option.some.injEq] at hk'
      subst hk'
      have e : ref cfg (.update j x y :: h) j = ref cfg h j ++ [(x, scale cfg y)] := by simp [ref, given]
      rw [e, keep_append, keep_append, List.map_append, List.map_append, keep_up hπ n hx (W j l hl)]
      congr 1
      simp only [keep, List.filter_cons, List.filter_nil]
      split
      · simp [hg l x y]
      · rfl
    · simp only [hj, if_false] at hk'
      have e : ref cfg (.update i x y :: h) j = ref cfg h j := by simp [ref, given, Ne.symm hj]
      rw [e]
      exact keep_up hπ n hx (W j k hk')
  | .mark t i :: h, hk => by
    have W := win hπ cfg n hn hg h hk.2
    have B := base cfg h hk.2
    obtain ⟨l, hl⟩ := (B.added i).1 hk.1
    obtain ⟨a, b, _⟩ := marked_same B hl (t := t)
    simp only [after, step, mark_eq cfg _ hl]
    refine Win.redraw hn ?_ false
    intro j k hk'
    rw [a] at hk'; rw [b]
    exact W j k hk'
  | .setup :: h, hk => by
    have W := win hπ cfg n hn hg h hk
    simp only [after, step, setupMovie]
    split <;> exact W
  | .force :: h, hk => by
    have W := win hπ cfg n hn hg h hk
    exact Win.redraw (h := .force :: h) hn W true

theorem clean (cfg : Cfg) (n : Nat) (hn : cfg.truncated = some n) (e : Ev) (h : List Ev) (hk : Known (e :: h))
    (hr : (after cfg (e :: h)).redraws ≠ (after cfg h).redraws) (i : Nat) (l : List Pt) (hl : dictGet (after cfg (e :: h)).streams i = some l) :
    l = keep (after cfg (e :: h)).xMax n l := by
  cases e with
  | add j => exact absurd rfl hr
  | setup =>
    refine absurd ?_ hr
    simp only [after, step, setupMovie]
    split <;> rfl
  | force => exact redraw_clean hn (base cfg h hk) true hr i l hl
  | update j x y =>
    have B := base cfg h hk.2
    obtain ⟨k, hk'⟩ := (B.added j).1 hk.1
    simp only [after, step, update_pushed cfg _ hk'] at hl hr ⊢
    exact redraw_clean hn (B.push hk' (x, scale cfg (shown cfg k y)) rfl (y := y)) false hr i l hl
  | mark t j =>
    have B := base cfg h hk.2
    obtain ⟨k, hk'⟩ := (B.added j).1 hk.1
    simp only [after, step, mark_eq cfg _ hk'] at hl hr ⊢
    refine redraw_clean hn (B.mark hk' (t := t)) false ?_ i l hl
    rw [(marked_same B hk').2.2.2.1]; exact hr

end ScopeInv

open ScopeInv

/-- **C55 (window).** With truncation to the last `n` evaluations and no elitism: at any time the lines agree with the points handed in within
the window, and when the plot has just been redrawn, they consist of exactly the points in the window. -/
theorem C55_window (cfg : Cfg) (n : Nat) (hn : cfg.truncated = some n) (hel : cfg.elitism = false) (h : List Ev) (hk : Known h) (i : Nat) (l : List Pt)
    (hl : dictGet (after cfg h).streams i = some l) :
    l.filter (fun p => decide (max 0 ((after cfg h).xMax - n) ≤ p.1)) =
      ((given h i).filter (fun p => decide (max 0 ((after cfg h).xMax - n) ≤ p.1))).map (fun p => (p.1, scale cfg p.2)) ∧
    ∀ e h', h = e :: h' → (after cfg h).redraws ≠ (after cfg h').redraws →
      l = ((given h i).filter (fun p => decide (max 0 ((after cfg h).xMax - n) ≤ p.1))).map (fun p => (p.1, scale cfg p.2)) := by
  have hlow : max 0 ((after cfg h).xMax - n) = low (after cfg h).xMax n := by unfold low; split <;> omega
  rw [hlow]
  have W := win (g := id) (π := fun p => p.1) (fun _ => rfl) cfg n hn (by intro l x y; simp [shown, hel]) h hk i l hl
  simp only [List.map_id] at W
  have e : keep (after cfg h).xMax n (ref cfg h i) =
      ((given h i).filter (fun p => decide (low (after cfg h).xMax n ≤ p.1))).map (fun p => (p.1, scale cfg p.2)) := by
    simp only [keep, ref, List.filter_map]
    rfl
  refine ⟨W.trans e, ?_⟩
  rintro ev h' rfl hr
  rw [clean cfg n hn ev h' hk hr i l hl, W]
  exact e

/-- **C55 (window, with elitism).** In any case the evaluation counts of the points shown are those in the window. -/
theorem C55_window_counts (cfg : Cfg) (n : Nat) (hn : cfg.truncated = some n) (e : Ev) (h : List Ev) (hk : Known (e :: h))
    (hr : (after cfg (e :: h)).redraws ≠ (after cfg h).redraws) (i : Nat) (l : List Pt) (hl : dictGet (after cfg (e :: h)).streams i = some l) :
    l.map (·.1) = ((given (e :: h) i).map (·.1)).filter (fun x => decide (max 0 ((after cfg (e :: h)).xMax - n) ≤ x)) := by
  have hlow : max 0 ((after cfg (e :: h)).xMax - n) = low (after cfg (e :: h)).xMax n := by unfold low; split <;> omega
  rw [hlow]
  have W := win (g := fun p : Pt => p.1) (π := id) (fun _ => rfl) cfg n hn (fun _ _ _ => rfl) (e :: h) hk i l hl
  rw [clean cfg n hn e h hk hr i l hl, W]
  simp only [keep, ref, List.filter_map, List.map_map]
  rfl

/-- **C55 (extent).** The horizontal extent is the largest evaluation count handed in (or 0), and never decreases. -/
theorem C55_extent (cfg : Cfg) (h : List Ev) (hk : Known h) :
    ((after cfg h).xMax = 0 ∨ (after cfg h).xMax ∈ counts h) ∧ 0 ≤ (after cfg h).xMax ∧ (∀ x ∈ counts h, x ≤ (after cfg h).xMax) ∧
    ∀ e, (after cfg h).xMax ≤ (after cfg (e :: h)).xMax := by
  have B := base cfg h hk
  refine ⟨B.attained, B.pos, B.big, fun e => ?_⟩
  have hr : ∀ f s, (redraw cfg f s).1.xMax = s.xMax := fun f s => (redraw_eq cfg f s).1
  have ht : ∀ q : St × Option Err, (thenDraw cfg q).1.xMax = q.1.xMax := by
    rintro ⟨s, e⟩; cases e with
    | none => exact hr false s
    | some e => rfl
  have hp : ∀ i p, (after cfg h).xMax ≤ (addPoint cfg (after cfg h) i p).1.xMax := by
    intro i p
    unfold addPoint
    split <;> exact (le_extend (revive _ i) p.1).1
  cases e with
  | add i => exact Int.le_refl _
  | update i x y =>
    simp only [after, step, updateOptimizer]
    split
    · split
      · exact Int.le_refl _
      · rw [ht]; exact hp _ _
    · rw [ht]; exact hp _ _
  | mark t i =>
    simp only [after, step, ht, addMark]
    split
    · exact Int.le_refl _
    · exact Int.le_refl _
    · rename_i p _; exact (le_extend (revive _ i) p.1).1
  | setup => simp only [after, step, setupMovie]; split <;> exact Int.le_refl _
  | force => simp only [after, step, hr]; exact Int.le_refl _

namespace ScopeInv

theorem least_snoc {m : PyF} {l : List PyF} (h : IsLeast m l) (y : PyF) (hm : m ≠ .nan) (hy : y ≠ .nan) :
    IsLeast (if PyF.lt m y then m else y) (l ++ [y]) := by
  split
  · rename_i hlt
    refine ⟨List.mem_append_left _ h.1, fun w hw => ?_⟩
    rcases List.mem_append.1 hw with hw | hw
    · exact h.2 w hw
    · simp only [List.mem_singleton] at hw; subst hw; exact PyF.le_of_lt hlt
  · rename_i hlt
    have hle : PyF.le y m = true := PyF.le_of_not_lt hy hm (by simpa using hlt)
    refine ⟨by simp, fun w hw => ?_⟩
    rcases List.mem_append.1 hw with hw | hw
    · exact PyF.le_trans hle (h.2 w hw)
    · simp only [List.mem_singleton] at hw; subst hw; exact PyF.le_refl hy

theorem running_snoc {ms g : List PyF} (h : RunningMin ms g) {y v : PyF} (hv : IsLeast v (g ++ [y])) : RunningMin (ms ++ [v]) (g ++ [y]) := by
  refine ⟨by simp [h.1], fun k w hw => ?_⟩
  by_cases hk : k < ms.length
  · rw [List.getElem?_append_left hk] at hw
    have := h.2 k w hw
    rw [List.take_append_of_le_length (by have := h.1; omega)]
    exact this
  · rw [List.getElem?_append_right (by omega)] at hw
    have hk' : k - ms.length = 0 := by
      cases hd : k - ms.length with
      | zero => rfl
      | succ j => rw [hd] at hw; simp at hw
    rw [hk'] at hw
    simp only [List.getElem?_cons_zero, Option.some.injEq] at hw
    subst hw
    rw [List.take_of_length_le (by have := h.1; simp; omega)]
    exact hv

/-- Every line is the scaled running minimum. -/
def Elite (cfg : Cfg) (h : List Ev) (s : St) : Prop :=
  ∀ i l, dictGet s.streams i = some l → l.map (·.1) = (given h i).map (·.1) ∧
    ∃ ms, RunningMin ms ((given h i).map (·.2)) ∧ l.map (·.2) = ms.map (scale cfg)

theorem given_mem {h : List Ev} {i : Nat} {p : Pt} (hp : p ∈ given h i) : .update i p.1 p.2 ∈ h := by
  induction h with
  | nil => cases hp
  | cons e h ih =>
    cases e with
    | add j =>
      simp only [given] at hp
      split at hp
      · cases hp
      · exact List.mem_cons_of_mem _ (ih hp)
    | update j x y =>
      simp only [given] at hp
      split at hp
      · rename_i e
        rcases List.mem_append.1 hp with hp | hp
        · exact List.mem_cons_of_mem _ (ih hp)
        · simp only [List.mem_singleton] at hp; subst hp; subst e; exact List.mem_cons_self
      · exact List.mem_cons_of_mem _ (ih hp)
    | mark t j => exact List.mem_cons_of_mem _ (ih hp)
    | setup => exact List.mem_cons_of_mem _ (ih hp)
    | force => exact List.mem_cons_of_mem _ (ih hp)

theorem Elite.redraw {cfg : Cfg} {h : List Ev} {s : St} (hn : cfg.truncated = none) (E : Elite cfg h s) (f : Bool) :
    Elite cfg h (Scope.redraw cfg f s).1 := by
  intro i l hl
  obtain ⟨_, _, _, ⟨e4, _⟩ | ⟨e4, _⟩⟩ := redraw_eq cfg f s
  · rw [e4] at hl; exact E i l hl
  · rw [e4] at hl
    obtain ⟨l0, h1, h2, _⟩ := purged_get cfg s i l hl
    rw [h2 hn]; exact E i l0 h1

theorem elite_spec {cfg : Cfg} {l : List Pt} {g ms : List PyF} (hr : RunningMin ms g) (hl : l.map (·.2) = ms.map (scale cfg))
    (hg : ∀ w ∈ g, w ≠ .nan ∧ unscale cfg (scale cfg w) = w) {y : PyF} (hy : y ≠ .nan) : IsLeast (elite cfg l y) (g ++ [y]) := by
  unfold elite
  cases hlast : l.getLast? with
  | none =>
    have : l = [] := by simpa using hlast
    subst this
    have : ms = [] := by simpa using hl.symm
    subst this
    have : g = [] := by have := hr.1; simpa using this.symm
    subst this
    refine ⟨by simp, fun w hw => ?_⟩
    simp only [List.nil_append, List.mem_singleton] at hw
    subst hw; exact PyF.le_refl hy
  | some q =>
    have h1 : (ms.map (scale cfg)).getLast? = some q.2 := by rw [← hl, List.getLast?_map, hlast]; rfl
    rw [List.getLast?_map] at h1
    obtain ⟨m, hm, hmq⟩ := Option.map_eq_some_iff.1 h1
    have hlen : 0 < ms.length := by
      rcases ms with _ | ⟨a, t⟩
      · cases hm
      · simp
    have hleast : IsLeast m g := by
      rw [List.getLast?_eq_getElem?] at hm
      have := hr.2 _ m hm
      rwa [List.take_of_length_le (by have := hr.1; omega)] at this
    obtain ⟨hmn, hmu⟩ := hg m hleast.1
    simp only [← hmq, hmu]
    exact least_snoc hleast y hmn hy

theorem elites (cfg : Cfg) (hn : cfg.truncated = none) (hel : cfg.elitism = true) : ∀ h : List Ev, Known h →
    (∀ i x y, .update i x y ∈ h → y ≠ .nan ∧ unscale cfg (scale cfg y) = y) → Elite cfg h (after cfg h)
  | [], _, _ => by intro i l hl; cases hl
  | .add i :: h, hk, hv => by
    have E := elites cfg hn hel h hk fun i x y hm => hv i x y (List.mem_cons_of_mem _ hm)
    intro j l hl
    simp only [after, step, addStream, dictGet_set] at hl
    by_cases hj : j = i
    · simp only [hj, if_true, Option.some.injEq] at hl
      subst hl
      simp only [given, hj, if_true]
      exact ⟨by simp, [], ⟨by simp, by simp⟩, rfl⟩
    · simp only [hj, if_false] at hl
      simp only [given, Ne.symm hj, if_false]
      exact E j l hl
  | .update i x y :: h, hk, hv => by
    have hv' : ∀ i x y, .update i x y ∈ h → y ≠ .nan ∧ unscale cfg (scale cfg y) = y := fun i x y hm => hv i x y (List.mem_cons_of_mem _ hm)
    have E := elites cfg hn hel h hk.2 hv'
    have B := base cfg h hk.2
    obtain ⟨l, hl⟩ := (B.added i).1 hk.1
    simp only [after, step, update_pushed cfg _ hl]
    refine Elite.redraw hn ?_ false
    intro j k hk'
    simp only [pushed, dictGet_set] at hk'
    by_cases hj : j = i
    · subst hj
      simp only [if_true, Option.some.injEq] at hk'
      subst hk'
      obtain ⟨h1, ms, h2, h3⟩ := E j l hl
      simp only [given, if_true, List.map_append, List.map_cons, List.map_nil]
      refine ⟨by rw [h1], ms ++ [elite cfg l y], ?_, ?_⟩
      · refine running_snoc h2 (elite_spec h2 h3 ?_ (hv j x y List.mem_cons_self).1)
        intro w hw
        obtain ⟨p, hp, rfl⟩ := List.mem_map.1 hw
        exact hv' j p.1 p.2 (given_mem hp)
      · simp [h3, shown, hel]
    · simp only [hj, if_false] at hk'
      simp only [given, Ne.symm hj, if_false]
      exact E j k hk'
  | .mark t i :: h, hk, hv => by
    have E := elites cfg hn hel h hk.2 fun i x y hm => hv i x y (List.mem_cons_of_mem _ hm)
    have B := base cfg h hk.2
    obtain ⟨l, hl⟩ := (B.added i).1 hk.1
    obtain ⟨a, b, _⟩ := marked_same B hl (t := t)
    simp only [after, step, mark_eq cfg _ hl]
    refine Elite.redraw hn ?_ false
    intro j k hk'
    rw [a] at hk'
    exact E j k hk'
  | .setup :: h, hk, hv => by
    have E := elites cfg hn hel h hk fun i x y hm => hv i x y (List.mem_cons_of_mem _ hm)
    simp only [after, step, setupMovie]
    split <;> exact E
  | .force :: h, hk, hv => by
    have E := elites cfg hn hel h hk fun i x y hm => hv i x y (List.mem_cons_of_mem _ hm)
    exact Elite.redraw (h := .force :: h) hn E true

end ScopeInv

/-- **C55 (elitism).** Without truncation, a line shows for every evaluation handed in the least value so far, on the scale of the plot.
Missing: NaN, values whose logarithm does not determine them (below 0), and truncation, which forgets. -/
theorem C55_running_minimum_partial (cfg : Cfg) (hn : cfg.truncated = none) (hel : cfg.elitism = true) (h : List Ev) (hk : Known h)
    (hv : ∀ i x y, .update i x y ∈ h → y ≠ .nan ∧ unscale cfg (scale cfg y) = y) (i : Nat) (l : List Pt)
    (hl : dictGet (after cfg h).streams i = some l) :
    l.map (·.1) = (given h i).map (·.1) ∧ ∃ ms, RunningMin ms ((given h i).map (·.2)) ∧ l.map (·.2) = ms.map (scale cfg) :=
  elites cfg hn hel h hk hv i l hl

/-- On the linear scale nothing has to be assumed of logarithms. -/
theorem C55_running_minimum_linear_partial (cfg : Cfg) (hn : cfg.truncated = none) (hel : cfg.elitism = true) (hlog : cfg.logScale = false)
    (h : List Ev) (hk : Known h) (hv : ∀ i x y, .update i x y ∈ h → y ≠ .nan) (i : Nat) (l : List Pt)
    (hl : dictGet (after cfg h).streams i = some l) :
    l.map (·.1) = (given h i).map (·.1) ∧ RunningMin (l.map (·.2)) ((given h i).map (·.2)) := by
  obtain ⟨h1, ms, h2, h3⟩ := C55_running_minimum_partial cfg hn hel h hk
    (fun i x y hm => ⟨hv i x y hm, by simp [scale, unscale, hlog]⟩) i l hl
  refine ⟨h1, ?_⟩
  have : ms.map (scale cfg) = ms := by
    rw [show scale cfg = id by funext y; simp [scale, hlog]]; simp
  rw [h3, this]; exact h2

/-- An optimizer whose values go up and down, and a second one. -/
def calls0 : List Ev :=
  [.update 1 12 (.fin 9), .mark .kill 1, .update 2 10 (.fin 4), .update 1 7 (.fin 5), .update 1 3 (.fin 7), .add 2, .add 1]

def elite0 : Cfg := { elitism := true, truncated := none }

example : Known calls0 ∧ (∀ i x y, .update i x y ∈ calls0 → y ≠ .nan) := by
  refine ⟨by simp [Known, calls0, Added], ?_⟩
  intro i x y h
  simp only [calls0, List.mem_cons, Ev.update.injEq, reduceCtorEq, false_or, List.not_mem_nil, or_false] at h
  rcases h with ⟨_, _, rfl⟩ | ⟨_, _, rfl⟩ | ⟨_, _, rfl⟩ | ⟨_, _, rfl⟩ <;> simp

example : dictGet (after elite0 calls0).streams 1 = some [(3, .fin 7), (7, .fin 5), (12, .fin 5)] := by decide +kernel

example : dictGet (after { truncated := some 5, epf := 1 } calls0).streams 1 = some [(7, .fin 5), (12, .fin 9)] ∧
    (after { truncated := some 5, epf := 1 } calls0).redraws ≠ (after { truncated := some 5, epf := 1 } calls0.tail).redraws := by decide +kernel

/-- **C55, refuted.** A NaN makes the plot forget the minimum, and so does truncation once an optimizer has no points in the window. -/
theorem C55_refuted :
    (∃ h : List Ev, Known h ∧ given h 1 = [(1, .fin 3), (2, .nan), (3, .fin 8)] ∧
      dictGet (after elite0 h).streams 1 = some [(1, .fin 3), (2, .nan), (3, .fin 8)]) ∧
    (∃ h : List Ev, Known h ∧ given h 1 = [(1, .fin 3), (20, .fin 8)] ∧
      dictGet (after { elitism := true, truncated := some 5, epf := 1 } h).streams 1 = some [(20, .fin 8)]) := by
  refine ⟨⟨[.update 1 3 (.fin 8), .update 1 2 .nan, .update 1 1 (.fin 3), .add 1], by simp [Known, Added], by decide +kernel, by decide +kernel⟩,
    ⟨[.update 1 20 (.fin 8), .update 2 19 (.fin 1), .update 2 18 (.fin 1), .update 1 1 (.fin 3), .add 2, .add 1], by simp [Known, Added],
      by decide +kernel, by decide +kernel⟩⟩

/-- **C78 (redraws).** When nothing forces a redraw, the plot is redrawn `(n - 1) / k` times in `n` calls, `k` being `events_per_flush`: first
after `k + 1` calls, then after every further `k`. -/
theorem C78_redraws (cfg : Cfg) (k : Nat) (hk1 : 1 ≤ k) (hcfg : cfg.epf = k) (h : List Ev) (hk : Known h) (hf : .force ∉ h) :
    (after cfg h).redraws = (events h - 1) / k := by
  have key : ∀ h : List Ev, Known h → .force ∉ h →
      (((after cfg h).redraws : Int) * k + (after cfg h).counter = events h) ∧ (events h = 0 → (after cfg h).redraws = 0) ∧ 0 ≤ (after cfg h).counter ∧
        (after cfg h).counter ≤ k ∧ (1 ≤ events h → 1 ≤ (after cfg h).counter) := by
    have hstep : ∀ (s : St) (n : Nat), ((s.redraws : Int) * k + s.counter = n) → 0 ≤ s.counter → s.counter ≤ k →
        (((redraw cfg false s).1.redraws : Int) * k + (redraw cfg false s).1.counter = (n + 1 : Nat)) ∧ 0 ≤ (redraw cfg false s).1.counter ∧
          (redraw cfg false s).1.counter ≤ k ∧ 1 ≤ (redraw cfg false s).1.counter := by
      intro s n h1 h2 h3
      obtain ⟨_, _, _, ⟨_, _, e1, _, _, e2, e3⟩ | ⟨_, _, e1, e2, e3, _⟩⟩ := redraw_eq cfg false s
      · simp only [hcfg, Bool.or_false, decide_eq_true_eq] at e2
        rw [e1, e3]
        refine ⟨by omega, by omega, by omega, by omega⟩
      · simp only [hcfg, Bool.or_false, decide_eq_true_eq] at e2
        have : s.counter = k := by omega
        rw [e1, e3]
        refine ⟨?_, by omega, by omega, by omega⟩
        rw [this] at h1
        have hm : ((s.redraws + 1 : Nat) : Int) * k = (s.redraws : Int) * k + k := by
          rw [Int.natCast_add, Int.add_mul]; simp
        omega
    intro h
    induction h with
    | nil => intro _ _; refine ⟨by simp [after, events], fun _ => rfl, by simp [after], by simp [after], by simp [events]⟩
    | cons e h ih =>
      intro hk hf
      have hf' : .force ∉ h := fun hm => hf (List.mem_cons_of_mem _ hm)
      cases e with
      | add i => exact ih hk hf'
      | setup =>
        have := ih hk hf'
        simp only [after, step, setupMovie]
        split <;> exact this
      | force => exact absurd List.mem_cons_self hf
      | update i x y =>
        obtain ⟨a, _, b, c, _⟩ := ih hk.2 hf'
        obtain ⟨l, hl⟩ := ((base cfg h hk.2).added i).1 hk.1
        simp only [after, step, update_pushed cfg _ hl, events]
        obtain ⟨p, q, r, t⟩ := hstep (pushed (after cfg h) i l (x, scale cfg (shown cfg l y))) (events h) a b c
        exact ⟨p, fun he => (by omega), q, r, fun _ => t⟩
      | mark t i =>
        obtain ⟨a, _, b, c, _⟩ := ih hk.2 hf'
        have B := base cfg h hk.2
        obtain ⟨l, hl⟩ := (B.added i).1 hk.1
        obtain ⟨_, _, _, m1, _, m2, _⟩ := marked_same B hl (t := t)
        simp only [after, step, mark_eq cfg _ hl, events]
        obtain ⟨p, q, r, t⟩ := hstep (marked (after cfg h) i t l) (events h) (by rw [m1, m2]; exact a) (by rw [m2]; exact b) (by rw [m2]; exact c)
        exact ⟨p, fun he => (by omega), q, r, fun _ => t⟩
  obtain ⟨a, b, c, d, e⟩ := key h hk hf
  by_cases h0 : events h = 0
  · rw [b h0, h0]; simp
  · have e := e (by omega)
    symm
    rw [Nat.div_eq_iff (by omega)]
    have a' : (((after cfg h).redraws * k : Nat) : Int) + (after cfg h).counter = events h := by rw [Int.natCast_mul]; exact a
    constructor <;> omega

/-- **C78 (marks).** A mark for optimizer `i` is put at the last point of its line, on the track of its kind, and nothing else changes among the
marks; there is none if the line has no points. -/
theorem C78_marks (cfg : Cfg) (h : List Ev) (hk : Known h) (t : Track) (i : Nat) (l : List Pt) (hl : dictGet (after cfg h).streams i = some l) :
    (after cfg (.mark t i :: h)).marks t = (after cfg h).marks t ++ l.getLast?.toList ∧
    (∀ u, u ≠ t → (after cfg (.mark t i :: h)).marks u = (after cfg h).marks u) ∧
    (∀ j x y u, Added h j → (after cfg (.update j x y :: h)).marks u = (after cfg h).marks u) := by
  simp only [after, step, mark_eq cfg _ hl, (redraw_eq cfg false _).2.1]
  refine ⟨?_, fun u hu => ?_, fun j x y u hj => ?_⟩
  · unfold marked
    cases l.getLast? <;> simp [revive]
  · unfold marked
    cases l.getLast? <;> simp [revive, hu]
  · obtain ⟨k, hk'⟩ := ((base cfg h hk).added j).1 hj
    rw [update_pushed cfg _ hk', (redraw_eq cfg false _).2.1]
    rfl

/-- **C78 (movie).** Once the movie maker has been set up, no call is refused and every redraw gives one frame. -/
theorem C78_movie (cfg : Cfg) (hm : cfg.recordMovie = true) (h : List Ev) (hk : Known (h ++ [.setup])) :
    (after cfg (h ++ [.setup])).frames = (after cfg (h ++ [.setup])).redraws ∧
    ∀ e, Known (e :: (h ++ [.setup])) → (step cfg (after cfg (h ++ [.setup])) e).2 = none := by
  have hstep : ∀ (f : Bool) (s : St), s.isSetup = true → s.frames = s.redraws →
      (redraw cfg f s).1.isSetup = true ∧ (redraw cfg f s).1.frames = (redraw cfg f s).1.redraws ∧ (redraw cfg f s).2 = none := by
    intro f s h1 h2
    obtain ⟨_, _, e0, ⟨_, _, e1, e2, e3, _⟩ | ⟨_, _, e1, _, _, e2, e3⟩⟩ := redraw_eq cfg f s
    · exact ⟨by rw [e0, h1], by rw [e1, e2, h2], e3⟩
    · refine ⟨by rw [e0, h1], ?_, ?_⟩
      · rw [e1, e2]; simp [hm, h1, h2]
      · rw [e3]; simp [h1]
  have one : ∀ g : List Ev, Known g → (after cfg g).isSetup = true → (after cfg g).frames = (after cfg g).redraws →
      ∀ e, Known (e :: g) → (step cfg (after cfg g) e).2 = none ∧ (step cfg (after cfg g) e).1.isSetup = true ∧
        (step cfg (after cfg g) e).1.frames = (step cfg (after cfg g) e).1.redraws := by
    intro g hk h1 h2 e hke
    have B := base cfg _ hk
    cases e with
    | add i => exact ⟨rfl, h1, h2⟩
    | setup =>
      simp only [step, setupMovie, hm, if_true, true_and]
      exact h2
    | force => obtain ⟨a, b, c⟩ := hstep true _ h1 h2; exact ⟨c, a, b⟩
    | update i x y =>
      obtain ⟨l, hl⟩ := (B.added i).1 hke.1
      simp only [step, update_pushed cfg _ hl]
      obtain ⟨a, b, c⟩ := hstep false (pushed (after cfg g) i l (x, scale cfg (shown cfg l y))) h1 h2
      exact ⟨c, a, b⟩
    | mark t i =>
      obtain ⟨l, hl⟩ := (B.added i).1 hke.1
      obtain ⟨_, _, _, m1, m2, _, m3⟩ := marked_same B hl (t := t)
      simp only [step, mark_eq cfg _ hl]
      obtain ⟨a, b, c⟩ := hstep false (marked (after cfg g) i t l) (by rw [m3]; exact h1) (by rw [m1, m2]; exact h2)
      exact ⟨c, a, b⟩
  have key : ∀ h : List Ev, Known (h ++ [.setup]) → (after cfg (h ++ [.setup])).isSetup = true ∧
      (after cfg (h ++ [.setup])).frames = (after cfg (h ++ [.setup])).redraws := by
    intro h
    induction h with
    | nil => intro _; simp [after, step, setupMovie, hm]
    | cons e h ih =>
      intro hk
      have hk' : Known (h ++ [.setup]) := by
        cases e with
        | update i x y => exact hk.2
        | mark t i => exact hk.2
        | add i => exact hk
        | setup => exact hk
        | force => exact hk
      obtain ⟨a, b⟩ := ih hk'
      exact (one _ hk' a b e hk).2
  obtain ⟨a, b⟩ := key h hk
  exact ⟨b, fun e he => (one _ hk a b e he).1⟩

theorem redraw_streams (cfg : Cfg) (f : Bool) (s : St) (i : Nat) (hs : dictGet s.streams i = none) :
    dictGet (Scope.redraw cfg f s).1.streams i = none := by
  have hp : dictGet (purged cfg { s with counter := 1 }).streams i = none := by
    cases h : dictGet (purged cfg { s with counter := 1 }).streams i with
    | none => rfl
    | some l =>
      obtain ⟨l', hl'⟩ := (purged_mem cfg { s with counter := 1 } i).1 ⟨l, h⟩
      rw [hs] at hl'; cases hl'
  unfold Scope.redraw draw
  split
  · split
    · split <;> exact hp
    · exact hp
  · exact hs

theorem unknown_streams (cfg : Cfg) (i : Nat) : ∀ h : List Ev, .add i ∉ h → dictGet (after cfg h).streams i = none
  | [], _ => rfl
  | e :: h, hn => by
    have ih := unknown_streams cfg i h (fun hm => hn (.tail _ hm))
    have hd : ∀ r : St × Option Err, dictGet r.1.streams i = none → dictGet (thenDraw cfg r).1.streams i = none := by
      rintro ⟨s, _ | e⟩ hs
      · exact redraw_streams cfg false s i hs
      · exact hs
    have hpt : ∀ j p, dictGet (addPoint cfg (after cfg h) j p).1.streams i = none := by
      intro j p
      unfold addPoint
      split
      · exact ih
      · rename_i l hl
        show dictGet (dictSet _ _ _) i = none
        rw [dictGet_set_ne, ih]
        rintro rfl
        rw [ih] at hl; cases hl
    show dictGet (step cfg (after cfg h) e).1.streams i = none
    cases e with
    | add j =>
      show dictGet (dictSet _ _ _) i = none
      rw [dictGet_set_ne, ih]
      rintro rfl
      exact hn (.head _)
    | update j x y =>
      unfold step updateOptimizer
      dsimp only
      split
      · split
        · exact ih
        · exact hd _ (hpt j _)
      · exact hd _ (hpt j _)
    | mark t j =>
      refine hd _ ?_
      unfold addMark
      split <;> exact ih
    | setup =>
      show dictGet (setupMovie cfg _).streams i = none
      unfold setupMovie
      split <;> exact ih
    | force => exact redraw_streams cfg true _ i ih

/-- **C78 (unknown optimizers).** Whatever happened before: a point or a mark for an optimizer which was never added raises `KeyError`; no
curve, no mark and no frame changes. -/
theorem C78_unknown (cfg : Cfg) (h : List Ev) (i : Nat) (hi : .add i ∉ h) (x : Int) (y : PyF) (t : Track) :
    (step cfg (after cfg h) (.update i x y)).2 = some .keyError ∧ (step cfg (after cfg h) (.mark t i)).2 = some .keyError ∧
    (∀ e, e = .update i x y ∨ e = .mark t i → (after cfg (e :: h)).streams = (after cfg h).streams ∧
      (after cfg (e :: h)).marks = (after cfg h).marks ∧ (after cfg (e :: h)).redraws = (after cfg h).redraws ∧
      (after cfg (e :: h)).frames = (after cfg h).frames) := by
  have hs := unknown_streams cfg i h hi
  have hu : ∃ s', step cfg (after cfg h) (.update i x y) = (s', some .keyError) ∧ s'.streams = (after cfg h).streams ∧
      s'.marks = (after cfg h).marks ∧ s'.redraws = (after cfg h).redraws ∧ s'.frames = (after cfg h).frames := by
    cases he : cfg.elitism with
    | true => exact ⟨after cfg h, by simp [step, updateOptimizer, he, hs], rfl, rfl, rfl, rfl⟩
    | false => exact ⟨extend (revive (after cfg h) i) x, by simp [step, updateOptimizer, he, hs, addPoint, thenDraw], rfl, rfl, rfl, rfl⟩
  have hm : step cfg (after cfg h) (.mark t i) = (after cfg h, some .keyError) := by simp [step, addMark, farthest, hs, thenDraw]
  obtain ⟨s', hu, hu'⟩ := hu
  refine ⟨by rw [hu], by rw [hm], ?_⟩
  rintro e (rfl | rfl)
  · show (step cfg (after cfg h) _).1.streams = _ ∧ (step cfg (after cfg h) _).1.marks = _ ∧ (step cfg (after cfg h) _).1.redraws = _ ∧
      (step cfg (after cfg h) _).1.frames = _
    rw [hu]; exact hu'
  · show (step cfg (after cfg h) _).1.streams = _ ∧ (step cfg (after cfg h) _).1.marks = _ ∧ (step cfg (after cfg h) _).1.redraws = _ ∧
      (step cfg (after cfg h) _).1.frames = _
    rw [hm]; exact ⟨rfl, rfl, rfl, rfl⟩

/-- Such a case: optimizer 2 in a plot of optimizer 1. -/
example : (step {} (after {} [.update 1 3 (.fin 2), .add 1]) (.update 2 4 (.fin 1))).2 = some .keyError := by decide +kernel

/-- **C78 (ranges).** The constructor accepts exactly: no horizontal range, an increasing pair, or a number of evaluations of at least two; and no
vertical range or an increasing pair. Only a number of evaluations makes the plot forget. -/
theorem C78_ranges (x : XRange) (y : YRange) (t : Option Int) :
    init x y = .ok t ↔
      ((x = .none ∧ t = none) ∨ (∃ a b, x = .pair a b ∧ a < b ∧ t = none) ∨ (∃ n, x = .last n ∧ 2 ≤ n ∧ t = some n)) ∧
      (y = .none ∨ ∃ a b, y = .pair a b ∧ a < b) := by
  unfold init checkX checkY
  cases x with
  | none =>
    cases y with
    | none => simp [eq_comm]
    | pair a b => by_cases h : b ≤ a <;> simp [h, eq_comm] <;> grind
    | other => simp
  | pair c d =>
    cases y with
    | none => by_cases h : d ≤ c <;> simp [h, eq_comm] <;> grind
    | pair a b => by_cases h : b ≤ a <;> by_cases h' : d ≤ c <;> simp [h, h', eq_comm] <;> grind
    | other => by_cases h : d ≤ c <;> simp [h]
  | last n =>
    cases y with
    | none => by_cases h : n < 2 <;> simp [h, eq_comm] <;> grind
    | pair a b => by_cases h : b ≤ a <;> by_cases h' : n < 2 <;> simp [h, h', eq_comm] <;> grind
    | other => by_cases h : n < 2 <;> simp [h]
  | other => cases y <;> simp

example : (after { epf := 2, truncated := none } calls0).redraws = 2 ∧ events calls0 = 5 := by decide +kernel

example : (after { truncated := none } calls0).marks .kill = [(7, .fin 5)] := by decide +kernel

end Glompo.Props
