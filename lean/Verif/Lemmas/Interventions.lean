import Verif.Model.Interventions
import Verif.Lemmas.Checkpoint

/-!
# Lemmas about user interventions
-/

namespace Glompo.Interventions

open Checkpoint (Name undec isDigit dec)

/-! ### Names -/

theorem split_ne_nil : ∀ s : Name, split s ≠ []
  | [] => by simp [split]
  | c :: t => by
    unfold split
    split
    · simp
    · split <;> simp

theorem split_plain : ∀ s : Name, '_' ∉ s → split s = [s]
  | [], _ => rfl
  | c :: t, h => by
    simp only [List.mem_cons, not_or] at h
    unfold split
    rw [if_neg (fun e => h.1 e.symm), split_plain t h.2]

theorem split_single : ∀ (s h : Name), split s = [h] → s = h ∧ '_' ∉ s
  | [], h, e => by simp [split] at e; subst e; exact ⟨rfl, by simp⟩
  | c :: t, h, e => by
    unfold split at e
    split at e
    · simp at e; exact absurd e.2 (split_ne_nil t)
    · rename_i hc
      split at e
      · rename_i h'; exact absurd h' (split_ne_nil t)
      · rename_i h' r h2
        simp only [List.cons.injEq] at e
        obtain ⟨e1, rfl⟩ := e
        obtain ⟨e2, e3⟩ := split_single t h' h2
        subst e1 e2
        exact ⟨rfl, by simp only [List.mem_cons, not_or]; exact ⟨fun e => hc e.symm, e3⟩⟩

theorem split_stop (x : Name) : split (stopPrefix ++ x) = ['S', 'T', 'O', 'P'] :: split x := by
  simp [stopPrefix, split]

theorem isStop_iff (f : Name) : isStop f = true ↔ ∃ x, f = stopPrefix ++ x := by
  unfold isStop
  rw [List.isPrefixOf_iff_prefix]
  constructor
  · rintro ⟨x, rfl⟩; exact ⟨x, rfl⟩
  · rintro ⟨x, rfl⟩; exact ⟨x, rfl⟩

theorem named_stop (x : Name) : named (stopPrefix ++ x) = if '_' ∈ x then none else pyInt x := by
  unfold named
  rw [split_stop]
  split
  · rename_i h1 h2 he
    simp only [List.cons.injEq] at he
    obtain ⟨e1, e2⟩ := split_single x h2 he.2
    rw [if_neg e2, e1]
  · rename_i h
    by_cases hx : '_' ∈ x
    · rw [if_pos hx]
    · exact absurd (by rw [split_plain x hx]) (h _ x)

theorem dropWhile_blank_iff (s : Name) : ∃ pre, s = pre ++ s.dropWhile blank ∧ pre.all blank = true := by
  refine ⟨s.takeWhile blank, (List.takeWhile_append_dropWhile).symm, List.all_takeWhile⟩

/-- `strip` cuts blanks off both ends. -/
theorem strip_parts (s : Name) : ∃ pre post, s = pre ++ strip s ++ post ∧ pre.all blank = true ∧ post.all blank = true := by
  obtain ⟨pre, h1, h2⟩ := dropWhile_blank_iff s
  obtain ⟨post, h3, h4⟩ := dropWhile_blank_iff (s.dropWhile blank).reverse
  refine ⟨pre, post.reverse, ?_, h2, by simpa using h4⟩
  unfold strip
  have h5 := congrArg List.reverse h3
  rw [List.reverse_reverse, List.reverse_append] at h5
  rw [List.append_assoc, ← h5]
  exact h1

theorem dropWhile_of_all {pre s : Name} (h : pre.all blank = true) : (pre ++ s).dropWhile blank = s.dropWhile blank := by
  induction pre with
  | nil => rfl
  | cons c t ih =>
    simp only [List.all_cons, Bool.and_eq_true] at h
    rw [List.cons_append, List.dropWhile_cons_of_pos h.1]
    exact ih h.2

theorem dropWhile_id {s : Name} (h : ∀ c, s.head? = some c → blank c = false) : s.dropWhile blank = s := by
  cases s with
  | nil => rfl
  | cons c t => exact List.dropWhile_cons_of_neg (by rw [h c rfl]; simp)

theorem strip_eq {pre s post : Name} (h1 : pre.all blank = true) (h2 : post.all blank = true)
    (hh : ∀ c, s.head? = some c → blank c = false) (hl : ∀ c, s.getLast? = some c → blank c = false) :
    strip (pre ++ s ++ post) = s := by
  unfold strip
  rw [List.append_assoc, dropWhile_of_all h1]
  cases s with
  | nil =>
    have : (([] : Name) ++ post).dropWhile blank = [] := by
      have := dropWhile_of_all (s := []) h2
      simpa using this
    rw [this]; rfl
  | cons c t =>
    have hc := hh c rfl
    rw [List.cons_append, List.dropWhile_cons_of_neg (by rw [hc]; simp), ← List.cons_append, List.reverse_append,
      dropWhile_of_all (by simpa using h2), dropWhile_id, List.reverse_reverse]
    intro d hd
    rw [List.head?_reverse] at hd
    exact hl d hd

theorem blank_of_digit {c : Char} (h : isDigit c = true) : blank c = false := by
  unfold isDigit at h
  simp only [decide_eq_true_eq] at h
  unfold blank
  have key : ∀ d : Char, (d.toNat < 48) → c ≠ d := fun d hd e => by subst e; omega
  simp only [Bool.or_eq_false_iff, decide_eq_false_iff_not]
  exact ⟨⟨⟨⟨⟨key ' ' (by decide), key '\t' (by decide)⟩, key '\n' (by decide)⟩, key '\r' (by decide)⟩,
    key _ (by decide)⟩, key _ (by decide)⟩

/-- Numbers as `int` reads them: blanks, a sign or none, digits, blanks. -/
theorem pyInt_iff (s : Name) (i : Int) : pyInt s = some i ↔
    ∃ pre sign ds post, s = pre ++ (sign ++ ds) ++ post ∧ pre.all blank = true ∧ post.all blank = true ∧ ds ≠ [] ∧
      ds.all isDigit = true ∧ ((sign = [] ∨ sign = ['+']) ∧ i = (undec ds : Int) ∨ sign = ['-'] ∧ i = -(undec ds : Int)) := by
  constructor
  · intro h
    obtain ⟨pre, post, hs, h1, h2⟩ := strip_parts s
    unfold pyInt at h
    split at h
    · rename_i t ht
      unfold digits at h
      split at h
      · rename_i hd
        rw [ht] at hs
        refine ⟨pre, ['+'], t, post, by simpa using hs, h1, h2, hd.1, hd.2, .inl ⟨.inr rfl, ?_⟩⟩
        injection h with h; exact h.symm
      · cases h
    · rename_i t ht
      unfold digits at h
      split at h
      · rename_i hd
        rw [ht] at hs
        refine ⟨pre, ['-'], t, post, by simpa using hs, h1, h2, hd.1, hd.2, .inr ⟨rfl, ?_⟩⟩
        injection h with h; exact h.symm
      · cases h
    · unfold digits at h
      split at h
      · rename_i hd
        refine ⟨pre, [], strip s, post, by simpa using hs, h1, h2, hd.1, hd.2, .inl ⟨.inl rfl, ?_⟩⟩
        injection h with h; exact h.symm
      · cases h
  · rintro ⟨pre, sign, ds, post, rfl, h1, h2, h3, h4, h5⟩
    have hdg : digits ds = some (undec ds : Int) := by unfold digits; rw [if_pos ⟨h3, h4⟩]
    rw [List.all_eq_true] at h4
    have hlast : ∀ c, ds.getLast? = some c → blank c = false :=
      fun c hc => blank_of_digit (h4 c (List.mem_of_getLast? hc))
    have hhead : ∀ c, ds.head? = some c → blank c = false :=
      fun c hc => blank_of_digit (h4 c (List.mem_of_mem_head? hc))
    have hl2 : ∀ a : Char, (a :: ds).getLast? = ds.getLast? := fun a => by
      cases ds with
      | nil => exact absurd rfl h3
      | cons b t => rfl
    have st : ∀ sg : Name, sg = [] ∨ sg = ['+'] ∨ sg = ['-'] → strip (pre ++ (sg ++ ds) ++ post) = sg ++ ds := by
      rintro sg (rfl | rfl | rfl)
      · exact strip_eq h1 h2 hhead hlast
      · refine strip_eq h1 h2 (fun c hc => ?_) fun c hc => ?_
        · injection hc with hc; subst hc; decide
        · rw [List.singleton_append, hl2] at hc; exact hlast c hc
      · refine strip_eq h1 h2 (fun c hc => ?_) fun c hc => ?_
        · injection hc with hc; subst hc; decide
        · rw [List.singleton_append, hl2] at hc; exact hlast c hc
    unfold pyInt
    rcases h5 with ⟨rfl | rfl, rfl⟩ | ⟨rfl, rfl⟩
    · rw [st [] (.inl rfl), List.nil_append]
      cases ds with
      | nil => exact absurd rfl h3
      | cons c t =>
        have hc := h4 c List.mem_cons_self
        have n1 : c ≠ '+' := fun e => by subst e; exact absurd hc (by decide)
        have n2 : c ≠ '-' := fun e => by subst e; exact absurd hc (by decide)
        split
        · rename_i t' e; injection e with e1 _; exact absurd e1 n1
        · rename_i t' e; injection e with e1 _; exact absurd e1 n2
        · exact hdg
    · rw [st _ (.inr (.inl rfl))]
      exact hdg
    · rw [st _ (.inr (.inr rfl))]
      show (digits ds).map _ = _
      rw [hdg]; rfl

/-! ### A look at the stop files -/

/-- Running, and not known to be gone. -/
def Living (w : World) (i : Int) : Prop := i ∈ w.packs ∧ i ∉ w.graveyard

theorem mem_addTo {l : List Int} {i j : Int} : j ∈ addTo l i ↔ j ∈ l ∨ j = i := by
  unfold addTo
  split
  · rename_i h
    constructor
    · exact .inl
    · rintro (h' | rfl)
      · exact h'
      · exact h
  · simp

/-- What one file does, in all cases. -/
theorem stopOne_cases (p : Pass) (w : World) (e : Entry) :
    stopOne p w e = w ∨
    (w.raised = none ∧ ∃ i, named e.name = some i ∧ Living w i ∧
      ((e.dir = true ∨ p.lost e.name = true) ∧ stopOne p w e = { w with raised := some .osError } ∨
       ∃ (s : List (Nat × Int)) (r : Option Err),
        (s = w.stopped ++ [(w.runs, i)] ∧ p.send i = none ∧ r = none ∨
          s = w.stopped ∧ p.send i = some .valueError ∧ r = none ∨ s = w.stopped ∧ p.send i = r ∧ r ≠ none) ∧
        stopOne p w e = { w with
          files := w.files.filter fun f => f.name ≠ e.name
          victims := addTo w.victims i
          graveyard := addTo w.graveyard i
          stopped := s
          raised := r })) := by
  unfold stopOne
  split
  · exact .inl rfl
  · rename_i hr
    have hr' : w.raised = none := by simpa using hr
    split
    · exact .inl rfl
    · rename_i i hi
      split
      · exact .inl rfl
      · rename_i hl
        simp only [not_or, Classical.not_not] at hl
        refine .inr ⟨hr', i, hi, hl, ?_⟩
        split
        · rename_i hd; exact .inl ⟨hd, rfl⟩
        · refine .inr ?_
          cases hs : p.send i with
          | none => exact ⟨_, none, .inl ⟨rfl, rfl, rfl⟩, by simp [hr']⟩
          | some x =>
            by_cases hx : x = .valueError
            · subst hx; exact ⟨w.stopped, none, .inr (.inl ⟨rfl, rfl, rfl⟩), by simp [hr']⟩
            · refine ⟨w.stopped, some x, .inr (.inr ⟨rfl, rfl, by simp⟩), ?_⟩
              cases x <;> first | rfl | exact absurd rfl hx

/-- When nothing fails. -/
theorem stopOne_ok {p : Pass} {w : World} {e : Entry} (h0 : w.raised = none) (hd : e.dir = false)
    (hl : p.lost e.name = false) (hs : ∀ i, p.send i = none) :
    (∀ i, named e.name = some i → ¬ Living w i) ∧ stopOne p w e = w ∨
    ∃ i, named e.name = some i ∧ Living w i ∧ stopOne p w e = { w with
      files := w.files.filter fun f => f.name ≠ e.name
      victims := addTo w.victims i
      graveyard := addTo w.graveyard i
      stopped := w.stopped ++ [(w.runs, i)] } := by
  unfold stopOne
  rw [if_neg (by simp [h0])]
  split
  · rename_i h; exact .inl ⟨(fun i hi => by rw [h] at hi; cases hi), rfl⟩
  · rename_i i hi
    split
    · rename_i hg
      refine .inl ⟨fun j hj => ?_, rfl⟩
      rw [hi] at hj; injection hj with hj; subst hj
      rintro ⟨h1, h2⟩
      rcases hg with hg | hg
      · exact hg h1
      · exact h2 hg
    · rename_i hg
      simp only [not_or, Classical.not_not] at hg
      rw [if_neg (by simp [hd, hl]), hs i]
      exact .inr ⟨i, hi, hg, rfl⟩

theorem fold_ok {p : Pass} (hs : ∀ i, p.send i = none) : ∀ (l : List Entry) (w : World), w.raised = none →
    (∀ e ∈ l, e.dir = false ∧ p.lost e.name = false) →
    ∃ (removed : List Entry) (new : List Int),
      (l.foldl (stopOne p) w).raised = none ∧
      (l.foldl (stopOne p) w).stopped = w.stopped ++ new.map (fun i => (w.runs, i)) ∧ new.Nodup ∧
      (∀ i, i ∈ new ↔ Living w i ∧ ∃ e ∈ l, named e.name = some i) ∧
      (∀ i, i ∈ (l.foldl (stopOne p) w).graveyard ↔ i ∈ w.graveyard ∨ i ∈ new) ∧
      (∀ i, i ∈ (l.foldl (stopOne p) w).victims ↔ i ∈ w.victims ∨ i ∈ new) ∧
      (l.foldl (stopOne p) w).packs = w.packs ∧ (l.foldl (stopOne p) w).next = w.next ∧
      (l.foldl (stopOne p) w).control = w.control ∧ (l.foldl (stopOne p) w).made = w.made ∧
      removed.Sublist l ∧ removed.map (fun e => named e.name) = new.map some ∧
      (l.foldl (stopOne p) w).files = w.files.filter fun f => f.name ∉ removed.map (·.name)
  | [], w, h0, _ => ⟨[], [], h0, by simp, by simp, by simp, by simp, by simp, rfl, rfl, rfl, rfl, by simp, rfl,
      (List.filter_eq_self.mpr (by simp)).symm⟩
  | e :: t, w, h0, hd => by
    have hde := hd e List.mem_cons_self
    have hdt : ∀ e ∈ t, e.dir = false ∧ p.lost e.name = false := fun f hf => hd f (List.mem_cons_of_mem _ hf)
    rw [List.foldl_cons]
    rcases stopOne_ok h0 hde.1 hde.2 hs with ⟨h1, h2⟩ | ⟨i, h1, h2, h3⟩
    · rw [h2]
      obtain ⟨rm, new, a1, a2, a3, a4, a5, a6, a7, a8, a9, a10, a11, a12, a13⟩ := fold_ok hs t w h0 hdt
      refine ⟨rm, new, a1, a2, a3, fun i => ?_, a5, a6, a7, a8, a9, a10, a11.cons e, a12, a13⟩
      rw [a4 i]
      constructor
      · rintro ⟨hl, f, hf, hn⟩; exact ⟨hl, f, List.mem_cons_of_mem _ hf, hn⟩
      · rintro ⟨hl, f, hf, hn⟩
        rcases List.mem_cons.mp hf with rfl | hf
        · exact absurd hl (h1 i hn)
        · exact ⟨hl, f, hf, hn⟩
    · rw [h3]
      obtain ⟨rm, new, a1, a2, a3, a4, a5, a6, a7, a8, a9, a10, a11, a12, a13⟩ := fold_ok hs t { w with
        files := w.files.filter fun f => f.name ≠ e.name
        victims := addTo w.victims i
        graveyard := addTo w.graveyard i
        stopped := w.stopped ++ [(w.runs, i)] } h0 hdt
      refine ⟨e :: rm, i :: new, a1, ?_, ?_, fun j => ?_, fun j => ?_, fun j => ?_, a7, a8, a9, a10, a11.cons_cons e, ?_, ?_⟩
      · rw [a2]; simp
      · rw [List.nodup_cons]
        refine ⟨fun hi => ?_, a3⟩
        exact ((a4 i).mp hi).1.2 (mem_addTo.mpr (.inr rfl))
      · rw [List.mem_cons, a4 j]
        constructor
        · rintro (rfl | ⟨hl, f, hf, hn⟩)
          · exact ⟨h2, e, List.mem_cons_self, h1⟩
          · exact ⟨⟨hl.1, fun hg => hl.2 (mem_addTo.mpr (.inl hg))⟩, f, List.mem_cons_of_mem _ hf, hn⟩
        · rintro ⟨hl, f, hf, hn⟩
          by_cases hj : j = i
          · exact .inl hj
          · refine .inr ⟨⟨hl.1, fun hg => ?_⟩, ?_⟩
            · rcases mem_addTo.mp hg with hg | hg
              · exact hl.2 hg
              · exact hj hg
            · rcases List.mem_cons.mp hf with rfl | hf
              · rw [h1] at hn; injection hn with hn; exact absurd hn.symm hj
              · exact ⟨f, hf, hn⟩
      · rw [a5 j, mem_addTo, List.mem_cons, or_assoc]
      · rw [a6 j, mem_addTo, List.mem_cons, or_assoc]
      · simp [h1, a12]
      · rw [a13, List.filter_filter]
        congr 1
        funext f
        simp only [List.map_cons, List.mem_cons, not_or, Bool.decide_and, ne_eq]
        rw [Bool.and_comm]

/-! ### Histories -/

/-- What holds before a look and is kept by every file holds after it. -/
theorem fold_keeps {P : World → Prop} {p : Pass} (h : ∀ w e, P w → P (stopOne p w e)) : ∀ (l : List Entry) (w : World),
    P w → P (l.foldl (stopOne p) w)
  | [], _, hw => hw
  | e :: t, w, hw => by rw [List.foldl_cons]; exact fold_keeps h t _ (h w e hw)

theorem stops_keeps {P : World → Prop} {p : Pass} (h : ∀ w e, P w → P (stopOne p w e)) (w : World) (hw : P w) :
    P (lookForStops p w) := fold_keeps h _ _ hw

theorem find_chkpt {l : List Entry} {e : Entry} (h : l.find? (fun f => decide (f.name = chkpt)) = some e) :
    e ∈ l ∧ e.name = chkpt := ⟨List.mem_of_find?_eq_some h, by simpa using List.find?_some h⟩

/-- What a look for `CHKPT` does, in all cases. -/
theorem chkpt_cases (fails : Option Err) (w : World) :
    (∀ f ∈ w.files, f.name ≠ chkpt) ∧ lookForCheckpoint fails w = w ∨
    ∃ e ∈ w.files, e.name = chkpt ∧
      (e.dir = true ∧ lookForCheckpoint fails w = { w with raised := some .osError } ∨
       e.dir = false ∧ (∃ x, fails = some x ∧ lookForCheckpoint fails w = { w with
          files := w.files.filter fun f => f.name ≠ chkpt
          control := some (w.control.getD (defaults w.cwd))
          raised := some x }) ∨
       e.dir = false ∧ fails = none ∧ lookForCheckpoint fails w = { w with
          files := w.files.filter fun f => f.name ≠ chkpt
          made := w.made ++ [w.control.getD (defaults w.cwd)] }) := by
  unfold lookForCheckpoint
  split
  · rename_i h
    refine .inl ⟨fun f hf => ?_, rfl⟩
    have := List.find?_eq_none.mp h f hf
    simpa using this
  · rename_i e he
    obtain ⟨h1, h2⟩ := find_chkpt he
    refine .inr ⟨e, h1, h2, ?_⟩
    split
    · rename_i hd; exact .inl ⟨hd, rfl⟩
    · rename_i hd
      have hd : e.dir = false := by simpa using hd
      cases fails with
      | some x => exact .inr (.inl ⟨hd, x, rfl, rfl⟩)
      | none =>
        refine .inr (.inr ⟨hd, rfl, ?_⟩)
        cases hc : w.control <;> simp

/-- An invariant of all that can happen. -/
theorem run_keeps {P : World → Prop} {ok : Act → Prop} (h : ∀ w a, ok a → P w → P (act w a)) :
    ∀ (l : List Act) (w : World), (∀ a ∈ l, ok a) → P w → P (run w l)
  | [], _, _, hw => hw
  | a :: t, w, hok, hw => by
    unfold run
    rw [List.foldl_cons]
    exact run_keeps h t _ (fun b hb => hok b (List.mem_cons_of_mem _ hb)) (h w a (hok a List.mem_cons_self) hw)

/-- The user does not take the file away, and no other run begins. -/
def Leaves (n : Name) : Act → Prop
  | .remove m => m ≠ n
  | .newRun _ => False
  | _ => True

/-- A stop file stays until the optimizer it names is gone. -/
theorem stays {e : Entry} {i : Int} (hs : isStop e.name = true) (hn : named e.name = some i) (w : World) (a : Act)
    (ha : Leaves e.name a) (h : e ∈ w.files ∨ i ∈ w.graveyard) :
    e ∈ (act w a).files ∨ i ∈ (act w a).graveyard := by
  have hc : e.name ≠ chkpt := fun h => by rw [h] at hs; exact absurd hs (by decide)
  cases a with
  | put f =>
    simp only [act]; split
    · exact h
    · exact h.imp (fun h => List.mem_append.mpr (.inl h)) id
  | remove m =>
    simp only [act]
    exact h.imp (fun h => List.mem_filter.mpr ⟨h, by simpa using fun e => ha e.symm⟩) id
  | start => simp only [act]; split <;> exact h
  | ends j =>
    simp only [act]; split
    · exact h
    · exact h.imp id fun h => mem_addTo.mpr (.inl h)
  | purge j => simp only [act]; split <;> exact h
  | stops p =>
    simp only [act]; split
    · exact h
    · refine stops_keeps (P := fun w => e ∈ w.files ∨ i ∈ w.graveyard) (fun w f h => ?_) w h
      rcases stopOne_cases p w f with h1 | ⟨-, j, h1, -, ⟨-, h2⟩ | ⟨s, r, -, h2⟩⟩
      · rw [h1]; exact h
      · rw [h2]; exact h
      · rw [h2]
        rcases h with h | h
        · by_cases hf : e.name = f.name
          · rw [← hf, hn] at h1; injection h1 with h1; subst h1
            exact .inr (mem_addTo.mpr (.inr rfl))
          · exact .inl (List.mem_filter.mpr ⟨h, by simpa using hf⟩)
        · exact .inr (mem_addTo.mpr (.inl h))
  | checkpoints fails =>
    simp only [act]; split
    · exact h
    · have hk : e ∈ w.files → e ∈ w.files.filter fun f => f.name ≠ chkpt :=
        fun h => List.mem_filter.mpr ⟨h, by simpa using hc⟩
      rcases chkpt_cases fails w with ⟨-, h1⟩ | ⟨f, -, -, ⟨-, h1⟩ | ⟨-, x, -, h1⟩ | ⟨-, -, h1⟩⟩
      · rw [h1]; exact h
      · rw [h1]; exact h
      · rw [h1]; exact h.imp hk id
      · rw [h1]; exact h.imp hk id
  | newRun c => cases ha

/-- A file which names no optimizer stays, unless the user removes it or it is the request for a checkpoint. -/
theorem stays_none {e : Entry} (hn : named e.name = none) (w : World) (a : Act) (h1 : a ≠ .remove e.name)
    (h2 : e.name = chkpt → ∀ x, a ≠ .checkpoints x) (h : e ∈ w.files) : e ∈ (act w a).files := by
  cases a with
  | put f =>
    simp only [act]; split
    · exact h
    · exact List.mem_append.mpr (.inl h)
  | remove m => exact List.mem_filter.mpr ⟨h, by simpa using fun hm => h1 (by rw [hm])⟩
  | start => simp only [act]; split <;> exact h
  | ends j => simp only [act]; split <;> exact h
  | purge j => simp only [act]; split <;> exact h
  | stops p =>
    simp only [act]; split
    · exact h
    · refine stops_keeps (P := fun w => e ∈ w.files) (fun w f h => ?_) w h
      rcases stopOne_cases p w f with h1 | ⟨-, j, h1, -, ⟨-, h2⟩ | ⟨s, r, -, h2⟩⟩
      · rw [h1]; exact h
      · rw [h2]; exact h
      · rw [h2]
        refine List.mem_filter.mpr ⟨h, ?_⟩
        simp only [ne_eq, decide_eq_true_eq]
        intro hf
        rw [← hf, hn] at h1
        cases h1
  | checkpoints fails =>
    simp only [act]; split
    · exact h
    · have hk : e ∈ w.files.filter fun f => f.name ≠ chkpt :=
        List.mem_filter.mpr ⟨h, by simpa using fun hc => h2 hc fails rfl⟩
      rcases chkpt_cases fails w with ⟨-, h1⟩ | ⟨f, -, -, ⟨-, h1⟩ | ⟨-, x, -, h1⟩ | ⟨-, -, h1⟩⟩
      · rw [h1]; exact h
      · rw [h1]; exact h
      · rw [h1]; exact hk
      · rw [h1]; exact hk
  | newRun c => exact h

/-- The gone stay gone within a run. -/
theorem gone_stays {i : Int} (w : World) (a : Act) (ha : ∀ c, a ≠ .newRun c) (h : i ∈ w.graveyard) :
    i ∈ (act w a).graveyard := by
  cases a with
  | put f => simp only [act]; split <;> exact h
  | remove m => exact h
  | start => simp only [act]; split <;> exact h
  | ends j =>
    simp only [act]; split
    · exact h
    · exact mem_addTo.mpr (.inl h)
  | purge j => simp only [act]; split <;> exact h
  | stops p =>
    simp only [act]; split
    · exact h
    · refine stops_keeps (P := fun w => i ∈ w.graveyard) (fun w f h => ?_) w h
      rcases stopOne_cases p w f with h1 | ⟨-, j, h1, -, ⟨-, h2⟩ | ⟨s, r, -, h2⟩⟩
      · rw [h1]; exact h
      · rw [h2]; exact h
      · rw [h2]; exact mem_addTo.mpr (.inl h)
  | checkpoints fails =>
    simp only [act]; split
    · exact h
    · rcases chkpt_cases fails w with ⟨-, h1⟩ | ⟨f, -, -, ⟨-, h1⟩ | ⟨-, x, -, h1⟩ | ⟨-, -, h1⟩⟩ <;> (rw [h1]; exact h)
  | newRun c => exact absurd rfl (ha c)

/-- A file for an optimizer which is gone stays. -/
theorem stays_gone {e : Entry} {i : Int} (hs : isStop e.name = true) (hn : named e.name = some i) (w : World) (a : Act)
    (ha : Leaves e.name a) (h : e ∈ w.files ∧ i ∈ w.graveyard) :
    e ∈ (act w a).files ∧ i ∈ (act w a).graveyard := by
  have hc : e.name ≠ chkpt := fun h => by rw [h] at hs; exact absurd hs (by decide)
  have hg : ∀ c, a ≠ .newRun c := fun c hc => by rw [hc] at ha; exact ha
  refine ⟨?_, gone_stays w a hg h.2⟩
  cases a with
  | put f =>
    simp only [act]; split
    · exact h.1
    · exact List.mem_append.mpr (.inl h.1)
  | remove m => exact List.mem_filter.mpr ⟨h.1, by simpa using fun e => ha e.symm⟩
  | start => simp only [act]; split <;> exact h.1
  | ends j => simp only [act]; split <;> exact h.1
  | purge j => simp only [act]; split <;> exact h.1
  | stops p =>
    simp only [act]; split
    · exact h.1
    · refine (stops_keeps (P := fun w => e ∈ w.files ∧ i ∈ w.graveyard) (fun w f h => ?_) w h).1
      rcases stopOne_cases p w f with h1 | ⟨-, j, h1, hl, ⟨-, h2⟩ | ⟨s, r, -, h2⟩⟩
      · rw [h1]; exact h
      · rw [h2]; exact h
      · rw [h2]
        refine ⟨List.mem_filter.mpr ⟨h.1, ?_⟩, mem_addTo.mpr (.inl h.2)⟩
        simp only [ne_eq, decide_eq_true_eq]
        intro hf
        rw [← hf, hn] at h1
        injection h1 with h1
        exact hl.2 (h1 ▸ h.2)
  | checkpoints fails =>
    simp only [act]; split
    · exact h.1
    · have hk : e ∈ w.files.filter fun f => f.name ≠ chkpt := List.mem_filter.mpr ⟨h.1, by simpa using hc⟩
      rcases chkpt_cases fails w with ⟨-, h1⟩ | ⟨f, -, -, ⟨-, h1⟩ | ⟨-, x, -, h1⟩ | ⟨-, -, h1⟩⟩
      · rw [h1]; exact h.1
      · rw [h1]; exact h.1
      · rw [h1]; exact hk
      · rw [h1]; exact hk
  | newRun c => cases ha

/-- Names are unique. -/
def Tidy (l : List Entry) : Prop := (l.map (·.name)).Nodup

theorem tidy_filter {l : List Entry} (q : Entry → Bool) (h : Tidy l) : Tidy (l.filter q) :=
  List.Nodup.sublist (List.filter_sublist.map _) h

theorem tidy_act (w : World) (a : Act) (h : Tidy w.files) : Tidy (act w a).files := by
  cases a with
  | put f =>
    simp only [act]; split
    · exact h
    · rename_i hf
      unfold Tidy
      rw [List.map_append, List.nodup_append]
      refine ⟨h, by simp, fun x hx y hy e => ?_⟩
      obtain ⟨g, hg, rfl⟩ := List.mem_map.mp hx
      simp only [List.map_cons, List.map_nil, List.mem_singleton] at hy
      exact hf (List.any_eq_true.mpr ⟨g, hg, by simpa using e.trans hy⟩)
  | remove m => exact tidy_filter _ h
  | start => simp only [act]; split <;> exact h
  | ends j => simp only [act]; split <;> exact h
  | purge j => simp only [act]; split <;> exact h
  | stops p =>
    simp only [act]; split
    · exact h
    · refine stops_keeps (P := fun w => Tidy w.files) (fun w f h => ?_) w h
      rcases stopOne_cases p w f with h1 | ⟨-, j, h1, -, ⟨-, h2⟩ | ⟨s, r, -, h2⟩⟩
      · rw [h1]; exact h
      · rw [h2]; exact h
      · rw [h2]; exact tidy_filter _ h
  | checkpoints fails =>
    simp only [act]; split
    · exact h
    · rcases chkpt_cases fails w with ⟨-, h1⟩ | ⟨f, -, -, ⟨-, h1⟩ | ⟨-, x, -, h1⟩ | ⟨-, -, h1⟩⟩
      · rw [h1]; exact h
      · rw [h1]; exact h
      · rw [h1]; exact tidy_filter _ h
      · rw [h1]; exact tidy_filter _ h
  | newRun c => exact h

/-- A file asking to stop optimizer `i`. -/
def asks (i : Int) (e : Entry) : Bool := isStop e.name && decide (named e.name = some i)

/-- Requests to stop `i` which have been carried out or still wait. -/
def used (i : Int) (w : World) : Nat := w.stopped.countP (fun s => s.2 = i) + w.files.countP (asks i)

theorem countP_filter_le (q r : Entry → Bool) (l : List Entry) : (l.filter r).countP q ≤ l.countP q :=
  List.Sublist.countP_le List.filter_sublist

theorem countP_drop {q : Entry → Bool} {e : Entry} : ∀ {l : List Entry}, e ∈ l → q e = true →
    (l.filter fun f => f.name ≠ e.name).countP q + 1 ≤ l.countP q
  | [], h, _ => by cases h
  | f :: t, h, hq => by
    rw [List.countP_cons]
    by_cases hf : f.name = e.name
    · rw [List.filter_cons_of_neg (by simpa using hf)]
      rcases List.mem_cons.mp h with rfl | h
      · have := countP_filter_le q (fun f => f.name ≠ e.name) t
        simp only [hq, if_true]; omega
      · have := countP_drop h hq
        omega
    · rw [List.filter_cons_of_pos (by simpa using hf), List.countP_cons]
      rcases List.mem_cons.mp h with rfl | h
      · exact absurd rfl hf
      · have := countP_drop h hq
        omega

theorem fold_used {p : Pass} (i : Int) : ∀ (l : List Entry) (w : World), Tidy l →
    (∀ e ∈ l, isStop e.name = true) → (w.raised = none → ∀ e ∈ l, e ∈ w.files) →
    used i (l.foldl (stopOne p) w) ≤ used i w
  | [], _, _, _, _ => Nat.le_refl _
  | e :: t, w, ht, hs, hm => by
    rw [List.foldl_cons]
    have ht' : Tidy t := (List.nodup_cons.mp ht).2
    have hne : ∀ f ∈ t, f.name ≠ e.name := fun f hf h => (List.nodup_cons.mp ht).1 (List.mem_map.mpr ⟨f, hf, h⟩)
    have hs' : ∀ f ∈ t, isStop f.name = true := fun f hf => hs f (List.mem_cons_of_mem _ hf)
    refine Nat.le_trans (fold_used i t _ ht' hs' fun h0 f hf => ?_) ?_
    · rcases stopOne_cases p w e with h1 | ⟨hr, j, h1, -, ⟨-, h2⟩ | ⟨s, r, -, h2⟩⟩
      · rw [h1] at h0 ⊢; exact hm h0 f (List.mem_cons_of_mem _ hf)
      · rw [h2] at h0; cases h0
      · rw [h2]
        exact List.mem_filter.mpr ⟨hm hr f (List.mem_cons_of_mem _ hf), by simpa using hne f hf⟩
    · rcases stopOne_cases p w e with h1 | ⟨hr, j, h1, -, ⟨-, h2⟩ | ⟨s, r, h3, h2⟩⟩
      · rw [h1]; exact Nat.le_refl _
      · rw [h2]; exact Nat.le_refl _
      · rw [h2]
        unfold used
        have he := hm hr e List.mem_cons_self
        have hle := countP_filter_le (asks i) (fun f => f.name ≠ e.name) w.files
        have hst : s.countP (fun s => s.2 = i) ≤ w.stopped.countP (fun s => s.2 = i) + if j = i then 1 else 0 := by
          rcases h3 with ⟨rfl, -⟩ | ⟨rfl, -⟩ | ⟨rfl, -⟩
          · rw [List.countP_append, List.countP_singleton]; simp
          · omega
          · omega
        by_cases hj : j = i
        · subst hj
          have := countP_drop (q := asks j) he (by simp [asks, hs e List.mem_cons_self, h1])
          simp only [if_true] at hst
          show s.countP _ + (w.files.filter _).countP _ ≤ _
          omega
        · rw [if_neg hj] at hst
          show s.countP _ + (w.files.filter _).countP _ ≤ _
          omega

/-- Files the user makes which ask to stop `i`. -/
def asking (i : Int) : Act → Bool
  | .put e => asks i e
  | _ => false

theorem used_act (i : Int) (w : World) (a : Act) (ht : Tidy w.files) :
    used i (act w a) ≤ used i w + if asking i a = true then 1 else 0 := by
  cases a with
  | put f =>
    simp only [act]; split
    · omega
    · simp only [used, asking, List.countP_append, List.countP_singleton]
      by_cases hq : asks i f = true <;> simp [hq] <;> omega
  | remove m =>
    have := countP_filter_le (asks i) (fun f => f.name ≠ m) w.files
    simp only [act, used]
    omega
  | start => simp only [act]; split <;> exact Nat.le_add_right _ _
  | ends j => simp only [act]; split <;> exact Nat.le_add_right _ _
  | purge j => simp only [act]; split <;> exact Nat.le_add_right _ _
  | stops p =>
    simp only [act]; split
    · exact Nat.le_add_right _ _
    · refine Nat.le_trans (fold_used i _ w ?_ (fun e he => by simpa using (List.mem_filter.mp he).2) fun _ e he => ?_)
        (Nat.le_add_right _ _)
      · exact tidy_filter _ (((p.perm w.files).map _).nodup_iff.mpr ht)
      · exact (p.perm w.files).mem_iff.mp (List.mem_filter.mp he).1
  | checkpoints fails =>
    simp only [act]; split
    · exact Nat.le_add_right _ _
    · have := countP_filter_le (asks i) (fun f => f.name ≠ chkpt) w.files
      rcases chkpt_cases fails w with ⟨-, h1⟩ | ⟨f, -, -, ⟨-, h1⟩ | ⟨-, x, -, h1⟩ | ⟨-, -, h1⟩⟩
      · rw [h1]; exact Nat.le_add_right _ _
      · rw [h1]; exact Nat.le_add_right _ _
      · rw [h1]; simp only [used]; omega
      · rw [h1]; simp only [used]; omega
  | newRun c => exact Nat.le_add_right _ _

theorem used_run (i : Int) : ∀ (l : List Act) (w : World), Tidy w.files →
    used i (run w l) ≤ used i w + l.countP (asking i)
  | [], _, _ => Nat.le_refl _
  | a :: t, w, ht => by
    have h1 := used_act i w a ht
    have h2 := used_run i t (act w a) (tidy_act w a ht)
    unfold run at h2 ⊢
    rw [List.foldl_cons, List.countP_cons]
    omega

/-- Nobody is stopped twice in the same run. -/
def Once (w : World) : Prop :=
  w.stopped.Nodup ∧ (∀ s ∈ w.stopped, s.1 ≤ w.runs) ∧ ∀ i, (w.runs, i) ∈ w.stopped → i ∈ w.graveyard

theorem once_act (w : World) (a : Act) (h : Once w) : Once (act w a) := by
  cases a with
  | put f => simp only [act]; split <;> exact h
  | remove m => exact h
  | start => simp only [act]; split <;> exact h
  | ends j =>
    simp only [act]; split
    · exact h
    · exact ⟨h.1, h.2.1, fun i hi => mem_addTo.mpr (.inl (h.2.2 i hi))⟩
  | purge j => simp only [act]; split <;> exact h
  | stops p =>
    simp only [act]; split
    · exact h
    · refine stops_keeps (P := Once) (fun w f h => ?_) w h
      rcases stopOne_cases p w f with h1 | ⟨-, j, h1, hl, ⟨-, h2⟩ | ⟨s, r, h3, h2⟩⟩
      · rw [h1]; exact h
      · rw [h2]; exact h
      · rw [h2]
        have same : Once { w with
            files := w.files.filter fun g => g.name ≠ f.name
            victims := addTo w.victims j
            graveyard := addTo w.graveyard j
            raised := r } := ⟨h.1, h.2.1, fun i hi => mem_addTo.mpr (.inl (h.2.2 i hi))⟩
        rcases h3 with ⟨rfl, -⟩ | ⟨rfl, -⟩ | ⟨rfl, -⟩
        · refine ⟨?_, fun x hx => ?_, fun i hi => ?_⟩
          · show (w.stopped ++ [(w.runs, j)]).Nodup
            rw [List.nodup_append]
            refine ⟨h.1, by simp, fun x hx y hy e => ?_⟩
            rw [List.mem_singleton] at hy
            subst e; subst hy
            exact hl.2 (h.2.2 _ hx)
          · rcases List.mem_append.mp hx with hx | hx
            · exact h.2.1 x hx
            · rw [List.mem_singleton] at hx; subst hx; exact Nat.le_refl _
          · rcases List.mem_append.mp hi with hi | hi
            · exact mem_addTo.mpr (.inl (h.2.2 i hi))
            · rw [List.mem_singleton] at hi; injection hi with _ hi; exact mem_addTo.mpr (.inr hi)
        · exact same
        · exact same
  | checkpoints fails =>
    simp only [act]; split
    · exact h
    · rcases chkpt_cases fails w with ⟨-, h1⟩ | ⟨f, -, -, ⟨-, h1⟩ | ⟨-, x, -, h1⟩ | ⟨-, -, h1⟩⟩ <;> (rw [h1]; exact h)
  | newRun c =>
    refine ⟨h.1, fun s hs => Nat.le_succ_of_le (h.2.1 s hs), fun i hi => ?_⟩
    exact absurd (h.2.1 _ hi) (by show ¬ (w.runs + 1 ≤ w.runs); omega)

/-! ### Requests for checkpoints -/

/-- `CHKPT`. -/
def isChkpt (e : Entry) : Bool := e.name = chkpt

/-- Requests for a checkpoint which have been carried out or still wait. -/
def usedC (w : World) : Nat := w.made.length + w.files.countP isChkpt

def askingC : Act → Bool
  | .put e => isChkpt e
  | _ => false

theorem usedC_act (w : World) (a : Act) : usedC (act w a) ≤ usedC w + if askingC a = true then 1 else 0 := by
  cases a with
  | put f =>
    simp only [act]; split
    · omega
    · simp only [usedC, askingC, List.countP_append, List.countP_singleton]
      by_cases hq : isChkpt f = true <;> simp [hq] <;> omega
  | remove m =>
    have := countP_filter_le isChkpt (fun f => f.name ≠ m) w.files
    simp only [act, usedC]
    omega
  | start => simp only [act]; split <;> exact Nat.le_add_right _ _
  | ends j => simp only [act]; split <;> exact Nat.le_add_right _ _
  | purge j => simp only [act]; split <;> exact Nat.le_add_right _ _
  | stops p =>
    simp only [act]; split
    · exact Nat.le_add_right _ _
    · refine Nat.le_trans ?_ (Nat.le_add_right _ _)
      refine stops_keeps (P := fun v => usedC v ≤ usedC w) (fun v f h => ?_) w (Nat.le_refl _)
      rcases stopOne_cases p v f with h1 | ⟨-, j, h1, hl, ⟨-, h2⟩ | ⟨s, r, h3, h2⟩⟩
      · rw [h1]; exact h
      · rw [h2]; exact h
      · rw [h2]
        refine Nat.le_trans ?_ h
        have := countP_filter_le isChkpt (fun g => g.name ≠ f.name) v.files
        simp only [usedC]; omega
  | checkpoints fails =>
    simp only [act]; split
    · exact Nat.le_add_right _ _
    · refine Nat.le_trans ?_ (Nat.le_add_right _ _)
      have hle := countP_filter_le isChkpt (fun f => f.name ≠ chkpt) w.files
      rcases chkpt_cases fails w with ⟨-, h1⟩ | ⟨f, hf, hn, ⟨-, h1⟩ | ⟨-, x, -, h1⟩ | ⟨-, -, h1⟩⟩
      · rw [h1]; exact Nat.le_refl _
      · rw [h1]; exact Nat.le_refl _
      · rw [h1]; simp only [usedC]; omega
      · rw [h1]
        have := countP_drop (q := isChkpt) hf (by simpa [isChkpt] using hn)
        rw [hn] at this
        simp only [usedC, List.length_append, List.length_singleton]
        omega
  | newRun c => exact Nat.le_add_right _ _

theorem usedC_run : ∀ (l : List Act) (w : World), usedC (run w l) ≤ usedC w + l.countP askingC
  | [], _ => Nat.le_refl _
  | a :: t, w => by
    have h1 := usedC_act w a
    have h2 := usedC_run t (act w a)
    unfold run at h2 ⊢
    rw [List.foldl_cons, List.countP_cons]
    omega

end Glompo.Interventions
