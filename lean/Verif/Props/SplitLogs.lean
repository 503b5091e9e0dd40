import Verif.Model.SplitLogs

/-! # C97: separate log files for the optimizers -/

namespace Glompo.Props.SplitLogs

open Glompo.SplitLogs

/-- The messages of optimizer `i` which the logger lets through. -/
def of (su : Setup) (i : Nat) (rs : List Record) : List Record :=
  rs.filter fun r => decide (r.opt = some i) && decide (su.logLevel ≤ r.level)

/-- What the file of an optimizer with messages `rs` has in fact: it begins with the first message of at least the handler's
level, without traceback if no formatter was given. -/
def expected (su : Setup) (rs : List Record) : Option (List String) :=
  match rs.dropWhile fun r => decide (r.level < su.handlerLevel) with
  | [] => none
  | r :: t => some (firstText su r :: t.map fullText)

/-- State of optimizer `i`'s file after messages `rs`. -/
structure Inv (su : Setup) (old : Nat → List String) (i : Nat) (rs : List Record) (l : Logs) : Prop where
  op : i ∈ l.opened ↔ (expected su (of su i rs)).isSome
  hd : l.handlers.count i = if i ∈ l.opened then 1 else 0
  fl : l.file i = (expected su (of su i rs)).getD (old i)

theorem of_snoc (su : Setup) (i : Nat) (rs : List Record) (r : Record) :
    of su i (rs ++ [r]) = of su i rs ++ if r.opt = some i ∧ su.logLevel ≤ r.level then [r] else [] := by
  unfold of
  rw [List.filter_append]
  congr 1
  by_cases h : r.opt = some i ∧ su.logLevel ≤ r.level
  · simp [List.filter, h.1, h.2]
  · rw [if_neg h, List.filter_eq_nil_iff]
    intro x hx
    rw [List.mem_singleton] at hx
    subst hx
    simpa using h

theorem expected_snoc (su : Setup) (rs : List Record) (r : Record) :
    expected su (rs ++ [r]) = match expected su rs with
      | some l => some (l ++ [fullText r])
      | none => if r.level < su.handlerLevel then none else some [firstText su r] := by
  unfold expected
  induction rs with
  | nil => by_cases h : r.level < su.handlerLevel <;> simp [h]
  | cons x t ih =>
    by_cases h : x.level < su.handlerLevel
    · simpa [h] using ih
    · simp [h]

theorem inv_log {su : Setup} {old : Nat → List String} {i : Nat} {rs : List Record} {l l' : Logs} (h : Inv su old i rs l)
    (r : Record) (hl : log su r l = some l') : Inv su old i (rs ++ [r]) l' := by
  obtain ⟨h1, h2, h3⟩ := h
  unfold log at hl
  by_cases hlev : r.level < su.logLevel
  · rw [if_pos hlev] at hl
    cases hl
    have : of su i (rs ++ [r]) = of su i rs := by
      rw [of_snoc, if_neg (fun h => absurd h.2 (by omega)), List.append_nil]
    exact ⟨by rw [this]; exact h1, h2, by rw [this]; exact h3⟩
  rw [if_neg hlev] at hl
  cases hro : r.opt with
  | none =>
    have : of su i (rs ++ [r]) = of su i rs := by
      rw [of_snoc, if_neg (by rw [hro]; simp), List.append_nil]
    simp only [hro, filter] at hl
    split at hl
    · cases hl
      exact ⟨by rw [this]; exact h1, h2, by rw [this]; exact h3⟩
    · cases hl
  | some j =>
    simp only [hro, filter] at hl
    by_cases hj : j = i
    · subst hj
      have hof : of su j (rs ++ [r]) = of su j rs ++ [r] := by
        rw [of_snoc, if_pos ⟨hro, by omega⟩]
      by_cases hm : j ∈ l.opened
      · -- further message
        obtain ⟨x, hx⟩ := Option.isSome_iff_exists.mp (h1.mp hm)
        have ex : expected su (of su j (rs ++ [r])) = some (x ++ [fullText r]) := by rw [hof, expected_snoc, hx]
        have fin : ∀ m : Logs, m.opened = l.opened → m.handlers = l.handlers → m.file j = l.file j ++ [fullText r] →
            Inv su old j (rs ++ [r]) m := by
          intro m e1 e2 e3
          refine ⟨by rw [ex, e1]; simp [hm], by rw [e1, e2]; exact h2, ?_⟩
          rw [ex, e3, h3, hx]; rfl
        have fj : (appendAll j (fullText r) l).file j = l.file j ++ [fullText r] := by
          simp [appendAll, h2, hm]
        have ho : j ∈ (appendAll j (fullText r) l).opened := hm
        by_cases hh : r.level < su.handlerLevel
        · rw [if_pos hh] at hl; cases hl
          exact fin _ rfl rfl fj
        · rw [if_neg hh, if_neg (not_not_intro ho)] at hl
          cases hl
          split
          · exact fin _ rfl rfl fj
          · exact fin _ rfl rfl fj
      · -- not opened yet
        have hx : expected su (of su j rs) = none := by
          cases he : expected su (of su j rs) with
          | none => rfl
          | some x => exact absurd (h1.mpr (by rw [he]; rfl)) hm
        have ex : expected su (of su j (rs ++ [r])) = if r.level < su.handlerLevel then none else some [firstText su r] := by
          rw [hof, expected_snoc, hx]
        have hz : l.handlers.count j = 0 := by rw [h2, if_neg hm]
        have ho : j ∉ (appendAll j (fullText r) l).opened := hm
        by_cases hh : r.level < su.handlerLevel
        · rw [if_pos hh] at hl ex; cases hl
          refine ⟨by rw [ex]; simp [ho], by rw [if_neg ho]; exact hz, ?_⟩
          rw [ex]
          simp only [appendAll, if_pos, hz, List.replicate_zero, List.append_nil]
          rw [h3, hx]
        · rw [if_neg hh, if_pos ho] at hl
          rw [if_neg hh] at ex
          have fin : ∀ m : Logs, m.opened = l.opened ++ [j] → m.handlers = l.handlers ++ [j] → m.file j = [firstText su r] →
              Inv su old j (rs ++ [r]) m := by
            intro m e1 e2 e3
            refine ⟨by rw [ex, e1]; simp, ?_, by rw [ex, e3]; rfl⟩
            rw [e1, e2, if_pos (by simp), List.count_append, hz]; simp
          cases hl
          split
          · exact fin _ rfl rfl (by simp)
          · exact fin _ rfl rfl (by simp)
    · -- somebody else's message
      have hof : of su i (rs ++ [r]) = of su i rs := by
        rw [of_snoc, if_neg (fun h => hj (by rw [hro] at h; exact Option.some.inj h.1)), List.append_nil]
      have hij : ¬ i = j := fun h => hj h.symm
      have fin : ∀ m : Logs, (i ∈ m.opened ↔ i ∈ l.opened) → m.handlers.count i = l.handlers.count i → m.file i = l.file i →
          Inv su old i (rs ++ [r]) m := by
        intro m e1 e2 e3
        refine ⟨by rw [hof, e1]; exact h1, ?_, by rw [hof, e3]; exact h3⟩
        rw [e2, h2]
        by_cases h : i ∈ l.opened
        · rw [if_pos h, if_pos (e1.mpr h)]
        · rw [if_neg h, if_neg fun h' => h (e1.mp h')]
      have fi : (appendAll j (fullText r) l).file i = l.file i := by simp [appendAll, hij]
      by_cases hh : r.level < su.handlerLevel
      · rw [if_pos hh] at hl; cases hl
        exact fin _ Iff.rfl rfl fi
      · rw [if_neg hh] at hl
        by_cases ho : j ∈ (appendAll j (fullText r) l).opened
        · rw [if_neg (not_not_intro ho)] at hl; cases hl
          split
          · exact fin _ Iff.rfl rfl fi
          · exact fin _ Iff.rfl rfl fi
        · rw [if_pos ho] at hl; cases hl
          have c : (l.handlers ++ [j]).count i = l.handlers.count i := by
            rw [List.count_append, List.count_singleton]
            simp [hj]
          have o : i ∈ l.opened ++ [j] ↔ i ∈ l.opened := by simp [hij]
          have f : (if i = j then [firstText su r] else (appendAll j (fullText r) l).file i) = l.file i := by
            rw [if_neg hij, fi]
          split
          · exact fin _ o c f
          · exact fin _ o c f

theorem inv_logAll {su : Setup} {old : Nat → List String} {i : Nat} : ∀ (rs done : List Record) {l l' : Logs},
    Inv su old i done l → logAll su rs l = some l' → Inv su old i (done ++ rs) l'
  | [], done, l, l', h, hl => by simp only [logAll, Option.some.injEq] at hl; subst hl; simpa using h
  | r :: t, done, l, l', h, hl => by
    simp only [logAll] at hl
    split at hl
    · cases hl
    · rename_i m hm
      have := inv_logAll t (done ++ [r]) (inv_log h r hm) hl
      simpa using this

/-- What a complete entry for a record is: its message, and on a new line its traceback, if it has one. -/
def withTrace (r : Record) : String := r.msg ++ (r.trace.map fun t => "\n" ++ t).getD ""

theorem fullText_eq (r : Record) : fullText r = withTrace r := by
  unfold fullText withTrace
  cases r.trace with
  | none => simp
  | some t => simp [String.append_assoc]

theorem fullText_eq' : fullText = withTrace := funext fullText_eq

/-- **C97, partial.** Whatever the messages and their order, the file of an optimizer holds its messages, all of them, each
once, in order, and nobody else's, from the first one on which reaches the level of the handler with the filter (the first one
without its traceback if there is no formatter); without such a message the file is not touched. Missing: earlier messages,
which are lost. -/
theorem C97_own_messages_partial (su : Setup) (old : Nat → List String) (rs : List Record) (l : Logs)
    (h : logAll su rs (fresh old) = some l) (i : Nat) :
    l.file i = match (of su i rs).dropWhile fun r => decide (r.level < su.handlerLevel) with
      | [] => old i
      | r :: t => (if su.formatter then withTrace r else r.msg) :: t.map withTrace := by
  have := (inv_logAll (old := old) (i := i) rs [] ⟨by simp [fresh, of, expected], by simp [fresh], rfl⟩ h).fl
  rw [this, List.nil_append]
  unfold expected
  split <;> rename_i h' <;> simp [h', firstText, fullText_eq']

/-- **C97, partial.** If the handler's level does not exceed that of the logger and messages have no tracebacks, the file holds
exactly the optimizer's messages which pass the logger. -/
theorem C97_all_messages_partial (su : Setup) (hsu : su.handlerLevel ≤ su.logLevel) (old : Nat → List String) (rs : List Record)
    (htr : ∀ r ∈ rs, r.trace = none) (l : Logs) (h : logAll su rs (fresh old) = some l) (i : Nat) (hi : of su i rs ≠ []) :
    l.file i = (of su i rs).map (·.msg) := by
  rw [C97_own_messages_partial su old rs l h i]
  have hmem : ∀ r ∈ of su i rs, su.logLevel ≤ r.level ∧ r.trace = none := by
    intro r hr
    have := List.mem_filter.mp hr
    simp only [Bool.and_eq_true, decide_eq_true_eq] at this
    exact ⟨this.2.2, htr r this.1⟩
  generalize of su i rs = m at hi hmem
  cases m with
  | nil => exact absurd rfl hi
  | cons r t =>
    have h1 := hmem r (by simp)
    have : ¬ r.level < su.handlerLevel := by omega
    simp only [List.dropWhile_cons, this, decide_false, Bool.false_eq_true, if_false, List.map_cons, List.cons.injEq]
    refine ⟨by simp [withTrace, h1.2], List.map_congr_left fun x hx => ?_⟩
    simp [withTrace, (hmem x (by simp [hx])).2]

/-- **C97.** The handler with the filter gets exactly the messages of its level, and only if `propagate` was set. -/
theorem C97_propagation (su : Setup) : ∀ (rs : List Record) (l l' : Logs), logAll su rs l = some l' →
    l'.out = l.out ++ if su.propagate then
      (rs.filter fun r => decide (su.logLevel ≤ r.level) && decide (su.handlerLevel ≤ r.level)).map withTrace else []
  | [], l, l', h => by simp only [logAll, Option.some.injEq] at h; subst h; simp
  | r :: t, l, l', h => by
    simp only [logAll] at h
    split at h
    · cases h
    · rename_i m hm
      rw [C97_propagation su t m l' h]
      have one : m.out = l.out ++ if su.propagate ∧ su.logLevel ≤ r.level ∧ su.handlerLevel ≤ r.level then [withTrace r] else [] := by
        rw [← fullText_eq]
        unfold log at hm
        by_cases h1 : r.level < su.logLevel
        · rw [if_pos h1] at hm; cases hm
          rw [if_neg (fun h => absurd h.2.1 (by omega)), List.append_nil]
        · rw [if_neg h1] at hm
          have ha : ∀ i x, (appendAll i x l).out = l.out := fun _ _ => rfl
          by_cases h2 : r.level < su.handlerLevel
          · rw [if_neg (fun h => absurd h.2.2 (by omega)), List.append_nil]
            cases ho : r.opt <;> simp only [ho, if_pos h2, Option.some.injEq] at hm <;> rw [← hm]
            rfl
          · have h1' : su.logLevel ≤ r.level := by omega
            have h2' : su.handlerLevel ≤ r.level := by omega
            cases ho : r.opt with
            | none => simp only [ho, if_neg h2, filter] at hm; cases hm
            | some i =>
              simp only [ho, if_neg h2, filter] at hm
              cases hp : su.propagate with
              | true =>
                simp only [hp, if_true] at hm
                split at hm <;> rename_i q <;> split at q <;> cases q <;> cases hm <;> simp [h1', h2', appendAll]
              | false =>
                simp only [hp] at hm
                split at hm <;> rename_i q <;> split at q <;> cases q <;> cases hm <;> simp [appendAll]
      rw [one, List.append_assoc]
      congr 1
      cases hp : su.propagate with
      | false => simp
      | true => by_cases h1 : su.logLevel ≤ r.level <;> by_cases h2 : su.handlerLevel ≤ r.level <;> simp [List.filter, h1, h2]

/-- **C97.** Logging fails exactly if there is a message of the logger `glompo.optimizers` itself which reaches the filter. -/
theorem C97_failure (su : Setup) : ∀ (rs : List Record) (l : Logs),
    logAll su rs l = none ↔ ∃ r ∈ rs, r.opt = none ∧ su.logLevel ≤ r.level ∧ su.handlerLevel ≤ r.level
  | [], l => by simp [logAll]
  | r :: t, l => by
    have one : log su r l = none ↔ r.opt = none ∧ su.logLevel ≤ r.level ∧ su.handlerLevel ≤ r.level := by
      unfold log
      by_cases h1 : r.level < su.logLevel
      · simp [h1]; intro _ h; omega
      · by_cases h2 : r.level < su.handlerLevel
        · simp only [if_neg h1, if_pos h2]
          constructor
          · intro h; cases h
          · rintro ⟨_, _, h⟩; omega
        · cases ho : r.opt with
          | none => simp only [if_neg h1, if_neg h2, filter, ho, true_and]; exact ⟨fun _ => by omega, fun _ => trivial⟩
          | some i =>
            simp only [h1, h2, if_false, filter, ho]
            constructor
            · intro h
              split at h <;> rename_i q
              · split at q <;> cases q
              · cases h
            · rintro ⟨h, _⟩; cases h
    simp only [logAll]
    cases hm : log su r l with
    | none => simp only [true_iff]; exact ⟨r, by simp, one.mp hm⟩
    | some m =>
      simp only
      rw [C97_failure su t m]
      have hn : ¬ (r.opt = none ∧ su.logLevel ≤ r.level ∧ su.handlerLevel ≤ r.level) := fun h => by
        rw [one.mpr h] at hm; cases hm
      constructor
      · rintro ⟨x, hx, h⟩; exact ⟨x, by simp [hx], h⟩
      · rintro ⟨x, hx, h⟩
        rcases List.mem_cons.mp hx with rfl | hx
        · exact absurd h hn
        · exact ⟨x, hx, h⟩

/-- The set-up of the example in the documentation: logger at DEBUG, handler at INFO. -/
def documented : Setup := ⟨10, 20, true, true⟩

def m1 : Record := ⟨some 1, 10, "starting", none⟩
def m2 : Record := ⟨some 1, 20, "running", none⟩
def m3 : Record := ⟨some 2, 20, "other", none⟩
def m4 : Record := ⟨some 1, 10, "details", none⟩
def m5 : Record := ⟨some 1, 40, "failed", some "Traceback"⟩

example : ∃ l, logAll documented [m1, m2, m3, m4, m5] (fresh fun _ => []) = some l ∧
    l.file 1 = ["running", "details", "failed\nTraceback"] ∧ l.file 2 = ["other"] ∧
    l.out = ["running", "other", "failed\nTraceback"] :=
  ⟨_, rfl, by decide +kernel, by decide +kernel, by decide +kernel⟩

example : ∃ l, logAll ⟨10, 10, false, false⟩ [m1, m2, m3, m4] (fresh fun _ => []) = some l ∧
    l.file 1 = ["starting", "running", "details"] := ⟨_, rfl, by decide +kernel⟩

example : logAll documented [m1, ⟨none, 30, "oops", none⟩] (fresh fun _ => []) = none := rfl

/-- **C97, refuted.** In the set-up of the documentation, a message for the file (DEBUG) which comes before the first message
for the console (INFO) is lost; without a formatter the traceback of the first message is lost; a second manager in the same
process destroys the file of the first one's optimizer and has every message but the first twice. -/
theorem C97_refuted :
    ((logAll documented [m1, m2] (fresh fun _ => [])).map fun l => l.file 1) = some ["running"] ∧
    ((logAll { documented with formatter := false } [m5] (fresh fun _ => [])).map fun l => l.file 1) = some ["failed"] ∧
    (((logAll documented [m2, m4] (fresh fun _ => [])).bind fun l => logAll documented [m2, m4] (renew l)).map fun l => l.file 1) =
      some ["running", "details", "details"] := by
  decide +kernel

end Glompo.Props.SplitLogs
