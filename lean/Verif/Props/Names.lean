import Verif.Spec.Names
import Verif.Lemmas.Checkpoint
import Verif.Lemmas.Interventions

/-!
# C134: names keep optimizers apart

Whatever the number of an optimizer, also one of more than four digits, its thread, files and groups have names of their own, and the number read
back from a name is the one it was made from.
-/

namespace Glompo.Props

open Glompo.Names Glompo.NamesSpec
open Checkpoint (Name dec pad isDigit undec pad_spec)
open Interventions (pyInt pyInt_iff)

theorem names_dec_spec (n : Nat) : (∀ c ∈ dec n, isDigit c = true) ∧ undec (dec n) = n ∧ dec n ≠ [] := by
  obtain ⟨h1, h2, h3, h4⟩ := Checkpoint.decAux_spec (n + 1) n (by omega)
  refine ⟨h1, h2, fun h => ?_⟩
  have : Checkpoint.decAux (n + 1) n = [] := h
  unfold Checkpoint.decAux at this
  split at this <;> simp at this

theorem names_pad_ne (n : Nat) : pad 4 n ≠ [] := by
  unfold pad
  intro h
  exact (names_dec_spec n).2.2 (List.append_eq_nil_iff.mp h).2

theorem names_pyInt (s : Name) (h : ∀ c ∈ s, isDigit c = true) (h0 : s ≠ []) : pyInt s = some (undec s : Int) :=
  (pyInt_iff _ _).mpr ⟨[], [], s, [], by simp, rfl, rfl, h0, by simpa using h, .inl ⟨.inl rfl, rfl⟩⟩

theorem names_pyInt_dec (n : Nat) : pyInt (dec n) = some (n : Int) := by
  obtain ⟨h1, h2, h3⟩ := names_dec_spec n
  rw [names_pyInt _ h1 h3, h2]

theorem names_dropOpt (s : Name) (h : ∀ c ∈ s, isDigit c = true) : dropOpt s = s := by
  induction s with
  | nil => rfl
  | cons c r ih =>
    unfold dropOpt
    split
    · rename_i r' heq
      injection heq with h1 h2
      have := h c (by simp)
      rw [h1] at this
      exact absurd this (by decide)
    · rename_i c' r' _ heq
      injection heq with h1 h2
      subst h1 h2
      rw [ih fun x hx => h x (by simp [hx])]
    · rename_i heq; cases heq

theorem names_splitOn_one (d : Char) (s : Name) (h : d ∉ s) : splitOn d s = [s] := by
  induction s with
  | nil => rfl
  | cons c r ih =>
    unfold splitOn
    rw [if_neg (by intro e; apply h; simp [e]), ih fun hr => h (by simp [hr])]

theorem names_splitOn_cut (d : Char) (s t : Name) (h : d ∉ s) : splitOn d (s ++ d :: t) = s :: splitOn d t := by
  induction s with
  | nil => simp [splitOn]
  | cons c r ih =>
    rw [List.cons_append]
    rw [splitOn, if_neg (by intro e; apply h; simp [e]), ih fun hr => h (by simp [hr])]

theorem names_not_mem (d : Char) (hd : isDigit d = false) (n : Nat) : d ∉ dec n := by
  intro h
  have := (names_dec_spec n).1 d h
  rw [hd] at this; cases this

/-- Digits end where another character begins. -/
theorem names_cut {a b s t : Name} {x : Char} (ha : ∀ c ∈ a, isDigit c = true) (hb : ∀ c ∈ b, isDigit c = true)
    (hx : isDigit x = false) (h : a ++ x :: s = b ++ x :: t) : a = b ∧ s = t := by
  induction a generalizing b with
  | nil =>
    cases b with
    | nil => simpa using h
    | cons c b =>
      simp only [List.nil_append, List.cons_append, List.cons.injEq] at h
      have := hb c (by simp)
      rw [← h.1, hx] at this; cases this
  | cons c a ih =>
    cases b with
    | nil =>
      simp only [List.nil_append, List.cons_append, List.cons.injEq] at h
      have := ha c (by simp)
      rw [h.1, hx] at this; cases this
    | cons e b =>
      simp only [List.cons_append, List.cons.injEq] at h
      obtain ⟨h1, h2⟩ := ih (fun c hc => ha c (by simp [hc])) (fun c hc => hb c (by simp [hc])) h.2
      exact ⟨by rw [h.1, h1], h2⟩

theorem names_dec_inj {i j : Nat} (h : dec i = dec j) : i = j := by
  rw [← (names_dec_spec i).2.1, h, (names_dec_spec j).2.1]

theorem names_pad_inj {i j : Nat} (h : pad 4 i = pad 4 j) : i = j := by
  rw [← (pad_spec 4 i).2.1, h, (pad_spec 4 j).2.1]

/-- Each kind of name tells the number of its optimizer, and a printed file also which stream it is of. -/
theorem C134_distinct (i j : Nat) :
    (thread i = thread j → i = j) ∧ (restart i = restart j → i = j) ∧ (group i = group j → i = j) ∧
      (table i = table j → i = j) ∧ (messages i = messages j → i = j) ∧ (cma i = cma j → i = j) ∧
      ∀ e f, stream i e = stream j f → i = j ∧ e = f := by
  have hg : group i = group j → i = j := fun h => names_dec_inj (List.append_cancel_left h)
  have hc : ∀ (n : Nat) (m : Name), "cma_".toList ++ ("opt".toList ++ dec n ++ "_".toList) ++ "results.pkl".toList ≠
      "cma_".toList ++ [] ++ "results.pkl".toList := by
    intro n m h
    simp at h
  refine ⟨fun h => names_dec_inj (List.append_cancel_left h), fun h => names_pad_inj h, hg, fun h => ?_, fun h => ?_,
    fun h => ?_, fun e f h => ?_⟩
  · unfold table at h
    exact hg (List.cons.inj (List.append_cancel_right h)).2
  · exact hg (List.append_cancel_right h)
  · unfold cma at h
    by_cases hi : i = 0 <;> by_cases hj : j = 0
    · rw [hi, hj]
    · rw [if_neg (by simpa using hi), if_pos hj] at h
      exact absurd h.symm (hc j [])
    · rw [if_pos hi, if_neg (by simpa using hj)] at h
      exact absurd h (hc i [])
    · rw [if_pos hi, if_pos hj] at h
      have h := List.append_cancel_left (List.append_cancel_right h)
      exact names_dec_inj (List.append_cancel_left (List.append_cancel_right h))
  · unfold stream at h
    rw [List.append_assoc, List.append_assoc] at h
    obtain ⟨h1, h2⟩ := names_cut (pad_spec 4 i).1 (pad_spec 4 j).1 (by decide) (List.append_cancel_left h)
    exact ⟨names_pad_inj h1, h2⟩

example : restart 7 = "0007".toList ∧ restart 12345 = "12345".toList ∧ group 10 = "optimizer_10".toList ∧
    stream 12 "out".toList = "printstream_0012.out".toList ∧ cma 3 = "cma_opt3_results.pkl".toList ∧
    cma 0 = "cma_results.pkl".toList ∧ thread 41 = "Opt41".toList ∧ table 5 = "/optimizer_5/iter_hist".toList := by decide +kernel

/-- The number read back from a name is the one it was made from. -/
theorem C134_read (i : Nat) :
    ofThread (thread i) = some (i : Int) ∧ ofRestart (restart i) = some (i : Int) ∧ ofGroup (group i) = some (i : Int) ∧
      ofTable (table i) = some (i : Int) := by
  have hg : ofGroup (group i) = some (i : Int) := by
    unfold ofGroup group
    have : "optimizer_".toList ++ dec i = "optimizer".toList ++ '_' :: dec i := rfl
    rw [this, names_splitOn_cut _ _ _ (by decide), names_splitOn_one _ _ (names_not_mem _ (by decide) i)]
    exact names_pyInt_dec i
  refine ⟨?_, ?_, hg, ?_⟩
  · unfold ofThread thread
    have : dropOpt ("Opt".toList ++ dec i) = dropOpt (dec i) := rfl
    rw [this, names_dropOpt _ (names_dec_spec i).1]
    exact names_pyInt_dec i
  · unfold ofRestart restart
    rw [names_pyInt _ (pad_spec 4 i).1 (names_pad_ne i), (pad_spec 4 i).2.1]
  · unfold ofTable table
    have h1 : '/' :: group i ++ "/iter_hist".toList = [] ++ '/' :: (group i ++ '/' :: "iter_hist".toList) := rfl
    have h2 : '/' ∉ group i := by
      unfold group
      intro h
      rcases List.mem_append.mp h with h | h
      · exact absurd h (by decide)
      · exact names_not_mem _ (by decide) i h
    rw [h1, names_splitOn_cut _ _ _ (by simp), names_splitOn_cut _ _ _ h2]
    exact hg

/-- From the directory of a checkpoint, in whatever order it is listed, just the optimizers are found which wrote into it. -/
theorem C134_restarts (ids : List Nat) : ofRestarts (ids.map restart) = some (ids.map Int.ofNat) := by
  induction ids with
  | nil => rfl
  | cons i l ih => simp [ofRestarts, (C134_read i).2.1, ih]

/-- Any other file among them, whose name is not a number, is noticed: the checkpoint is refused. -/
theorem C134_foreign (dir : List Name) : ofRestarts dir = none ↔ ∃ n ∈ dir, pyInt n = none := by
  induction dir with
  | nil => simp [ofRestarts]
  | cons n l ih =>
    cases h : ofRestart n with
    | none => exact ⟨fun _ => ⟨n, by simp, h⟩, fun _ => by simp [ofRestarts, h]⟩
    | some i =>
      cases hl : ofRestarts l with
      | none =>
        obtain ⟨x, hx, h'⟩ := ih.mp hl
        exact ⟨fun _ => ⟨x, by simp [hx], h'⟩, fun _ => by simp [ofRestarts, h, hl]⟩
      | some k =>
        refine ⟨fun he => by simp [ofRestarts, h, hl] at he, fun ⟨x, hx, h'⟩ => ?_⟩
        rcases List.mem_cons.mp hx with rfl | hx
        · unfold ofRestart at h; rw [h'] at h; cases h
        · have := ih.mpr ⟨x, hx, h'⟩; rw [hl] at this; cases this

example : ofRestarts [restart 3, ".DS_Store".toList] = none ∧ ofRestarts [restart 3, restart 12] = some [3, 12] := by decide +kernel

/-- A checkpoint passes its test if and only if every optimizer which was to write its state did. -/
theorem C134_complete (wrote ids : List Nat) : allFound (wrote.map restart) ids = true ↔ ∀ i ∈ ids, i ∈ wrote := by
  unfold allFound
  rw [List.all_eq_true]
  refine forall₂_congr fun i _ => ?_
  rw [List.contains_iff_mem, List.mem_map]
  exact ⟨fun ⟨j, hj, h⟩ => names_pad_inj h ▸ hj, fun h => ⟨i, h, rfl⟩⟩

example : allFound [restart 2, restart 10000, restart 7] [7, 10000] = true ∧ allFound [restart 10] [1] = false := by decide +kernel

/-- Of a log file the groups stay of those optimizers which the resumed run has started, by number and not by the spelling. -/
theorem C134_pruned (counter : Nat) (ids : List Nat) :
    pruned counter (ids.map group) = some ((ids.filter (· ≤ counter)).map group) := by
  induction ids with
  | nil => rfl
  | cons i l ih =>
    simp only [List.map_cons, pruned, (C134_read i).2.2.1, ih, List.filter_cons]
    by_cases h : i ≤ counter
    · rw [if_neg (by omega)]; simp [h]
    · rw [if_pos (by omega)]; simp [h]

example : pruned 9 [group 2, group 10, group 9] = some [group 2, group 9] := by decide +kernel

theorem names_put_same (d : Disk) (n : Name) (t : List Char) : put d n t n = t := if_pos rfl

theorem names_put_other (d : Disk) {n m : Name} (t : List Char) (h : m ≠ n) : put d n t m = d m := if_neg h

theorem names_ext {i j : Nat} {s s' : Std} : stream i s.ext = stream j s'.ext ↔ i = j ∧ s = s' := by
  constructor
  · intro h
    obtain ⟨h1, h2⟩ := (C134_distinct i j).2.2.2.2.2.2 _ _ h
    refine ⟨h1, ?_⟩
    cases s <;> cases s' <;> first | rfl | exact absurd h2 (by decide)
  · rintro ⟨rfl, rfl⟩; rfl

theorem names_run_quiet (i : Nat) (s : Std) (l : List Op) (h : ¬ begins i l) (d : Disk) :
    run d l (stream i s.ext) = d (stream i s.ext) ++ said i s l := by
  induction l generalizing d with
  | nil => simp [run, said]
  | cons o l ih =>
    have hl : ¬ begins i l := fun hb => h (List.mem_cons_of_mem _ hb)
    show run (step d o) l _ = _
    rw [ih hl]
    cases o with
    | start j =>
      have hj : i ≠ j := fun e => h (by rw [e]; exact List.mem_cons_self ..)
      simp only [step, said]
      rw [names_put_other _ _ fun e => hj (names_ext.mp e).1, names_put_other _ _ fun e => hj (names_ext.mp e).1]
    | print j s' t =>
      simp only [step, said]
      by_cases hj : j = i ∧ s' = s
      · obtain ⟨rfl, rfl⟩ := hj
        rw [names_put_same]; simp
      · rw [if_neg hj, names_put_other _ _ fun e => hj ⟨(names_ext.mp e).1.symm, (names_ext.mp e).2.symm⟩]

/-- Whatever the processes of all optimizers do at the same time, and whatever was in the directory: the two files of an optimizer hold what it
printed since it was started last, in order, and nothing else. -/
theorem C134_printed (d : Disk) (i : Nat) (s : Std) (before after : List Op) (h : ¬ begins i after) :
    run d (before ++ .start i :: after) (stream i s.ext) = said i s after := by
  have : run d (before ++ .start i :: after) = run (step (run d before) (.start i)) after := by
    simp [run, List.foldl_append]
  rw [this, names_run_quiet i s after h]
  have h0 : step (run d before) (.start i) (stream i s.ext) = [] := by
    cases s
    · simp only [step]
      rw [names_put_other _ _ fun e => by simpa using (names_ext.mp e).2, names_put_same]
    · exact names_put_same ..
  rw [h0, List.nil_append]

example : run (fun _ => "old".toList) [.start 1, .start 12, .print 12 .out "a".toList, .print 1 .out "x".toList,
    .print 12 .err "e".toList, .print 12 .out "b".toList] (stream 12 Std.out.ext) = "ab".toList := by decide +kernel

/-- Not so across runs: an optimizer which goes on in a resumed run in the same directory keeps its number, and what it printed before is gone. -/
theorem C134_resumed_refuted : ∃ (first second : List Op),
    said 1 .out (first ++ second) = "beforeafter".toList ∧
      run (fun _ => []) (first ++ second) (stream 1 Std.out.ext) = "after".toList :=
  ⟨[.start 1, .print 1 .out "before".toList], [.start 1, .print 1 .out "after".toList], by decide +kernel, by decide +kernel⟩

end Glompo.Props
