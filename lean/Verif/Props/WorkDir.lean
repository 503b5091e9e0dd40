import Verif.Spec.WorkDir
import Verif.Lemmas.Basic
import Mathlib.Data.List.Infix

/-!
# C112 Files are made in the directory asked for, and the working directory comes back
-/

namespace Glompo.Props

open Glompo
open Glompo.WorkDir Glompo.WorkDir.Spec
open Glompo.Checkpoint (Name)

theorem isFile_iff (s : State) (d : Dir) : WorkDir.isFile s d = true ↔ ∃ f ∈ s.files, f.1 ++ [f.2] = d := by
  simp [WorkDir.isFile]

theorem blocked_iff (s : State) (d : Dir) : d.inits.any (WorkDir.isFile s) = true ↔ ¬ Free s d := by
  rw [List.any_eq_true]
  constructor
  · rintro ⟨x, hx, h⟩ hf
    obtain ⟨f, hm, rfl⟩ := (isFile_iff s x).mp h
    exact hf f hm ((List.mem_inits _ _).mp hx)
  · intro h
    simp only [Free] at h
    push_neg at h
    obtain ⟨f, hm, hp⟩ := h
    exact ⟨_, (List.mem_inits _ _).mpr hp, (isFile_iff s _).mpr ⟨f, hm, rfl⟩⟩

/-- What making the context manager does. -/
theorem init_spec (s : State) (p : Path) :
    (s.cwd ∈ s.dirs → Free s (resolve s.cwd p) → ∃ s', init s p = (s', .ok s.cwd) ∧ Moved s (resolve s.cwd p) s') ∧
    (¬ (s.cwd ∈ s.dirs ∧ Free s (resolve s.cwd p)) → ∃ e, init s p = (s, .error e)) := by
  constructor
  · intro hc hf
    have hb : ((resolve s.cwd p).inits.any (WorkDir.isFile s)) = false := by
      rw [Bool.eq_false_iff]; exact fun h => (blocked_iff s _).mp h hf
    have hd : ∀ x, x ∈ (s.dirs ++ (resolve s.cwd p).inits.filter fun q => q ∉ s.dirs) ↔ x ∈ s.dirs ∨ x <+: resolve s.cwd p := by
      intro x
      rw [List.mem_append, List.mem_filter, List.mem_inits]
      by_cases h : x ∈ s.dirs <;> simp [h]
    refine ⟨⟨resolve s.cwd p, s.dirs ++ (resolve s.cwd p).inits.filter fun q => q ∉ s.dirs, s.files, s.vars⟩, ?_, rfl, hd, rfl, rfl⟩
    have hself := (hd (resolve s.cwd p)).mpr (.inr (List.prefix_refl _))
    simp only [init, hc, not_true_eq_false, if_false, mkdir, hb, Bool.false_eq_true, WorkDir.chdir, hself, if_true]
  · intro h
    by_cases hc : s.cwd ∈ s.dirs
    · have hb : ((resolve s.cwd p).inits.any (WorkDir.isFile s)) = true := (blocked_iff s _).mpr fun hf => h ⟨hc, hf⟩
      simp only [init, hc, not_true_eq_false, if_false, mkdir, hb, if_true]
      exact ⟨_, rfl⟩
    · simp only [init, hc, not_false_eq_true, if_true]
      exact ⟨_, rfl⟩

/-- **C112 (entering).** The body of `with WorkInDirectory(p)` starts in the directory `p`, relative to the one the process is in, which exists then with all
directories above it; nothing else is changed. If a file is in the way an exception is raised, the body is not executed and everything is as before. -/
theorem C112_entering (p : Path) (body : Prog) (s : State) :
    (s.cwd ∈ s.dirs → Free s (resolve s.cwd p) →
      ∃ s', Moved s (resolve s.cwd p) s' ∧ exec (.within p body) s = leave s.cwd (exec body s')) ∧
    (¬ Free s (resolve s.cwd p) → ∃ e, exec (.within p body) s = (s, some e)) := by
  constructor
  · intro hc hf
    obtain ⟨s', h1, h2⟩ := (init_spec s p).1 hc hf
    exact ⟨s', h2, by simp only [exec, h1]⟩
  · intro hf
    obtain ⟨e, h⟩ := (init_spec s p).2 fun h => hf h.2
    exact ⟨e, by simp only [exec, h]⟩

/-- **C112 (leaving).** Whatever the body does, be it that it raises, changes the directory itself or uses other context managers: afterwards the working
directory is the one before, provided this still exists, and an exception of the body goes on. If it does not exist any more, leaving raises. -/
theorem C112_leaving (p : Path) (body : Prog) (s : State) :
    (s.cwd ∈ (exec (.within p body) s).1.dirs → (exec (.within p body) s).1.cwd = s.cwd) ∧
    (s.cwd ∉ (exec (.within p body) s).1.dirs → (exec (.within p body) s).2 ≠ none) ∧
    (∀ s', Moved s (resolve s.cwd p) s' → exec (.within p body) s = leave s.cwd (exec body s') →
      s.cwd ∈ (exec body s').1.dirs → (exec (.within p body) s).2 = (exec body s').2 ∧
        (exec (.within p body) s).1 = { (exec body s').1 with cwd := s.cwd }) := by
  have hl : ∀ r : State × Option Err, (s.cwd ∈ r.1.dirs ∧ leave s.cwd r = ({ r.1 with cwd := s.cwd }, r.2)) ∨
      (s.cwd ∉ r.1.dirs ∧ leave s.cwd r = (r.1, some .osError)) := by
    intro r
    by_cases h : s.cwd ∈ r.1.dirs
    · exact .inl ⟨h, by simp only [leave, WorkDir.chdir, h, if_true]⟩
    · exact .inr ⟨h, by simp only [leave, WorkDir.chdir, h, if_false]⟩
  refine ⟨?_, ?_, ?_⟩
  · by_cases h : s.cwd ∈ s.dirs ∧ Free s (resolve s.cwd p)
    · obtain ⟨s', -, h2⟩ := (C112_entering p body s).1 h.1 h.2
      rw [h2]
      rcases hl (exec body s') with ⟨_, g⟩ | ⟨g0, g⟩ <;> rw [g]
      · intro _; rfl
      · intro g1; exact absurd g1 g0
    · obtain ⟨e, h⟩ := (init_spec s p).2 h
      simp only [exec, h]
      intro _; trivial
  · by_cases h : s.cwd ∈ s.dirs ∧ Free s (resolve s.cwd p)
    · obtain ⟨s', -, h2⟩ := (C112_entering p body s).1 h.1 h.2
      rw [h2]
      rcases hl (exec body s') with ⟨g0, g⟩ | ⟨g0, g⟩ <;> rw [g]
      · intro g1; exact absurd g0 g1
      · intro _; simp
    · obtain ⟨e, h⟩ := (init_spec s p).2 h
      simp only [exec, h]
      intro _; simp
  · intro s' _ h2 h3
    rw [h2]
    rcases hl (exec body s') with ⟨g0, g⟩ | ⟨g0, g⟩
    · rw [g]; exact ⟨rfl, rfl⟩
    · exact absurd h3 g0

theorem resolve_named (isF : Name → Bool) : ∀ (parts : List Part) (d : Dir), (∀ n ∈ d, isF n = false) → (∀ n, Part.down n ∈ parts → isF n = false) →
    ∀ n ∈ parts.foldl follow d, isF n = false := by
  intro parts
  induction parts with
  | nil => intro d hd _; exact hd
  | cons a t ih =>
    intro d hd hp
    refine ih (follow d a) ?_ fun n hn => hp n (List.mem_cons_of_mem _ hn)
    cases a with
    | up => exact fun n hn => hd n (List.mem_of_mem_dropLast hn)
    | down m =>
      intro n hn
      rcases List.mem_append.mp hn with h | h
      · exact hd n h
      · rw [List.mem_singleton.mp h]; exact hp m List.mem_cons_self

/-- **C112 (files).** A program which uses the context manager as documented, to whatever depth, with exceptions raised and caught anywhere, makes exactly
the files it should: each in the directory of the innermost context manager around it. It ends with the exception it should end with, in the directory
it started in, and no directory has disappeared. -/
theorem C112_files (isF : Name → Bool) (prog : Prog) : ∀ (s : State), Plain isF prog → Named isF s → s.cwd ∈ s.dirs →
    (exec prog s).2 = ending prog ∧ (exec prog s).1.cwd = s.cwd ∧
    (∀ f, f ∈ (exec prog s).1.files ↔ f ∈ s.files ∨ f ∈ puts s.cwd prog) ∧
    (∀ d ∈ s.dirs, d ∈ (exec prog s).1.dirs) ∧ Named isF (exec prog s).1 := by
  induction prog with
  | skip => intro s _ hn _; exact ⟨rfl, rfl, fun f => by simp [exec, puts], fun d h => h, hn⟩
  | raise e => intro s _ hn _; exact ⟨rfl, rfl, fun f => by simp [exec, puts], fun d h => h, hn⟩
  | chdir p => intro s hp; exact hp.elim
  | remove p => intro s hp; exact hp.elim
  | make v p => intro s hp; exact hp.elim
  | enter v b => intro s hp; exact hp.elim
  | attempt b ih =>
    intro s hp hn hc
    obtain ⟨-, h2, h3, h4, h5⟩ := ih s hp hn hc
    exact ⟨rfl, h2, h3, h4, h5⟩
  | write n =>
    intro s hp hn hc
    have hp : isF n = true := hp
    have hx : s.cwd ++ [n] ∉ s.dirs := by
      intro h
      have := hn.dirs _ h n (by simp)
      rw [hp] at this; cases this
    have he : exec (.write n) s = ({ s with files := if (s.cwd, n) ∈ s.files then s.files else s.files ++ [(s.cwd, n)] }, none) := by
      simp only [exec, WorkDir.write, hc, hx, not_true_eq_false, or_self, if_false]
    rw [he]
    refine ⟨rfl, rfl, ?_, fun d h => h, ⟨hn.dirs, ?_⟩⟩
    · intro f
      simp only [puts, List.mem_singleton]
      split
      · constructor
        · exact .inl
        · rintro (h | rfl) <;> assumption
      · simp
    · intro f hf
      dsimp only at hf
      split at hf
      · exact hn.files f hf
      · rcases List.mem_append.mp hf with h | h
        · exact hn.files f h
        · rw [List.mem_singleton.mp h]; exact hp
  | seq a b iha ihb =>
    intro s hp hn hc
    obtain ⟨h1, h2, h3, h4, h5⟩ := iha s hp.1 hn hc
    cases ha : ending a with
    | some e =>
      rw [ha] at h1
      have he : exec (.seq a b) s = ((exec a s).1, some e) := by
        simp only [exec]
        split
        · next h => rw [h] at h1; cases h1; rw [h]
        · next h => rw [h] at h1; cases h1
      rw [he]
      exact ⟨by simp only [ending, ha], h2, fun f => by simp only [puts, ha, List.append_nil]; exact h3 f, h4, h5⟩
    | none =>
      rw [ha] at h1
      have he : exec (.seq a b) s = exec b (exec a s).1 := by
        simp only [exec]
        split
        · next h => rw [h] at h1; cases h1
        · next h => rw [h]
      obtain ⟨g1, g2, g3, g4, g5⟩ := ihb (exec a s).1 hp.2 h5 (by rw [h2]; exact h4 _ hc)
      rw [he]
      refine ⟨by simp only [ending, ha]; exact g1, by rw [g2, h2], fun f => ?_, fun d h => g4 d (h4 d h), g5⟩
      simp only [puts, ha, List.mem_append]
      rw [g3, h3, h2, or_assoc]
  | within p b ih =>
    intro s hp hn hc
    have hr : ∀ n ∈ resolve s.cwd p, isF n = false := by
      refine resolve_named isF p.parts _ ?_ hp.1
      split
      · intro n hn; cases hn
      · exact hn.dirs _ hc
    have hf : Free s (resolve s.cwd p) := by
      intro f hf hpre
      have h1 := hn.files f hf
      have h2 := hr f.2 (hpre.subset (by simp))
      rw [h1] at h2; cases h2
    obtain ⟨s', hm, he⟩ := (C112_entering p b s).1 hc hf
    have hn' : Named isF s' := by
      refine ⟨fun d hd n hnd => ?_, by rw [hm.files]; exact hn.files⟩
      rcases (hm.dirs d).mp hd with h | h
      · exact hn.dirs d h n hnd
      · exact hr n (h.subset hnd)
    obtain ⟨h1, h2, h3, h4, h5⟩ := ih s' hp.2 hn' (by rw [hm.cwd]; exact (hm.dirs _).mpr (.inr (List.prefix_refl _)))
    have hin : s.cwd ∈ (exec b s').1.dirs := h4 _ ((hm.dirs _).mpr (.inl hc))
    obtain ⟨k1, k2⟩ := (C112_leaving p b s).2.2 s' hm he hin
    rw [k1, k2]
    refine ⟨h1, rfl, fun f => ?_, fun d hd => h4 d ((hm.dirs d).mpr (.inl hd)), ⟨h5.dirs, h5.files⟩⟩
    rw [h3, hm.files, hm.cwd]
    rfl

/-- A program for the example: in `run` a file is written, then one in `run/data` before an exception, which is caught, and one more in `run`. -/
def sampleProg : Prog :=
  .seq (.within ⟨false, [.down "run".toList]⟩
    (.seq (.write "a.txt".toList)
      (.seq (.attempt (.within ⟨false, [.down "data".toList]⟩ (.seq (.write "b.txt".toList) (.seq (.raise .valueError) (.write "c.txt".toList)))))
        (.write "d.txt".toList))))
    (.write "e.txt".toList)

example : Plain (fun n => n.contains '.') sampleProg ∧ Named (fun n => n.contains '.') ⟨["home".toList], [[], ["home".toList]], [], []⟩ ∧
    puts ["home".toList] sampleProg = [(["home".toList, "run".toList], "a.txt".toList), (["home".toList, "run".toList, "data".toList], "b.txt".toList),
      (["home".toList, "run".toList], "d.txt".toList), (["home".toList], "e.txt".toList)] := by
  refine ⟨?_, ?_, by decide +kernel⟩
  · simp [Plain, sampleProg]
  · constructor
    · intro d hd n hn
      simp at hd
      rcases hd with rfl | rfl
      · cases hn
      · simp at hn; subst hn; decide
    · intro f hf; cases hf

/-- **C112, refuted.** The directory is changed when the context manager is made and not "on entering" it, so for a context manager which is kept: (1) making it
without entering it leaves the process in the directory; (2) entering it again executes the body in the directory around; so does (3) entering it after the
directory was changed, and afterwards the process is in the directory where the context manager was made. -/
theorem C112_kept_refuted (s : State) (v : Nat) (p : Path) (b : Name) (hc : s.cwd ∈ s.dirs) (hf : Free s (resolve s.cwd p))
    (hne : resolve s.cwd p ≠ s.cwd) (hb : ∀ d, d ++ [b] ∉ s.dirs ∧ ¬ d ++ [b] <+: resolve s.cwd p) :
    ((exec (.make v p) s).2 = none ∧ (exec (.make v p) s).1.cwd ≠ s.cwd) ∧
    (let r := exec (.seq (.make v p) (.seq (.enter v .skip) (.enter v (.write b)))) s
     r.2 = none ∧ (s.cwd, b) ∈ r.1.files ∧ ((resolve s.cwd p, b) ∉ s.files → (resolve s.cwd p, b) ∉ r.1.files)) ∧
    (∀ q : Path, q.absolute = true → resolve [] q ∈ s.dirs → resolve [] q ≠ s.cwd →
      let r := exec (.seq (.make v p) (.seq (.chdir q) (.enter v (.write b)))) s
      r.2 = none ∧ (resolve [] q, b) ∈ r.1.files ∧ r.1.cwd = s.cwd) := by
  obtain ⟨s', h1, hm⟩ := (init_spec s p).1 hc hf
  have hcs : s.cwd ∈ s'.dirs := (hm.dirs _).mpr (.inl hc)
  have hb' : ∀ d, d ++ [b] ∉ s'.dirs := by
    intro d h
    rcases (hm.dirs _).mp h with h | h
    · exact (hb d).1 h
    · exact (hb d).2 h
  have hget : dictGet (dictSet s'.vars v s.cwd) v = some s.cwd := dictGet_set_self _ _ _
  have hw : ∀ t : State, t.cwd ∈ t.dirs → t.dirs = s'.dirs → WorkDir.write t b =
      ({ t with files := if (t.cwd, b) ∈ t.files then t.files else t.files ++ [(t.cwd, b)] }, none) := by
    intro t h1 h2
    have : t.cwd ++ [b] ∉ t.dirs := by rw [h2]; exact hb' _
    simp only [WorkDir.write, h1, this, not_true_eq_false, or_self, if_false]
  have hin : ∀ (l : List (Dir × Name)) (x : Dir × Name), x ∈ (if x ∈ l then l else l ++ [x]) := by
    intro l x
    split
    · assumption
    · simp
  have hl : ∀ t : State, s.cwd ∈ t.dirs → leave s.cwd (t, none) = ({ t with cwd := s.cwd }, none) := by
    intro t h
    simp only [leave, WorkDir.chdir, h, if_true]
  refine ⟨?_, ?_, ?_⟩
  · simp only [exec, h1]
    exact ⟨trivial, by rw [hm.cwd]; exact hne⟩
  · have e1 : exec (.seq (.make v p) (.seq (.enter v .skip) (.enter v (.write b)))) s =
        leave s.cwd (WorkDir.write ⟨s.cwd, s'.dirs, s'.files, dictSet s'.vars v s.cwd⟩ b) := by
      have hl' := hl ⟨s'.cwd, s'.dirs, s'.files, dictSet s'.vars v s.cwd⟩ hcs
      simp only [exec, h1, hget, hl']
    rw [e1, hw ⟨s.cwd, s'.dirs, s'.files, dictSet s'.vars v s.cwd⟩ hcs rfl, hl _ (by exact hcs)]
    refine ⟨rfl, hin _ _, fun h => ?_⟩
    dsimp only
    rw [hm.files]
    split
    · exact h
    · rw [List.mem_append, not_or, List.mem_singleton]
      exact ⟨h, fun e => hne (congrArg Prod.fst e)⟩
  · intro q hq hqd hqn
    have hr : ∀ c, resolve c q = resolve [] q := fun c => by simp only [resolve, hq, if_true]
    have hqs : resolve [] q ∈ s'.dirs := (hm.dirs _).mpr (.inl hqd)
    have e1 : exec (.seq (.make v p) (.seq (.chdir q) (.enter v (.write b)))) s =
        leave s.cwd (WorkDir.write ⟨resolve [] q, s'.dirs, s'.files, dictSet s'.vars v s.cwd⟩ b) := by
      simp only [exec, h1, hr, WorkDir.chdir, hqs, if_true, hget]
    rw [e1, hw ⟨resolve [] q, s'.dirs, s'.files, dictSet s'.vars v s.cwd⟩ hqs rfl, hl _ (by exact hcs)]
    exact ⟨rfl, hin _ _, rfl⟩

example : ∃ (s : State) (p q : Path), s.cwd ∈ s.dirs ∧ Free s (resolve s.cwd p) ∧ resolve s.cwd p ≠ s.cwd ∧
    (∀ d, d ++ ["b".toList] ∉ s.dirs ∧ ¬ d ++ ["b".toList] <+: resolve s.cwd p) ∧ q.absolute = true ∧ resolve [] q ∈ s.dirs ∧ resolve [] q ≠ s.cwd := by
  refine ⟨⟨["home".toList], [[], ["home".toList]], [], []⟩, ⟨false, [.down "run".toList]⟩, ⟨true, []⟩, by decide, ?_, by decide, ?_, rfl, by decide, by decide⟩
  · intro f hf; cases hf
  · intro d
    constructor
    · intro h
      have : "b".toList ∈ d ++ ["b".toList] := by simp
      simp only [List.mem_cons, List.not_mem_nil, or_false] at h
      rcases h with h | h <;> rw [h] at this <;> revert this <;> decide
    · intro h
      have : "b".toList ∈ resolve ["home".toList] ⟨false, [.down "run".toList]⟩ := h.subset (by simp)
      revert this; decide

theorem resolve_absolute (c d : Dir) : resolve c ⟨true, d.map .down⟩ = d := by
  have h : ∀ (d a : Dir), (d.map Part.down).foldl follow a = a ++ d := by
    intro d
    induction d with
    | nil => intro a; simp
    | cons n t ih => intro a; simp [ih, follow]
  simp [resolve, h]

/-- **C112, refuted.** If the body removes the directory to go back to (with everything in it, and nothing else) and then raises an exception, this exception is
not the one which comes out, and the process stays in the directory of the context manager. -/
theorem C112_removed_refuted (s : State) (p : Path) (e : Err) (hc : s.cwd ∈ s.dirs) (h0 : s.cwd ≠ []) (hf : Free s (resolve s.cwd p))
    (hout : ¬ s.cwd <+: resolve s.cwd p) :
    let r := exec (.within p (.seq (.remove ⟨true, s.cwd.map .down⟩) (.raise e))) s
    r.2 = some .osError ∧ r.1.cwd = resolve s.cwd p ∧ r.1.cwd ∈ r.1.dirs ∧
      (∀ d, d ∈ r.1.dirs ↔ (d ∈ s.dirs ∨ d <+: resolve s.cwd p) ∧ ¬ s.cwd <+: d) ∧ ∀ f, f ∈ r.1.files ↔ f ∈ s.files ∧ ¬ s.cwd <+: f.1 := by
  obtain ⟨s', hm, h⟩ := (C112_entering p (.seq (.remove ⟨true, s.cwd.map .down⟩) (.raise e)) s).1 hc hf
  have hin : s.cwd ∈ s'.dirs := (hm.dirs _).mpr (.inl hc)
  have hd : ∀ d, d ∈ (s'.dirs.filter fun x => ¬ s.cwd <+: x) ↔ (d ∈ s.dirs ∨ d <+: resolve s.cwd p) ∧ ¬ s.cwd <+: d := by
    intro d
    rw [List.mem_filter, hm.dirs]
    simp
  have he : exec (.within p (.seq (.remove ⟨true, s.cwd.map .down⟩) (.raise e))) s =
      ({ s' with dirs := s'.dirs.filter fun x => ¬ s.cwd <+: x, files := s'.files.filter fun f => ¬ s.cwd <+: f.1 }, some .osError) := by
    rw [h]
    have hg : s.cwd ∉ (s'.dirs.filter fun x => ¬ s.cwd <+: x) := fun hg => ((hd _).mp hg).2 (List.prefix_refl _)
    simp only [exec, WorkDir.remove, resolve_absolute, h0, hin, not_true_eq_false, or_self, if_false, leave, WorkDir.chdir, hg]
  intro r
  have hr : r = _ := he
  rw [hr]
  refine ⟨rfl, hm.cwd, ?_, hd, ?_⟩
  · show s'.cwd ∈ _
    rw [hd, hm.cwd]
    exact ⟨.inr (List.prefix_refl _), hout⟩
  · intro f
    show f ∈ s'.files.filter _ ↔ _
    rw [List.mem_filter, hm.files]
    simp

example : ∃ (s : State) (p : Path), s.cwd ∈ s.dirs ∧ s.cwd ≠ [] ∧ Free s (resolve s.cwd p) ∧ ¬ s.cwd <+: resolve s.cwd p ∧
    ∃ f ∈ s.files, s.cwd <+: f.1 :=
  ⟨⟨["home".toList], [[], ["home".toList]], [(["home".toList], "a.txt".toList)], []⟩, ⟨true, [.down "scratch".toList]⟩, by decide, by decide,
    by intro f hf; simp at hf; subst hf; decide, by decide, _, List.mem_singleton.mpr rfl, by decide⟩

end Glompo.Props
