import Verif.Model.Movie

/-!
# C135: the recording of a run is in its working directory, under the name which was asked for
-/

namespace Glompo.Props

open Glompo.Movie
open Checkpoint (Name)

/-- The file which is asked for: that in the user's dictionary, else `glomporecording.mp4`. -/
def askedFile (ds : List Dict) (arg : Option Nat) : Path :=
  ((arg.bind (ds[·]?)).bind (·.outfile)).getD ⟨false, ["glomporecording.mp4".toList]⟩

/-- Every dictionary of a scope exists. -/
def MovieRefs (s : Session) : Prop := ∀ r ∈ s.scopes, r < s.heap.length

theorem movie_setOut_get (s : Session) (r r' : Nat) (p : Path) (h : r' ≠ r) : (setOut s r p).heap[r']? = s.heap[r']? := by
  simp [setOut, List.getElem?_modify, Ne.symm h]

theorem movie_setOut_len (s : Session) (r : Nat) (p : Path) : (setOut s r p).heap.length = s.heap.length := by
  simp [setOut]

/-- What making a scope does: it has a dictionary `r`, which is new or the one which was given; others stay as they are. -/
theorem movie_construct (s : Session) (arg : Option Nat) (h : ∀ r, arg = some r → r < s.heap.length) :
    ∃ r d, (construct s arg).scopes = s.scopes ++ [r] ∧ (construct s arg).movies = s.movies ∧
      (arg = some r ∧ s.heap[r]? = some d ∧ d ≠ {} ∨ r = s.heap.length ∧ d = {} ∧
        (∀ r', arg = some r' → s.heap[r']? = some {})) ∧
      (construct s arg).heap[r]? = some { d with outfile := some (d.outfile.getD dflt) } ∧
      r < (construct s arg).heap.length ∧ s.heap.length ≤ (construct s arg).heap.length ∧
      ∀ r', r' ≠ r → r' < s.heap.length → (construct s arg).heap[r']? = s.heap[r']? := by
  have new : ∀ arg', own s arg' = alloc s {} → (∀ r', arg' = some r' → s.heap[r']? = some {}) →
      ∃ r d, (construct s arg').scopes = s.scopes ++ [r] ∧ (construct s arg').movies = s.movies ∧
      (arg' = some r ∧ s.heap[r]? = some d ∧ d ≠ {} ∨ r = s.heap.length ∧ d = {} ∧
        (∀ r', arg' = some r' → s.heap[r']? = some {})) ∧
      (construct s arg').heap[r]? = some { d with outfile := some (d.outfile.getD dflt) } ∧
      r < (construct s arg').heap.length ∧ s.heap.length ≤ (construct s arg').heap.length ∧
      ∀ r', r' ≠ r → r' < s.heap.length → (construct s arg').heap[r']? = s.heap[r']? := by
    intro arg' ho hr
    refine ⟨s.heap.length, {}, ?_⟩
    have hc : construct s arg' = { setOut (alloc s {}).1 s.heap.length dflt with
        scopes := (setOut (alloc s {}).1 s.heap.length dflt).scopes ++ [s.heap.length] } := by
      unfold construct
      rw [ho]
      simp [alloc]
    rw [hc]
    refine ⟨rfl, rfl, .inr ⟨rfl, rfl, hr⟩, ?_, ?_, ?_, fun r' h1 h2 => ?_⟩
    · simp [setOut, alloc]
    · simp [setOut, alloc]
    · simp [setOut, alloc]
    · simp only [setOut, alloc, List.getElem?_modify, Ne.symm h1]
      simp [List.getElem?_append_left h2]
  cases arg with
  | none => exact new none rfl fun r' h => nomatch h
  | some r =>
    by_cases he : s.heap[r]? = some {}
    · exact new (some r) (by simp [own, he]) fun r' h => by injection h with h; rw [← h]; exact he
    · have hlt := h r rfl
      have hd : s.heap[r]? = some s.heap[r] := List.getElem?_eq_getElem hlt
      refine ⟨r, s.heap[r], ?_⟩
      have hne : s.heap[r] ≠ {} := fun e => he (by rw [hd, e])
      by_cases ho : s.heap[r].outfile = none
      · have hc : construct s (some r) = { setOut s r dflt with scopes := s.scopes ++ [r] } := by
          have ho' : own s (some r) = (s, r) := if_neg he
          unfold construct
          rw [ho']
          simp only [hd, if_pos ho]
          rfl
        rw [hc]
        refine ⟨rfl, rfl, .inl ⟨rfl, hd, hne⟩, ?_, ?_, ?_, fun r' h1 h2 => ?_⟩
        · simp [setOut, hd, ho]
        · simpa [setOut] using hlt
        · simp [setOut]
        · exact movie_setOut_get s r r' dflt h1
      · have hc : construct s (some r) = { s with scopes := s.scopes ++ [r] } := by
          have ho' : own s (some r) = (s, r) := if_neg he
          unfold construct
          rw [ho']
          simp only [hd, if_neg ho]
        rw [hc]
        refine ⟨rfl, rfl, .inl ⟨rfl, hd, hne⟩, ?_, hlt, Nat.le_refl _, fun _ _ _ => rfl⟩
        rw [hd]
        cases hx : s.heap[r] with
        | mk o oth => cases o with
          | none => rw [hx] at ho; exact absurd rfl ho
          | some p => rfl

theorem movie_fileOf {s : Session} {m r : Nat} {p : Path} (h : fileOf s m = some (r, p)) :
    s.scopes[m]? = some r ∧ ∃ o, s.heap[r]? = some ⟨some p, o⟩ := by
  unfold fileOf at h
  split at h
  · cases h
  · rename_i r' hr
    split at h
    · rename_i p' o hp
      injection h with h; injection h with h1 h2
      subst h1 h2
      exact ⟨hr, o, hp⟩
    · cases h

theorem movie_construct_bad (s : Session) (r : Nat) (h : ¬ r < s.heap.length) : construct s (some r) = s := by
  have : s.heap[r]? = none := List.getElem?_eq_none (by omega)
  unfold construct own
  simp [this]

/-- Dictionary `r` is not touched by what does not refer to it, and no scope comes to use it. -/
theorem movie_step_other (s : Session) (o : Op) (r : Nat) (hlt : r < s.heap.length) (hrefs : MovieRefs s) (ho : o ≠ .construct (some r))
    (hm : ∀ m wd, o = .start m wd → s.scopes[m]? ≠ some r) :
    (step s o).heap[r]? = s.heap[r]? ∧ r < (step s o).heap.length ∧ MovieRefs (step s o) ∧
      ∃ l, (step s o).scopes = s.scopes ++ l ∧ r ∉ l := by
  cases o with
  | construct a =>
    by_cases hv : ∀ r', a = some r' → r' < s.heap.length
    · obtain ⟨r', d, h1, h2, h3, h4, h5, h6, h7⟩ := movie_construct s a hv
      have hne : r ≠ r' := by
        rintro rfl
        rcases h3 with ⟨h3, _⟩ | ⟨h3, _⟩
        · exact ho (by rw [h3])
        · omega
      refine ⟨h7 r hne hlt, by simp only [step]; omega, ?_, [r'], h1, by simpa using hne⟩
      intro x hx
      simp only [step, h1] at hx ⊢
      rcases List.mem_append.mp hx with hx | hx
      · have := hrefs x hx; omega
      · simp at hx; omega
    · cases a with
      | none => exact absurd (fun r' h => nomatch h) hv
      | some r' =>
        have hb : ¬ r' < s.heap.length := fun hx => hv fun r'' e => by injection e with e; omega
        have e : step s (.construct (some r')) = s := movie_construct_bad s r' hb
        rw [e]
        exact ⟨rfl, hlt, hrefs, [], by simp, by simp⟩
  | start m wd =>
    simp only [step, start]
    split
    · exact ⟨rfl, hlt, hrefs, [], by simp, by simp⟩
    · rename_i r' p hf
      have hr := (movie_fileOf hf).1
      have hne : r ≠ r' := fun e => hm m wd rfl (by rw [hr, e])
      split
      · exact ⟨rfl, hlt, hrefs, [], by simp, by simp⟩
      · refine ⟨movie_setOut_get s r' r _ hne, by simpa [setOut] using hlt, ?_, [], by simp [setOut], by simp⟩
        intro x hx
        have := hrefs x hx
        simpa [setOut] using this
  | resume m =>
    simp only [step, resume]
    split
    · exact ⟨rfl, hlt, hrefs, [], by simp, by simp⟩
    · refine ⟨List.getElem?_append_left hlt, by simp; omega, ?_, [s.heap.length], rfl, by simp; omega⟩
      intro x hx
      rcases List.mem_append.mp hx with hx | hx
      · have := hrefs x hx; simp; omega
      · simp at hx; simp; omega

/-- Over a whole stretch of a session. -/
theorem movie_run_other (l : List Op) (s : Session) (r : Nat) (hlt : r < s.heap.length) (hrefs : MovieRefs s)
    (ho : Op.construct (some r) ∉ l) (m₀ : Option Nat) (hm₀ : ∀ m, s.scopes[m]? = some r → m₀ = some m)
    (hm : ∀ m wd, m₀ = some m → Op.start m wd ∉ l) :
    (l.foldl step s).heap[r]? = s.heap[r]? ∧ r < (l.foldl step s).heap.length ∧ MovieRefs (l.foldl step s) ∧
      ∃ k, (l.foldl step s).scopes = s.scopes ++ k ∧ r ∉ k := by
  induction l generalizing s with
  | nil => exact ⟨rfl, hlt, hrefs, [], by simp, by simp⟩
  | cons o l ih =>
    obtain ⟨h1, h2, h3, k, h4, h5⟩ := movie_step_other s o r hlt hrefs (fun e => ho (by rw [e]; exact List.mem_cons_self ..))
      fun m wd e hs => hm m wd (hm₀ m hs) (by rw [e]; exact List.mem_cons_self ..)
    have hsc : ∀ m, (step s o).scopes[m]? = some r → m₀ = some m := by
      intro m hs
      rw [h4] at hs
      by_cases hlm : m < s.scopes.length
      · rw [List.getElem?_append_left hlm] at hs; exact hm₀ m hs
      · rw [List.getElem?_append_right (by omega)] at hs
        exact absurd (List.mem_of_getElem? hs) h5
    obtain ⟨g1, g2, g3, k', g4, g5⟩ := ih (step s o) h2 h3 (fun h => ho (List.mem_cons_of_mem _ h)) hsc
      fun m wd e h => hm m wd e (List.mem_cons_of_mem _ h)
    refine ⟨by rw [List.foldl_cons, g1, h1], g2, g3, k ++ k', by rw [List.foldl_cons, g4, h4, List.append_assoc], ?_⟩
    intro h
    rcases List.mem_append.mp h with h | h
    · exact h5 h
    · exact g5 h

theorem movie_refs (l : List Op) (s : Session) (hrefs : MovieRefs s) :
    MovieRefs (l.foldl step s) ∧ s.heap.length ≤ (l.foldl step s).heap.length := by
  induction l generalizing s with
  | nil => exact ⟨hrefs, Nat.le_refl _⟩
  | cons o l ih =>
    have key : MovieRefs (step s o) ∧ s.heap.length ≤ (step s o).heap.length := by
      cases o with
      | construct a =>
        by_cases hv : ∀ r', a = some r' → r' < s.heap.length
        · obtain ⟨r', d, h1, h2, h3, h4, h5, h6, h7⟩ := movie_construct s a hv
          refine ⟨fun x hx => ?_, h6⟩
          simp only [step, h1] at hx ⊢
          rcases List.mem_append.mp hx with hx | hx
          · have := hrefs x hx; omega
          · simp at hx; omega
        · cases a with
          | none => exact absurd (fun r' h => nomatch h) hv
          | some r' =>
            have hb : ¬ r' < s.heap.length := fun hx => hv fun r'' e => by injection e with e; omega
            simp only [step, movie_construct_bad s r' hb]
            exact ⟨hrefs, Nat.le_refl _⟩
      | start m wd =>
        simp only [step, start]
        split
        · exact ⟨hrefs, Nat.le_refl _⟩
        · split
          · exact ⟨hrefs, Nat.le_refl _⟩
          · exact ⟨fun x hx => by have := hrefs x hx; simpa [setOut] using this, by simp [setOut]⟩
      | resume m =>
        simp only [step, resume]
        split
        · exact ⟨hrefs, Nat.le_refl _⟩
        · refine ⟨fun x hx => ?_, by simp⟩
          rcases List.mem_append.mp hx with hx | hx
          · have := hrefs x hx; simp; omega
          · simp at hx; simp; omega
    obtain ⟨h1, h2⟩ := ih (step s o) key.1
    exact ⟨h1, by rw [List.foldl_cons]; omega⟩

/-- A scope which has its dictionary for itself, or none at all, records into the working directory of its run: into the file which was asked for,
with the ending `.mp4`. This whatever else happens in the session before (`pre`) and between making the scope and its run (`mid`). Missing: scopes
which share a dictionary, and the part of the name from the last dot on (`C135_shared_refuted`, `C135_name_refuted`). -/
theorem C135_where_partial (ds : List Dict) (arg : Option Nat) (pre mid : List Op) (wd : Path) (dir : List Name) (name : Name)
    (harg : ∀ r, arg = some r → r < ds.length ∧ Op.construct (some r) ∉ pre ∧ Op.construct (some r) ∉ mid)
    (hown : ∀ r, Op.construct (some r) ∈ mid → r < ds.length)
    (hfile : askedFile ds arg = ⟨false, dir ++ [name]⟩)
    (hmid : ∀ w, Op.start (run ds pre).scopes.length w ∉ mid) :
    ∃ earlier, (run ds (pre ++ .construct arg :: mid ++ [.start (run ds pre).scopes.length wd])).movies =
      earlier ++ [((run ds pre).scopes.length, ⟨wd.abs, wd.parts ++ dir ++ [stem name ++ ".mp4".toList]⟩)] := by
  obtain ⟨s, hs⟩ : ∃ s, s = run ds pre := ⟨_, rfl⟩
  have h0 : MovieRefs { heap := ds : Session } := fun r hr => by cases hr
  obtain ⟨hrefs, hlen⟩ := movie_refs pre { heap := ds } h0
  change MovieRefs (run ds pre) at hrefs
  change ds.length ≤ (run ds pre).heap.length at hlen
  -- the user's dictionary is as it was, and not in use
  have hun : ∀ r, arg = some r → (run ds pre).heap[r]? = ds[r]? ∧ r ∉ (run ds pre).scopes := by
    intro r hr
    obtain ⟨h1, h2, h3⟩ := harg r hr
    obtain ⟨g1, g2, g3, k, g4, g5⟩ := movie_run_other pre { heap := ds } r h1 h0 h2 none (fun m h => by simp at h)
      (fun m wd e => nomatch e)
    refine ⟨g1, ?_⟩
    change r ∉ (List.foldl step { heap := ds } pre).scopes
    rw [g4]; simpa using g5
  have hrun : run ds (pre ++ .construct arg :: mid ++ [.start (run ds pre).scopes.length wd]) =
      start (mid.foldl step (construct (run ds pre) arg)) (run ds pre).scopes.length wd := by
    simp [run, List.foldl_append, step]
  rw [hrun, ← hs]
  rw [← hs] at hrefs hlen hun hmid
  obtain ⟨r, d, c1, c2, c3, c4, c5, c6, c7⟩ := movie_construct s arg fun r hr => by
    have := (harg r hr).1; omega
  have hfresh : r ∉ s.scopes := by
    rcases c3 with ⟨c3, _⟩ | ⟨c3, _⟩
    · exact (hun r c3).2
    · intro h; have := hrefs r h; omega
  have hcons : Op.construct (some r) ∉ mid := by
    intro h
    rcases c3 with ⟨c3, _⟩ | ⟨c3, _⟩
    · exact (harg r c3).2.2 h
    · have := hown r h; omega
  have hlt : s.scopes.length < (construct s arg).scopes.length := by rw [c1]; simp
  have hat : (construct s arg).scopes[s.scopes.length]? = some r := by rw [c1]; simp
  have hrefs' : MovieRefs (construct s arg) := by
    intro x hx
    rw [c1] at hx
    rcases List.mem_append.mp hx with hx | hx
    · have := hrefs x hx; omega
    · simp at hx; omega
  obtain ⟨g1, g2, g3, k, g4, g5⟩ := movie_run_other mid (construct s arg) r c5 hrefs' hcons (some s.scopes.length)
    (fun m hm => by
      rw [c1] at hm
      by_cases hl : m < s.scopes.length
      · rw [List.getElem?_append_left hl] at hm
        exact absurd (List.mem_of_getElem? hm) hfresh
      · have hl' : m < (s.scopes ++ [r]).length := by
          rcases Nat.lt_or_ge m (s.scopes ++ [r]).length with h | h
          · exact h
          · rw [List.getElem?_eq_none h] at hm; cases hm
        simp at hl'
        congr 1; omega)
    fun m w e => by injection e with e; subst e; exact hmid w
  have hasked : d.outfile.getD dflt = ⟨false, dir ++ [name]⟩ := by
    rw [← hfile]
    unfold askedFile
    rcases c3 with ⟨e, hd, _⟩ | ⟨_, rfl, he⟩
    · rw [e, Option.bind_some, ← (hun r e).1, hd]; rfl
    · cases arg with
      | none => rfl
      | some r' => rw [Option.bind_some, ← (hun r' rfl).1, he r' rfl]; rfl
  have hf : fileOf (mid.foldl step (construct s arg)) s.scopes.length = some (r, ⟨false, dir ++ [name]⟩) := by
    unfold fileOf
    have : (mid.foldl step (construct s arg)).scopes[s.scopes.length]? = some r := by
      rw [g4, List.getElem?_append_left hlt, hat]
    simp only [this, g1, c4, hasked]
  refine ⟨(mid.foldl step (construct s arg)).movies, ?_⟩
  unfold start
  rw [hf]
  have hm : mp4 (join wd ⟨false, dir ++ [name]⟩) = some ⟨wd.abs, wd.parts ++ dir ++ [stem name ++ ".mp4".toList]⟩ := by
    unfold mp4 join
    have : wd.parts ++ (dir ++ [name]) = (wd.parts ++ dir) ++ [name] := by simp
    simp only [this, List.getLast?_append, List.dropLast_concat]
    simp
  simp only [hm]

/-- `/a`, `/b`: two working directories. -/
def movieA : Path := ⟨true, ["a".toList]⟩

def movieB : Path := ⟨true, ["b".toList]⟩

example : (run [{ other := true }, { outfile := some ⟨false, ["film.avi".toList]⟩ }]
    ([.construct none, .start 0 movieB] ++ .construct (some 1) :: [.construct (some 0), .start 2 movieB] ++ [.start 1 movieA])).movies =
    [(0, ⟨true, ["b".toList, "glomporecording.mp4".toList]⟩), (2, ⟨true, ["b".toList, "glomporecording.mp4".toList]⟩),
      (1, ⟨true, ["a".toList, "film.mp4".toList]⟩)] := by decide +kernel

/-- A name without a dot, and a name with a single dot inside it, keep what is before the dot. -/
theorem C135_stem (a b : Name) (ha : '.' ∉ a) (hb : '.' ∉ b) :
    stem a = a ∧ (a ≠ [] → b ≠ [] → stem (a ++ '.' :: b) = a) := by
  have tw : ∀ l t : Name, '.' ∉ l → (l ++ '.' :: t).takeWhile (· ≠ '.') = l := by
    intro l t h
    induction l with
    | nil => simp
    | cons c l ih =>
      have hc : c ≠ '.' := fun e => h (by simp [e])
      simp only [List.cons_append]
      rw [List.takeWhile_cons_of_pos (by simpa using hc), ih fun hl => h (by simp [hl])]
  constructor
  · unfold stem
    have : a.reverse.takeWhile (· ≠ '.') = a.reverse := by
      have h : ∀ l : Name, '.' ∉ l → l.takeWhile (· ≠ '.') = l := by
        intro l hl
        induction l with
        | nil => rfl
        | cons c l ih =>
          have hc : c ≠ '.' := fun e => hl (by simp [e])
          rw [List.takeWhile_cons_of_pos (by simpa using hc), ih fun h => hl (by simp [h])]
      exact h _ (by simpa using ha)
    simp only [this]
    rw [if_neg (by simp)]
  · intro h1 h2
    unfold stem
    have e : (a ++ '.' :: b).reverse = b.reverse ++ '.' :: a.reverse := by simp
    rw [e, tw _ _ (by simpa using hb)]
    have e2 : (b.reverse ++ '.' :: a.reverse).drop (b.reverse.length + 1) = a.reverse := by
      rw [List.drop_append]; simp
    simp only [e2]
    rw [if_pos ⟨by simpa using h2, by simpa using h1⟩, List.reverse_reverse]

theorem movie_default : ∃ g : Name, g = "glomporecording.mp4".toList ∧ dflt = ⟨false, [g]⟩ ∧
    ∀ c : List Name, mp4 ⟨true, c ++ [g]⟩ = some ⟨true, c ++ [g]⟩ := by
  refine ⟨_, rfl, rfl, fun c => ?_⟩
  have hs : stem "glomporecording.mp4".toList ++ ".mp4".toList = "glomporecording.mp4".toList := by decide +kernel
  unfold mp4
  simp only [List.getLast?_append, List.dropLast_concat]
  rw [show [("glomporecording.mp4".toList : Name)].getLast? = some "glomporecording.mp4".toList from rfl]
  simp only [Option.some_or, hs]

/-- Scopes which are given the same dictionary, with anything in it: the second run records into the working directory of the first, over its movie,
whatever the two directories are. -/
theorem C135_shared_refuted (a b : List Name) :
    (run [{ other := true }] [.construct (some 0), .start 0 ⟨true, a⟩, .construct (some 0), .start 1 ⟨true, b⟩]).movies =
      [(0, ⟨true, a ++ ["glomporecording.mp4".toList]⟩), (1, ⟨true, a ++ ["glomporecording.mp4".toList]⟩)] := by
  obtain ⟨g, hg, hd, hm⟩ := movie_default
  rw [← hg]
  simp [run, step, construct, own, start, fileOf, setOut, join, hd, hm]

/-- Names which differ only after their last dot are the same file: asked for `T0.1` and `T0.2`, both runs record into `T0.mp4`. -/
theorem C135_name_refuted (wd : List Name) :
    (run [{ outfile := some ⟨false, ["T0.1".toList]⟩ }, { outfile := some ⟨false, ["T0.2".toList]⟩ }]
      [.construct (some 0), .construct (some 1), .start 0 ⟨true, wd⟩, .start 1 ⟨true, wd⟩]).movies =
      [(0, ⟨true, wd ++ ["T0.mp4".toList]⟩), (1, ⟨true, wd ++ ["T0.mp4".toList]⟩)] := by
  have h1 : stem "T0.1".toList ++ ".mp4".toList = "T0.mp4".toList := by decide +kernel
  have h2 : stem "T0.2".toList ++ ".mp4".toList = "T0.mp4".toList := by decide +kernel
  have m : ∀ (c : List Name) (n : Name), mp4 ⟨true, c ++ [n]⟩ = some ⟨true, c ++ [stem n ++ ".mp4".toList]⟩ := by
    intro c n
    unfold mp4
    simp
  simp only [run, List.foldl, step]
  simp [construct, own, start, fileOf, setOut, join, m]
  exact ⟨h1, h2⟩

/-- A resumed run records over the movie of the first one, twice: on loading, and when it is started, whatever its own working directory. -/
theorem C135_resumed_refuted (a b : List Name) :
    (run [] [.construct none, .start 0 ⟨true, a⟩, .resume 0, .start 1 ⟨true, b⟩]).movies =
      [(0, ⟨true, a ++ ["glomporecording.mp4".toList]⟩), (1, ⟨true, a ++ ["glomporecording.mp4".toList]⟩),
        (1, ⟨true, a ++ ["glomporecording.mp4".toList]⟩)] := by
  obtain ⟨g, hg, hd, hm⟩ := movie_default
  rw [← hg]
  simp [run, step, construct, own, alloc, start, resume, fileOf, setOut, join, hd, hm]

end Glompo.Props
