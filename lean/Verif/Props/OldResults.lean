import Verif.Spec.OldResults
import Verif.Lemmas.Basic

/-! C91: results of earlier optimizations are protected or removed. -/

namespace Glompo.Props
open Glompo.OldResults Glompo.Spec.OldResults

namespace OldL

theorem globbed_iff (pre suf n : List Char) (hp : '/' ∉ pre) (hs : '/' ∉ suf) :
    globbed pre suf n = true ↔ ∃ mid, n = pre ++ mid ++ suf ∧ '/' ∉ mid := by
  simp only [globbed, Bool.and_eq_true, List.isPrefixOf_iff_prefix, List.isSuffixOf_iff_suffix, decide_eq_true_eq]
  constructor
  · rintro ⟨⟨⟨⟨r, rfl⟩, ⟨q, hq⟩⟩, hl⟩, hn⟩
    have : ∃ mid, r = mid ++ suf := by
      rcases List.append_eq_append_iff.mp hq with ⟨a, ha, hb⟩ | ⟨a, ha, hb⟩
      · -- pre = q ++ a, suf = a ++ r
        have h1 := congrArg List.length ha
        have h2 := congrArg List.length hb
        simp only [List.length_append] at h1 h2 hl
        have : a = [] := List.eq_nil_of_length_eq_zero (by omega)
        subst this
        exact ⟨[], by simpa using hb.symm⟩
      · exact ⟨a, hb⟩
    obtain ⟨mid, rfl⟩ := this
    refine ⟨mid, by simp, fun hm => hn (by simp [hm])⟩
  · rintro ⟨mid, rfl, hm⟩
    refine ⟨⟨⟨⟨mid ++ suf, by simp⟩, ⟨pre ++ mid, rfl⟩⟩, by simp⟩, by simp [hp, hs, hm]⟩

theorem head_ne (a b : Char) (s t mid suf : List Char) (h : (a :: s) ++ mid ++ suf = b :: t) : a = b := by
  simp only [List.cons_append, List.cons.injEq] at h
  exact h.1

theorem traj_ne_log (mid : List Char) (h : "trajectories".toList ++ mid ++ ".png".toList = logFile) : False := by
  have : 't' = 'g' := head_ne 't' 'g' "rajectories".toList "lompo_log.h5".toList mid ".png".toList h
  exact absurd this (by decide)

theorem parms_ne_log (mid : List Char) (h : "opt".toList ++ mid ++ "_parms.png".toList = logFile) : False := by
  have : 'o' = 'g' := head_ne 'o' 'g' "pt".toList "lompo_log.h5".toList mid "_parms.png".toList h
  exact absurd this (by decide)

theorem mem_toRemove (restart : Bool) (d : Dir) (n : List Char) :
    n ∈ toRemove restart d ↔ Has d n ∧ IsOld restart n := by
  have hm : n ∈ d.map (·.1) ↔ Has d n := by
    rw [Has, at_, ← dictGet_isSome_iff]
    cases dictGet d n <;> simp
  have g1 := globbed_iff "trajectories".toList ".png".toList n (by decide) (by decide)
  have g2 := globbed_iff "opt".toList "_parms.png".toList n (by decide) (by decide)
  have d1 : managerLog ≠ logFile := by decide
  have d2 := traj_ne_log
  have d3 := parms_ne_log
  simp only [toRemove, List.mem_append, List.mem_filter, decide_eq_true_eq, g1, g2, hm, IsOld, IsResult]
  cases restart with
  | true =>
    simp only [if_true, List.not_mem_nil, or_false, true_and]
    constructor
    · rintro ((⟨h, rfl⟩ | ⟨h, mid, rfl, hs⟩) | ⟨h, mid, rfl, hs⟩)
      · exact ⟨h, Or.inl rfl, d1⟩
      · exact ⟨h, Or.inr (Or.inr (Or.inl ⟨mid, rfl, hs⟩)), d2 mid⟩
      · exact ⟨h, Or.inr (Or.inr (Or.inr ⟨mid, rfl, hs⟩)), d3 mid⟩
    · rintro ⟨h, h1 | h1 | h1 | h1, h2⟩
      · exact Or.inl (Or.inl ⟨h, h1⟩)
      · exact absurd h1 h2
      · exact Or.inl (Or.inr ⟨h, h1⟩)
      · exact Or.inr ⟨h, h1⟩
  | false =>
    simp only [Bool.false_eq_true, if_false, List.mem_filter, decide_eq_true_eq, hm, false_and, not_false_eq_true,
      and_true]
    constructor
    · rintro (((⟨h, h1⟩ | ⟨h, h1⟩) | ⟨h, h1⟩) | ⟨h, h1⟩)
      · exact ⟨h, Or.inl h1⟩
      · exact ⟨h, Or.inr (Or.inr (Or.inl h1))⟩
      · exact ⟨h, Or.inr (Or.inr (Or.inr h1))⟩
      · exact ⟨h, Or.inr (Or.inl h1)⟩
    · rintro ⟨h, h1 | h1 | h1 | h1⟩
      · exact Or.inl (Or.inl (Or.inl ⟨h, h1⟩))
      · exact Or.inr ⟨h, h1⟩
      · exact Or.inl (Or.inl (Or.inr ⟨h, h1⟩))
      · exact Or.inl (Or.inr ⟨h, h1⟩)

theorem get_del (d : Dir) (k o : List Char) :
    dictGet (dictDel d k) o = if o = k then none else dictGet d o := by
  by_cases h : o = k
  · simp [h]
  · rw [if_neg h, dictGet_del_ne _ h]

theorem unlinkAll_other (l : List (List Char)) (d : Dir) (n : List Char) (h : n ∉ l) :
    dictGet (unlinkAll l d).1 n = dictGet d n := by
  induction l generalizing d with
  | nil => rfl
  | cons a t ih =>
    simp only [List.mem_cons, not_or] at h
    simp only [unlinkAll]
    split
    · rfl
    · rw [ih _ h.2, get_del, if_neg h.1]

theorem unlinkAll_absent (l : List (List Char)) (d : Dir) (n : List Char) (h : dictGet d n = none) :
    dictGet (unlinkAll l d).1 n = none := by
  induction l generalizing d with
  | nil => exact h
  | cons a t ih =>
    simp only [unlinkAll]
    split
    · exact h
    · refine ih _ ?_
      rw [get_del]; split
      · rfl
      · exact h

theorem unlinkAll_gone (l : List (List Char)) (d : Dir) (n : List Char) (h : n ∈ l)
    (hok : (unlinkAll l d).2 = .ok ()) : dictGet (unlinkAll l d).1 n = none := by
  induction l generalizing d with
  | nil => cases h
  | cons a t ih =>
    simp only [unlinkAll] at hok ⊢
    split
    · rename_i hf; rw [hf] at hok; cases hok
    · rename_i hf
      have hok' : (unlinkAll t (dictDel d a)).2 = .ok () := by
        split at hok
        · rename_i hg; exact absurd hg hf
        · exact hok
      by_cases ha : n = a
      · exact unlinkAll_absent _ _ _ (by rw [get_del, if_pos ha])
      · exact ih _ ((List.mem_cons.mp h).resolve_left ha) hok'

/-- Deleting succeeds if nothing on the list is a folder. -/
theorem unlinkAll_ok (l : List (List Char)) (d : Dir) (h : ∀ n ∈ l, dictGet d n ≠ some .folder) :
    (unlinkAll l d).2 = .ok () := by
  induction l generalizing d with
  | nil => rfl
  | cons a t ih =>
    simp only [unlinkAll]
    split
    · rename_i hf; exact absurd hf (h a (by simp))
    · refine ih _ fun n hn => ?_
      rw [get_del]; split
      · simp
      · exact h n (by simp [hn])

theorem get_filter (d : Dir) (p : List Char → Bool) (n : List Char) :
    dictGet (d.filter fun e => p e.1) n = if p n then dictGet d n else none := by
  induction d with
  | nil => simp
  | cons e t ih =>
    obtain ⟨k, v⟩ := e
    by_cases hk : p k
    · rw [List.filter_cons_of_pos (by simpa using hk)]
      simp only [dictGet]
      by_cases e : k = n
      · subst e; simp [hk]
      · rw [if_neg e, ih, if_neg e]
    · rw [List.filter_cons_of_neg (by simpa using hk), ih]
      simp only [dictGet]
      by_cases e : k = n
      · subst e; simp [hk]
      · rw [if_neg e]

theorem inStreams_iff (n : List Char) : inStreams n = true ↔ IsStream n := by
  simp only [inStreams, Bool.or_eq_true, decide_eq_true_eq, List.isPrefixOf_iff_prefix, IsStream]
  constructor
  · rintro (h | ⟨t, rfl⟩)
    · exact Or.inl h
    · exact Or.inr ⟨t, rfl⟩
  · rintro (h | ⟨t, rfl⟩)
    · exact Or.inl h
    · exact Or.inr ⟨t, rfl⟩

theorem dropStreams_other (d : Dir) (n : List Char) (h : ¬ IsStream n) : dictGet (dropStreams d) n = dictGet d n := by
  simp only [dropStreams]
  split
  · rw [get_filter d (fun m => !inStreams m) n]
    have : inStreams n = false := by
      cases hb : inStreams n with
      | false => rfl
      | true => exact absurd ((inStreams_iff n).mp hb) h
    simp [this]
  · rfl

theorem dropStreams_gone (d : Dir) (n : List Char) (h : IsStream n) (hf : dictGet d streamsDir = some .folder) :
    dictGet (dropStreams d) n = none := by
  simp only [dropStreams, hf]
  rw [get_filter d (fun m => !inStreams m) n]
  simp [(inStreams_iff n).mpr h]

theorem dropStreams_absent (d : Dir) (n : List Char) (h : dictGet d n = none) : dictGet (dropStreams d) n = none := by
  simp only [dropStreams]
  split
  · rw [get_filter d (fun m => !inStreams m) n, h]; simp
  · exact h

theorem result_not_stream (n : List Char) (h : IsResult n) : ¬ IsStream n := by
  rintro (rfl | ⟨t, rfl⟩)
  · rcases h with h | h | ⟨mid, h, -⟩ | ⟨mid, h, -⟩
    · exact absurd h (by decide)
    · exact absurd h (by decide)
    · exact absurd (congrArg List.head? h) (by simp)
    · exact absurd (congrArg List.head? h) (by simp)
  · rcases h with h | h | ⟨mid, h, -⟩ | ⟨mid, h, -⟩
    · exact absurd (congrArg (List.take 9) h) (by simp)
    · exact absurd (congrArg (List.take 9) h) (by simp)
    · exact absurd (congrArg List.head? h) (by simp)
    · exact absurd (congrArg List.head? h) (by simp)

theorem writeAll_get (l : List (List Char)) (d : Dir) (n : List Char) :
    dictGet (writeAll l d) n = if n ∈ l then some .fresh else dictGet d n := by
  induction l generalizing d with
  | nil => simp [writeAll]
  | cons a t ih =>
    rw [writeAll, ih]
    by_cases h : n ∈ t
    · simp [h]
    · rw [if_neg h, dictGet_set]
      by_cases e : n = a
      · simp [e]
      · simp [e, h]

theorem makeStreams_other (c : Cfg) (d : Dir) (n : List Char) (h : n ≠ streamsDir ∨ dictGet d n ≠ none) :
    dictGet (makeStreams c d) n = dictGet d n := by
  simp only [makeStreams]
  split
  · rfl
  · split
    · rename_i hn
      rw [dictGet_set]
      by_cases e : n = streamsDir
      · subst e
        rcases h with h | h
        · exact absurd rfl h
        · exact absurd hn h
      · rw [if_neg e]
    · rfl

theorem openLog_other (c : Cfg) (d : Dir) (n : List Char) (h : n ≠ logFile) :
    dictGet (openLog c d) n = dictGet d n := by
  simp only [openLog]
  split
  · split <;> rw [dictGet_set, if_neg h]
  · rfl

theorem streams_assoc (a b : List Char) :
    streamsDir ++ "/printstream_".toList ++ a ++ b =
      "glompo_optimizer_printstreams/".toList ++ ("printstream_".toList ++ a ++ b) := by
  rw [show streamsDir ++ "/printstream_".toList = "glompo_optimizer_printstreams/".toList ++ "printstream_".toList by rfl]
  simp only [List.append_assoc]

theorem streamFiles_stream (o : Nat) (n : List Char) (h : n ∈ streamFiles o) : IsStream n := by
  simp only [streamFiles, List.mem_cons, List.not_mem_nil, or_false] at h
  rcases h with rfl | rfl
  · exact Or.inr ⟨"printstream_".toList ++ Checkpoint.pad 4 o ++ ".out".toList, streams_assoc _ _⟩
  · exact Or.inr ⟨"printstream_".toList ++ Checkpoint.pad 4 o ++ ".err".toList, streams_assoc _ _⟩

theorem plotName_result (b : Bool) : IsOld r (plotName b) := by
  have hr : IsResult (plotName b) := by
    cases b
    · exact Or.inr (Or.inr (Or.inl ⟨[], by decide, by simp⟩))
    · exact Or.inr (Or.inr (Or.inl ⟨"_log".toList, by decide, by decide⟩))
  refine ⟨hr, fun h => ?_⟩
  exact absurd h.2 (by cases b <;> decide)

theorem managerLog_result : IsOld r managerLog := ⟨Or.inl rfl, fun h => absurd h.2 (by decide)⟩

theorem rewritten_kinds (c : Cfg) (n : List Char) (h : n ∈ rewritten c) :
    c.movie = some n ∨ (∃ o ∈ c.printing, n ∈ streamFiles o) ∨ IsOld c.restart n := by
  simp only [rewritten, List.mem_append, Option.mem_toList, List.mem_flatMap] at h
  rcases h with ((h | h) | h) | h
  · exact Or.inl h
  · exact Or.inr (Or.inl h)
  · split at h
    · rw [List.mem_singleton.mp h]; exact Or.inr (Or.inr managerLog_result)
    · cases h
  · split at h
    · rw [List.mem_singleton.mp h]; exact Or.inr (Or.inr (plotName_result _))
    · cases h

end OldL
open OldL

/-- **C91** (refusal). Without `overwrite_existing` a session is refused with FileExistsError exactly if results of another optimization
are in the working directory; then nothing is touched. -/
theorem C91_refused (c : Cfg) (d : Dir) (h : c.overwrite = false) :
    ((∃ n, Has d n ∧ IsOld c.restart n) ↔ (session c d).2 = .error .fileExists) ∧
    ((∃ n, Has d n ∧ IsOld c.restart n) → (session c d).1 = d) := by
  by_cases he : toRemove c.restart d = []
  · have hn : ¬ ∃ n, Has d n ∧ IsOld c.restart n := by
      rintro ⟨n, hn⟩
      have := (mem_toRemove c.restart d n).mpr hn
      rw [he] at this; cases this
    have hs : (session c d).2 = .ok () := by simp [session, purge, he]
    exact ⟨⟨fun x => absurd x hn, fun x => by rw [hs] at x; cases x⟩, fun x => absurd x hn⟩
  · have hs : session c d = (d, .error .fileExists) := by simp [session, purge, he, h]
    obtain ⟨n, hn⟩ := List.exists_mem_of_ne_nil _ he
    have hx : ∃ n, Has d n ∧ IsOld c.restart n := ⟨n, (mem_toRemove c.restart d n).mp hn⟩
    exact ⟨⟨fun _ => by rw [hs], fun _ => hx⟩, fun _ => by rw [hs]⟩

/-- **C91** (protection). Without `overwrite_existing`, whatever the session does: every file and folder which was there stays as it
was, except the movie, the print streams of the optimizers which run and the log of the optimization which is resumed; this log is
extended, not replaced.

Missing (hence partial): the movie and the print streams are results of earlier optimizations too, and are overwritten
(`C91_streams_refuted`, `C91_movie_refuted`). -/
theorem C91_protected_partial (c : Cfg) (d : Dir) (h : c.overwrite = false) (n : List Char) (node : Node)
    (hn : at_ d n = some node) (hm : c.movie ≠ some n) (hs : ∀ o ∈ c.printing, n ∉ streamFiles o) :
    (n ≠ logFile ∨ c.restart = false ∨ c.level ≤ 2 → at_ (session c d).1 n = some node) ∧
    (∀ k, n = logFile → c.restart = true → node = .file k →
      at_ (session c d).1 n = some (.file k) ∨ at_ (session c d).1 n = some (.extended k)) := by
  by_cases he : toRemove c.restart d = []
  · have hd : (session c d).1 = writeAll (rewritten c) (makeStreams c (openLog c d)) := by simp [session, purge, he]
    have hnone : ¬ IsOld c.restart n := by
      intro ho
      have := (mem_toRemove c.restart d n).mpr ⟨by rw [Has, hn]; simp, ho⟩
      rw [he] at this; cases this
    have hnw : n ∉ rewritten c := by
      intro hw
      rcases rewritten_kinds c n hw with h1 | ⟨o, ho, h2⟩ | h3
      · exact hm h1
      · exact hs o ho h2
      · exact hnone h3
    have hres : at_ (session c d).1 n = dictGet (openLog c d) n := by
      rw [at_, hd, writeAll_get, if_neg hnw]
      refine makeStreams_other c _ n ?_
      by_cases e : n = streamsDir
      · right
        rw [openLog_other c d n (by rw [e]; decide)]
        rw [at_] at hn; rw [hn]; simp
      · exact Or.inl e
    rw [at_] at hn
    constructor
    · intro hcase
      rw [hres]
      by_cases e : n = logFile
      · rcases hcase with h1 | h1 | h1
        · exact absurd e h1
        · exfalso; exact hnone ⟨Or.inr (Or.inl e), fun x => by rw [h1] at x; cases x.1⟩
        · simp only [openLog]
          rw [if_neg (by omega), hn]
      · rw [openLog_other c d n e, hn]
    · intro k hk hr hf
      rw [hres]
      simp only [openLog]
      split
      · rw [hr, ← hk, hn, hf]
        right
        simp
      · left; rw [hn, hf]
  · have hs : session c d = (d, .error .fileExists) := by simp [session, purge, he, h]
    rw [hs]
    exact ⟨fun _ => hn, fun k _ _ hf => Or.inl (by rw [hn, hf])⟩

/-- **C91** (overwriting). With `overwrite_existing`, if the results found are files, the session starts, and afterwards no result of
another optimization is left: what carries the name of one was written by this session. If any result was found, the print streams
are removed with it. Everything else is kept. -/
theorem C91_overwrites (c : Cfg) (d : Dir) (h : c.overwrite = true)
    (hf : ∀ n, IsOld c.restart n → at_ d n ≠ some .folder) :
    (session c d).2 = .ok () ∧
    (∀ n, IsOld c.restart n → at_ (session c d).1 n = none ∨ at_ (session c d).1 n = some .fresh) ∧
    ((∃ n, Has d n ∧ IsOld c.restart n) → at_ d "glompo_optimizer_printstreams".toList = some .folder →
      ∀ n, IsStream n → at_ (session c d).1 n = none ∨ at_ (session c d).1 n = some .fresh ∨
        (n = "glompo_optimizer_printstreams".toList ∧ at_ (session c d).1 n = some .folder)) ∧
    (∀ n, ¬ IsOld c.restart n → ¬ IsStream n → c.movie ≠ some n → n ≠ logFile →
      at_ (session c d).1 n = at_ d n) := by
  have hok : (unlinkAll (toRemove c.restart d) d).2 = .ok () := by
    refine unlinkAll_ok _ _ fun n hn => hf n ((mem_toRemove _ _ _).mp hn).2
  -- the directory after the purge
  have hp : ∃ d1, purge c.restart c.overwrite d = (d1, .ok ()) ∧
      (∀ n, IsOld c.restart n → dictGet d1 n = none) ∧
      ((∃ n, Has d n ∧ IsOld c.restart n) → dictGet d streamsDir = some .folder → ∀ n, IsStream n → dictGet d1 n = none) ∧
      (∀ n, ¬ IsOld c.restart n → ¬ IsStream n → dictGet d1 n = dictGet d n) := by
    by_cases he : toRemove c.restart d = []
    · refine ⟨d, by simp [purge, he], fun n ho => ?_, fun ⟨n, hn⟩ => ?_, fun _ _ _ => rfl⟩
      · refine Classical.byContradiction fun hx => ?_
        have := (mem_toRemove c.restart d n).mpr ⟨hx, ho⟩
        rw [he] at this; cases this
      · have := (mem_toRemove c.restart d n).mpr hn
        rw [he] at this; cases this
    · generalize hu : unlinkAll (toRemove c.restart d) d = u at *
      obtain ⟨d1, r⟩ := u
      simp only at hok
      subst hok
      have hd1 : d1 = (unlinkAll (toRemove c.restart d) d).1 := by rw [hu]
      refine ⟨dropStreams d1, by simp [purge, he, h, hu], fun n ho => ?_, fun hx hst n hn => ?_, fun n ho hst => ?_⟩
      · rw [dropStreams_other _ _ (result_not_stream n ho.1)]
        by_cases hx : n ∈ toRemove c.restart d
        · rw [hd1]; exact unlinkAll_gone _ _ _ hx (by rw [hu])
        · rw [hd1, unlinkAll_other _ _ _ hx]
          refine Classical.byContradiction fun hy => hx ((mem_toRemove c.restart d n).mpr ⟨hy, ho⟩)
      · refine dropStreams_gone _ _ hn ?_
        rw [hd1, unlinkAll_other _ _ _ ?_, hst]
        intro hx
        exact result_not_stream _ ((mem_toRemove _ _ _).mp hx).2.1 (Or.inl rfl)
      · rw [dropStreams_other _ _ hst, hd1, unlinkAll_other _ _ _ (fun hx => ho ((mem_toRemove _ _ _).mp hx).2)]
  obtain ⟨d1, hpe, p1, p2, p3⟩ := hp
  have hs : session c d = (writeAll (rewritten c) (makeStreams c (openLog c d1)), .ok ()) := by
    simp only [session]; rw [hpe]
  rw [hs]
  refine ⟨rfl, fun n ho => ?_, fun hx hst n hn => ?_, fun n ho hst hm hl => ?_⟩
  · simp only [at_, writeAll_get]
    by_cases hw : n ∈ rewritten c
    · simp [hw]
    · rw [if_neg hw, makeStreams_other _ _ _ (Or.inl fun e => result_not_stream n ho.1 (Or.inl e))]
      by_cases e : n = logFile
      · simp only [openLog]
        split
        · subst e
          have : c.restart = false := by
            cases hr : c.restart with
            | false => rfl
            | true => exact absurd ⟨hr, rfl⟩ ho.2
          rw [this]
          simp
        · exact Or.inl (p1 n ho)
      · rw [openLog_other _ _ _ e]; exact Or.inl (p1 n ho)
  · have hd := p2 hx hst n hn
    simp only [at_, writeAll_get]
    by_cases hw : n ∈ rewritten c
    · simp [hw]
    · rw [if_neg hw]
      have hnl : n ≠ logFile := fun e => result_not_stream n (Or.inr (Or.inl e)) hn
      have ho : dictGet (openLog c d1) n = none := by rw [openLog_other _ _ _ hnl, hd]
      by_cases e : n = streamsDir
      · simp only [makeStreams]
        split
        · exact Or.inl ho
        · subst e
          rw [ho]
          right; right
          exact ⟨rfl, by simp⟩
      · rw [makeStreams_other _ _ _ (Or.inl e)]; exact Or.inl ho
  · simp only [at_, writeAll_get]
    have hw : n ∉ rewritten c := by
      intro hw
      rcases rewritten_kinds c n hw with h1 | ⟨o, -, h2⟩ | h3
      · exact hm h1
      · exact hst (streamFiles_stream o n h2)
      · exact ho h3
    rw [if_neg hw, makeStreams_other _ _ _ (Or.inl fun e => hst (Or.inl e)), openLog_other _ _ _ hl, p3 n ho hst]

/-- A full session over old results: they are replaced, the notes of the user are kept. -/
example : session { restart := false, overwrite := true, level := 3, printing := [1], movie := none, logScale := true }
      [(managerLog, .file 1), ("trajectories.png".toList, .file 2), (streamsDir, .folder),
        (streamsDir ++ "/printstream_0002.out".toList, .file 3), ("notes.txt".toList, .file 4)] =
    ([("notes.txt".toList, .file 4), (logFile, .fresh), (streamsDir, .folder),
        (streamsDir ++ "/printstream_0001.out".toList, .fresh), (streamsDir ++ "/printstream_0001.err".toList, .fresh),
        (managerLog, .fresh), ("trajectories_log.png".toList, .fresh)], .ok ()) := by rfl

/-- **C91** (levels). In an empty directory, without movie and print streams, exactly the documented files are written: level 1 the
summary, level 2 also the plot, level 3 also the iteration log. -/
theorem C91_levels (c : Cfg) (hm : c.movie = none) (hp : c.printing = []) (n : List Char) :
    Has (session c []).1 n ↔
      (n = "glompo_manager_log.yml".toList ∧ 1 ≤ c.level) ∨
      (n = (if c.logScale then "trajectories_log.png".toList else "trajectories.png".toList) ∧ 2 ≤ c.level) ∨
      (n = "glompo_log.h5".toList ∧ 3 ≤ c.level) := by
  have hpu : purge c.restart c.overwrite [] = ([], .ok ()) := by
    cases hr : c.restart <;> simp [purge, toRemove]
  have hs : (session c []).1 = writeAll (rewritten c) (openLog c []) := by
    simp only [session]; rw [hpu]; simp [makeStreams, hp]
  have hw : ∀ n, n ∈ rewritten c ↔ (n = managerLog ∧ 1 ≤ c.level) ∨ (n = plotName c.logScale ∧ 2 ≤ c.level) := by
    intro n
    have a1 : c.level > 0 ↔ 1 ≤ c.level := by omega
    have a2 : c.level > 1 ↔ 2 ≤ c.level := by omega
    simp only [rewritten, hm, hp, Option.toList_none, List.flatMap_nil, List.nil_append, List.mem_append, a1, a2]
    constructor
    · rintro (h | h)
      · split at h
        · exact Or.inl ⟨List.mem_singleton.mp h, by assumption⟩
        · cases h
      · split at h
        · exact Or.inr ⟨List.mem_singleton.mp h, by assumption⟩
        · cases h
    · rintro (⟨rfl, h⟩ | ⟨rfl, h⟩)
      · simp [h]
      · simp [h]
  rw [Has, at_, hs, writeAll_get]
  have ho : dictGet (openLog c []) n = if n = logFile ∧ 3 ≤ c.level then some .fresh else none := by
    have a3 : c.level > 2 ↔ 3 ≤ c.level := by omega
    by_cases h3 : 3 ≤ c.level
    · have : openLog c [] = [(logFile, .fresh)] := by
        simp only [openLog, a3, if_pos h3]
        cases c.restart <;> rfl
      rw [this]
      simp only [dictGet, h3, and_true]
      by_cases e : n = logFile
      · rw [if_pos e, if_pos e.symm]
      · rw [if_neg e, if_neg fun x => e x.symm]
    · simp [openLog, a3, h3]
  rw [ho]
  by_cases h : n ∈ rewritten c
  · rw [if_pos h]
    rcases (hw n).mp h with h1 | h1
    · simp only [ne_eq, reduceCtorEq, not_false_eq_true, true_iff]; exact Or.inl h1
    · simp only [ne_eq, reduceCtorEq, not_false_eq_true, true_iff]; exact Or.inr (Or.inl h1)
  · rw [if_neg h]
    have h1 : ¬ (n = managerLog ∧ 1 ≤ c.level) := fun x => h ((hw n).mpr (Or.inl x))
    have h2 : ¬ (n = plotName c.logScale ∧ 2 ≤ c.level) := fun x => h ((hw n).mpr (Or.inr x))
    by_cases h3 : n = logFile ∧ 3 ≤ c.level
    · rw [if_pos h3]
      simp only [ne_eq, reduceCtorEq, not_false_eq_true, true_iff]
      exact Or.inr (Or.inr h3)
    · rw [if_neg h3]
      simp only [ne_eq, not_true_eq_false, false_iff]
      rintro (x | x | x)
      · exact h1 x
      · exact h2 x
      · exact h3 x

/-- The print streams of an earlier optimization are not counted as its results: without anything else they are overwritten although
`overwrite_existing` is false, and streams of optimizers which do not run this time are kept even if it is true. -/
theorem C91_streams_refuted :
    let d : Dir := [(streamsDir, .folder), (streamsDir ++ "/printstream_0001.out".toList, .file 7),
      (streamsDir ++ "/printstream_0002.out".toList, .file 8)]
    let c : Cfg := { restart := false, overwrite := false, level := 0, printing := [1], movie := none, logScale := false }
    (session c d).2 = .ok () ∧
    at_ (session c d).1 (streamsDir ++ "/printstream_0001.out".toList) = some .fresh ∧
    at_ (session { c with overwrite := true } d).1 (streamsDir ++ "/printstream_0002.out".toList) = some (.file 8) := by
  refine ⟨?_, ?_, ?_⟩ <;> rfl

/-- A movie of an earlier optimization is overwritten although `overwrite_existing` is false. -/
theorem C91_movie_refuted :
    let c : Cfg := ⟨false, false, 0, [], some "glomporecording.mp4".toList, false⟩
    session c [("glomporecording.mp4".toList, .file 7)] = ([("glomporecording.mp4".toList, .fresh)], .ok ()) := by rfl

/-- A resumed optimization is stopped by its own summary from the session before, unless `overwrite_existing` is set; and it
overwrites what its optimizers printed before. -/
theorem C91_resumed_refuted :
    let c : Cfg := { restart := true, overwrite := false, level := 1, printing := [1], movie := none, logScale := false }
    session c (session { c with restart := false } []).1 =
      ((session { c with restart := false } []).1, .error .fileExists) ∧
    at_ (session { c with level := 0 } [(streamsDir, .folder), (streamsDir ++ "/printstream_0001.out".toList, .file 7)]).1
      (streamsDir ++ "/printstream_0001.out".toList) = some .fresh := by
  constructor <;> rfl

/-- If something called like a result is a folder the removal stops half way: results before it are lost, those after it are kept. -/
theorem C91_folder_refuted :
    let c : Cfg := { restart := false, overwrite := true, level := 0, printing := [], movie := none, logScale := false }
    session c [(managerLog, .file 1), ("trajectories.png".toList, .folder), (logFile, .file 2)] =
      ([("trajectories.png".toList, .folder), (logFile, .file 2)], .error .osError) := by rfl

end Glompo.Props
