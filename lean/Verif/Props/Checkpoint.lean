import Verif.Lemmas.CheckpointFiles

/-!
# C33–C36, C66: checkpoint names and files
-/

namespace Glompo.Props

open Glompo Glompo.Spec Glompo.Checkpoint

theorem getName_ok {fmt : List Char} {now : Clock} {dir : Option (List Name)} {name : Name} {n : Nat}
    (h : getName fmt now dir = .ok (name, n)) :
    name = replaceAll "%(count)".toList (pad 3 n) 0 ((codes now).foldl (fun s kv => replaceAll kv.1.toList kv.2 0 s) fmt) ∧
    ∀ es, dir = some es → es ≠ [] → ∃ re, compile (formatRe fmt) = some re ∧ n = nextCount re es := by
  cases dir with
  | none =>
    simp only [getName, Except.ok.injEq, Prod.mk.injEq] at h
    obtain ⟨h1, h2⟩ := h
    subst h2
    exact ⟨h1.symm, fun es he => by cases he⟩
  | some es =>
    cases es with
    | nil =>
      simp only [getName, Except.ok.injEq, Prod.mk.injEq] at h
      obtain ⟨h1, h2⟩ := h
      subst h2
      exact ⟨h1.symm, fun es he hne => by cases he; exact absurd rfl hne⟩
    | cons e es =>
      simp only [getName] at h
      cases hc : compile (formatRe fmt) with
      | none => rw [hc] at h; cases h
      | some re =>
        rw [hc] at h
        simp only [Except.ok.injEq, Prod.mk.injEq] at h
        obtain ⟨h1, h2⟩ := h
        subst h2
        exact ⟨h1.symm, fun es' he _ => by cases he; exact ⟨re, rfl, rfl⟩⟩

/-! ### C34 -/

/-- **C34, partial.** A name made from a format with at most one `%(count)` is recognised by the same control, and so is
every name which begins with it, such as that of the archive. Missing: formats with `?` or a backslash, numbers beyond 999
(both refuted). -/
theorem C34_names_match_partial (fmt : List Char) (now : Clock) (dir : Option (List Name)) (name : Name) (n : Nat)
    (hp : PlainFormat fmt) (h1 : ¬ ContainsTwice fmt "%(count)".toList) (ht : IsTime now)
    (h : getName fmt now dir = .ok (name, n)) (hn : n < 1000) (rest : List Char) :
    matchesFormat fmt (name ++ rest) = .ok true := by
  obtain ⟨rfl, -⟩ := getName_ok h
  obtain ⟨r, hr, -⟩ := matchRe_rel (name_rel (fmt := fmt) ht hn) rest
  rw [matchesFormat, compile_plain hp h1]
  simp only [hr, Option.isSome_some]

/-- A time to look at. -/
def noon : Clock := ⟨2026, 11, 16, 12, 0, 59⟩

example : getName "v2_%(date)-%(hour)h_%(count)".toList noon (some ["v2_20261115-09h_041.tar.gz".toList]) =
    .ok ("v2_20261116-12h_042".toList, 42) := by rfl
example : PlainFormat "v2_%(date)-%(hour)h_%(count)".toList ∧ IsTime noon :=
  ⟨⟨by decide, by decide⟩, by decide, by decide, by decide, by decide, by decide, by decide⟩
example : PlainFormat "v2.%(count)".toList ∧ ¬ ContainsTwice "v2.%(count)".toList "%(count)".toList ∧
    getName "v2.%(count)".toList noon none = .ok ("v2.000".toList, 0) := by
  refine ⟨⟨by decide, by decide⟩, ?_, by rfl⟩
  rintro ⟨l, m, r, h⟩
  have := congrArg List.length h
  simp at this
  omega

/-- **C34, refuted part.** A `?` in the format is not escaped: the name is not recognised. -/
theorem C34_question_mark_refuted :
    getName "run?_%(count)".toList noon none = .ok ("run?_000".toList, 0) ∧
    matchesFormat "run?_%(count)".toList "run?_000".toList = .ok false := by
  exact ⟨by rfl, by rfl⟩

/-- **C34, refuted part.** The thousandth name is not recognised if something follows the number. -/
theorem C34_thousand_refuted :
    getName "%(count)_run".toList noon (some ["999_run.tar.gz".toList]) = .ok ("1000_run".toList, 1000) ∧
    matchesFormat "%(count)_run".toList "1000_run".toList = .ok false := by
  exact ⟨by rfl, by rfl⟩

/-! ### C33 -/

/-- **C33, partial.** With an incrementing format, no entry of the directory has the new name or a name beginning with
it, in particular not the archive of the new checkpoint. Missing: from the thousandth checkpoint on, and formats with a
dot (both refuted), formats with `?` or a backslash. -/
theorem C33_fresh_names_partial (fmt : List Char) (now : Clock) (es : List Name) (name : Name) (n : Nat)
    (hp : PlainFormat fmt) (h1 : Contains fmt "%(count)".toList) (ht : IsTime now)
    (h : getName fmt now (some es) = .ok (name, n)) (hn : n < 1000) : ∀ e ∈ es, ¬ name <+: e := by
  rintro e he ⟨rest, rfl⟩
  obtain ⟨hname, hc⟩ := getName_ok h
  obtain ⟨re, hre, rfl⟩ := hc es rfl (by rintro rfl; cases he)
  have hre' : re = (formatRe fmt).map toRe := by
    have hr := format_rel fmt
    rw [compile] at hre
    split at hre
    · cases hre
    · rw [compileItems_plain _ (fun h => hp.1 (hr.ch_mem (fun c ds h => h) h))
        (fun h => hp.2 (hr.ch_mem (fun c ds h => h) h))] at hre
      exact (Option.some.inj hre).symm
  obtain ⟨r, hr, hri⟩ := matchRe_rel (name_rel (fmt := fmt) ht hn) rest
  rw [← hname, ← hre', hri (index_mem h1)] at hr
  exact absurd (nextCount_ge re es _ he _ hr) (Nat.lt_irrefl _)

/-- **C33, continued.** If moreover the format has no dot, the archive of the new checkpoint is a new file. -/
theorem C33_archive_fresh_partial (fmt : List Char) (now : Clock) (es : List Name) (name : Name) (n : Nat)
    (hp : PlainFormat fmt) (h1 : Contains fmt "%(count)".toList) (ht : IsTime now) (hdot : '.' ∉ fmt)
    (h : getName fmt now (some es) = .ok (name, n)) (hn : n < 1000) : tarName name ∉ es ∧ name ∉ es := by
  refine ⟨fun hm => C33_fresh_names_partial fmt now es name n hp h1 ht h hn _ hm ?_,
    fun hm => C33_fresh_names_partial fmt now es name n hp h1 ht h hn _ hm (List.prefix_refl _)⟩
  have : '.' ∉ name := by rw [(getName_ok h).1]; exact nodot_name hdot
  rw [tarName, stem_nodot this]
  exact List.prefix_append _ _

example : Contains "v2_%(date)-%(hour)h_%(count)".toList "%(count)".toList := ⟨"v2_%(date)-%(hour)h_".toList, [], by decide⟩

/-- **C33, refuted part.** After 1000 checkpoints the new name is that of an existing checkpoint. -/
theorem C33_thousand_refuted :
    getName "chk_%(count)".toList noon (some ["chk_999.tar.gz".toList, "chk_1000.tar.gz".toList]) =
      .ok ("chk_1000".toList, 1000) ∧
    tarName "chk_1000".toList ∈ ["chk_999.tar.gz".toList, "chk_1000.tar.gz".toList] := by
  exact ⟨by rfl, by decide +kernel⟩

/-- **C33, refuted part.** With a dot in the format the archive has a name without the number: every checkpoint
overwrites the last one. -/
theorem C33_dot_refuted :
    getName "v1.%(count)".toList noon (some ["v1.tar.gz".toList]) = .ok ("v1.000".toList, 0) ∧
    tarName "v1.000".toList ∈ ["v1.tar.gz".toList] := by
  exact ⟨by rfl, by decide +kernel⟩

/-! ### C35 -/

/-- The directory at the end of the `try` block and after `finally`. -/
theorem files_of_try (fmt : List Char) (k : Int) (raiseFail : Bool) (name : Name) (c : Nat) (f : Faults) (d : Dir)
    (hist : List Name) (hf : ¬ IsFile (dictGet d name)) (o : Name) (h1 : o ≠ name) (h2 : o ≠ ovwName) :
    dictGet (checkpointFiles fmt k raiseFail name c f d hist).1 o =
      dictGet (tryBlock fmt k name c f (dictSet d name .dir) hist).1 o := by
  unfold checkpointFiles
  have key : dictGet (if f.rmtree = true then (tryBlock fmt k name c f (dictSet d name .dir) hist).1
      else dictDel (tryBlock fmt k name c f (dictSet d name .dir) hist).1 name) o =
      dictGet (tryBlock fmt k name c f (dictSet d name .dir) hist).1 o := by
    split
    · rfl
    · rw [dictGet_del, if_neg h1]
  split
  · rename_i n hg; exact absurd (show IsFile (dictGet d name) by rw [hg]; simp [IsFile]) hf
  · rename_i hg; exact absurd (show IsFile (dictGet d name) by rw [hg]; simp [IsFile]) hf
  · simp only [dictGet_del, if_neg h2]
    exact key

/-- **C35.** Whatever happens (failures included), a file or directory of another name stays as it is if it does not
match the format, or if `keep_past` is negative. -/
theorem C35_others_untouched (fmt : List Char) (k : Int) (raiseFail : Bool) (name : Name) (c : Nat) (f : Faults) (d : Dir)
    (hist : List Name) (o : Name) (h1 : o ≠ name) (h2 : o ≠ tarName name) (h3 : o ≠ "_overwriting_chkpt.tar.gz".toList)
    (h : matchesFormat fmt o ≠ .ok true ∨ k ≤ -1) :
    dictGet (checkpointFiles fmt k raiseFail name c f d hist).1 o = dictGet d o := by
  have h3 : o ≠ ovwName := h3
  by_cases hf : IsFile (dictGet d name)
  · unfold checkpointFiles
    split
    · rfl
    · rfl
    · rename_i hn1 hn2
      exfalso
      cases hg : dictGet d name with
      | none => rw [hg] at hf; exact hf.1 rfl
      | some n => cases n with
        | file c => exact hn1 _ hg
        | broken => exact hn2 hg
        | dir => rw [hg] at hf; exact hf.2 rfl
  rw [files_of_try _ _ _ _ _ _ _ _ hf o h1 h3]
  have h0 : dictGet (dictSet d name .dir) o = dictGet d o := dictGet_set_ne _ _ h1
  unfold tryBlock
  split
  · exact h0
  · exact h0
  · have hc := compress_other name c f.tar (dictSet d name .dir) o h2 h3
    simp only
    split
    · rename_i hx; rw [hx] at hc; rw [← h0, ← hc]
    · rename_i d1 _ hx
      rw [hx] at hc
      rw [← h0, ← hc]
      unfold retention
      split
      · rename_i hk
        cases hcp : compile (formatRe fmt) with
        | none => rfl
        | some re =>
          refine unlinkLoop_other _ _ _ _ fun hm => ?_
          have hm := (sortDesc_perm _).mem_iff.mp (List.mem_of_mem_drop hm)
          have hmt := (List.mem_filter.mp hm).2
          rcases h with h | h
          · exact h (by rw [matchesFormat, hcp]; simpa using hmt)
          · omega
      · rfl

/-- **C35.** If saving or compression fails nothing but the archive and the working directory of the checkpoint is
touched: no older checkpoint is deleted. -/
theorem C35_failure_deletes_nothing (fmt : List Char) (k : Int) (raiseFail : Bool) (name : Name) (c : Nat) (f : Faults)
    (d : Dir) (hist : List Name) (o : Name) (h1 : o ≠ name) (h2 : o ≠ tarName name) (h3 : o ≠ "_overwriting_chkpt.tar.gz".toList)
    (h : f.build ≠ none ∨ f.tar ≠ none) :
    dictGet (checkpointFiles fmt k raiseFail name c f d hist).1 o = dictGet d o := by
  have h3 : o ≠ ovwName := h3
  by_cases hf : IsFile (dictGet d name)
  · unfold checkpointFiles
    split
    · rfl
    · rfl
    · rename_i hn1 hn2
      exfalso
      cases hg : dictGet d name with
      | none => rw [hg] at hf; exact hf.1 rfl
      | some n => cases n with
        | file c => exact hn1 _ hg
        | broken => exact hn2 hg
        | dir => rw [hg] at hf; exact hf.2 rfl
  rw [files_of_try _ _ _ _ _ _ _ _ hf o h1 h3]
  have h0 : dictGet (dictSet d name .dir) o = dictGet d o := dictGet_set_ne _ _ h1
  unfold tryBlock
  split
  · exact h0
  · exact h0
  · rename_i hb
    have hc := compress_other name c f.tar (dictSet d name .dir) o h2 h3
    have hfail : ∃ d1 e, compress name c f.tar (dictSet d name .dir) = (d1, .error e) := by
      have : f.tar ≠ none := by
        rcases h with h | h
        · exact absurd hb h
        · exact h
      cases ht : f.tar with
      | none => exact absurd ht this
      | some ec =>
        unfold compress
        simp only
        split
        · split <;> exact ⟨_, _, rfl⟩
        · exact ⟨_, _, rfl⟩
    obtain ⟨d1, e, hx⟩ := hfail
    simp only [hx]
    rw [hx] at hc
    rw [← h0, ← hc]

/-- Names after `o` when retention begins: the new checkpoint, its directory, and the older ones. -/
theorem count_older {fmt : List Char} {re : List Re} {name o : Name} {c : Nat} {d d2 : Dir}
    (hd2g : ∀ o, o ≠ ovwName → dictGet d2 o =
      if o = tarName name then some (.file c) else if o = name then some .dir else dictGet d o)
    (hmt : ∀ o, matchesFormat fmt o = .ok true ↔ (matchRe re o).isSome = true) (hnt : name ≠ tarName name)
    (hov : (matchRe re ovwName).isSome = false) (hno : name ≠ ovwName) (hto : tarName name ≠ ovwName)
    (hm1 : matchesFormat fmt name = .ok true) (hm2 : matchesFormat fmt (tarName name) = .ok true)
    (hnew : name ∉ names d) (hbn : Before o name) (hbt : Before o (tarName name)) (x : Name) :
    x ∈ ((names d2).filter fun x => decide ((matchRe re x).isSome = true ∧ Before o x)) ↔
    x ∈ name :: tarName name :: (names d).filter fun x =>
      decide (matchesFormat fmt x = .ok true ∧ x ≠ tarName name ∧ Before o x) := by
  simp only [List.mem_filter, List.mem_cons, decide_eq_true_eq, mem_names]
  constructor
  · rintro ⟨h1, h2, h3⟩
    have hxo : x ≠ ovwName := fun e => by rw [e, hov] at h2; cases h2
    rw [hd2g x hxo] at h1
    by_cases ht : x = tarName name
    · exact .inr (.inl ht)
    · rw [if_neg ht] at h1
      by_cases hn : x = name
      · exact .inl hn
      · rw [if_neg hn] at h1
        exact .inr (.inr ⟨h1, (hmt x).mpr h2, ht, h3⟩)
  · rintro (rfl | rfl | ⟨h1, h2, h3, h4⟩)
    · refine ⟨?_, (hmt _).mp hm1, hbn⟩
      rw [hd2g _ hno, if_neg hnt, if_pos rfl]; rfl
    · refine ⟨?_, (hmt _).mp hm2, hbt⟩
      rw [hd2g _ hto, if_pos rfl]; rfl
    · have hm := (hmt x).mp h2
      have hxo : x ≠ ovwName := fun e => by rw [e, hov] at hm; cases hm
      refine ⟨?_, hm, h4⟩
      rw [hd2g x hxo, if_neg h3, if_neg (fun e => hnew (by rw [← e]; exact mem_names.mpr h1))]
      exact h1

/-- **C35, partial.** A successful checkpoint with `keep_past = k`: the archive is there, its directory is gone, and an
older file matching the format stays exactly if fewer than `k` older matching files come after it in the order of names.
Everything else stays. Missing: new names which do not come after all older ones (refuted), and names with a dot. -/
theorem C35_retention_partial (fmt : List Char) (k : Nat) (raiseFail : Bool) (name : Name) (c : Nat) (d : Dir)
    (hist : List Name) (hd : (names d).Nodup) (hdot : '.' ∉ name) (hnew : name ∉ names d)
    (hm1 : matchesFormat fmt name = .ok true) (hm2 : matchesFormat fmt (tarName name) = .ok true)
    (hm3 : matchesFormat fmt ovwName = .ok false)
    (hlast : ∀ o ∈ names d, matchesFormat fmt o = .ok true → o ≠ tarName name → Before o name) :
    ∃ d' hist', checkpointFiles fmt k raiseFail name c noFaults d hist = (d', hist', .ok ()) ∧ tarName name ∈ hist' ∧
      dictGet d' (tarName name) = some (.file c) ∧ dictGet d' name = none ∧
      ∀ o, o ≠ tarName name → o ≠ name → o ≠ ovwName → dictGet d' o =
        if IsFile (dictGet d o) ∧ matchesFormat fmt o = .ok true ∧
          k ≤ ((names d).filter fun x => decide (matchesFormat fmt x = .ok true ∧ x ≠ tarName name ∧ Before o x)).length
        then none else dictGet d o := by
  have htar : tarName name = name ++ ".tar.gz".toList := by rw [tarName, stem_nodot hdot]
  have hnt : name ≠ tarName name := (tarName_ne name).symm
  obtain ⟨re, hre⟩ : ∃ re, compile (formatRe fmt) = some re := by
    rw [matchesFormat] at hm1
    cases h : compile (formatRe fmt) with
    | none => rw [h] at hm1; cases hm1
    | some re => exact ⟨re, rfl⟩
  have hmt : ∀ o, matchesFormat fmt o = .ok true ↔ (matchRe re o).isSome = true := fun o => by
    rw [matchesFormat, hre]; simp
  have hov : (matchRe re ovwName).isSome = false := by rw [matchesFormat, hre] at hm3; simpa using hm3
  have hno : name ≠ ovwName := fun e => by rw [hmt, e, hov] at hm1; cases hm1
  have hto : tarName name ≠ ovwName := fun e => by rw [hmt, e, hov] at hm2; cases hm2
  have hg : dictGet d name = none := by
    cases h : dictGet d name with
    | none => rfl
    | some n => exact absurd (mem_names.mpr (by rw [h]; rfl)) hnew
  -- the directory when retention begins
  obtain ⟨d2, hd2⟩ : ∃ d2, d2 = dictSet (setAside (tarName name) (dictSet d name .dir)) (tarName name) (.file c) := ⟨_, rfl⟩
  have hd2n : (names d2).Nodup := by
    rw [hd2]
    refine dictSet_names _ _ _ ?_
    unfold setAside
    split
    · exact dictSet_names _ _ _ (dictDel_names _ _ (dictSet_names _ _ _ hd))
    · exact dictSet_names _ _ _ hd
  have hd2g : ∀ o, o ≠ ovwName → dictGet d2 o =
      if o = tarName name then some (.file c) else if o = name then some .dir else dictGet d o := by
    intro o ho
    rw [hd2, dictGet_set]
    by_cases ht : o = tarName name
    · rw [if_pos ht, if_pos ht]
    · rw [if_neg ht, if_neg ht]
      have : dictGet (setAside (tarName name) (dictSet d name .dir)) o = dictGet (dictSet d name .dir) o := by
        unfold setAside
        split
        · rw [dictGet_set_ne _ _ ho, dictGet_del, if_neg ht]
        · rfl
      rw [this, dictGet_set]
  obtain ⟨d3, hu1, hu2⟩ := unlinkLoop_ok (toDelete re k d2) d2
  have hrun : checkpointFiles fmt k raiseFail name c noFaults d hist =
      (dictDel (dictDel d3 name) ovwName, if tarName name ∈ hist then hist else hist ++ [tarName name], .ok ()) := by
    have h1 : retention fmt k none d2 = (d3, .ok ()) := by
      rw [retention, if_pos (by omega), hre]
      exact hu1
    have h2 : tryBlock fmt k name c noFaults (dictSet d name .dir) hist =
        (d3, if tarName name ∈ hist then hist else hist ++ [tarName name], .ok ()) := by
      unfold tryBlock
      simp only [noFaults]
      have : compress name c none (dictSet d name .dir) = (d2, .ok ()) := by rw [hd2]; rfl
      simp only [this, h1]
    unfold checkpointFiles
    rw [hg]
    simp only [h2]
    rfl
  -- who is deleted
  have hdel : ∀ o, o ∈ toDelete re k d2 ↔ o ∈ names d2 ∧ (matchRe re o).isSome = true ∧
      k + 2 ≤ ((names d2).filter fun x => decide ((matchRe re x).isSome = true ∧ Before o x)).length := by
    intro o
    have hp := sortDesc_perm ((names d2).filter fun n => (matchRe re n).isSome)
    have hnd : (sortDesc ((names d2).filter fun n => (matchRe re n).isSome)).Nodup :=
      hp.nodup_iff.mpr (hd2n.sublist List.filter_sublist)
    show o ∈ (sortDesc ((names d2).filter fun n => (matchRe re n).isSome)).drop (k + 2) ↔ _
    rw [mem_drop_sorted _ hnd (sortDesc_sorted _), hp.mem_iff, List.mem_filter, and_assoc, (hp.filter _).length_eq,
      List.filter_filter]
    simp only [Bool.decide_and, Bool.decide_eq_true, Bool.and_comm]
  have hlen : ∀ o, Before o name → Before o (tarName name) →
      ((names d2).filter fun x => decide ((matchRe re x).isSome = true ∧ Before o x)).length =
      ((names d).filter fun x =>
        decide (matchesFormat fmt x = .ok true ∧ x ≠ tarName name ∧ Before o x)).length + 2 := by
    intro o hbn hbt
    have hnd : (name :: tarName name :: (names d).filter fun x =>
        decide (matchesFormat fmt x = .ok true ∧ x ≠ tarName name ∧ Before o x)).Nodup := by
      refine List.nodup_cons.mpr ⟨?_, List.nodup_cons.mpr ⟨?_, hd.sublist List.filter_sublist⟩⟩
      · intro h
        rcases List.mem_cons.mp h with h | h
        · exact hnt h
        · exact hnew (List.mem_filter.mp h).1
      · intro h
        have := (List.mem_filter.mp h).2
        simp at this
    have := ((List.perm_ext_iff_of_nodup (hd2n.sublist List.filter_sublist) hnd).mpr
      (count_older hd2g hmt hnt hov hno hto hm1 hm2 hnew hbn hbt)).length_eq
    simpa using this
  have htd : tarName name ∉ toDelete re k d2 := by
    intro h
    obtain ⟨-, -, h⟩ := (hdel _).mp h
    have : ((names d2).filter fun x => decide ((matchRe re x).isSome = true ∧ Before (tarName name) x)) = [] := by
      rw [List.filter_eq_nil_iff]
      intro x hx
      simp only [decide_eq_true_eq, not_and]
      intro hxm hb
      have hxo : x ≠ ovwName := fun e => by rw [e, hov] at hxm; cases hxm
      have hxs := mem_names.mp hx
      rw [hd2g x hxo] at hxs
      have hbt : Before name (tarName name) := by rw [htar]; exact Before.append _ (by simp)
      split at hxs
      · rename_i e; rw [e] at hb; exact Before.irrefl _ hb
      · rename_i hxt
        split at hxs
        · rename_i e; rw [e] at hb; exact Before.irrefl _ (Before.trans hb hbt)
        · exact Before.irrefl _ (Before.trans hb (Before.trans (hlast x (mem_names.mpr hxs) ((hmt x).mpr hxm) hxt) hbt))
    rw [this] at h
    simp at h
  refine ⟨_, _, hrun, by split <;> simp_all, ?_, ?_, ?_⟩
  · rw [dictGet_del, if_neg hto, dictGet_del, if_neg hnt.symm, hu2, if_neg (fun h => htd h.1), hd2g _ hto, if_pos rfl]
  · rw [dictGet_del, if_neg hno, dictGet_del, if_pos rfl]
  · intro o ho1 ho2 ho3
    rw [dictGet_del, if_neg ho3, dictGet_del, if_neg ho2, hu2, hd2g o ho3, if_neg ho1, if_neg ho2]
    have hiff : (o ∈ toDelete re k d2 ∧ IsFile (dictGet d o)) ↔ (IsFile (dictGet d o) ∧ matchesFormat fmt o = .ok true ∧
        k ≤ ((names d).filter fun x => decide (matchesFormat fmt x = .ok true ∧ x ≠ tarName name ∧ Before o x)).length) := by
      rw [hdel, hmt]
      constructor
      · rintro ⟨⟨h1, h2, h3⟩, hf⟩
        refine ⟨hf, h2, ?_⟩
        have hon : o ∈ names d := mem_names.mpr (by
          cases hh : dictGet d o with
          | none => rw [hh] at hf; exact absurd rfl hf.1
          | some n => rfl)
        have hbn := hlast o hon ((hmt o).mpr h2) ho1
        have hbt : Before o (tarName name) := by rw [htar]; exact Before.trans hbn (Before.append _ (by simp))
        have := hlen o hbn hbt
        omega
      · rintro ⟨hf, h2, h3⟩
        have hon : o ∈ names d := mem_names.mpr (by
          cases hh : dictGet d o with
          | none => rw [hh] at hf; exact absurd rfl hf.1
          | some n => rfl)
        have hbn := hlast o hon ((hmt o).mpr h2) ho1
        have hbt : Before o (tarName name) := by rw [htar]; exact Before.trans hbn (Before.append _ (by simp))
        refine ⟨⟨mem_names.mpr ?_, h2, ?_⟩, hf⟩
        · rw [hd2g o ho3, if_neg ho1, if_neg ho2]; exact mem_names.mp hon
        have := hlen o hbn hbt
        omega
    simp only [hiff]

/-- A directory with three checkpoints and a file of the user. -/
def shelf : Dir :=
  [("chk_001.tar.gz".toList, .file 1), ("notes.txt".toList, .file 7), ("chk_003.tar.gz".toList, .file 3),
   ("chk_002.tar.gz".toList, .file 2)]

example : (names shelf).Nodup ∧ '.' ∉ "chk_004".toList ∧ "chk_004".toList ∉ names shelf ∧
    (∀ o ∈ names shelf, matchesFormat "chk_%(count)".toList o = .ok true → o ≠ tarName "chk_004".toList →
      Before o "chk_004".toList) := by
  refine ⟨by decide +kernel, by decide, by decide +kernel, ?_⟩
  intro o ho _ _
  simp only [names, shelf, List.map_cons, List.map_nil, List.mem_cons, List.not_mem_nil, or_false] at ho
  rcases ho with rfl | rfl | rfl | rfl
  · decide +kernel
  · rename_i h _; exact absurd h (by rw [show matchesFormat "chk_%(count)".toList "notes.txt".toList = .ok false by rfl]; simp)
  · decide +kernel
  · decide +kernel

example : matchesFormat "chk_%(count)".toList "chk_004".toList = .ok true ∧
    matchesFormat "chk_%(count)".toList (tarName "chk_004".toList) = .ok true ∧
    matchesFormat "chk_%(count)".toList ovwName = .ok false := ⟨by rfl, by rfl, by rfl⟩

example : checkpointFiles "chk_%(count)".toList 1 false "chk_004".toList 4 noFaults shelf [] =
    ([("notes.txt".toList, .file 7), ("chk_003.tar.gz".toList, .file 3), ("chk_004.tar.gz".toList, .file 4)],
      ["chk_004.tar.gz".toList], .ok ()) := by rfl

/-- **C35, refuted part.** A name by the time of day, after midnight: with `keep_past = 0` the new checkpoint is deleted,
the two of the day before stay. -/
theorem C35_midnight_refuted :
    checkpointFiles "chk_%(time)".toList 0 false "chk_000100".toList 3 noFaults
      [("chk_235800.tar.gz".toList, .file 1), ("chk_235900.tar.gz".toList, .file 2)] [] =
    ([("chk_235800.tar.gz".toList, .file 1), ("chk_235900.tar.gz".toList, .file 2)], ["chk_000100.tar.gz".toList], .ok ()) := by
  rfl

/-! ### C36 -/

/-- **C36, partial.** If saving fails in any way, or the compression fails with a tar error, an archive which existed
under the name of the new checkpoint is still there, unchanged. Missing: other errors of the compression (refuted). -/
theorem C36_failure_keeps_old_partial (fmt : List Char) (k : Int) (raiseFail : Bool) (name : Name) (c : Nat) (f : Faults)
    (d : Dir) (hist : List Name) (n : Node) (hold : dictGet d (tarName name) = some n) (ho : tarName name ≠ ovwName)
    (h : f.build ≠ none ∨ ∃ created, f.tar = some (.tarError, created)) :
    dictGet (checkpointFiles fmt k raiseFail name c f d hist).1 (tarName name) = some n := by
  have hnt : tarName name ≠ name := tarName_ne name
  by_cases hf : IsFile (dictGet d name)
  · unfold checkpointFiles
    split
    · exact hold
    · exact hold
    · rename_i hn1 hn2
      exfalso
      cases hg : dictGet d name with
      | none => rw [hg] at hf; exact hf.1 rfl
      | some n => cases n with
        | file c => exact hn1 _ hg
        | broken => exact hn2 hg
        | dir => rw [hg] at hf; exact hf.2 rfl
  rw [files_of_try _ _ _ _ _ _ _ _ hf _ hnt ho]
  have h0 : dictGet (dictSet d name .dir) (tarName name) = some n := by rw [dictGet_set_ne _ _ hnt, hold]
  unfold tryBlock
  split
  · exact h0
  · exact h0
  · rename_i hb
    obtain ⟨created, ht⟩ := h.resolve_left fun h => h hb
    unfold compress
    simp only [ht, h0, if_true, dictGet_set_self]

example : checkpointFiles "chk".toList (-1) false "chk".toList 2 ⟨none, some (.tarError, true), none, false⟩
    [("chk.tar.gz".toList, .file 1)] [] = ([("chk.tar.gz".toList, .file 1)], [], .ok ()) := by rfl

/-- **C36, refuted part.** The disk is full during compression: the existing checkpoint of this name is lost. -/
theorem C36_full_disk_refuted :
    checkpointFiles "chk".toList (-1) false "chk".toList 2 ⟨none, some (.osError, true), none, false⟩
      [("chk.tar.gz".toList, .file 1)] [] = ([("chk.tar.gz".toList, .broken)], ["chk.tar.gz".toList], .error .osError) ∧
    checkpointFiles "chk".toList (-1) false "chk".toList 2 ⟨none, some (.osError, false), none, false⟩
      [("chk.tar.gz".toList, .file 1)] [] = ([], ["chk.tar.gz".toList], .error .osError) :=
  ⟨by rfl, by rfl⟩

/-! ### C66 -/

/-- **C66, partial.** If saving fails with a `CheckpointingError` (after the log was saved) and the name is new, the
directory and the history are as before, and the error is raised exactly if that was asked for. Missing: failures of the
compression and names used before (refuted), failures of `rmtree`. -/
theorem C66_failure_leaves_nothing_partial (fmt : List Char) (k : Int) (raiseFail : Bool) (name : Name) (c : Nat)
    (f : Faults) (d : Dir) (hist : List Name) (hnew : name ∉ names d) (hh : tarName name ∉ hist)
    (hb : f.build = some (.checkpointingError, false)) (hr : f.rmtree = false) :
    (∀ o, o ≠ ovwName → dictGet (checkpointFiles fmt k raiseFail name c f d hist).1 o = dictGet d o) ∧
    (checkpointFiles fmt k raiseFail name c f d hist).2.1 = hist ∧
    (checkpointFiles fmt k raiseFail name c f d hist).2.2 = if raiseFail then .error .checkpointingError else .ok () := by
  have hg : dictGet d name = none := by
    cases h : dictGet d name with
    | none => rfl
    | some n => exact absurd (mem_names.mpr (by rw [h]; rfl)) hnew
  have h1 : checkpointFiles fmt k raiseFail name c f d hist = (dictDel (dictDel (dictSet d name .dir) name) ovwName,
      (hist ++ [tarName name]).erase (tarName name), if raiseFail then .error .checkpointingError else .ok ()) := by
    unfold checkpointFiles tryBlock
    simp [hg, hb, hh, hr]
  rw [h1]
  refine ⟨fun o ho => ?_, ?_, rfl⟩
  · rw [dictGet_del, if_neg ho, dictGet_del]
    split
    · rename_i e; rw [e, hg]
    · rename_i e; rw [dictGet_set_ne _ _ e]
  · rw [List.erase_append_right _ hh]; simp

example : checkpointFiles "chk".toList (-1) true "chk".toList 2 ⟨some (.checkpointingError, false), none, none, false⟩
    [("a.tar.gz".toList, .file 1)] ["a.tar.gz".toList] =
    ([("a.tar.gz".toList, .file 1)], ["a.tar.gz".toList], .error .checkpointingError) := by rfl

/-- **C66, refuted parts.** A failed compression leaves a broken archive under the new name; a failed attempt to overwrite a
checkpoint removes it from the history although it is restored; after any other error the history lists a checkpoint
which does not exist. -/
theorem C66_failure_leaves_nothing_refuted :
    checkpointFiles "chk".toList (-1) false "chk".toList 2 ⟨none, some (.tarError, true), none, false⟩ [] [] =
      ([("chk.tar.gz".toList, .broken)], [], .ok ()) ∧
    checkpointFiles "chk".toList (-1) false "chk".toList 2 ⟨none, some (.tarError, true), none, false⟩
      [("chk.tar.gz".toList, .file 1)] ["chk.tar.gz".toList] = ([("chk.tar.gz".toList, .file 1)], [], .ok ()) ∧
    checkpointFiles "chk".toList (-1) false "chk".toList 2 ⟨some (.runtimeError, false), none, none, false⟩ [] [] =
      ([], ["chk.tar.gz".toList], .error .runtimeError) :=
  ⟨by rfl, by rfl, by rfl⟩

end Glompo.Props
