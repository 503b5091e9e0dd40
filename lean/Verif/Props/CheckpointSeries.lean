import Verif.Lemmas.CheckpointSeries

/-!
# C123: the latest checkpoints are kept

For series of checkpoints of any length, with names by number or by date and time. Builds on C33, C34, C35 and C66.
-/

namespace Glompo.Props

open Glompo Glompo.Spec Glompo.Checkpoint

/-- Calls in a series which do not fail, with the names they get. -/
theorem made_get (N : Nat → Attempt → Name) (as : List Attempt) (s i : Nat) :
    (made N s as)[i]? = ((succeeded as)[i]?).map fun a => (N (s + i) a, a.content) := by
  induction as generalizing s i with
  | nil => rfl
  | cons a t ih =>
    rw [made, succeeded, List.filter_cons]
    cases hf : a.fault with
    | none =>
      simp only [if_true, Option.isNone_none]
      cases i with
      | zero => rfl
      | succ i => rw [List.getElem?_cons_succ, List.getElem?_cons_succ, ih]; rw [Nat.add_assoc, Nat.add_comm 1]; rfl
    | some e =>
      simp only [reduceCtorEq, if_false, Option.isNone_some, Bool.false_eq_true]
      exact ih s i

theorem made_length (N : Nat → Attempt → Name) (as : List Attempt) (s : Nat) : (made N s as).length = (succeeded as).length := by
  induction as generalizing s with
  | nil => rfl
  | cons a t ih =>
    rw [made, succeeded, List.filter_cons]
    cases hf : a.fault with
    | none => simp only [if_true, Option.isNone_none, List.length_cons, ih]; rfl
    | some e => simp only [reduceCtorEq, if_false, Option.isNone_some, Bool.false_eq_true]; exact ih s

/-- The general form. -/
theorem series_end {fmt : List Char} {k : Nat} {N : Nat → Attempt → Name} {B : Nat} (rf : Bool) (as : List Attempt) (d : Dir)
    (hist : List Name) (ht : ∀ a ∈ as, IsTime a.now) (hd : (names d).Nodup)
    (h0 : ∀ o, matchesFormat fmt o = .ok true → dictGet d o = none) (hov : matchesFormat fmt ovwName = .ok false)
    (R : Row fmt (made N 0 as)) (hB : (succeeded as).length < B)
    (hN : ∀ i a, i < B → IsTime a.now → '.' ∉ N i a ∧ matchesFormat fmt (N i a) = .ok true)
    (hG : ∀ l r a d', made N 0 as = l ++ r → IsTime a.now → Kept k d l d' →
      ∃ n, getName fmt a.now (some (names d')) = .ok (N l.length a, n)) :
    (∀ (i : Nat) (a : Attempt), (succeeded as)[i]? = some a → dictGet (attempts fmt k rf as d hist).1 (N i a ++ ".tar.gz".toList) =
      if (succeeded as).length ≤ i + k + 1 then some (.file a.content) else none) ∧
    (∀ o, o ≠ ovwName → (∀ (i : Nat) (a : Attempt), (succeeded as)[i]? = some a → o ≠ N i a ++ ".tar.gz".toList) →
      dictGet (attempts fmt k rf as d hist).1 o = dictGet d o) ∧
    ∀ (i : Nat) (a : Attempt), as[i]? = some a → a.fault = none → (attempts fmt k rf as d hist).2.2[i]? = some (.ok ()) := by
  obtain ⟨K, hr⟩ := series_kept rf h0 hov (made N 0 as) R (by rw [made_length]; exact hB) hN hG as [] d hist ht rfl (Kept.start hd)
  have hget : ∀ i a, (succeeded as)[i]? = some a → (made N 0 as)[i]? = some (N i a, a.content) := fun i a h => by
    rw [made_get, h, Nat.zero_add]; rfl
  have htar : ∀ i a, (succeeded as)[i]? = some a → tarName (N i a) = N i a ++ ".tar.gz".toList := fun i a h => by
    rw [tarName, stem_nodot (R.nodot (N i a, a.content) (List.mem_of_getElem? (hget i a h)))]
  refine ⟨fun i a h => ?_, fun o ho hm => K.other o ho fun p hp => ?_, hr⟩
  · have := K.mine i _ (hget i a h)
    rw [made_length] at this
    rw [← htar i a h]
    exact this
  · obtain ⟨i, hi⟩ := List.mem_iff_getElem?.mp hp
    rw [made_get] at hi
    obtain ⟨a, ha, rfl⟩ := Option.map_eq_some_iff.mp hi
    rw [Nat.zero_add, htar i a ha]
    exact hm i a ha

/-! ### Numbers -/

/-- The name with number `i`. -/
def numbered (pre post : List Char) (i : Nat) (_ : Attempt) : Name := pre ++ pad 3 i ++ post

variable {pre mid post : List Char}

theorem codes_counted (hpre : Ordinary pre) (hpost : Ordinary post) (now : Clock) :
    (codes now).foldl (fun s kv => replaceAll kv.1.toList kv.2 0 s) (pre ++ "%(count)".toList ++ post) = pre ++ "%(count)".toList ++ post := by
  have key : ∀ (key : List Char) (val : List Char), ('%' :: key).isPrefixOf ('%' :: "(count)".toList ++ post) = false →
      replaceAll ('%' :: key) val 0 (pre ++ "%(count)".toList ++ post) = pre ++ "%(count)".toList ++ post := by
    intro key val h
    rw [List.append_assoc, pass _ _ _ _ _ hpre.1]
    show pre ++ replaceAll ('%' :: key) val 0 ('%' :: "(count)".toList ++ post) = _
    rw [pass_key _ _ _ _ _ (by decide) h, pass_all _ _ _ _ hpost.1]
    rfl
  unfold codes
  simp only [List.foldl_cons, List.foldl_nil]
  rw [show "%(date)".toList = '%' :: "(date)".toList from rfl, key _ _ rfl,
    show "%(year)".toList = '%' :: "(year)".toList from rfl, key _ _ rfl,
    show "%(yr)".toList = '%' :: "(yr)".toList from rfl, key _ _ rfl,
    show "%(month)".toList = '%' :: "(month)".toList from rfl, key _ _ rfl,
    show "%(day)".toList = '%' :: "(day)".toList from rfl, key _ _ rfl,
    show "%(time)".toList = '%' :: "(time)".toList from rfl, key _ _ rfl,
    show "%(hour)".toList = '%' :: "(hour)".toList from rfl, key _ _ rfl,
    show "%(min)".toList = '%' :: "(min)".toList from rfl, key _ _ rfl,
    show "%(sec)".toList = '%' :: "(sec)".toList from rfl, key _ _ rfl]

theorem count_counted (hpre : Ordinary pre) (hpost : Ordinary post) (v : List Char) :
    replaceAll "%(count)".toList v 0 (pre ++ "%(count)".toList ++ post) = pre ++ v ++ post := by
  rw [show "%(count)".toList = '%' :: "(count)".toList from rfl, List.append_assoc, pass _ _ _ _ _ hpre.1, hit_key,
    pass_all _ _ _ _ hpost.1, List.append_assoc]

theorem ch_mem {c : Char} {l : List Char} (h : c ∉ l) : Item.ch c ∉ l.map Item.ch := by simpa using h

theorem formatRe_counted (hpre : Ordinary pre) (hpost : Ordinary post) :
    formatRe (pre ++ "%(count)".toList ++ post) = pre.map .ch ++ [.index] ++ post.map .ch := by
  have key : ∀ (key : List Item) (val : List Item), (Item.ch '%' :: key).isPrefixOf (Item.ch '%' :: "(count)".toList.map .ch ++ post.map .ch) = false →
      replaceAll (Item.ch '%' :: key) val 0 ((pre ++ "%(count)".toList ++ post).map .ch) = (pre ++ "%(count)".toList ++ post).map .ch := by
    intro key val h
    rw [List.map_append, List.map_append, List.append_assoc, pass _ _ _ _ _ (ch_mem hpre.1)]
    show _ ++ replaceAll (Item.ch '%' :: key) val 0 (Item.ch '%' :: "(count)".toList.map .ch ++ post.map .ch) = _
    rw [pass_key _ _ _ _ _ (by decide) h, pass_all _ _ _ _ (ch_mem hpost.1)]
    rfl
  unfold formatRe codeDigits
  simp only [List.foldl_cons, List.foldl_nil]
  rw [show ("%(date)".toList.map Item.ch) = .ch '%' :: "(date)".toList.map .ch from rfl, key _ _ rfl,
    show ("%(year)".toList.map Item.ch) = .ch '%' :: "(year)".toList.map .ch from rfl, key _ _ rfl,
    show ("%(yr)".toList.map Item.ch) = .ch '%' :: "(yr)".toList.map .ch from rfl, key _ _ rfl,
    show ("%(month)".toList.map Item.ch) = .ch '%' :: "(month)".toList.map .ch from rfl, key _ _ rfl,
    show ("%(day)".toList.map Item.ch) = .ch '%' :: "(day)".toList.map .ch from rfl, key _ _ rfl,
    show ("%(time)".toList.map Item.ch) = .ch '%' :: "(time)".toList.map .ch from rfl, key _ _ rfl,
    show ("%(hour)".toList.map Item.ch) = .ch '%' :: "(hour)".toList.map .ch from rfl, key _ _ rfl,
    show ("%(min)".toList.map Item.ch) = .ch '%' :: "(min)".toList.map .ch from rfl, key _ _ rfl,
    show ("%(sec)".toList.map Item.ch) = .ch '%' :: "(sec)".toList.map .ch from rfl, key _ _ rfl]
  rw [List.map_append, List.map_append, List.append_assoc, show ("%(count)".toList.map Item.ch) = .ch '%' :: "(count)".toList.map .ch from rfl,
    pass _ _ _ _ _ (ch_mem hpre.1), hit_key, pass_all _ _ _ _ (ch_mem hpost.1), List.append_assoc]

theorem filter_ch (l : List Char) : (l.map Item.ch).filter (fun i => decide (i = .index)) = [] := by
  induction l with
  | nil => rfl
  | cons a l ih => simpa using ih

theorem compile_counted (hpre : Ordinary pre) (hpost : Ordinary post) :
    compile (formatRe (pre ++ "%(count)".toList ++ post)) = some ((formatRe (pre ++ "%(count)".toList ++ post)).map toRe) := by
  refine compile_index ?_ ?_ ?_
  · rw [formatRe_counted hpre hpost]
    simp [List.filter_append, filter_ch]
  · rw [formatRe_counted hpre hpost]
    simp [hpre.2.1, hpost.2.1]
  · rw [formatRe_counted hpre hpost]
    simp [hpre.2.2.1, hpost.2.2.1]

/-- Matching a name with number `i`. -/
theorem match_counted (hpre : Ordinary pre) (hpost : Ordinary post) {i : Nat} (hi : i < 1000) (rest : List Char) :
    matchRe ((formatRe (pre ++ "%(count)".toList ++ post)).map toRe) (pre ++ pad 3 i ++ post ++ rest) = some (some i) := by
  have hr := name_rel (fmt := pre ++ "%(count)".toList ++ post) (now := noon) ⟨by decide, by decide, by decide, by decide, by decide, by decide⟩ hi
  rw [codes_counted hpre hpost, count_counted hpre hpost] at hr
  obtain ⟨r, h1, h2⟩ := matchRe_rel hr rest
  rw [h1, h2 (by rw [formatRe_counted hpre hpost]; simp)]

theorem nextCount_le (re : List Re) (es : List Name) (m : Nat) (h : ∀ e ∈ es, ∀ i, matchRe re e = some (some i) → i < m) :
    nextCount re es ≤ m := by
  unfold nextCount
  suffices ∀ s, s ≤ m → es.foldl (fun m e => match matchRe re e with
      | some (some i) => if m < i + 1 then i + 1 else m
      | _ => m) s ≤ m from this 0 (Nat.zero_le _)
  induction es with
  | nil => exact fun s hs => hs
  | cons a t ih =>
    intro s hs
    rw [List.foldl_cons]
    refine ih (fun e he => h e (List.mem_cons_of_mem _ he)) _ ?_
    split
    · rename_i i hi
      have := h a List.mem_cons_self i hi
      show (if s < i + 1 then i + 1 else s) ≤ m
      split
      · exact this
      · exact hs
    · exact hs

/-- **C123, names by number, partial.** The naming format is a text, `%(count)`, a text. At first no file of the directory
matches it. Then, after any series of checkpoints, some of which fail while they are saved, the directory holds, of the
checkpoints of the series, exactly the latest `keep_past + 1` of those which did not fail, numbered 0, 1, 2, … in the order
in which they were made and with what was saved. Everything else in the directory is as at first, and no successful
checkpoint raises an exception. Missing: a thousand checkpoints or more, and texts with dots, question marks and backslashes
(refuted in C33, C34), failures of the compression (C66). -/
theorem C123_latest_kept_by_number_partial (hpre : Ordinary pre) (hpost : Ordinary post) (k : Nat) (rf : Bool) (as : List Attempt)
    (ht : ∀ a ∈ as, IsTime a.now) (hn : (succeeded as).length < 1000) (d : Dir) (hist : List Name) (hd : (names d).Nodup)
    (h0 : ∀ o ∈ names d, matchesFormat (pre ++ "%(count)".toList ++ post) o ≠ .ok true) :
    (∀ (i : Nat) (a : Attempt), (succeeded as)[i]? = some a →
      dictGet (attempts (pre ++ "%(count)".toList ++ post) k rf as d hist).1 (pre ++ pad 3 i ++ post ++ ".tar.gz".toList) =
        if (succeeded as).length ≤ i + k + 1 then some (.file a.content) else none) ∧
    (∀ o, o ≠ ovwName → (∀ i < (succeeded as).length, o ≠ pre ++ pad 3 i ++ post ++ ".tar.gz".toList) →
      dictGet (attempts (pre ++ "%(count)".toList ++ post) k rf as d hist).1 o = dictGet d o) ∧
    ∀ (i : Nat) (a : Attempt), as[i]? = some a → a.fault = none →
      (attempts (pre ++ "%(count)".toList ++ post) k rf as d hist).2.2[i]? = some (.ok ()) := by
  have hcomp := compile_counted hpre hpost
  have hfits : ∀ i, i < 1000 → ∀ rest, matchesFormat (pre ++ "%(count)".toList ++ post) (pre ++ pad 3 i ++ post ++ rest) = .ok true := by
    intro i hi rest
    rw [matchesFormat, hcomp]
    simp only [match_counted hpre hpost hi rest, Option.isSome_some]
  have hdot : ∀ i, '.' ∉ pre ++ pad 3 i ++ post := by
    intro i h
    rcases List.mem_append.mp h with h | h
    · rcases List.mem_append.mp h with h | h
      · exact hpre.2.2.2 h
      · have := (pad_spec 3 i).1 _ h
        revert this; decide
    · exact hpost.2.2.2 h
  have hov : matchesFormat (pre ++ "%(count)".toList ++ post) ovwName = .ok false := by
    rw [matchesFormat, hcomp]
    simp only
    rw [no_digits _ (.inl (by rw [formatRe_counted hpre hpost]; simp)) _ ovw_digits]
    rfl
  have h0' : ∀ o, matchesFormat (pre ++ "%(count)".toList ++ post) o = .ok true → dictGet d o = none := by
    intro o ho
    cases hg : dictGet d o with
    | none => rfl
    | some n => exact absurd ho (h0 o (mem_names.mpr (by rw [hg]; rfl)))
  have hmem : ∀ (i : Nat) p, (made (numbered pre post) 0 as)[i]? = some p → i < 1000 ∧ p.1 = pre ++ pad 3 i ++ post := by
    intro i p hp
    have hi := (List.getElem?_eq_some_iff.mp hp).1
    rw [made_length] at hi
    rw [made_get] at hp
    obtain ⟨a, -, rfl⟩ := Option.map_eq_some_iff.mp hp
    exact ⟨by omega, by rw [Nat.zero_add]; rfl⟩
  have R : Row (pre ++ "%(count)".toList ++ post) (made (numbered pre post) 0 as) := by
    refine ⟨fun p hp => ?_, fun p hp => ?_, fun i j p q hij hp hq => ?_⟩
    · obtain ⟨i, hi⟩ := List.mem_iff_getElem?.mp hp
      rw [(hmem i p hi).2]; exact hdot i
    · obtain ⟨i, hi⟩ := List.mem_iff_getElem?.mp hp
      obtain ⟨h1, h2⟩ := hmem i p hi
      rw [h2, tarName, stem_nodot (hdot i)]
      exact ⟨by simpa using hfits i h1 [], hfits i h1 _⟩
    · obtain ⟨-, h2⟩ := hmem i p hp
      obtain ⟨h3, h4⟩ := hmem j q hq
      rw [h2, h4, tarName, stem_nodot (hdot i)]
      simp only [List.append_assoc]
      refine before_right pre ?_
      have l1 := (pad_spec 3 i).2.2 (by omega) (by omega)
      have l2 := (pad_spec 3 j).2.2 (by omega) (by omega)
      exact before_left (by rw [l1, l2]) (before_pad (by omega) hij (by omega)) _ _
  obtain ⟨h1, h2, h3⟩ := series_end (N := numbered pre post) (B := 1000) rf as d hist ht hd h0' hov R hn
    (fun i a hi _ => ⟨hdot i, by simpa [numbered] using hfits i hi []⟩) (by
      intro l r a d' hT hta K
      have hlt : l.length < 1000 := by
        have := congrArg List.length hT
        rw [made_length, List.length_append] at this
        omega
      have hRl : Row (pre ++ "%(count)".toList ++ post) l := by rw [hT] at R; exact R.left
      have hl : ∀ (i : Nat) p, l[i]? = some p → p.1 = pre ++ pad 3 i ++ post := fun i p hp =>
        (hmem i p (by rw [hT, List.getElem?_append_left (List.getElem?_eq_some_iff.mp hp).1]; exact hp)).2
      have hcnt : nextCount ((formatRe (pre ++ "%(count)".toList ++ post)).map toRe) (names d') = l.length := by
        refine Nat.le_antisymm (nextCount_le _ _ _ fun e he i hi => ?_) ?_
        · obtain ⟨j, p, hj, -, rfl⟩ := (K.iff hRl h0' hov e).mp ⟨he, by rw [matchesFormat, hcomp]; simp only [hi, Option.isSome_some]⟩
          have hjl := (List.getElem?_eq_some_iff.mp hj).1
          rw [hl j p hj, tarName, stem_nodot (hdot j), match_counted hpre hpost (by omega)] at hi
          cases hi
          exact hjl
        · by_cases hz : l.length = 0
          · omega
          · have hj : l[l.length - 1]? = some l[l.length - 1] := List.getElem?_eq_getElem (by omega)
            obtain ⟨hin, -⟩ := (K.iff hRl h0' hov _).mpr ⟨l.length - 1, _, hj, by omega, rfl⟩
            have := nextCount_ge _ (names d') _ hin (l.length - 1) (by
              rw [hl _ _ hj, tarName, stem_nodot (hdot _), match_counted hpre hpost (by omega)])
            omega
      refine ⟨l.length, ?_⟩
      have hname : ∀ n, replaceAll "%(count)".toList (pad 3 n) 0 ((codes a.now).foldl (fun s kv => replaceAll kv.1.toList kv.2 0 s)
          (pre ++ "%(count)".toList ++ post)) = pre ++ pad 3 n ++ post := fun n => by
        rw [codes_counted hpre hpost, count_counted hpre hpost]
      cases hes : names d' with
      | nil =>
        rw [hes] at hcnt
        have hz : l.length = 0 := hcnt.symm
        simp only [getName, hname, hz, numbered]
      | cons e t =>
        rw [hes] at hcnt
        simp only [getName, hcomp, hcnt, hname, numbered])
  refine ⟨fun i a h => h1 i a h, fun o ho hm => h2 o ho fun i a h => hm i (List.getElem?_eq_some_iff.mp h).1, h3⟩

/-! ### Date and time -/

/-- The name by date and time. -/
def dated (pre mid post : List Char) (_ : Nat) (a : Attempt) : Name := pre ++ dateText a.now ++ mid ++ timeText a.now ++ post

theorem digits_date (now : Clock) : ∀ c ∈ dateText now, isDigit c = true := by
  intro c h
  simp only [dateText, List.mem_append] at h
  rcases h with (h | h) | h <;> exact (pad_spec _ _).1 c h

theorem digits_time (now : Clock) : ∀ c ∈ timeText now, isDigit c = true := by
  intro c h
  simp only [timeText, List.mem_append] at h
  rcases h with (h | h) | h <;> exact (pad_spec _ _).1 c h

theorem no_percent {l : List Char} (h : ∀ c ∈ l, isDigit c = true) : '%' ∉ l := fun hm => by
  have := h _ hm
  revert this; decide

theorem codes_dated (hpre : Ordinary pre) (hmid : Ordinary mid) (hpost : Ordinary post) (now : Clock) :
    (codes now).foldl (fun s kv => replaceAll kv.1.toList kv.2 0 s) (pre ++ "%(date)".toList ++ mid ++ "%(time)".toList ++ post) =
      pre ++ dateText now ++ mid ++ timeText now ++ post := by
  have hD := no_percent (digits_date now)
  have hTt := no_percent (digits_time now)
  have k1 : ∀ (key : List Char) (val : List Char), ('%' :: key).isPrefixOf ('%' :: "(time)".toList ++ post) = false →
      replaceAll ('%' :: key) val 0 (pre ++ dateText now ++ mid ++ "%(time)".toList ++ post) =
        pre ++ dateText now ++ mid ++ "%(time)".toList ++ post := by
    intro key val h
    rw [List.append_assoc _ "%(time)".toList, pass _ _ _ (pre ++ dateText now ++ mid) _ (by simp [hpre.1, hD, hmid.1])]
    show _ ++ replaceAll ('%' :: key) val 0 ('%' :: "(time)".toList ++ post) = _
    rw [pass_key _ _ _ _ _ (by decide) h, pass_all _ _ _ _ hpost.1]
    rfl
  have k2 : ∀ (key : List Char) (val : List Char), replaceAll ('%' :: key) val 0 (pre ++ dateText now ++ mid ++ timeText now ++ post) =
      pre ++ dateText now ++ mid ++ timeText now ++ post := fun key val => by
    rw [pass_all]
    simp [hpre.1, hD, hmid.1, hTt, hpost.1]
  have d1 : replaceAll "%(date)".toList (dateText now) 0 (pre ++ "%(date)".toList ++ mid ++ "%(time)".toList ++ post) =
      pre ++ dateText now ++ mid ++ "%(time)".toList ++ post := by
    rw [show "%(date)".toList = '%' :: "(date)".toList from rfl]
    simp only [List.append_assoc]
    rw [pass _ _ _ _ _ hpre.1, ← List.append_assoc ('%' :: "(date)".toList) mid, ← List.append_assoc, ← List.append_assoc, List.append_assoc]
    rw [List.append_assoc ('%' :: "(date)".toList), hit_key, pass _ _ _ _ _ hmid.1]
    rw [show "%(time)".toList ++ post = '%' :: "(time)".toList ++ post from rfl, pass_key _ _ _ _ _ (by decide) rfl, pass_all _ _ _ _ hpost.1]
    simp only [List.append_assoc]
  have d2 : replaceAll "%(time)".toList (timeText now) 0 (pre ++ dateText now ++ mid ++ "%(time)".toList ++ post) =
      pre ++ dateText now ++ mid ++ timeText now ++ post := by
    rw [show "%(time)".toList = '%' :: "(time)".toList from rfl,
      List.append_assoc _ ('%' :: "(time)".toList), pass _ _ _ (pre ++ dateText now ++ mid) _ (by simp [hpre.1, hD, hmid.1]), hit_key,
      pass_all _ _ _ _ hpost.1]
    simp only [List.append_assoc]
  unfold codes
  simp only [List.foldl_cons, List.foldl_nil]
  rw [show pad 4 now.year ++ pad 2 now.month ++ pad 2 now.day = dateText now from rfl, d1,
    show "%(year)".toList = '%' :: "(year)".toList from rfl, k1 _ _ rfl,
    show "%(yr)".toList = '%' :: "(yr)".toList from rfl, k1 _ _ rfl,
    show "%(month)".toList = '%' :: "(month)".toList from rfl, k1 _ _ rfl,
    show "%(day)".toList = '%' :: "(day)".toList from rfl, k1 _ _ rfl,
    show pad 2 now.hour ++ pad 2 now.minute ++ pad 2 now.second = timeText now from rfl, d2,
    show "%(hour)".toList = '%' :: "(hour)".toList from rfl, k2,
    show "%(min)".toList = '%' :: "(min)".toList from rfl, k2,
    show "%(sec)".toList = '%' :: "(sec)".toList from rfl, k2]

theorem formatRe_dated (hpre : Ordinary pre) (hmid : Ordinary mid) (hpost : Ordinary post) :
    formatRe (pre ++ "%(date)".toList ++ mid ++ "%(time)".toList ++ post) =
      pre.map .ch ++ [.digits 8] ++ mid.map .ch ++ [.digits 6] ++ post.map .ch := by
  have k1 : ∀ (key : List Item) (val : List Item),
      (Item.ch '%' :: key).isPrefixOf (Item.ch '%' :: "(time)".toList.map .ch ++ post.map .ch) = false →
      replaceAll (Item.ch '%' :: key) val 0 (pre.map .ch ++ [.digits 8] ++ mid.map .ch ++ "%(time)".toList.map .ch ++ post.map .ch) =
        pre.map .ch ++ [.digits 8] ++ mid.map .ch ++ "%(time)".toList.map .ch ++ post.map .ch := by
    intro key val h
    rw [List.append_assoc _ ("%(time)".toList.map _), pass (Item.ch '%') _ _ (pre.map Item.ch ++ [Item.digits 8] ++ mid.map Item.ch) _ (by simp [hpre.1, hmid.1])]
    show _ ++ replaceAll (Item.ch '%' :: key) val 0 (Item.ch '%' :: "(time)".toList.map .ch ++ post.map .ch) = _
    rw [pass_key _ _ _ _ _ (by decide) h, pass_all _ _ _ _ (ch_mem hpost.1)]
    rfl
  have k2 : ∀ (key : List Item) (val : List Item),
      replaceAll (Item.ch '%' :: key) val 0 (pre.map .ch ++ [.digits 8] ++ mid.map .ch ++ [.digits 6] ++ post.map .ch) =
      pre.map .ch ++ [.digits 8] ++ mid.map .ch ++ [.digits 6] ++ post.map .ch := fun key val => by
    rw [pass_all]
    simp [hpre.1, hmid.1, hpost.1]
  have d1 : replaceAll ("%(date)".toList.map Item.ch) [.digits 8] 0 ((pre ++ "%(date)".toList ++ mid ++ "%(time)".toList ++ post).map .ch) =
      pre.map .ch ++ [.digits 8] ++ mid.map .ch ++ "%(time)".toList.map .ch ++ post.map .ch := by
    rw [show ("%(date)".toList.map Item.ch) = .ch '%' :: "(date)".toList.map .ch from rfl]
    simp only [List.map_append, List.append_assoc]
    rw [pass _ _ _ _ _ (ch_mem hpre.1), show ("%(date)".toList.map Item.ch) = .ch '%' :: "(date)".toList.map .ch from rfl, hit_key,
      pass _ _ _ _ _ (ch_mem hmid.1)]
    rw [show "%(time)".toList.map Item.ch ++ post.map .ch = .ch '%' :: "(time)".toList.map .ch ++ post.map .ch from rfl,
      pass_key _ _ _ _ _ (by decide) rfl, pass_all _ _ _ _ (ch_mem hpost.1)]
  have d2 : replaceAll ("%(time)".toList.map Item.ch) [.digits 6] 0
      (pre.map .ch ++ [.digits 8] ++ mid.map .ch ++ "%(time)".toList.map .ch ++ post.map .ch) =
      pre.map .ch ++ [.digits 8] ++ mid.map .ch ++ [.digits 6] ++ post.map .ch := by
    rw [show ("%(time)".toList.map Item.ch) = .ch '%' :: "(time)".toList.map .ch from rfl,
      List.append_assoc _ (Item.ch '%' :: _), pass (Item.ch '%') _ _ (pre.map Item.ch ++ [Item.digits 8] ++ mid.map Item.ch) _ (by simp [hpre.1, hmid.1]), hit_key,
      pass_all _ _ _ _ (ch_mem hpost.1)]
    simp only [List.append_assoc]
  unfold formatRe codeDigits
  simp only [List.foldl_cons, List.foldl_nil]
  rw [d1,
    show ("%(year)".toList.map Item.ch) = .ch '%' :: "(year)".toList.map .ch from rfl, k1 _ _ rfl,
    show ("%(yr)".toList.map Item.ch) = .ch '%' :: "(yr)".toList.map .ch from rfl, k1 _ _ rfl,
    show ("%(month)".toList.map Item.ch) = .ch '%' :: "(month)".toList.map .ch from rfl, k1 _ _ rfl,
    show ("%(day)".toList.map Item.ch) = .ch '%' :: "(day)".toList.map .ch from rfl, k1 _ _ rfl, d2,
    show ("%(hour)".toList.map Item.ch) = .ch '%' :: "(hour)".toList.map .ch from rfl, k2,
    show ("%(min)".toList.map Item.ch) = .ch '%' :: "(min)".toList.map .ch from rfl, k2,
    show ("%(sec)".toList.map Item.ch) = .ch '%' :: "(sec)".toList.map .ch from rfl, k2,
    show ("%(count)".toList.map Item.ch) = .ch '%' :: "(count)".toList.map .ch from rfl, k2]

/-- Later checkpoints have names which come later. -/
theorem dated_later (pre mid post r : List Char) {a b : Clock} (ha : IsTime a) (hb : IsTime b) (h : Earlier a b) :
    Before (pre ++ dateText a ++ mid ++ timeText a ++ post ++ r) (pre ++ dateText b ++ mid ++ timeText b ++ post) := by
  unfold Earlier at h
  simp only [List.cons_lt_cons_iff] at h
  simp only [dateText, timeText, List.append_assoc]
  refine before_right pre (before_field (by omega) ha.year hb.year (h.imp id (And.imp id fun h => ?_)))
  refine before_field (by omega) ha.month hb.month (h.imp id (And.imp id fun h => ?_))
  refine before_field (by omega) ha.day hb.day (h.imp id (And.imp id fun h => ?_))
  refine before_right mid ?_
  refine before_field (by omega) ha.hour hb.hour (h.imp id (And.imp id fun h => ?_))
  refine before_field (by omega) ha.minute hb.minute (h.imp id (And.imp id fun h => ?_))
  refine before_field (by omega) ha.second hb.second (.inl ?_)
  rcases h with h | h
  · exact h
  · exact absurd h.2 (List.lt_irrefl _)

/-- **C123, names by date and time, partial.** The naming format is a text, `%(date)`, a text, `%(time)`, a text, like the default
one. At first no file of the directory matches it. Then, after any series of checkpoints, some of which fail while they are
saved, the directory holds, of the checkpoints of the series, exactly the latest `keep_past + 1` of those which did not fail,
named after the time when they were made and with what was saved. Everything else in the directory is as at first, and no
successful checkpoint raises an exception. Missing: two checkpoints in the same second (refuted), a clock set back (C35), texts
with dots, question marks and backslashes (C33, C34), failures of the compression (C66). -/
theorem C123_latest_kept_by_time_partial (hpre : Ordinary pre) (hmid : Ordinary mid) (hpost : Ordinary post) (k : Nat) (rf : Bool)
    (as : List Attempt) (ht : ∀ a ∈ as, IsTime a.now) (hup : (succeeded as).Pairwise fun a b => Earlier a.now b.now) (d : Dir)
    (hist : List Name) (hd : (names d).Nodup)
    (h0 : ∀ o ∈ names d, matchesFormat (pre ++ "%(date)".toList ++ mid ++ "%(time)".toList ++ post) o ≠ .ok true) :
    (∀ (i : Nat) (a : Attempt), (succeeded as)[i]? = some a →
      dictGet (attempts (pre ++ "%(date)".toList ++ mid ++ "%(time)".toList ++ post) k rf as d hist).1
          (pre ++ dateText a.now ++ mid ++ timeText a.now ++ post ++ ".tar.gz".toList) =
        if (succeeded as).length ≤ i + k + 1 then some (.file a.content) else none) ∧
    (∀ o, o ≠ ovwName → (∀ a ∈ succeeded as, o ≠ pre ++ dateText a.now ++ mid ++ timeText a.now ++ post ++ ".tar.gz".toList) →
      dictGet (attempts (pre ++ "%(date)".toList ++ mid ++ "%(time)".toList ++ post) k rf as d hist).1 o = dictGet d o) ∧
    ∀ (i : Nat) (a : Attempt), as[i]? = some a → a.fault = none →
      (attempts (pre ++ "%(date)".toList ++ mid ++ "%(time)".toList ++ post) k rf as d hist).2.2[i]? = some (.ok ()) := by
  obtain ⟨fmt, hfmt⟩ : ∃ fmt, fmt = pre ++ "%(date)".toList ++ mid ++ "%(time)".toList ++ post := ⟨_, rfl⟩
  have hre := formatRe_dated hpre hmid hpost
  have hcodes := codes_dated hpre hmid hpost
  rw [← hfmt] at hre hcodes h0 ⊢
  have hcomp : compile (formatRe fmt) = some ((formatRe fmt).map toRe) := by
    refine compile_index ?_ ?_ ?_
    · rw [hre]; simp [List.filter_append, filter_ch]
    · rw [hre]; simp [hpre.2.1, hmid.2.1, hpost.2.1]
    · rw [hre]; simp [hpre.2.2.1, hmid.2.2.1, hpost.2.2.1]
  have hcount : ∀ now v, replaceAll "%(count)".toList v 0 (pre ++ dateText now ++ mid ++ timeText now ++ post) =
      pre ++ dateText now ++ mid ++ timeText now ++ post := fun now v => by
    rw [show "%(count)".toList = '%' :: "(count)".toList from rfl, pass_all]
    simp [hpre.1, hmid.1, hpost.1, no_percent (digits_date now), no_percent (digits_time now)]
  have hfits : ∀ now, IsTime now → ∀ rest, matchesFormat fmt (pre ++ dateText now ++ mid ++ timeText now ++ post ++ rest) = .ok true := by
    intro now hnow rest
    have hr := name_rel (fmt := fmt) hnow (n := 0) (by omega)
    rw [hcodes, hcount] at hr
    obtain ⟨r, h1, -⟩ := matchRe_rel hr rest
    rw [matchesFormat, hcomp]
    simp only [h1, Option.isSome_some]
  have hdg : ∀ {l : List Char}, (∀ c ∈ l, isDigit c = true) → '.' ∉ l := fun h hm => by
    have := h _ hm
    revert this; decide
  have hdot : ∀ now, '.' ∉ pre ++ dateText now ++ mid ++ timeText now ++ post := fun now => by
    simp [hpre.2.2.2, hmid.2.2.2, hpost.2.2.2, hdg (digits_date now), hdg (digits_time now)]
  have hov : matchesFormat fmt ovwName = .ok false := by
    rw [matchesFormat, hcomp]
    simp only
    rw [no_digits _ (.inr ⟨8, by omega, by rw [hre]; simp⟩) _ ovw_digits]
    rfl
  have h0' : ∀ o, matchesFormat fmt o = .ok true → dictGet d o = none := by
    intro o ho
    cases hg : dictGet d o with
    | none => rfl
    | some n => exact absurd ho (h0 o (mem_names.mpr (by rw [hg]; rfl)))
  have hin : ∀ a ∈ succeeded as, IsTime a.now := fun a h => ht a (List.mem_filter.mp h).1
  have hmem : ∀ (i : Nat) p, (made (dated pre mid post) 0 as)[i]? = some p → ∃ a, (succeeded as)[i]? = some a ∧
      p.1 = pre ++ dateText a.now ++ mid ++ timeText a.now ++ post := by
    intro i p hp
    rw [made_get] at hp
    obtain ⟨a, ha, rfl⟩ := Option.map_eq_some_iff.mp hp
    exact ⟨a, ha, rfl⟩
  have R : Row fmt (made (dated pre mid post) 0 as) := by
    refine ⟨fun p hp => ?_, fun p hp => ?_, fun i j p q hij hp hq => ?_⟩
    · obtain ⟨i, hi⟩ := List.mem_iff_getElem?.mp hp
      obtain ⟨a, -, h⟩ := hmem i p hi
      rw [h]; exact hdot _
    · obtain ⟨i, hi⟩ := List.mem_iff_getElem?.mp hp
      obtain ⟨a, ha, h⟩ := hmem i p hi
      rw [h, tarName, stem_nodot (hdot _)]
      have := hfits a.now (hin a (List.mem_of_getElem? ha))
      exact ⟨by simpa using this [], this _⟩
    · obtain ⟨a, ha, h⟩ := hmem i p hp
      obtain ⟨b, hb, h'⟩ := hmem j q hq
      rw [h, h', tarName, stem_nodot (hdot _)]
      refine dated_later _ _ _ _ (hin a (List.mem_of_getElem? ha)) (hin b (List.mem_of_getElem? hb)) ?_
      obtain ⟨hi, rfl⟩ := List.getElem?_eq_some_iff.mp ha
      obtain ⟨hj, rfl⟩ := List.getElem?_eq_some_iff.mp hb
      exact List.pairwise_iff_getElem.mp hup i j hi hj hij
  obtain ⟨h1, h2, h3⟩ := series_end (N := dated pre mid post) (B := (succeeded as).length + 1) rf as d hist ht hd h0' hov R (by omega)
    (fun i a _ ht => ⟨hdot _, by simpa [dated] using hfits a.now ht []⟩) (by
      intro l r a d' hT hta K
      cases hes : names d' with
      | nil => exact ⟨0, by simp only [getName, hcodes, hcount, dated]⟩
      | cons e t => exact ⟨_, by simp only [getName, hcomp, hcodes, hcount, dated]; rfl⟩)
  refine ⟨fun i a h => h1 i a h, fun o ho hm => h2 o ho fun i a h => hm a (List.mem_of_getElem? h), h3⟩

/-! ### Examples -/

/-- One second later. -/
def noon1 : Clock := ⟨2026, 11, 16, 12, 1, 0⟩

/-- The next year. -/
def noon2 : Clock := ⟨2027, 1, 1, 0, 0, 0⟩

/-- Three checkpoints and one which fails. -/
def four : List Attempt := [⟨noon, 1, none⟩, ⟨noon1, 2, none⟩, ⟨noon1, 3, some (.checkpointingError, false)⟩, ⟨noon2, 4, none⟩]

example : Ordinary "chk_".toList ∧ Ordinary "".toList ∧ Ordinary "glompo_checkpoint_".toList ∧ Ordinary "_".toList := by decide

example : (∀ a ∈ four, IsTime a.now) ∧ (succeeded four).length = 3 ∧ ((succeeded four).Pairwise fun a b => Earlier a.now b.now) := by
  refine ⟨?_, by decide, by decide⟩
  intro a ha
  simp only [four, List.mem_cons, List.not_mem_nil, or_false] at ha
  rcases ha with rfl | rfl | rfl | rfl <;> exact ⟨by decide, by decide, by decide, by decide, by decide, by decide⟩

/-- With `keep_past = 1` the first one is gone in the end; the file of the user stays. -/
example : (attempts "chk_%(count)".toList 1 false four [("notes.txt".toList, .file 9)] []).1 =
    [("notes.txt".toList, .file 9), ("chk_001.tar.gz".toList, .file 2), ("chk_002.tar.gz".toList, .file 4)] := by decide +kernel

example : (attempts "glompo_checkpoint_%(date)_%(time)".toList 1 false four [("notes.txt".toList, .file 9)] []).1 =
    [("notes.txt".toList, .file 9), ("glompo_checkpoint_20261116_120100.tar.gz".toList, .file 2),
     ("glompo_checkpoint_20270101_000000.tar.gz".toList, .file 4)] := by decide +kernel

/-- **C123, refuted part.** With the default naming format two checkpoints made in the same second have the same name: although one
past checkpoint was to be kept, the first one is gone. -/
theorem C123_same_second_refuted :
    (attempts "glompo_checkpoint_%(date)_%(time)".toList 1 false [⟨noon, 1, none⟩, ⟨noon, 2, none⟩] [] []).1 =
      [("glompo_checkpoint_20261116_120059.tar.gz".toList, .file 2)] := by decide +kernel

end Glompo.Props
