import Verif.Spec.Redirect
import Verif.Lemmas.Basic

/-!
# C54, C77: print redirection of threads
-/

namespace Glompo.Props

open Glompo Glompo.Redirect Glompo.Spec.Redirect

namespace RedirectInv

/-- What the state looks like, in terms of the redirections in force `cur`, the messages being written `sd`, the texts `txt` of files and `str`
of the stream, and the files registered. -/
structure Inv (cur : Tid → Option Path) (sd : Tid → Option (List Char)) (txt : Path → List Char) (str : List Char) (rg : List Path)
    (σ : State) : Prop where
  now : ∀ t p, cur t = some p ↔ ∃ h, dictGet σ.threads t = some h ∧ h.closed = false ∧ h.path = p
  file : ∀ t h, dictGet σ.threads t = some h → h.path ∈ rg ∧ h.pos = (σ.disk h.path).length ∧ σ.disk h.path ++ h.buf = txt h.path ∧
    (h.closed = true → h.buf = [])
  inj : ∀ t u h k, dictGet σ.threads t = some h → dictGet σ.threads u = some k → h.path = k.path → t = u
  old : ∀ p ∈ rg, (∀ t h, dictGet σ.threads t = some h → h.path ≠ p) → σ.disk p = txt p
  pend : ∀ t m, sd t = some m → σ.pend t = some ((cur t).isSome, m)
  str : σ.stream = str
  ok : Err.valueError ∉ σ.raised

theorem place_end (d b : List Char) : place d d.length b = d ++ b := by
  simp [place]

variable {cur : Tid → Option Path} {sd : Tid → Option (List Char)} {txt : Path → List Char} {str : List Char} {rg : List Path} {σ : State}

theorem flushDisk_self (h : Handle) (hp : h.pos = (σ.disk h.path).length) : flushDisk σ.disk h h.path = σ.disk h.path ++ h.buf := by
  unfold flushDisk
  split
  · rename_i hb; simp [hb]
  · simp [setDisk, hp, place_end]

theorem flushDisk_ne (disk : Path → List Char) (h : Handle) {p : Path} (hp : p ≠ h.path) : flushDisk disk h p = disk p := by
  unfold flushDisk
  split
  · rfl
  · simp [setDisk, hp]

/-- A file is flushed and perhaps closed. -/
theorem Inv.flush (I : Inv cur sd txt str rg σ) {t : Tid} {h : Handle} (ht : dictGet σ.threads t = some h) (c : Bool)
    (hc : h.closed = true → c = true) {cur' : Tid → Option Path} {sd' : Tid → Option (List Char)}
    (hcur : ∀ u, cur' u = if u = t ∧ c = true then none else cur u)
    (hsd : ∀ u m, sd' u = some m → sd u = some m ∧ cur' u = cur u) :
    Inv cur' sd' txt str rg { σ with threads := dictSet σ.threads t { flushed h with closed := c }, disk := flushDisk σ.disk h } := by
  obtain ⟨f1, f2, f3, f4⟩ := I.file t h ht
  refine ⟨fun u p => ?_, fun u k hk => ?_, fun u v k l hk hl e => ?_, fun p hp hn => ?_, fun u m hm => ?_, I.str, I.ok⟩
  · rw [hcur u]
    simp only [dictGet_set]
    by_cases hu : u = t
    · subst hu
      simp only [true_and, if_true, Option.some.injEq]
      cases c with
      | true => simp
      | false =>
        simp only [Bool.false_eq_true, if_false]
        have h0 : h.closed = false := by cases hh : h.closed <;> simp_all
        rw [I.now u p, ht]
        simp only [Option.some.injEq]
        constructor
        · rintro ⟨k, rfl, _, e⟩; exact ⟨_, rfl, rfl, e⟩
        · rintro ⟨k, rfl, _, e⟩; exact ⟨_, rfl, h0, e⟩
    · simp only [hu, false_and, if_false]
      exact I.now u p
  · simp only [dictGet_set] at hk
    by_cases hu : u = t
    · subst hu
      simp only [if_true, Option.some.injEq] at hk
      subst hk
      refine ⟨f1, ?_, ?_, fun _ => rfl⟩
      · show h.pos + h.buf.length = (flushDisk σ.disk h h.path).length
        rw [flushDisk_self h f2, f2, List.length_append]
      · show flushDisk σ.disk h h.path ++ [] = txt h.path
        rw [flushDisk_self h f2, List.append_nil, f3]
    · simp only [hu, if_false] at hk
      have hne : k.path ≠ h.path := fun e => hu (I.inj u t k h hk ht e)
      simp only [flushDisk_ne σ.disk h hne]
      exact I.file u k hk
  · simp only [dictGet_set] at hk hl
    by_cases hu : u = t <;> by_cases hv : v = t
    · rw [hu, hv]
    · simp only [hu, if_true, Option.some.injEq] at hk
      simp only [hv, if_false] at hl
      subst hk
      rw [hu]; exact I.inj t v h l ht hl e
    · simp only [hv, if_true, Option.some.injEq] at hl
      simp only [hu, if_false] at hk
      subst hl
      rw [hv]; exact I.inj u t k h hk ht e
    · simp only [hu, if_false] at hk
      simp only [hv, if_false] at hl
      exact I.inj u v k l hk hl e
  · have hne : p ≠ h.path := by
      intro e
      exact hn t { flushed h with closed := c } (by simp) e.symm
    show flushDisk σ.disk h p = txt p
    rw [flushDisk_ne σ.disk h hne]
    refine I.old p hp fun u k hk => ?_
    by_cases hu : u = t
    · subst hu
      rw [ht] at hk; cases hk; exact hne.symm
    · exact hn u k (by rw [dictGet_set_ne _ _ hu]; exact hk)
  · obtain ⟨a, b⟩ := hsd u m hm
    show σ.pend u = _
    rw [I.pend u m a, b]

theorem Inv.closeOne (I : Inv cur sd txt str rg σ) (t : Tid) {cur' : Tid → Option Path} {sd' : Tid → Option (List Char)}
    (hcur : ∀ u, cur' u = if u = t then none else cur u) (hsd : ∀ u m, sd' u = some m → sd u = some m ∧ cur' u = cur u) :
    Inv cur' sd' txt str rg (Redirect.closeOne σ t) := by
  unfold Redirect.closeOne
  cases ht : dictGet σ.threads t with
  | some h => exact I.flush ht true (fun _ => rfl) (fun u => by rw [hcur u]; simp) hsd
  | none =>
    have hn : cur t = none := by
      cases hc : cur t with
      | none => rfl
      | some p => obtain ⟨h, h1, _⟩ := (I.now t p).1 hc; rw [ht] at h1; cases h1
    have : cur' = cur := by
      funext u; rw [hcur u]; split
      · rename_i e; rw [e, hn]
      · rfl
    exact ⟨by rw [this]; exact I.now, I.file, I.inj, I.old, fun u m hm => by rw [this]; exact I.pend u m (hsd u m hm).1, I.str, I.ok⟩

theorem closeOne_keys (σ : State) (t : Tid) : (Redirect.closeOne σ t).threads.map (·.1) = σ.threads.map (·.1) := by
  unfold Redirect.closeOne
  split
  · rfl
  · rename_i h hh
    have : t ∈ σ.threads.map (·.1) := (dictGet_isSome_iff σ.threads t).1 (by rw [hh]; rfl)
    rw [dictSet_keys, if_pos this]

theorem Inv.foldClose (ks : List Tid) : ∀ {cur : Tid → Option Path} {σ : State}, Inv cur (fun _ => none) txt str rg σ →
    Inv (fun u => if u ∈ ks then none else cur u) (fun _ => none) txt str rg (ks.foldl Redirect.closeOne σ) := by
  induction ks with
  | nil => intro cur σ I; simpa using I
  | cons k ks ih =>
    intro cur σ I
    have h1 := I.closeOne k (cur' := fun u => if u = k then none else cur u) (sd' := fun _ => none) (fun _ => rfl) (by intro u m h; cases h)
    have h2 := ih h1
    rw [List.foldl_cons]
    have e : (fun u => if u ∈ k :: ks then none else cur u) = fun u => if u ∈ ks then none else if u = k then none else cur u := by
      funext u
      by_cases a : u ∈ ks <;> by_cases b : u = k <;> simp [a, b]
    rw [e]; exact h2

theorem Inv.closeAll (I : Inv cur sd txt str rg σ) : Inv (fun _ => none) (fun _ => none) txt str rg (Redirect.closeAll σ) := by
  have h0 : Inv cur (fun _ => none) txt str rg σ := ⟨I.now, I.file, I.inj, I.old, fun t m h => (by cases h), I.str, I.ok⟩
  have := h0.foldClose (σ.threads.map (·.1))
  unfold Redirect.closeAll
  have e : (fun u => if u ∈ σ.threads.map (·.1) then none else cur u) = fun _ => none := by
    funext u
    split
    · rfl
    · rename_i hu
      cases hc : cur u with
      | none => rfl
      | some p =>
        obtain ⟨h, h1, _⟩ := (I.now u p).1 hc
        exact absurd ((dictGet_isSome_iff σ.threads u).1 (by rw [h1]; rfl)) hu
  rw [e] at this
  exact this

theorem said_close {c : Option Tid} {h : List Op} {t : Tid} {m : List Char} (hs : said (.close c :: h) t = some m) :
    said h t = some m ∧ current (.close c :: h) t = current h t := by
  simp only [said] at hs
  split at hs
  · cases hs
  · rename_i hn
    exact ⟨hs, by simp [current, hn]⟩

theorem current_mem (h : List Op) (t : Tid) (p : Path) (hc : current h t = some p) : p ∈ regs h := by
  induction h with
  | nil => cases hc
  | cons o h ih =>
    cases o with
    | register u q =>
      simp only [current] at hc
      split at hc
      · cases hc; exact List.mem_cons_self
      · exact List.mem_cons_of_mem _ (ih hc)
    | close c => simp only [current] at hc; split at hc; cases hc; exact ih hc
    | look u m => simp only [current] at hc; split at hc; cases hc; exact ih hc
    | put u => simp only [current] at hc; split at hc; cases hc; exact ih hc
    | flush u => simp only [current] at hc; split at hc; cases hc; exact ih hc

theorem fileText_unreg (h : List Op) (p : Path) (hp : p ∉ regs h) : fileText p h = [] := by
  induction h with
  | nil => rfl
  | cons o h ih =>
    cases o with
    | register u q => exact ih fun hm => hp (List.mem_cons_of_mem _ hm)
    | put u =>
      have : current h u ≠ some p := fun hc => hp (current_mem h u p hc)
      simp only [fileText, this, if_false, List.append_nil]
      exact ih hp
    | close c => exact ih hp
    | look u m => exact ih hp
    | flush u => exact ih hp

theorem not_closes_look (u t : Tid) (m : List Char) : ¬ Closes (.look u m) t := by simp [Closes]
theorem not_closes_put (u t : Tid) : ¬ Closes (.put u) t := by simp [Closes]
theorem not_closes_flush (u t : Tid) : ¬ Closes (.flush u) t := by simp [Closes]

theorem inv (disk : Path → List Char) : ∀ h : List Op, Once h → Calm h →
    Inv (current h) (said h) (fun p => fileText p h) (streamText h) (regs h) (after disk h)
  | [], _, _ => ⟨by simp [current, after], by simp [after], by simp [after], by simp [regs], by simp [said], rfl, by simp [after]⟩
  | .register t p :: h, ho, hc => by
    obtain ⟨hp, ho⟩ := List.nodup_cons.1 ho
    have I := inv disk h ho hc
    have hne : ∀ u k, dictGet (after disk h).threads u = some k → k.path ≠ p := fun u k hk e => hp (e ▸ (I.file u k hk).1)
    have hdisk : ∀ q, q ≠ p → (∀ k, dictGet (after disk h).threads t = some k → q ≠ k.path) →
        collect (setDisk (after disk h).disk p []) (dictGet (after disk h).threads t) q = (after disk h).disk q := by
      intro q h1 h2
      cases ht : dictGet (after disk h).threads t with
      | none => simp [collect, setDisk, h1]
      | some k => simp [collect, flushDisk_ne _ _ (h2 k ht), setDisk, h1]
    have hdp : collect (setDisk (after disk h).disk p []) (dictGet (after disk h).threads t) p = [] := by
      cases ht : dictGet (after disk h).threads t with
      | none => simp [collect, setDisk]
      | some k => simp [collect, flushDisk_ne _ _ (hne t k ht).symm, setDisk]
    refine ⟨fun u q => ?_, fun u k hk => ?_, fun u v k l hk hl e => ?_, fun q hq hn => ?_, fun u m hm => ?_, I.str, I.ok⟩
    · simp only [current, after, step, Redirect.register, dictGet_set]
      by_cases hu : u = t
      · subst hu
        simp only [if_true, Option.some.injEq]
        constructor
        · rintro rfl; exact ⟨_, rfl, rfl, rfl⟩
        · rintro ⟨k, rfl, _, e⟩; exact e
      · rw [if_neg (fun e => hu e.symm)]
        simp only [hu, if_false]
        exact I.now u q
    · simp only [after, step, Redirect.register, dictGet_set] at hk ⊢
      by_cases hu : u = t
      · subst hu
        simp only [if_true, Option.some.injEq] at hk
        subst hk
        refine ⟨List.mem_cons_self, ?_, ?_, fun _ => rfl⟩
        · simp [hdp]
        · simp only [hdp, List.append_nil]
          exact (fileText_unreg h p hp).symm
      · simp only [hu, if_false] at hk
        have := hdisk k.path (hne u k hk) (fun k' hk' e => hu (I.inj u t k k' hk hk' e))
        simp only [this]
        obtain ⟨f1, f2, f3, f4⟩ := I.file u k hk
        exact ⟨List.mem_cons_of_mem _ f1, f2, f3, f4⟩
    · simp only [after, step, Redirect.register, dictGet_set] at hk hl
      by_cases hu : u = t <;> by_cases hv : v = t
      · rw [hu, hv]
      · simp only [hu, if_true, Option.some.injEq] at hk
        simp only [hv, if_false] at hl
        subst hk
        exact absurd e.symm (hne v l hl)
      · simp only [hv, if_true, Option.some.injEq] at hl
        simp only [hu, if_false] at hk
        subst hl
        exact absurd e (hne u k hk)
      · simp only [hu, if_false] at hk
        simp only [hv, if_false] at hl
        exact I.inj u v k l hk hl e
    · have hqp : q ≠ p := fun e => hn t { path := p } (by simp [after, step, Redirect.register]) e.symm
      have hq : q ∈ regs h := by simpa [regs, hqp] using hq
      simp only [after, step, Redirect.register]
      show _ = fileText q h
      cases ht : dictGet (after disk h).threads t with
      | none =>
        simp only [collect, setDisk, hqp, if_false]
        refine I.old q hq fun u k hk => ?_
        by_cases hu : u = t
        · subst hu; rw [ht] at hk; cases hk
        · exact hn u k (by simp only [after, step, Redirect.register]; rw [dictGet_set_ne _ _ hu]; exact hk)
      | some k =>
        obtain ⟨f1, f2, f3, f4⟩ := I.file t k ht
        by_cases hk : q = k.path
        · subst hk
          have := f3
          simp only [collect, flushDisk]
          split
          · rename_i hb
            simp only [setDisk, hqp, if_false]
            rw [hb, List.append_nil] at f3
            exact f3
          · simp only [setDisk, if_true, hqp, if_false, f2, place_end]
            exact f3
        · rw [show collect (setDisk (after disk h).disk p []) (some k) q = (after disk h).disk q by
            simp [collect, flushDisk_ne _ _ hk, setDisk, hqp]]
          refine I.old q hq fun u k' hk' => ?_
          by_cases hu : u = t
          · subst hu; rw [ht] at hk'; cases hk'; exact Ne.symm hk
          · exact hn u k' (by simp only [after, step, Redirect.register]; rw [dictGet_set_ne _ _ hu]; exact hk')
    · simp only [said] at hm
      split at hm
      · cases hm
      · rename_i hu
        simp only [current, hu, if_false]
        exact I.pend u m hm
  | .look t m :: h, ho, hc => by
    have I := inv disk h ho hc
    have hcur : current (.look t m :: h) = current h := by funext u; simp [current, not_closes_look]
    refine ⟨by rw [hcur]; exact I.now, I.file, I.inj, I.old, fun u m' hm => ?_, I.str, I.ok⟩
    rw [hcur]
    simp only [said] at hm
    simp only [after, step, setPend]
    by_cases hu : u = t
    · subst hu
      simp only [if_true, Option.some.injEq] at hm ⊢
      subst hm
      simp only [Prod.mk.injEq, and_true]
      unfold chosen
      cases hcu : current h u with
      | some p =>
        obtain ⟨k, h1, h2, _⟩ := (I.now u p).1 hcu
        simp [h1, h2]
      | none =>
        split
        · rename_i k hk
          cases hkc : k.closed with
          | true => rfl
          | false => rw [(I.now u k.path).2 ⟨k, hk, hkc, rfl⟩] at hcu; cases hcu
        · rfl
    · simp only [hu, if_false, Ne.symm hu] at hm ⊢
      exact I.pend u m' hm
  | .put t :: h, ho, hc => by
    have I := inv disk h ho hc.2
    have hcur : current (.put t :: h) = current h := by funext u; simp [current, not_closes_put]
    obtain ⟨m, hm⟩ := Option.isSome_iff_exists.1 hc.1
    have hpend := I.pend t m hm
    simp only [after, step, Redirect.put, hpend]
    cases hcu : current h t with
    | none =>
      simp only [Option.isSome_none]
      refine ⟨by rw [hcur]; exact I.now, ?_, I.inj, ?_, ?_, ?_, I.ok⟩
      · intro u k hk
        obtain ⟨f1, f2, f3, f4⟩ := I.file u k hk
        exact ⟨f1, f2, by simp only [fileText, hcu, reduceCtorEq, if_false, List.append_nil]; exact f3, f4⟩
      · intro p hp hn
        simp only [fileText, hcu, reduceCtorEq, if_false, List.append_nil]
        exact I.old p hp hn
      · intro u m' hm'
        simp only [said] at hm'
        split at hm'
        · cases hm'
        · rename_i hu
          rw [hcur]
          simp only [setPend, Ne.symm hu, if_false]
          exact I.pend u m' hm'
      · simp only [streamText, hcu, if_true, hm, Option.getD_some, I.str]
    | some p =>
      obtain ⟨k, h1, h2, h3⟩ := (I.now t p).1 hcu
      simp only [Option.isSome_some, h1, h2, Bool.false_eq_true, if_false]
      refine ⟨?_, ?_, ?_, ?_, ?_, ?_, I.ok⟩
      · intro u q
        rw [hcur, I.now u q]
        simp only [dictGet_set]
        by_cases hu : u = t
        · subst hu
          simp only [if_true, h1, Option.some.injEq]
          constructor
          · rintro ⟨_, rfl, a, b⟩; exact ⟨_, rfl, rfl, b⟩
          · rintro ⟨_, rfl, a, b⟩; exact ⟨_, rfl, h2, b⟩
        · simp only [hu, if_false]
      · intro u k' hk'
        simp only [dictGet_set] at hk'
        by_cases hu : u = t
        · subst hu
          simp only [if_true, Option.some.injEq] at hk'
          subst hk'
          obtain ⟨f1, f2, f3, f4⟩ := I.file u k h1
          refine ⟨f1, f2, ?_, fun hcl => by cases hcl⟩
          simp only [fileText, hcu, h3, if_true, hm, Option.getD_some]
          rw [← List.append_assoc]
          congr 1
          rw [← h3]; exact f3
        · simp only [hu, if_false] at hk'
          obtain ⟨f1, f2, f3, f4⟩ := I.file u k' hk'
          refine ⟨f1, f2, ?_, f4⟩
          have : some p ≠ some k'.path := fun e => hu (I.inj u t k' k hk' h1 (by rw [h3]; exact (Option.some.inj e).symm))
          simp only [fileText, hcu, this, if_false, List.append_nil]
          exact f3
      · intro u v k1 k2 hk hl e
        simp only [dictGet_set] at hk hl
        by_cases hu : u = t <;> by_cases hv : v = t
        · rw [hu, hv]
        · simp only [hu, if_true, Option.some.injEq] at hk
          simp only [hv, if_false] at hl
          subst hk
          rw [hu]; exact I.inj t v k k2 h1 hl e
        · simp only [hv, if_true, Option.some.injEq] at hl
          simp only [hu, if_false] at hk
          subst hl
          rw [hv]; exact I.inj u t k1 k hk h1 e
        · simp only [hu, if_false] at hk
          simp only [hv, if_false] at hl
          exact I.inj u v k1 k2 hk hl e
      · intro q hq hn
        have hne : some p ≠ some q := fun e => by
          cases e
          exact hn t { k with buf := k.buf ++ m } (by simp [h2]) h3
        simp only [fileText, hcu, hne, if_false, List.append_nil]
        refine I.old q hq fun u k' hk' => ?_
        by_cases hu : u = t
        · subst hu
          rw [h1] at hk'; cases hk'
          rw [h3]; exact fun e => hne (by rw [e])
        · exact hn u k' (by simp only; rw [dictGet_set_ne _ _ hu]; exact hk')
      · intro u m' hm'
        simp only [said] at hm'
        split at hm'
        · cases hm'
        · rename_i hu
          rw [hcur]
          simp only [setPend, Ne.symm hu, if_false]
          exact I.pend u m' hm'
      · simp only [streamText, hcu, reduceCtorEq, if_false, List.append_nil]
        exact I.str
  | .flush t :: h, ho, hc => by
    have I := inv disk h ho hc
    have hcur : current (.flush t :: h) = current h := by funext u; simp [current, not_closes_flush]
    have hsd : said (.flush t :: h) = said h := by funext u; simp [said]
    simp only [after, step, flushOf]
    rw [hcur, hsd]
    cases ht : dictGet (after disk h).threads t with
    | none => exact I
    | some k =>
      have := I.flush ht k.closed (fun e => e) (cur' := fun u => if u = t ∧ k.closed = true then none else current h u) (sd' := said h)
        (fun _ => rfl) (fun u m hm => ⟨hm, by
          split
          · rename_i e
            cases hcu : current h u with
            | none => rfl
            | some p =>
              obtain ⟨k', a, b, _⟩ := (I.now u p).1 hcu
              rw [e.1, ht] at a; cases a; rw [e.2] at b; cases b
          · rfl⟩)
      have e : (fun u => if u = t ∧ k.closed = true then none else current h u) = current h := by
        funext u
        split
        · rename_i e
          cases hcu : current h u with
          | none => rfl
          | some p =>
            obtain ⟨k', a, b, _⟩ := (I.now u p).1 hcu
            rw [e.1, ht] at a; cases a; rw [e.2] at b; cases b
        · rfl
      rw [e] at this
      exact this
  | .close c :: h, ho, hc => by
    have I := inv disk h ho hc
    have hall : Inv (fun _ => none) (fun _ => none) (fun p => fileText p h) (streamText h) (regs h) (Redirect.closeAll (after disk h)) := I.closeAll
    simp only [after, step, Redirect.close]
    cases c with
    | none =>
      have h1 : current (.close none :: h) = fun _ => none := by funext u; simp [current, Closes]
      have h2 : said (.close none :: h) = fun _ => none := by funext u; simp [said, Closes]
      rw [h1, h2]; exact hall
    | some t =>
      simp only
      by_cases h0 : t = 0
      · subst h0
        have h1 : current (.close (some 0) :: h) = fun _ => none := by funext u; simp [current, Closes]
        have h2 : said (.close (some 0) :: h) = fun _ => none := by funext u; simp [said, Closes]
        rw [h1, h2, if_pos rfl]; exact hall
      · rw [if_neg h0]
        have hcur : ∀ u, current (.close (some t) :: h) u = if u = t then none else current h u := by
          intro u
          simp only [current, Closes, Op.close.injEq, Option.some.injEq, h0, reduceCtorEq, or_false, false_or]
          by_cases hu : u = t
          · simp [hu]
          · simp [hu, Ne.symm hu]
        have := I.closeOne t hcur (sd' := said (.close (some t) :: h)) (fun u m hm => said_close hm)
        split
        · exact this
        · rename_i hn
          have hno : dictGet (after disk h).threads t = none := by
            cases hd : dictGet (after disk h).threads t with
            | none => rfl
            | some _ => rw [hd] at hn; exact absurd rfl hn
          unfold Redirect.closeOne at this
          rw [hno] at this
          simp only at this
          exact ⟨this.now, this.file, this.inj, this.old, this.pend, this.str, by
            simp only [List.mem_cons, not_or]; exact ⟨by decide, this.ok⟩⟩

end RedirectInv

open RedirectInv

/-- **C54 (files).** If no file is registered twice and no file is closed under a thread that is writing, then the file holds exactly what was
printed while it was in use, in order: on disk as soon as nobody is redirected to it any more, and until then what is on disk is a beginning
of it. -/
theorem C54_files_partial (disk : Path → List Char) (h : List Op) (ho : Once h) (hc : Calm h) (p : Path) (hp : p ∈ regs h) :
    (∃ held, (after disk h).disk p ++ held = fileText p h) ∧ ((∀ t, current h t ≠ some p) → (after disk h).disk p = fileText p h) := by
  have I := inv disk h ho hc
  by_cases hx : ∃ t k, dictGet (after disk h).threads t = some k ∧ k.path = p
  · obtain ⟨t, k, hk, rfl⟩ := hx
    obtain ⟨f1, f2, f3, f4⟩ := I.file t k hk
    refine ⟨⟨k.buf, f3⟩, fun hn => ?_⟩
    have : k.closed = true := by
      cases hkc : k.closed with
      | true => rfl
      | false => exact absurd ((I.now t k.path).2 ⟨k, hk, hkc, rfl⟩) (hn t)
    rw [f4 this, List.append_nil] at f3
    exact f3
  · have := I.old p hp fun t k hk e => hx ⟨t, k, hk, e⟩
    exact ⟨⟨[], by rw [List.append_nil, this]⟩, fun _ => this⟩

/-- **C54 (stream).** What other threads print goes to the original stream, in order; nothing is refused. -/
theorem C54_stream_partial (disk : Path → List Char) (h : List Op) (ho : Once h) (hc : Calm h) :
    (after disk h).stream = streamText h ∧ Err.valueError ∉ (after disk h).raised :=
  ⟨(inv disk h ho hc).str, (inv disk h ho hc).ok⟩

/-- **C54 (isolation).** A file registered once is never in use by two threads. -/
theorem C54_isolated (h : List Op) (ho : Once h) (p : Path) (t u : Tid) (ht : current h t = some p) (hu : current h u = some p) : t = u := by
  induction h with
  | nil => cases ht
  | cons o h ih =>
    cases o with
    | register v q =>
      obtain ⟨hq, ho⟩ := List.nodup_cons.1 ho
      simp only [current] at ht hu
      split at ht <;> split at hu
      · rename_i e1 e2; rw [← e1, ← e2]
      · cases ht; exact absurd (current_mem h u _ hu) hq
      · cases hu; exact absurd (current_mem h t _ ht) hq
      · exact ih ho ht hu
    | close c =>
      simp only [current] at ht hu
      split at ht; · cases ht
      split at hu; · cases hu
      exact ih ho ht hu
    | look v m => simp only [current, not_closes_look, if_false] at ht hu; exact ih ho ht hu
    | put v => simp only [current, not_closes_put, if_false] at ht hu; exact ih ho ht hu
    | flush v => simp only [current, not_closes_flush, if_false] at ht hu; exact ih ho ht hu

/-- **C54 (other files).** Files that are not registered are left as they are. -/
theorem C54_untouched (disk : Path → List Char) (h : List Op) (ho : Once h) (hc : Calm h) (p : Path) (hp : p ∉ regs h) :
    (after disk h).disk p = disk p := by
  have hall : ∀ (ks : List Tid) (σ : State), (∀ t k, dictGet σ.threads t = some k → k.path ≠ p) →
      (ks.foldl closeOne σ).disk p = σ.disk p ∧ ∀ t k, dictGet (ks.foldl closeOne σ).threads t = some k → k.path ≠ p := by
    intro ks
    induction ks with
    | nil => intro σ h; exact ⟨rfl, h⟩
    | cons k ks ih =>
      intro σ hσ
      rw [List.foldl_cons]
      have h1 : (closeOne σ k).disk p = σ.disk p ∧ ∀ t l, dictGet (closeOne σ k).threads t = some l → l.path ≠ p := by
        unfold closeOne
        cases hk : dictGet σ.threads k with
        | none => exact ⟨rfl, hσ⟩
        | some l =>
          refine ⟨flushDisk_ne _ _ (hσ k l hk).symm, fun t l' hl => ?_⟩
          simp only [dictGet_set] at hl
          split at hl
          · cases hl; exact hσ k l hk
          · exact hσ t l' hl
      obtain ⟨a, b⟩ := ih _ h1.2
      exact ⟨a.trans h1.1, b⟩
  induction h with
  | nil => rfl
  | cons o h ih =>
    have hpath : ∀ (ho : Once h) (hc : Calm h), p ∉ regs h → ∀ t k, dictGet (after disk h).threads t = some k → k.path ≠ p :=
      fun ho hc hp t k hk e => hp (e ▸ ((inv disk h ho hc).file t k hk).1)
    cases o with
    | register v q =>
      obtain ⟨hq, ho⟩ := List.nodup_cons.1 ho
      simp only [regs, List.mem_cons, not_or] at hp
      have := ih ho hc hp.2
      simp only [after, step, Redirect.register]
      cases hd : dictGet (after disk h).threads v with
      | none => simp [collect, setDisk, hp.1, this]
      | some k => simp [collect, flushDisk_ne _ _ (hpath ho hc hp.2 v k hd).symm, setDisk, hp.1, this]
    | look v m => exact ih ho hc hp
    | put v =>
      have := ih ho hc.2 hp
      simp only [after, step, Redirect.put]
      split
      · exact this
      · exact this
      · split
        · exact this
        · split <;> exact this
    | flush v =>
      have := ih ho hc hp
      simp only [after, step, flushOf]
      split
      · exact this
      · rename_i k hk; simp only [flushDisk_ne _ _ (hpath ho hc hp v k hk).symm]; exact this
    | close c =>
      have := ih ho hc hp
      simp only [after, step, Redirect.close]
      have h1 := (hall ((after disk h).threads.map (·.1)) _ (hpath ho hc hp)).1
      cases c with
      | none => exact h1.trans this
      | some t =>
        simp only
        split
        · exact h1.trans this
        · split
          · have h2 := (hall [t] _ (hpath ho hc hp)).1
            exact h2.trans this
          · exact this

/-- Two optimizers and the main thread print at the same time; the second optimizer ends. -/
def trace0 : List Op :=
  [.close (some 8), .put 7, .put 1, .put 8, .flush 8, .look 8 ['c'], .look 1 ['x'], .look 7 ['d'], .put 8, .put 7, .look 7 ['a'], .look 8 ['b'],
   .register 8 (2, "out"), .register 7 (1, "out")]

example : Once trace0 ∧ Calm trace0 := by
  refine ⟨by unfold Once; decide +kernel, ?_⟩
  simp [trace0, Calm, said]

example : fileText (1, "out") trace0 = ['a', 'd'] ∧ fileText (2, "out") trace0 = ['b', 'c'] ∧ streamText trace0 = ['x'] ∧
    (after (fun _ => ['o', 'l', 'd']) trace0).disk (2, "out") = ['b', 'c'] := by decide +kernel

/-- **C54, refuted.** If the files are closed while a thread is in the middle of printing, the message is lost and the thread gets a
`ValueError`. If a file is registered twice, what was written first is lost. -/
theorem C54_refuted :
    (∃ h : List Op, Once h ∧ .put 7 ∈ h ∧ .look 7 ['a'] ∈ h ∧ Err.valueError ∈ (after (fun _ => []) h).raised ∧
      (after (fun _ => []) h).stream = [] ∧ ∀ p ∈ regs h, (after (fun _ => []) h).disk p = []) ∧
    (∃ h : List Op, Calm h ∧ fileText (1, "out") h = ['a', 'b'] ∧ (∀ t, current h t = none) ∧ (after (fun _ => []) h).disk (1, "out") = ['b']) := by
  refine ⟨⟨[.put 7, .close none, .look 7 ['a'], .register 7 (1, "out")], by unfold Once; decide +kernel, by decide, by decide, by decide +kernel,
      by decide +kernel, by decide +kernel⟩,
    ⟨[.close none, .put 8, .look 8 ['b'], .register 8 (1, "out"), .close (some 7), .put 7, .look 7 ['a'], .register 7 (1, "out")], ?_, by decide +kernel,
      ?_, by decide +kernel⟩⟩
  · simp [Calm, said, Closes]
  · intro t; simp [current, Closes]

/-- **C77 (exit code).** The thread's exit code says whether it ended in an error: an exception of its body, or one while redirecting. Missing: an
exception which is not an `Exception` leaves the exit code at 0. -/
theorem C77_exitcode_partial (redirect isNum : Bool) (out err : Reg) (e : Ends) (he : e ≠ .exits) :
    ((runThread redirect isNum out err e).code = 0 ↔ (runThread redirect isNum out err e).ran = true ∧ e = .returns) ∧
    ((runThread redirect isNum out err e).code ≠ 0 ↔ (runThread redirect isNum out err e).traced = true) := by
  cases redirect <;> cases isNum <;> cases out <;> cases err <;> cases e <;> first | exact absurd rfl he | decide

/-- **C77 (files).** Whatever happens, a thread which opened both its files closes both. -/
theorem C77_closed (redirect isNum : Bool) (out err : Reg) (e : Ends) :
    (redirect = true → isNum = true → out = .done → err = .done →
      (runThread redirect isNum out err e).closedOut = true ∧ (runThread redirect isNum out err e).closedErr = true) ∧
    ((runThread redirect isNum out err e).openedOut = true → (runThread redirect isNum out err e).closedOut = true) ∧
    ((runThread redirect isNum out err e).openedErr = true → (runThread redirect isNum out err e).closedErr = true) := by
  cases redirect <;> cases isNum <;> cases out <;> cases err <;> cases e <;> decide

/-- **C77, refuted.** A thread that ends in `SystemExit` has exit code 0; the missing directory for the files stops the optimizer from
running. -/
theorem C77_refuted :
    (∀ redirect, (runThread redirect true .done .done .exits).code = 0 ∧ (runThread redirect true .done .done .exits).traced = false) ∧
    (runThread true true .fails .done .returns).ran = false := by
  refine ⟨fun r => by cases r <;> decide, by decide⟩

example : runThread true true .done .done .raises =
    { code := -1, ran := true, traced := true, openedOut := true, openedErr := true, closedOut := true, closedErr := true } := by decide

end Glompo.Props
