import Verif.Lemmas.Basic
import Verif.Spec.CMASettings

/-! # C128: the settings of CMA -/

namespace Glompo.Props

open Glompo.CMASettings Glompo.Spec.CMASettings

namespace CMASet

theorem get_map (l : List (String × Given)) (k : String) :
    dictGet (l.map fun q => (q.1, Entry.given q.2)) k = (dictGet l k).map Entry.given := by
  induction l with
  | nil => rfl
  | cons q t ih =>
    obtain ⟨a, b⟩ := q
    by_cases h : a = k <;> simp [dictGet, h, ih]

theorem get_del_self {V : Type} (d : List (String × V)) (k : String) : dictGet (dictDel d k) k = none := by
  induction d with
  | nil => rfl
  | cons q t ih =>
    obtain ⟨a, b⟩ := q
    by_cases h : a = k
    · simpa [dictDel, h] using ih
    · have : dictDel ((a, b) :: t) k = (a, b) :: dictDel t k := by simp [dictDel, h]
      rw [this]; simp [dictGet, h, ih]

/-- What is left and what is sorted out. -/
theorem sortOut_get (native : String → Bool) : ∀ (l : List (String × Given)) (s : Settings × List (String × Given)),
    (l.map (·.1)).Nodup → ∀ k,
    dictGet (sortOut native l s).1 k = (if native k = false ∧ (dictGet l k).isSome then none else dictGet s.1 k) ∧
    dictGet (sortOut native l s).2 k = (if native k = false ∧ (dictGet l k).isSome then dictGet l k else dictGet s.2 k) := by
  intro l
  induction l with
  | nil => intro s _ k; simp [sortOut]
  | cons q t ih =>
    intro s hn k
    obtain ⟨a, b⟩ := q
    simp only [List.map_cons, List.nodup_cons] at hn
    have hna : dictGet t a = none := by
      have := hn.1
      clear ih hn
      induction t with
      | nil => rfl
      | cons q t ih =>
        obtain ⟨x, y⟩ := q
        simp only [List.map_cons, List.mem_cons, not_or] at this
        simp [dictGet, Ne.symm this.1, ih this.2]
    by_cases hnat : native a = true
    · simp only [sortOut, hnat, if_true]
      rw [(ih s hn.2 k).1, (ih s hn.2 k).2]
      by_cases h : a = k
      · subst h; simp [hnat]
      · simp [dictGet, h]
    · simp only [sortOut, hnat]
      obtain ⟨h1, h2⟩ := ih (dictDel s.1 a, dictSet s.2 a b) hn.2 k
      simp only [Bool.false_eq_true, if_false]
      rw [h1, h2]
      by_cases h : a = k
      · subst h
        simp [dictGet, hna, get_del_self, hnat]
      · simp [dictGet, h, dictGet_del_ne _ (Ne.symm h), dictGet_set_ne _ _ (Ne.symm h)]

end CMASet

open CMASet

variable {native : String → Bool} {vd vkd : Settings → Settings} {workers : Int} {sampler : String} {given : List (String × Given)}
  {log3 : Nat → Int}

theorem CMASet.fixed_get (hn : (given.map (·.1)).Nodup) (hm : native "maxiter" = true) :
    (∀ k, k ∉ ["vv", "verbose", "maxiter"] → dictGet (fixed native given) k = if native k then (dictGet given k).map .given else none) ∧
    (∃ d, dictGet (fixed native given) "vv" = some (.custom d) ∧ ∀ k, dictGet d k = if native k then none else dictGet given k) ∧
    dictGet (fixed native given) "verbose" = some (.given (.int (-3))) ∧
    dictGet (fixed native given) "maxiter" = some (((dictGet given "maxiter").map Entry.given).getD .inf) := by
  have hs := sortOut_get native given (given.map fun q => (q.1, .given q.2), []) hn
  have key : ∀ k, dictGet (sortOut native given (given.map fun q => (q.1, .given q.2), [])).1 k =
      if native k then (dictGet given k).map .given else none := by
    intro k
    rw [(hs k).1]
    cases hk : native k with
    | true => simp [get_map]
    | false => cases hg : dictGet given k <;> simp [get_map, hg]
  have key2 : ∀ k, dictGet (sortOut native given (given.map fun q => (q.1, .given q.2), [])).2 k =
      if native k then none else dictGet given k := by
    intro k
    rw [(hs k).2]
    cases hk : native k with
    | true => simp
    | false => cases hg : dictGet given k <;> simp
  generalize hS : sortOut native given (given.map fun q => (q.1, .given q.2), []) = S at key key2
  have hmax : dictGet (dictSet (dictSet S.1 "vv" (.custom S.2)) "verbose" (.given (.int (-3)))) "maxiter" =
      (dictGet given "maxiter").map .given := by
    rw [dictGet_set_ne _ _ (by decide), dictGet_set_ne _ _ (by decide), key, hm, if_pos rfl]
  have hfix : fixed native given = if ((dictGet given "maxiter").map Entry.given).isSome then
      dictSet (dictSet S.1 "vv" (.custom S.2)) "verbose" (.given (.int (-3)))
      else dictSet (dictSet (dictSet S.1 "vv" (.custom S.2)) "verbose" (.given (.int (-3)))) "maxiter" .inf := by
    simp only [fixed, hS, hmax]
  have other : ∀ k, k ≠ "maxiter" → dictGet (fixed native given) k =
      dictGet (dictSet (dictSet S.1 "vv" (.custom S.2)) "verbose" (.given (.int (-3)))) k := by
    intro k hk
    rw [hfix]
    split
    · rfl
    · exact dictGet_set_ne _ _ hk
  refine ⟨fun k hk => ?_, ⟨S.2, ?_, key2⟩, ?_, ?_⟩
  · simp only [List.mem_cons, List.not_mem_nil, or_false, not_or] at hk
    rw [other k hk.2.2, dictGet_set_ne _ _ hk.2.1, dictGet_set_ne _ _ hk.1, key]
  · rw [other _ (by decide), dictGet_set_ne _ _ (by decide), dictGet_set_self]
  · rw [other _ (by decide), dictGet_set_self]
  · rw [hfix]
    cases hg : dictGet given "maxiter" with
    | none => simp
    | some g => simpa [hg] using hmax

/-- A population size given as a number other than 0 is never changed. -/
theorem CMASet.begin_keeps {o : Obj} (h : o.popsize.truthy = true) (c : Call) : (CMASettings.begin log3 o c).1 = o := by
  unfold CMASettings.begin
  split
  · rfl
  · simp only [choose, h, if_true]
    cases o.popsize <;> rfl

theorem CMASet.after_keeps {o : Obj} (h : o.popsize.truthy = true) : ∀ cs, after log3 o cs = o
  | [] => rfl
  | c :: t => by rw [after, begin_keeps h c]; exact after_keeps h t

/-- What one call hands on, for an object whose settings are as they were made. -/
theorem CMASet.handed (hs : sampler ≠ "vd" ∧ sampler ≠ "vkd") (hn : (given.map (·.1)).Nodup)
    (hm : native "maxiter" = true) (hp : native "popsize" = true) (c : Call)
    (opts : Settings) (h : (CMASettings.begin log3 (init native vd vkd workers sampler given) c).2 = .ok opts) :
    Handed native given workers log3 c opts := by
  obtain ⟨h1, ⟨d, h2, h3⟩, h4, h5⟩ := fixed_get (given := given) hn hm
  have hset : (init native vd vkd workers sampler given).settings = fixed native given := by simp [init, hs.1, hs.2]
  have hpop : (init native vd vkd workers sampler given).popsize = (dictGet given "popsize").getD .none := rfl
  have hw : (init native vd vkd workers sampler given).workers = workers := rfl
  generalize init native vd vkd workers sampler given = o at h hset hpop hw
  unfold CMASettings.begin at h
  split at h
  · cases h
  · obtain ⟨st, hst, hstp, hrest⟩ : ∃ st, opts = dictSet st "bounds" (.bounds (c.bounds.map (·.1)) (c.bounds.map (·.2))) ∧
        dictGet st "popsize" = some (.given (popsizeFor given workers log3 c.x0.length)) ∧
        ∀ k, k ≠ "popsize" → dictGet st k = dictGet (fixed native given) k := by
      have hfp := h1 "popsize" (by decide)
      rw [hp, if_pos rfl] at hfp
      by_cases ht : o.popsize.truthy = true
      · simp only [choose, ht, if_true] at h
        cases hg : dictGet given "popsize" with
        | none => rw [hpop, hg] at ht; cases ht
        | some g =>
          rw [hg] at hfp hpop
          simp only [Option.getD_some] at hpop
          rw [hpop] at h ht
          cases g with
          | int n =>
            cases h
            refine ⟨_, rfl, ?_, fun k _ => by rw [hset]⟩
            rw [hset, hfp]
            simp only [popsizeFor, hg, Option.map_some]
            simp only [Given.truthy, decide_eq_true_eq] at ht
            rw [if_pos ht]
          | none => cases ht
          | other s => cases h
      · simp only [choose, ht] at h
        cases h
        refine ⟨_, rfl, ?_, fun k hk => ?_⟩
        · simp only [Bool.false_eq_true, if_false, dictGet_set_self, popsizeFor, hw]
          cases hg : dictGet given "popsize" with
          | none => split <;> rfl
          | some g =>
            rw [hg] at hpop
            simp only [Option.getD_some] at hpop
            rw [hpop] at ht
            cases g with
            | int n =>
              have : n = 0 := by simpa [Given.truthy] using ht
              subst this
              simp only [ne_eq, not_true_eq_false, if_false]
              split <;> rfl
            | none => simp only; split <;> rfl
            | other s => exact absurd rfl ht
        · simp only [Bool.false_eq_true, if_false]
          rw [dictGet_set_ne _ _ hk, hset]
    subst hst
    have hother : ∀ k, k ≠ "bounds" → k ≠ "popsize" →
        dictGet (dictSet st "bounds" (.bounds (c.bounds.map (·.1)) (c.bounds.map (·.2)))) k = dictGet (fixed native given) k :=
      fun k h1 h2 => by rw [dictGet_set_ne _ _ h1, hrest k h2]
    refine ⟨fun k hk hne => ?_, fun k hk hne => ?_, ⟨d, ?_, h3⟩, ?_, ?_, ?_, dictGet_set_self _ _ _⟩
    · simp only [List.mem_cons, List.not_mem_nil, or_false, not_or] at hne
      rw [hother k hne.2.2.2.2 hne.2.2.2.1, h1 k (by simp [hne.1, hne.2.1, hne.2.2.1]), hk, if_pos rfl]
    · simp only [List.mem_cons, List.not_mem_nil, or_false, not_or] at hne
      rw [hother k hne.2.2.2.2 hne.2.2.2.1, h1 k (by simp [hne.1, hne.2.1, hne.2.2.1]), hk]; rfl
    · rw [hother _ (by decide) (by decide), h2]
    · rw [hother _ (by decide) (by decide), h4]
    · rw [hother _ (by decide) (by decide), h5]
    · rw [dictGet_set_ne _ _ (by decide), hstp]

/-- **C128, partial.** For every optimizer made with the full sampler, every call of `minimize` which is not refused hands the settings on as promised, provided it
is the first call or a population size other than 0 and `None` was given. -/
theorem C128_settings_partial (hs : sampler ≠ "vd" ∧ sampler ≠ "vkd") (hn : (given.map (·.1)).Nodup)
    (hm : native "maxiter" = true) (hp : native "popsize" = true) (earlier : List Call)
    (hf : earlier = [] ∨ ∃ g, dictGet given "popsize" = some g ∧ g ≠ .none ∧ g ≠ .int 0) (c : Call) (opts : Settings)
    (h : (CMASettings.begin log3 (after log3 (init native vd vkd workers sampler given) earlier) c).2 = .ok opts) :
    Handed native given workers log3 c opts := by
  rcases hf with rfl | ⟨g, hg, h1, h2⟩
  · exact handed hs hn hm hp c opts h
  · rw [after_keeps] at h
    · exact handed hs hn hm hp c opts h
    · show ((dictGet given "popsize").getD .none).truthy = true
      rw [hg]
      cases g with
      | int n => simpa [Given.truthy] using h2
      | none => exact absurd rfl h1
      | other s => rfl

/-- **C128.** A call is refused with `ValueError` exactly if `sigma0` is not positive, in particular with the default 0; and with `TypeError` exactly if `sigma0` is all right and
the population size given is something other than a number (and not `None`). -/
theorem C128_refused (o : Obj) (c : Call) :
    ((CMASettings.begin log3 o c).2.toOption = none ↔ PyF.le c.sigma0 (.fin 0) = true ∨ ∃ s, o.popsize = .other s) ∧
    (PyF.le c.sigma0 (.fin 0) = true → (CMASettings.begin log3 o c).2 = .error .valueError) ∧
    (PyF.le c.sigma0 (.fin 0) = false → ∀ s, o.popsize = .other s → (CMASettings.begin log3 o c).2 = .error .typeError) := by
  unfold CMASettings.begin
  cases hs : PyF.le c.sigma0 (.fin 0) with
  | true => simp; rfl
  | false =>
    cases hp : o.popsize with
    | int n =>
      by_cases h0 : n = 0 <;> simp [choose, Given.truthy, hp, h0, Except.toOption]
    | none => simp [choose, Given.truthy, hp, Except.toOption]
    | other s => simp [choose, Given.truthy, hp, Except.toOption]

/-- **C128.** After a call which was not refused, the attribute `popsize` is the population size of that call. -/
theorem C128_attribute (hp : native "popsize" = true) (hs : sampler ≠ "vd" ∧ sampler ≠ "vkd") (hn : (given.map (·.1)).Nodup)
    (hm : native "maxiter" = true) (c : Call) (opts : Settings)
    (h : (CMASettings.begin log3 (init native vd vkd workers sampler given) c).2 = .ok opts) :
    dictGet opts "popsize" = some (.given (CMASettings.begin log3 (init native vd vkd workers sampler given) c).1.popsize) := by
  have hh := (handed hs hn hm hp c opts h).popsize
  rw [hh]
  have hpop : (init native vd vkd workers sampler given).popsize = (dictGet given "popsize").getD .none := rfl
  have hw : (init native vd vkd workers sampler given).workers = workers := rfl
  generalize init native vd vkd workers sampler given = o at h hpop hw
  unfold CMASettings.begin at h ⊢
  split at h
  · cases h
  · rename_i hsig
    rw [if_neg hsig]
    subst hw
    unfold popsizeFor
    cases hg : dictGet given "popsize" with
    | none =>
      rw [hg] at hpop
      simp only [choose, hpop, Option.getD_none, Given.truthy]
      simp; split <;> rfl
    | some g =>
      rw [hg] at hpop
      simp only [Option.getD_some] at hpop
      cases g with
      | int n =>
        by_cases h0 : n = 0
        · simp [choose, hpop, Given.truthy, h0]; split <;> rfl
        · simp [choose, hpop, Given.truthy, h0]
      | none => simp [choose, hpop, Given.truthy]; split <;> rfl
      | other s => simp [choose, hpop, Given.truthy] at h

/-! ### Witnesses -/

/-- The options known to the strategy, as far as the examples need them. -/
def CMASet.knows (k : String) : Bool := decide (k ∈ ["vv", "verbose", "maxiter", "popsize", "bounds", "timeout"])

def CMASet.call1 : Call := ⟨[1, 2], [(0, 5), (1, 6)], .fin 1⟩

def CMASet.asked : List (String × Given) := [("timeout", .int 9), ("popsize", .int 6), ("mine", .other "a")]

example : (asked.map (·.1)).Nodup ∧ knows "maxiter" = true ∧ knows "popsize" = true ∧
    (CMASettings.begin (fun _ => 2) (after (fun _ => 2) (init knows id id 4 "full" asked) [call1]) call1).2.toOption =
      some [("timeout", .given (.int 9)), ("popsize", .given (.int 6)), ("vv", .custom [("mine", .other "a")]),
        ("verbose", .given (.int (-3))), ("maxiter", .inf), ("bounds", .bounds [0, 1] [5, 6])] := by decide +kernel

/-- **C128, refuted for later calls.** An optimizer with several workers and no population size given uses the number of workers in its first call; in every
later one it leaves the choice to the strategy, although its attribute still says otherwise. -/
theorem C128_later_call_refuted : ∃ (o : Obj) (c : Call), o = init knows id id 4 "full" [] ∧
    ((CMASettings.begin (fun _ => 2) o c).2.toOption.bind (dictGet · "popsize")) = some (.given (.int 4)) ∧
    (CMASettings.begin (fun _ => 2) (after (fun _ => 2) o [c]) c).1.popsize = .int 4 ∧
    ((CMASettings.begin (fun _ => 2) (after (fun _ => 2) o [c]) c).2.toOption.map (dictGet · "popsize")) = some none :=
  ⟨_, call1, rfl, by decide +kernel, by decide +kernel, by decide +kernel⟩

/-- **C128, refuted for `vv`.** The strategy's own option `vv` given by a user is lost. -/
theorem C128_vv_refuted : ∃ (given : List (String × Given)) (c : Call), dictGet given "vv" = some (.int 7) ∧
    ((CMASettings.begin (fun _ => 2) (init knows id id 4 "full" given) c).2.toOption.bind (dictGet · "vv")) = some (.custom []) :=
  ⟨[("vv", .int 7)], call1, rfl, by decide +kernel⟩

/-- **C128, refuted for samplers.** The names of the samplers in the documentation are not those looked for: with them the optimizer is the same as with the full sampler. -/
theorem C128_sampler_refuted (hs : sampler ∈ ["GaussVDSampler", "GaussVkDSampler"]) :
    init native vd vkd workers sampler given = init native vd vkd workers "full" given := by
  simp only [List.mem_cons, List.not_mem_nil, or_false] at hs
  rcases hs with rfl | rfl <;> rfl

/-- The names which are looked for are others. -/
example : (init knows (fun s => ("d", .inf) :: s) id 4 "vd" asked).settings ≠ (init knows (fun s => ("d", .inf) :: s) id 4 "full" asked).settings := by
  decide +kernel

end Glompo.Props
