import Verif.Props.Manager
import Verif.Props.Hunters
import Verif.Lemmas.ManagerClass

/-!
# C127: the class of an optimizer in a run

The selector names a class and an id is given out for its answer. At every moment of every run, fresh or resumed, the log and the result
say of an id the class which was named when it was given out. So a hunting condition which asks for the class condemns the right ones.
-/

namespace Glompo.Props

open Manager Spec Logger Runs

variable {cfg : Cfg} {s : State}

theorem RunClass.newId_mem {ev : List Ev} {i : Nat} : i ∈ newIdsOf ev ↔ Ev.newId i ∈ ev := by
  simp only [newIdsOf, List.mem_filterMap]
  constructor
  · rintro ⟨x, hx, h⟩; cases x <;> simp at h; subst h; exact hx
  · intro h; exact ⟨_, h, rfl⟩

theorem RunClass.newIds_append (a b : List Ev) : newIdsOf (a ++ b) = newIdsOf a ++ newIdsOf b := by
  simp [newIdsOf, List.filterMap_append]

/-- In a history which gives out each id once, an element before a given id determines what was before it. -/
theorem RunClass.before_unique {ev p q p' q' : List Ev} {x y : Ev} {i : Nat} (hn : (newIdsOf ev).Nodup)
    (h : ev = p ++ x :: .newId i :: q) (h' : ev = p' ++ y :: .newId i :: q') : p ++ [x] = p' ++ [y] := by
  have h1 : ev = (p ++ [x]) ++ .newId i :: q := by rw [h]; simp
  have h2 : ev = (p' ++ [y]) ++ .newId i :: q' := by rw [h']; simp
  have key : ∀ a b c d : List Ev, ev = a ++ .newId i :: b → ev = c ++ .newId i :: d → a.length ≤ c.length → a = c := by
    intro a b c d ha hc hl
    rw [hc] at ha
    rcases Nat.lt_or_ge a.length c.length with hlt | hge
    · exfalso
      have hget : c[a.length]? = some (.newId i) := by
        have := congrArg (fun l => l[a.length]?) ha
        simp only [List.getElem?_append_left hlt, List.getElem?_append_right (Nat.le_refl _), Nat.sub_self, List.getElem?_cons_zero] at this
        exact this
      have hm : i ∈ newIdsOf c := newId_mem.mpr (List.mem_of_getElem? hget)
      rw [hc, newIds_append, List.nodup_append] at hn
      exact hn.2.2 i hm i (newId_mem.mpr (List.mem_cons_self ..)) rfl
    · exact (List.append_inj ha (by omega)).1.symm
  rcases Nat.le_total (p ++ [x]).length (p' ++ [y]).length with hl | hl
  · exact key _ _ _ _ h1 h2 hl
  · exact (key _ _ _ _ h2 h1 hl).symm

/-- **C127, one class.** In a run an id stands for one answer of the selector: it has not two classes. -/
theorem C127_one_class (hs : Startable cfg s) (fuel : Nat) (e : Env) (i : Nat) (c c' : String)
    (h : ChosenAs (happened cfg s fuel e) i c) (h' : ChosenAs (happened cfg s fuel e) i c') : c = c' := by
  have hn : (newIdsOf (happened cfg s fuel e)).Nodup := by
    rw [show newIdsOf (happened cfg s fuel e) = _ from (moment_inv hs fuel e).ids]; exact List.nodup_range'
  obtain ⟨p, k, w, q, e1⟩ := h
  obtain ⟨p', k', w', q', e2⟩ := h'
  have := RunClass.before_unique hn e1 e2
  have := (List.append_inj' this rfl).2
  simp at this
  exact this.2.2

theorem RunClass.known (hs : Startable cfg s) (fuel : Nat) (e : Env) (i : Nat) (hi : i ∈ (startedOf (happened cfg s fuel e)).map (·.1)) :
    ∃ t, Op.add i t ∈ (moment cfg s fuel e).ops ∧ ChosenAs (happened cfg s fuel e) i t := by
  have inv := moment_inv hs fuel e
  obtain ⟨t, ht⟩ := mem_added.mp (inv.startedReg i ((inv.startedP i).mpr hi))
  exact ⟨t, ht, inv.cls.1 i t ht⟩

theorem RunClass.uncleared (hs : Startable cfg s) (fuel : Nat) (e : Env) (i : Nat)
    (hm : (inForce cfg s fuel e []).traj = true ∨
      Ev.received (.fin i) ∉ happened cfg s fuel e ∧ Ev.received (.fin 0) ∉ happened cfg s fuel e) :
    (moment cfg s fuel e).first.traj = true ∨ ¬ Cleared (moment cfg s fuel e).ops i := by
  have inv := moment_inv hs fuel e
  refine hm.imp id fun hn hc => ?_
  rcases hc with hc | hc | hc
  · obtain ⟨j, hj, -⟩ := inv.rel _ hc; cases hj
  · obtain ⟨j, hj, hj'⟩ := inv.rel _ hc; cases hj; exact hn.2 hj'
  · obtain ⟨j, hj, hj'⟩ := inv.rel _ hc; cases hj; exact hn.1 hj'

/-- **C127, hunting.** At any moment take an optimizer with a history in the log; only about such ones hunting conditions are asked. `TypeHunter` for
the class `cls` answers, and says yes exactly if the selector named `cls` for this optimizer. -/
theorem C127_type_hunter (hs : Startable cfg s) (fuel : Nat) (e : Env) (i : Nat)
    (hi : (moment cfg s fuel e).log.hasIterHistory i = true) (cls : String) :
    ∃ b, typeHunter cls (moment cfg s fuel e).log i = .ok b ∧ (b = true ↔ ChosenAs (happened cfg s fuel e) i cls) := by
  obtain ⟨t, h1, h2⟩ := (moment_inv hs fuel e).classed hi
  refine ⟨cls == t, by simp only [typeHunter, h1], ?_⟩
  rw [beq_iff_eq]
  exact ⟨fun h => h ▸ h2, fun h => C127_one_class hs fuel e i _ _ h h2⟩

/-- **C127, log.** If there is an entry "opt_type" in the metadata of an optimizer, it is the class the selector named. -/
theorem C127_metadata (hs : Startable cfg s) (fuel : Nat) (e : Env) (i : Nat) (t : String)
    (h : (moment cfg s fuel e).log.getMetadata i "opt_type" = .ok t) : ChosenAs (happened cfg s fuel e) i t :=
  (moment_inv hs fuel e).metadata h

/-- **C127, log.** The entry is there if the optimizer was started by this manager and its memory is not released: it has not sent its last message,
or histories are kept. -/
theorem C127_known_partial (hs : Startable cfg s) (fuel : Nat) (e : Env) (i : Nat)
    (hi : i ∈ (startedOf (happened cfg s fuel e)).map (·.1))
    (hm : (inForce cfg s fuel e []).traj = true ∨
      Ev.received (.fin i) ∉ happened cfg s fuel e ∧ Ev.received (.fin 0) ∉ happened cfg s fuel e) :
    ∃ t, (moment cfg s fuel e).log.getMetadata i "opt_type" = .ok t := by
  have inv := moment_inv hs fuel e
  obtain ⟨t, h1, h2⟩ := RunClass.known hs fuel e i hi
  have := C16_type_hunter _ _ i t t inv.wf (RunClass.uncleared hs fuel e i hm) h1 (inv.cls.2.2 i)
  rw [← inv.log] at this
  simp only [typeHunter] at this
  split at this
  · cases this
  · rename_i t' h; exact ⟨t', h⟩

/-- **C127, result.** At any moment, also after a crash, the origin in the result is either the placeholder of a run without qualifying values, id 0
without class, or an id with the class the selector named for it. -/
theorem C127_result (hs : Startable cfg s) (fuel : Nat) (e : Env) (i : Nat) (t : String)
    (h : (moment cfg s fuel e).result.origin = some (i, t)) : (i = 0 ∧ t = "") ∨ ChosenAs (happened cfg s fuel e) i t :=
  (moment_inv hs fuel e).cls.2.1 i t h

/-- **C127, best record.** The same for the best record of the log. -/
theorem C127_best (hs : Startable cfg s) (fuel : Nat) (e : Env) :
    ((moment cfg s fuel e).log.best.optId = 0 ∧ (moment cfg s fuel e).log.best.type = "") ∨
      ChosenAs (happened cfg s fuel e) (moment cfg s fuel e).log.best.optId (moment cfg s fuel e).log.best.type := by
  have inv := moment_inv hs fuel e
  have hb := best_run (moment cfg s fuel e).first.traj inv.wf
  rw [← inv.log] at hb
  rcases hb with ⟨-, hb⟩ | ⟨k, r, t, -, -, ha, hb⟩
  · exact .inl (by rw [hb]; exact ⟨rfl, rfl⟩)
  · rw [hb]; exact .inr (inv.cls.1 _ _ ha)

/-- Optimizers 1 of class "A" and 2 of class "B" are started; each is evaluated once. -/
def twoClasses : Env := [b false, u, u, ⟨[], .sel (.chosen 1 "A")⟩, u, u, u, ⟨[], .sel (.chosen 1 "B")⟩, u, u, u, u, sg none, sg none,
  ch [r 1 5, r 2 3], u, u]

example : startedOf (happened cfg2 (init cfg2) 20 twoClasses) = [(1, 1), (2, 1)] ∧
    (moment cfg2 (init cfg2) 20 twoClasses).log.hasIterHistory 1 = true ∧
    Ev.received (.fin 1) ∉ happened cfg2 (init cfg2) 20 twoClasses ∧ Ev.received (.fin 0) ∉ happened cfg2 (init cfg2) 20 twoClasses ∧
    (moment cfg2 (init cfg2) 20 twoClasses).log.getMetadata 1 "opt_type" = .ok "A" ∧
    typeHunter "A" (moment cfg2 (init cfg2) 20 twoClasses).log 1 = .ok true ∧
    typeHunter "B" (moment cfg2 (init cfg2) 20 twoClasses).log 1 = .ok false ∧
    (moment cfg2 (init cfg2) 20 twoClasses).result.origin = some (2, "B") ∧
    (moment cfg2 (init cfg2) 20 twoClasses).log.best.type = "B" := by decide +kernel

/-- A manager loaded from a checkpoint: the class named before the checkpoint. -/
example : Startable cfgSave loaded ∧ startedOf (happened cfgSave loaded 20 goesOn) = [(1, 1)] ∧
    Ev.received (.fin 1) ∉ happened cfgSave loaded 20 goesOn ∧ Ev.received (.fin 0) ∉ happened cfgSave loaded 20 goesOn ∧
    typeHunter "O" (moment cfgSave loaded 20 goesOn).log 1 = .ok true :=
  ⟨startable_loadFirst cfgSave cfgSave _ 20 saves _ (Startable.fresh cfgSave) (by decide +kernel), by decide +kernel, by decide +kernel,
    by decide +kernel, by decide +kernel⟩

/-- Optimizer 1 has sent its last message. -/
def releasedA : Env := start2 ++ [ch [r 2 3, .fin 1], u]

/-- **C127, refuted without the hypothesis.** Once the memory of an optimizer which has sent its last message is released, the log does not know its
class any more, although it runs. -/
theorem C127_released_refuted : 1 ∈ (startedOf (happened cfg2 (init cfg2) 20 releasedA)).map (·.1) ∧
    Running (happened cfg2 (init cfg2) 20 releasedA) 1 ∧
    (moment cfg2 (init cfg2) 20 releasedA).log.getMetadata 1 "opt_type" = .error .keyError := by decide +kernel

end Glompo.Props
