import Verif.Lemmas.Spawn

/-!
# C110: every optimizer gets the arguments it was configured with

`σ` are the user's dictionaries when the selector is made of `items`; `choices` are the optimizers the selector chooses later, by their
index, in any order and number. `(run one m σ items choices).2[n]` is what the `n`-th of them is created with.
-/

namespace Glompo.Props

open Glompo Glompo.Spawn

variable {V : Type} (one : V) (m : Mode V) {σ : Spawn.Store V} {items : List Item}

theorem run_parsed (hs : Sound σ items) :
    ParsedAll one (fun a => ∃ it ∈ items, it.initAddr = some a) σ (parse one σ items).1 items (parse one σ items).2 :=
  parse_spec one _ items σ (fun it h a ha => ⟨it, h, ha⟩) hs.1 fun a ⟨it, h, ha⟩ => hs.1 it h a (.inl ha)

theorem entry_of_item (hs : Sound σ items) {i : Nat} {it : Item} (hi : items[i]? = some it) :
    ∃ e, (parse one σ items).2[i]? = some e ∧
      Parsed one (fun a => ∃ it ∈ items, it.initAddr = some a) σ (parse one σ items).1 it e ∧
      ∀ k, dictGet (view (parse one σ items).1 e.call) k = it.askedCall σ k := by
  have p := run_parsed one hs
  have hlt : i < (parse one σ items).2.length := by
    rw [p.len]; exact (List.getElem?_eq_some_iff.mp hi).1
  have pe := p.each i it _ hi (List.getElem?_eq_getElem hlt)
  refine ⟨_, List.getElem?_eq_getElem hlt, pe, pe.calls ?_⟩
  rintro ⟨it', h, ha⟩
  cases hc : it.callAddr with
  | none =>
    have := pe.callNew hc
    have := hs.1 it' h _ (.inl ha)
    omega
  | some b =>
    have hb := pe.callOld b hc
    exact hs.2 it' h it (List.mem_of_getElem? hi) _ ha (hb ▸ hc)

/-- **C110 (threads).** With a threaded manager every optimizer, however often its configuration was chosen before, is created with the
class, the arguments and the backend the user asked for, one worker and the manager's backend being the defaults, and called with the
arguments asked for. The user's dictionaries only gain entries `workers`. -/
theorem C110_threads (hs : Sound σ items) (hm : m.processes = false) (choices : List Nat) :
    (∀ (n i : Nat) (it : Item), choices[n]? = some i → items[i]? = some it →
      ∃ o, (run one m σ items choices).2[n]? = some (some o) ∧ ArgsAsAsked one σ it o ∧ BackendAsAsked m σ it o) ∧
    ∀ a < σ.length, ∀ k, k ≠ "workers" → dictGet (view (run one m σ items choices).1 a) k = dictGet (view σ a) k := by
  have p := run_parsed one hs
  have hl : ∀ e ∈ (parse one σ items).2, e.init < (parse one σ items).1.length ∧ e.call < (parse one σ items).1.length := by
    intro e he
    obtain ⟨i, hi, rfl⟩ := List.getElem_of_mem he
    have hi' : i < items.length := p.len ▸ hi
    have := p.each i _ _ (List.getElem?_eq_getElem hi') (List.getElem?_eq_getElem hi)
    exact ⟨this.initLt, this.callLt⟩
  obtain ⟨h1, h2⟩ := threads_spec hm _ (parse one σ items).1 hl choices (parse one σ items).1 (le_refl _) fun _ _ => rfl
  refine ⟨fun n i it hn hi => ?_, fun a ha k hk => ?_⟩
  · obtain ⟨e, he, pe, pc⟩ := entry_of_item one hs hi
    obtain ⟨o, q1, q2, q3, q4, q5, q6⟩ := h2 n i e hn he
    refine ⟨o, q1, ⟨q2.trans pe.cls, fun k hk hw => (q3 k hk).trans (pe.args k hw), (q3 _ (by decide)).trans pe.workers, q4,
      fun k => (q5 k).trans (pc k)⟩, ?_⟩
    show o.backend = _
    rw [q6, pe.args _ (by decide)]
  · have : view (run one m σ items choices).1 a = view (parse one σ items).1 a := h1 a (ha.trans_le p.grown.len)
    rw [this]
    exact p.grown.other a ha k hk

/-- An optimizer with the same dictionary of arguments was chosen before place `n`. -/
def Reused (items : List Item) (choices : List Nat) (n i : Nat) : Prop :=
  ∃ n' < n, choices[n']? = some i ∨ ∃ j it it' a, choices[n']? = some j ∧ items[i]? = some it ∧ items[j]? = some it' ∧
    it.initAddr = some a ∧ it'.initAddr = some a

/-- **C110, partial (processes).** With a manager using processes every optimizer is created with the class and all the arguments the user
asked for but the backend, and called with the arguments asked for; the backend is the one asked for if this dictionary of arguments is
used for the first time, or if it names none. Missing: the backend of later optimizers. -/
theorem C110_processes_partial (hs : Sound σ items) (hm : m.processes = true) (choices : List Nat) (n i : Nat) (it : Item)
    (hn : choices[n]? = some i) (hi : items[i]? = some it) :
    ∃ o, (run one m σ items choices).2[n]? = some (some o) ∧ ArgsAsAsked one σ it o ∧
      (¬ Reused items choices n i ∨ it.asked σ "backend" = none → BackendAsAsked m σ it o) ∧
      (Reused items choices n i → o.backend = m.default) := by
  have p := run_parsed one hs
  have back : ∀ e ∈ (parse one σ items).2, ∃ (i : Nat) (it : Item), (parse one σ items).2[i]? = some e ∧ items[i]? = some it := by
    intro e he
    obtain ⟨i, hi, rfl⟩ := List.getElem_of_mem he
    have hi' : i < items.length := p.len ▸ hi
    exact ⟨i, _, List.getElem?_eq_getElem hi, List.getElem?_eq_getElem hi'⟩
  obtain ⟨e, he, pe, pc⟩ := entry_of_item one hs hi
  have hc : ∀ e ∈ (parse one σ items).2, ∀ e' ∈ (parse one σ items).2, e.init ≠ e'.call := by
    intro e he e' he' hq
    obtain ⟨i, it, g1, g2⟩ := back e he
    obtain ⟨j, it', g3, g4⟩ := back e' he'
    obtain ⟨a, g5, g6⟩ := p.calls i j it it' e e' g2 g1 g4 g3 hq
    exact hs.2 it (List.mem_of_getElem? g2) it' (List.mem_of_getElem? g4) a g5 g6
  have hl : ∀ e ∈ (parse one σ items).2, e.init < (parse one σ items).1.length := by
    intro e he
    obtain ⟨i, it, g1, g2⟩ := back e he
    exact (p.each i it e g2 g1).initLt
  obtain ⟨o, q1, q2, q3, q4, q5, q6, q7⟩ := processes_spec hm _ (parse one σ items).1 hl hc choices (parse one σ items).1 (fun _ => False)
    ⟨rfl, fun _ _ _ => rfl, fun _ _ => rfl, fun _ h => h.elim⟩ (fun _ _ h => h) n i e hn he
  have hiff : (False ∨ Earlier (parse one σ items).2 choices n e.init) ↔ Reused items choices n i := by
    constructor
    · rintro (h | ⟨n', hlt, j, e', g1, g2, g3⟩)
      · exact h.elim
      · have hj : j < items.length := p.len ▸ (List.getElem?_eq_some_iff.mp g2).1
        rcases p.inits j i _ it e' e (List.getElem?_eq_getElem hj) g2 hi he g3 with rfl | ⟨a, x, y⟩
        · exact ⟨n', hlt, .inl g1⟩
        · exact ⟨n', hlt, .inr ⟨j, it, _, a, g1, hi, List.getElem?_eq_getElem hj, y, x⟩⟩
    · rintro ⟨n', hlt, g1 | ⟨j, it1, it', a, g1, g2, g3, g4, g5⟩⟩
      · exact .inr ⟨n', hlt, i, e, g1, he, rfl⟩
      · obtain ⟨e', he', pe', -⟩ := entry_of_item one hs g3
        cases hi.symm.trans g2
        exact .inr ⟨n', hlt, j, e', g1, he', (pe'.initOld a g5).trans (pe.initOld a g4).symm⟩
  refine ⟨o, q1, ⟨q2.trans pe.cls, fun k hk hw => (q3 k hk).trans (pe.args k hw), (q3 _ (by decide)).trans pe.workers, q4,
    fun k => (q5 k).trans (pc k)⟩, ?_, fun h => q6 (hiff.mpr h)⟩
  have heq : dictGet (view (parse one σ items).1 e.init) "backend" = it.asked σ "backend" := pe.args _ (by decide)
  rintro (h | h)
  · show o.backend = _
    rw [q7 (fun hh => h (hiff.mp hh)), heq]
  · show o.backend = _
    rw [h]
    by_cases hr : Reused items choices n i
    · exact q6 (hiff.mpr hr)
    · rw [q7 (fun hh => hr (hiff.mp hh)), heq, h]

/-- **C110, refuted.** The user asks for CMA optimizers with two workers and processes to evaluate with (values: texts). The first gets
processes, the second threads, and the entry is gone from the user's own dictionary, so that it is lost for later uses too. -/
theorem C110_backend_refuted :
    run "1" ⟨true, "threads"⟩ [[("workers", "2"), ("backend", "processes")]] [.full "CMA" (some 0) none] [0, 0] =
      ([[("workers", "2")], []],
        [some ⟨"CMA", "processes", [("workers", "2")], []⟩, some ⟨"CMA", "threads", [("workers", "2")], []⟩]) := by decide +kernel

/-- The same with threads. -/
example : run "1" ⟨false, "threads"⟩ [[("workers", "2"), ("backend", "processes")]] [.full "CMA" (some 0) none] [0, 0] =
    ([[("workers", "2"), ("backend", "processes")], [], [("workers", "2")], [], [("workers", "2")], []],
      [some ⟨"CMA", "processes", [("workers", "2")], []⟩, some ⟨"CMA", "processes", [("workers", "2")], []⟩]) := by decide +kernel

/-- Three elements, two of which share a dictionary. -/
example : Sound [[("backend", "processes")], [("x", "y")]] [.full "A" (some 0) (some 1), .bare "B", .full "C" (some 0) none] ∧
    Reused [.full "A" (some 0) (some 1), .bare "B", .full "C" (some 0) none] [0, 1, 2] 2 2 ∧
    ¬ Reused [.full "A" (some 0) (some 1), .bare "B", .full "C" (some 0) none] [0, 1, 2] 1 1 := by
  refine ⟨⟨?_, ?_⟩, ?_, ?_⟩
  · intro it h a
    simp only [List.mem_cons, List.not_mem_nil, or_false] at h
    rcases h with rfl | rfl | rfl <;> simp [Item.initAddr, Item.callAddr] <;> omega
  · intro it h it' h' a
    simp only [List.mem_cons, List.not_mem_nil, or_false] at h h'
    rcases h with rfl | rfl | rfl <;> rcases h' with rfl | rfl | rfl <;> simp [Item.initAddr, Item.callAddr] <;> omega
  · exact ⟨0, by omega, .inr ⟨0, _, _, 0, rfl, rfl, rfl, rfl, rfl⟩⟩
  · rintro ⟨n', h, h' | ⟨j, it, it', a, -, h1, -, h2, -⟩⟩
    · have : n' = 0 := by omega
      subst this; simp at h'
    · simp at h1; subst h1; cases h2

end Glompo.Props
