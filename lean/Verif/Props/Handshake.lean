import Verif.Spec.Handshake
import Verif.Lemmas.Handshake

/-!
# C37: the checkpoint hand-shake
-/

namespace Glompo.Props

open Glompo Glompo.Handshake Glompo.Spec.Handshake

theorem reach_inv {σ : Sys} (h : Reachable σ) : Inv σ := by
  obtain ⟨as, h⟩ := h
  exact inv_run h inv_init

theorem run_append {as bs : List Act} : ∀ {σ σ' σ'' : Sys}, run σ as = some σ' → run σ' bs = some σ'' → run σ (as ++ bs) = some σ'' := by
  induction as with
  | nil => intro σ σ' σ'' h h'; cases h; exact h'
  | cons a as ih =>
    intro σ σ' σ'' h h'
    rw [run] at h
    rw [List.cons_append, run]
    split at h
    · cases h
    · exact ih h h'

theorem snapshot_still {σ : Sys} (hi : Inv σ) {h : Sets} (hp : σ.pc = .snapshot h) (i : Nat) (hm : i ∈ σ.packs)
    (ha : (σ.opts i).alive = true) : (σ.opts i).phase = .paused ∧ (σ.opts i).event = false ∧ i ∈ h.living := by
  have := hi.good i hm
  rw [hp] at this
  simp only [stage] at this
  split at this
  · rename_i hl; exact ⟨(this ha).2.1, (this ha).2.2.2, hl⟩
  · exact (this ha).elim

/-- **C37 (no optimizer runs).** Whatever the interleaving of evaluations, replies, results and deaths that led there: while the manager
takes the snapshot every living optimizer is blocked on its cleared event, and nothing the optimizers can do until the manager goes on
adds an evaluation. -/
theorem C37_nobody_runs (σ : Sys) (hr : Reachable σ) (h : Sets) (hp : σ.pc = .snapshot h) :
    (∀ i ∈ σ.packs, (σ.opts i).alive = true → (σ.opts i).phase = .paused ∧ (σ.opts i).event = false) ∧
    (∀ as σ', (∀ a ∈ as, ByOptimizer a) → run σ as = some σ' → ∀ i, (σ'.opts i).made = (σ.opts i).made) := by
  have hi := reach_inv hr
  refine ⟨fun i hm ha => ?_, fun as => ?_⟩
  · obtain ⟨h1, h2, -⟩ := snapshot_still hi hp i hm ha; exact ⟨h1, h2⟩
  · clear hr
    induction as generalizing σ with
    | nil => intro σ' _ h i; cases h; rfl
    | cons a as ih =>
      intro σ' hb hrun i
      obtain ⟨j, b, rfl⟩ := hb _ (.head _)
      rw [run] at hrun
      split at hrun
      · cases hrun
      · rename_i σ1 h1
        have hi1 := inv_step h1 hi
        have h1' := h1
        simp only [step] at h1
        split at h1
        · rename_i hj
          split at h1
          · cases h1
          · rename_i o items ho
            cases h1
            rw [ih { σ with opts := upd σ.opts j o, queue := σ.queue ++ items } hp hi1 σ' (fun a ha => hb a (.tail _ ha)) hrun i]
            by_cases e : i = j
            · subst e
              simp only [upd_same]
              have hm := ostep_made ho
              rcases hm.2.2 with hz | ⟨ha, hw⟩ | ⟨ha, hw, -⟩
              · rw [hm.1, hz]; simp
              · rw [(snapshot_still hi hp i hj ha).1] at hw; cases hw
              · rw [(snapshot_still hi hp i hj ha).1] at hw; cases hw
            · simp only [upd_other _ _ e]
        · cases h1

/-- **C37 (evaluations).** At the snapshot the log has exactly the evaluations each optimizer has made, none is under way. -/
theorem C37_all_logged (σ : Sys) (hr : Reachable σ) (h : Sets) (hp : σ.pc = .snapshot h) :
    (∀ i ∈ σ.packs, σ.logged i = (σ.opts i).made) ∧ ∀ i, Item.eval i ∉ σ.queue := by
  have hi := reach_inv hr
  have hq := hi.queue
  rw [hp] at hq
  refine ⟨fun i hm => ?_, hq⟩
  have := hi.count i hm
  rw [List.count_eq_zero.2 (hq i)] at this
  omega

/-- **C37 (queue).** The queue is empty where the code asserts it. -/
theorem C37_queue_empty (σ : Sys) (hr : Reachable σ) (h : Sets) (hp : σ.pc = .asserting h) : σ.queue = [] := by
  have hq := (reach_inv hr).queue
  rw [hp] at hq
  exact hq

/-- **C37 (none left waiting).** When a checkpoint is over, successful or abandoned, no living optimizer is held by it: none waits for an
instruction, nothing of the hand-shake is left in the pipes, and one still at its event finds it set. -/
theorem C37_none_left (σ : Sys) (hr : Reachable σ) (hp : σ.pc = .idle) (i : Nat) (hm : i ∈ σ.packs) (ha : (σ.opts i).alive = true) :
    (σ.opts i).phase ≠ .waiting ∧ (σ.opts i).phase ≠ .ready ∧ (σ.opts i).event = true ∧
    (∀ s ∈ (σ.opts i).inbox, s = .stop ∨ s = .inject) ∧ Reply.paused ∉ (σ.opts i).outbox := by
  have := (reach_inv hr).good i hm ha
  rw [hp] at this
  obtain ⟨h1, h2, h3, h4⟩ := this
  refine ⟨fun e => ?_, fun e => ?_, h1, fun s hs => ?_, fun hs => ?_⟩
  · rw [e] at h2; cases h2
  · rw [e] at h2; cases h2
  · simp only [ctl, List.filter_eq_nil_iff] at h3
    have := h3 s hs
    cases s <;> simp_all [Sig.ctl]
  · simp only [acks, List.filter_eq_nil_iff] at h4
    exact h4 _ hs (by simp)

/-- The set of those not to be saved, where there is one. -/
def skipOf : Pc → List Nat
  | .waiting _ h | .draining h | .asserting h | .telling _ h | .clearing _ h | .filing h | .snapshot h => h.skip
  | _ => []

/-- Optimizer `i` has not come to any end. -/
structure Going (i : Nat) (σ : Sys) : Prop where
  alive : (σ.opts i).alive = true
  phase : (σ.opts i).phase ≠ .ended ∧ (σ.opts i).phase ≠ .gone
  outbox : ∀ r ∈ (σ.opts i).outbox, r = .paused
  queue : Item.fin i ∉ σ.queue
  skip : i ∉ skipOf σ.pc

theorem going_ostep {i : Nat} {a : OAct} {o o' : Opt} {items : List Item} (h : ostep i a o = some (o', items))
    (hn : ¬ EndOf i (.opt i a)) (h1 : o.alive = true) (h2 : o.phase ≠ .ended ∧ o.phase ≠ .gone) (h3 : ∀ r ∈ o.outbox, r = .paused) :
    o'.alive = true ∧ (o'.phase ≠ .ended ∧ o'.phase ≠ .gone) ∧ (∀ r ∈ o'.outbox, r = .paused) ∧ ∀ j, Item.fin j ∉ items := by
  obtain ⟨al, ph, inb, outb, ev, stp, fil, md⟩ := o
  simp only at h1 h2 h3
  subst h1
  cases a with
  | read w =>
    cases inb with
    | nil => simp [ostep] at h
    | cons s r =>
      cases ph <;> simp [ostep, Phase.reads] at h <;> obtain ⟨rfl, rfl⟩ := h <;> cases s <;> simp_all [handle]
      all_goals
        intro x hx
        first
          | exact h3 x hx
          | (rcases hx with hx | hx
             · exact h3 x hx
             · exact hx)
  | clear | wake =>
    cases ph <;> simp [ostep] at h
    obtain ⟨-, rfl, rfl⟩ := h
    exact ⟨rfl, by simp, h3, by simp⟩
  | work =>
    cases ph <;> simp [ostep] at h
    obtain ⟨rfl, rfl⟩ := h
    exact ⟨rfl, by simp, h3, by simp⟩
  | mark => cases ph <;> simp_all [ostep]
  | _ => simp [EndOf] at hn

theorem fin_items {i j : Nat} {a : OAct} {o o' : Opt} {items : List Item} (h : ostep i a o = some (o', items)) (hj : Item.fin j ∈ items) :
    j = i := by
  rcases (ostep_made h).2.2 with e | ⟨-, hw⟩ | ⟨-, -, e⟩
  · rw [e] at hj; cases hj
  · obtain ⟨al, ph, inb, outb, ev, stp, fil, md⟩ := o
    simp only at hw
    subst hw
    cases al with
    | false => simp [ostep] at h
    | true =>
      cases a with
      | read w =>
        cases inb with
        | nil => simp [ostep] at h
        | cons s r => simp [ostep, Phase.reads] at h; obtain ⟨-, rfl⟩ := h; cases hj
      | breakSave =>
        cases inb with
        | nil => simp [ostep] at h
        | cons s r => cases s <;> simp [ostep, Phase.reads] at h; obtain ⟨-, rfl⟩ := h; cases hj
      | _ => simp [ostep] at h <;> (try obtain ⟨-, rfl⟩ := h) <;> simp_all
  · rw [e] at hj; simpa using hj

theorem going_opt {σ σ' : Sys} {i j : Nat} {a : OAct} (h : step σ (.opt j a) = some σ') (hn : ¬ EndOf i (.opt j a)) (hg : Going i σ) :
    Going i σ' := by
  simp only [step] at h
  split at h
  · split at h
    · cases h
    · rename_i o items ho
      cases h
      by_cases e : i = j
      · subst e
        obtain ⟨h1, h2, h3, h4⟩ := going_ostep ho hn hg.alive hg.phase hg.outbox
        refine ⟨?_, ?_, ?_, ?_, hg.skip⟩
        · simp only [upd_same]; exact h1
        · simp only [upd_same]; exact h2
        · simp only [upd_same]; exact h3
        · simp only [List.mem_append, not_or]; exact ⟨hg.queue, h4 i⟩
      · refine ⟨?_, ?_, ?_, ?_, hg.skip⟩
        · simp only [upd_other _ _ e]; exact hg.alive
        · simp only [upd_other _ _ e]; exact hg.phase
        · simp only [upd_other _ _ e]; exact hg.outbox
        · simp only [List.mem_append, not_or]; exact ⟨hg.queue, fun hj => e (fin_items ho hj)⟩
  · cases h

theorem going_repc {σ : Sys} {i : Nat} (hg : Going i σ) (pc : Pc) (h : i ∉ skipOf pc) : Going i { σ with pc := pc } :=
  ⟨hg.alive, hg.phase, hg.outbox, hg.queue, h⟩

theorem going_send {σ : Sys} {i : Nat} (hg : Going i σ) (j : Nat) (s : Sig) : Going i (send σ j s) := by
  by_cases e : i = j
  · subst e
    exact ⟨by simp only [send, upd_same]; exact hg.alive, by simp only [send, upd_same]; exact hg.phase,
      by simp only [send, upd_same]; exact hg.outbox, hg.queue, hg.skip⟩
  · exact ⟨by simp only [send, upd_other _ _ e]; exact hg.alive, by simp only [send, upd_other _ _ e]; exact hg.phase,
      by simp only [send, upd_other _ _ e]; exact hg.outbox, hg.queue, hg.skip⟩

/-- One optimizer changes, keeping what matters here. -/
theorem going_one {σ : Sys} {i : Nat} (hg : Going i σ) (j : Nat) (o : Opt) (pc : Pc) (h1 : o.alive = (σ.opts j).alive)
    (h2 : o.phase = (σ.opts j).phase) (h3 : ∀ r ∈ o.outbox, r ∈ (σ.opts j).outbox) (h : i ∉ skipOf pc) :
    Going i { σ with opts := upd σ.opts j o, pc := pc } := by
  by_cases e : i = j
  · subst e
    exact ⟨by simp only [upd_same, h1]; exact hg.alive, by simp only [upd_same, h2]; exact hg.phase,
      by simp only [upd_same]; exact fun r hr => hg.outbox r (h3 r hr), hg.queue, h⟩
  · exact ⟨by simp only [upd_other _ _ e]; exact hg.alive, by simp only [upd_other _ _ e]; exact hg.phase,
      by simp only [upd_other _ _ e]; exact hg.outbox, hg.queue, h⟩

theorem going_take {σ σ' : Sys} {i : Nat} (hg : Going i σ) {pc : List Nat → Pc} (h : takeItem σ pc = some σ')
    (hs : ∀ l, i ∉ l → i ∉ skipOf (pc l)) : Going i σ' := by
  unfold takeItem at h
  split at h
  · cases h
  · rename_i k q e
    cases h
    exact ⟨hg.alive, hg.phase, hg.outbox, fun hq => hg.queue (by rw [e]; exact .tail _ hq), hs _ (by simp)⟩
  · rename_i k q e
    cases h
    refine ⟨hg.alive, hg.phase, hg.outbox, fun hq => hg.queue (by rw [e]; exact .tail _ hq), hs _ ?_⟩
    intro hk
    simp at hk
    exact hg.queue (by rw [e, hk]; exact .head _)

theorem going_hear {σ σ' : Sys} {i j : Nat} {w : List Nat} {hh : Sets} (hg : Going i σ) (hp : σ.pc = .waiting w hh)
    (h : hear σ j w hh = some σ') : Going i σ' := by
  have hk := hg.skip
  rw [hp] at hk
  simp only [skipOf] at hk
  unfold hear at h
  split at h
  · split at h
    · cases h
    · rename_i r e
      cases h
      refine going_one hg j _ _ rfl rfl (fun r hr => by rw [e]; exact .tail _ hr) ?_
      simp only [skipOf, List.mem_append, List.mem_singleton, not_or]
      refine ⟨hk, ?_⟩
      rintro rfl
      have := hg.outbox .done (by rw [e]; exact .head _)
      cases this
    · rename_i r e
      cases h
      exact going_one hg j _ _ rfl rfl (fun r hr => by rw [e]; exact .tail _ hr) hk
    · cases h
      exact going_repc hg _ (by simp [skipOf])
  · rename_i ha
    cases h
    refine going_repc hg _ ?_
    simp only [skipOf, List.mem_append, List.mem_singleton, not_or]
    refine ⟨hk, ?_⟩
    rintro rfl
    exact ha hg.alive

theorem going_mgr {σ σ' : Sys} {i : Nat} {a : MAct} (h : mstep a σ = some σ') (hn : ¬ EndOf i (.mgr a)) (hg : Going i σ) :
    Going i σ' := by
  have hk := hg.skip
  unfold mstep at h
  split at h <;> rename_i hp <;> (try rw [hp] at hk) <;> (try simp only [skipOf] at hk)
  · rename_i j
    split at h
    · cases h
    · cases h
      by_cases e : i = j
      · subst e
        exact ⟨by simp [upd_same], by simp [upd_same], by simp [upd_same], hg.queue, by rw [hp]; simp [skipOf]⟩
      · exact ⟨by simp only [upd_other _ _ e]; exact hg.alive, by simp only [upd_other _ _ e]; exact hg.phase,
          by simp only [upd_other _ _ e]; exact hg.outbox, hg.queue, by rw [hp]; simp [skipOf]⟩
  · exact going_take hg h (fun _ _ => by simp [skipOf])
  · rename_i j
    unfold listen at h
    split at h
    · cases h
    · rename_i r0 r e
      cases h
      have := going_one hg j { σ.opts j with outbox := r } .idle rfl rfl (fun r hr => by rw [e]; exact .tail _ hr) (by simp [skipOf])
      rw [← hp] at this
      exact this
  · cases h; exact going_send hg _ _
  · cases h; exact going_send hg _ _
  · cases h
    exact ⟨hg.alive, hg.phase, hg.outbox, hg.queue, by simp [skipOf]⟩
  · split at h
    · cases h; exact going_repc (going_send hg _ _) _ (by simp [skipOf])
    · cases h; exact going_repc hg _ (by simp [skipOf])
  · cases h; exact going_repc hg _ (by simp [skipOf])
  · split at h
    · exact going_hear hg hp h
    · cases h
  · exact going_take hg h (fun l hl => by simp only [skipOf, List.mem_append, not_or]; exact ⟨hk, hl⟩)
  · rename_i j _ _
    cases h
    refine going_repc (going_send hg _ _) _ ?_
    simp only [skipOf, List.mem_append, List.mem_singleton, not_or]
    exact ⟨hk, fun e => hn (.inl (by rw [e]))⟩
  · cases h; exact going_repc (going_send hg _ _) _ hk
  · cases h; exact going_repc hg _ hk
  · exact going_take hg h (fun l hl => by simp only [skipOf, List.mem_append, not_or]; exact ⟨hk, hl⟩)
  · rename_i j _
    cases h
    refine going_repc (going_send hg _ _) _ ?_
    simp only [skipOf, List.mem_append, List.mem_singleton, not_or]
    exact ⟨hk, fun e => hn (.inl (by rw [e]))⟩
  · cases h; exact going_repc (going_send hg _ _) _ hk
  · split at h
    · cases h; exact going_repc hg _ hk
    · cases h
  · cases h
    refine going_repc hg _ ?_
    split
    · exact hk
    · simp [skipOf]
  · split at h
    · cases h; exact going_repc (going_send hg _ _) _ hk
    · cases h; exact going_repc hg _ hk
  · cases h; exact going_repc hg _ hk
  · split at h
    · cases h; exact going_repc hg _ hk
    · cases h
  · cases h; exact going_repc hg _ hk
  · split at h
    · cases h; exact going_repc hg _ hk
    · cases h; exact going_repc hg _ (by simp [skipOf])
  · cases h; exact going_repc hg _ (by simp [skipOf])
  · cases h; exact going_repc (going_send hg _ _) _ (by simp [skipOf])
  · split at h
    · cases h
      exact going_one hg _ _ _ rfl rfl (fun _ h => h) (by simp [skipOf])
    · cases h; exact going_repc hg _ (by simp [skipOf])
  · cases h; exact going_repc hg _ (by simp [skipOf])
  · cases h; exact going_send hg _ _
  · cases h

theorem take_pc {σ σ' : Sys} {pc : List Nat → Pc} (h : takeItem σ pc = some σ') : ∃ l, σ'.pc = pc l := by
  unfold takeItem at h
  split at h <;> cases h <;> exact ⟨_, rfl⟩

theorem listen_pc {σ σ' : Sys} {i : Nat} (h : listen σ i = some σ') : σ'.pc = σ.pc := by
  unfold listen at h
  split at h <;> cases h <;> rfl

theorem hear_pc {σ σ' : Sys} {i : Nat} {w : List Nat} {hh : Sets} (h : hear σ i w hh = some σ') :
    (∃ w' h', σ'.pc = .waiting w' h') ∨ σ'.pc = .crashed := by
  unfold hear at h
  split at h
  · split at h
    · cases h
    · cases h; exact .inl ⟨_, _, rfl⟩
    · cases h; exact .inl ⟨_, _, rfl⟩
    · cases h; exact .inr rfl
  · cases h; exact .inl ⟨_, _, rfl⟩

/-- The check of the files is remembered. -/
def FilesOk (σ : Sys) : Prop := ∀ h, σ.pc = .snapshot h → ∀ i ∈ h.messaged, i ∉ h.skip → (σ.opts i).file = true

theorem files_step {σ σ' : Sys} {a : Act} (h : step σ a = some σ') (hi : Inv σ) (hf : FilesOk σ) : FilesOk σ' := by
  cases a with
  | opt j a =>
    simp only [step] at h
    split at h
    · rename_i hj
      split at h
      · cases h
      · rename_i o items ho
        cases h
        intro hh hp i hm hk
        have hfi := hf hh hp i hm hk
        by_cases e : i = j
        · subst e
          simp only [upd_same]
          cases ha : (σ.opts i).alive with
          | false => cases a <;> simp [ostep, ha] at ho
          | true =>
            obtain ⟨h1, h2, -⟩ := snapshot_still hi hp i hj ha
            cases a <;> simp [ostep, ha, h1, h2, Phase.reads] at ho
            rw [← ho.1]; exact hfi
        · simp only [upd_other _ _ e]; exact hfi
    · cases h
  | mgr a =>
    intro hh hp i hm hk
    change mstep a σ = some σ' at h
    unfold mstep at h
    split at h <;> rename_i hp0
    case h_23 =>
      split at h
      · rename_i hall
        cases h
        cases hp
        exact hall i hm hk
      · cases h; cases hp
    case h_9 =>
      split at h
      · rcases hear_pc h with ⟨_, _, e⟩ | e <;> rw [e] at hp <;> cases hp
      · cases h
    case h_3 => rw [listen_pc h, hp0] at hp; cases hp
    case h_2 | h_10 | h_14 => obtain ⟨l, e⟩ := take_pc h; rw [e] at hp; cases hp
    case h_4 | h_5 | h_28 => cases h; simp only [send] at hp; rw [hp0] at hp; cases hp
    case h_1 =>
      split at h
      · cases h
      · cases h; simp only at hp; rw [hp0] at hp; cases hp
    case h_18 => cases h; simp only at hp; split at hp <;> cases hp
    case h_7 | h_19 | h_26 | h_17 | h_21 => split at h <;> cases h <;> cases hp
    case h_29 => cases h
    all_goals cases h; cases hp

theorem going_run {as : List Act} {i : Nat} : ∀ {σ σ' : Sys}, run σ as = some σ' → (∀ a ∈ as, ¬ EndOf i a) → Going i σ → Going i σ' := by
  induction as with
  | nil => intro σ σ' h _ hg; cases h; exact hg
  | cons a as ih =>
    intro σ σ' h hn hg
    rw [run] at h
    split at h
    · cases h
    · rename_i σ1 h1
      refine ih h (fun b hb => hn b (.tail _ hb)) ?_
      cases a with
      | mgr a => exact going_mgr h1 (hn _ (.head _)) hg
      | opt j a => exact going_opt h1 (hn _ (.head _)) hg

theorem files_run {as : List Act} : ∀ {σ σ' : Sys}, run σ as = some σ' → Inv σ → FilesOk σ → FilesOk σ' := by
  induction as with
  | nil => intro σ σ' h _ hg; cases h; exact hg
  | cons a as ih =>
    intro σ σ' h hi hg
    rw [run] at h
    split at h
    · cases h
    · rename_i σ1 h1; exact ih h (inv_step h1 hi) (files_step h1 hi hg)

/-- **C37 (everybody is saved).** At the snapshot every optimizer which has come to no end and was not told to stop is alive, paused, and has
its restart file in the checkpoint. -/
theorem C37_all_saved (as : List Act) (σ : Sys) (hr : run {} as = some σ) (h : Sets) (hp : σ.pc = .snapshot h) (i : Nat)
    (hm : i ∈ σ.packs) (hn : ∀ a ∈ as, ¬ EndOf i a) :
    (σ.opts i).alive = true ∧ (σ.opts i).phase = .paused ∧ (σ.opts i).file = true := by
  have hi := inv_run hr inv_init
  have hg := going_run hr hn (i := i) ⟨rfl, by simp, by simp, by simp, by simp [skipOf]⟩
  have hf := files_run hr inv_init (fun _ h => by cases h)
  obtain ⟨h1, -, h3⟩ := snapshot_still hi hp i hm hg.alive
  have hs := hi.shape
  rw [hp] at hs
  have hk := hg.skip
  rw [hp] at hk
  exact ⟨hg.alive, h1, hf h hp i (hs.1 h3) hk⟩

/-- **C37 (files).** A checkpoint gets as far as the snapshot only with a file for every optimizer told to save. -/
theorem C37_files (σ : Sys) (hr : Reachable σ) (h : Sets) (hp : σ.pc = .snapshot h) (i : Nat) (hm : i ∈ h.messaged) (hk : i ∉ h.skip) :
    (σ.opts i).file = true := by
  obtain ⟨as, hr⟩ := hr
  exact files_run hr inv_init (fun _ h => by cases h) h hp i hm hk

/-! ### The protocol can be completed -/

/-- A living optimizer not at its end only ever sent that it is paused. -/
def Clean (σ : Sys) : Prop := ∀ i ∈ σ.packs, Well (σ.opts i) → ∀ r ∈ (σ.opts i).outbox, r = .paused

theorem clean_ostep {i : Nat} {a : OAct} {o o' : Opt} {items : List Item} (h : ostep i a o = some (o', items))
    (hc : Well o → ∀ r ∈ o.outbox, r = .paused) : Well o' → ∀ r ∈ o'.outbox, r = .paused := by
  obtain ⟨al, ph, inb, outb, ev, stp, fil, md⟩ := o
  cases al with
  | false => simp [ostep] at h
  | true =>
    cases a with
    | read w =>
      cases inb with
      | nil => simp [ostep] at h
      | cons s r =>
        cases ph <;> simp [ostep, Phase.reads] at h <;> obtain ⟨rfl, -⟩ := h <;> cases s <;> simp_all [handle, Well]
        all_goals
          intro x hx
          first
            | exact hc x hx
            | (rcases hx with hx | hx
               · exact hc x hx
               · exact hx)
    | breakSave =>
      cases inb with
      | nil => simp [ostep] at h
      | cons s r => cases s <;> cases ph <;> simp [ostep, Phase.reads] at h <;> obtain ⟨rfl, -⟩ := h <;> simp [Well]
    | clear | wake =>
      cases ph <;> simp [ostep] at h
      obtain ⟨-, rfl, -⟩ := h
      intro _
      exact hc ⟨rfl, by simp, by simp⟩
    | work =>
      cases ph <;> simp [ostep] at h
      obtain ⟨rfl, -⟩ := h
      intro _
      exact hc ⟨rfl, by simp, by simp⟩
    | finish | crash | mark =>
      cases ph <;> simp [ostep] at h
      obtain ⟨rfl, -⟩ := h
      simp [Well]
    | die =>
      simp [ostep] at h
      obtain ⟨rfl, -⟩ := h
      simp [Well]

theorem clean_opt {σ σ' : Sys} {j : Nat} {a : OAct} (h : step σ (.opt j a) = some σ') (hc : Clean σ) : Clean σ' := by
  simp only [step] at h
  split at h
  · split at h
    · cases h
    · rename_i o items ho
      cases h
      intro i hm
      by_cases e : i = j
      · subst e; simp only [upd_same]; exact clean_ostep ho (hc i hm)
      · simp only [upd_other _ _ e]; exact hc i hm
  · cases h

/-- The manager changes an optimizer only in ways that do not matter here. -/
theorem clean_one {σ : Sys} (hc : Clean σ) (j : Nat) (o : Opt) (pc : Pc) (h1 : o.alive = (σ.opts j).alive)
    (h2 : o.phase = (σ.opts j).phase) (h3 : ∀ r ∈ o.outbox, r ∈ (σ.opts j).outbox) :
    Clean { σ with opts := upd σ.opts j o, pc := pc } := by
  intro i hm hw
  by_cases e : i = j
  · subst e
    simp only [upd_same] at hw ⊢
    exact fun r hr => hc i hm ⟨by rw [← h1]; exact hw.1, by rw [← h2]; exact hw.2.1, by rw [← h2]; exact hw.2.2⟩ r (h3 r hr)
  · simp only [upd_other _ _ e] at hw ⊢
    exact hc i hm hw

theorem clean_send {σ : Sys} (hc : Clean σ) (j : Nat) (s : Sig) (pc : Pc) : Clean { send σ j s with pc := pc } :=
  clean_one hc j _ pc rfl rfl (fun _ h => h)

theorem clean_mgr {σ σ' : Sys} {a : MAct} (h : mstep a σ = some σ') (hc : Clean σ) : Clean σ' := by
  unfold mstep at h
  split at h <;> rename_i hp0
  case h_1 =>
    rename_i j
    split at h
    · cases h
    · cases h
      intro i hm hw
      by_cases e : i = j
      · subst e; simp [upd_same]
      · simp only [upd_other _ _ e] at hw ⊢
        refine hc i ?_ hw
        rcases List.mem_append.1 hm with hm | hm
        · exact hm
        · simp at hm; exact absurd hm e
  case h_2 | h_10 | h_14 =>
    unfold takeItem at h
    split at h <;> cases h <;> exact hc
  case h_3 =>
    unfold listen at h
    split at h
    · cases h
    · rename_i e
      cases h
      exact clean_one hc _ _ _ rfl rfl (fun r hr => by rw [e]; exact .tail _ hr)
  case h_4 | h_5 | h_28 => cases h; exact clean_send hc _ _ _
  case h_11 | h_12 | h_15 | h_16 | h_25 => cases h; exact clean_send hc _ _ _
  case h_7 | h_19 =>
    split at h
    · cases h; exact clean_send hc _ _ _
    · cases h; exact hc
  case h_9 =>
    split at h
    · unfold hear at h
      split at h
      · split at h
        · cases h
        · rename_i e; cases h; exact clean_one hc _ _ _ rfl rfl (fun r hr => by rw [e]; exact .tail _ hr)
        · rename_i e; cases h; exact clean_one hc _ _ _ rfl rfl (fun r hr => by rw [e]; exact .tail _ hr)
        · cases h; exact hc
      · cases h; exact hc
    · cases h
  case h_26 =>
    split at h
    · cases h; exact clean_one hc _ _ _ rfl rfl (fun _ h => h)
    · cases h; exact hc
  case h_29 => cases h
  case h_17 | h_21 | h_23 => split at h <;> cases h <;> exact hc
  all_goals cases h; exact hc

theorem clean_step {σ σ' : Sys} {a : Act} (h : step σ a = some σ') (hc : Clean σ) : Clean σ' := by
  cases a with
  | mgr a => exact clean_mgr h hc
  | opt i a => exact clean_opt h hc

theorem clean_run {as : List Act} : ∀ {σ σ' : Sys}, run σ as = some σ' → Clean σ → Clean σ' := by
  induction as with
  | nil => intro σ σ' h hg; cases h; exact hg
  | cons a as ih =>
    intro σ σ' h hg
    rw [run] at h
    split at h
    · cases h
    · rename_i σ1 h1; exact ih h (clean_step h1 hg)

/-- Whom the manager counts on is well. -/
def Live (σ : Sys) : Prop := ∀ i, CountsOn σ.pc i → Well (σ.opts i)

/-- How far the manager is from the end. -/
def rank : Pc → Nat
  | .pausing _ _ => 9
  | .waiting _ _ => 8
  | .draining _ => 7
  | .asserting _ => 6
  | .telling _ _ => 5
  | .clearing _ _ => 4
  | .filing _ => 3
  | .snapshot _ => 2
  | .releasing _ => 1
  | _ => 0

/-- The list it works on. -/
def todoOf : Pc → List Nat
  | .pausing t _ | .waiting t _ | .telling t _ | .clearing t _ | .releasing t => t
  | _ => []

/-- How far an optimizer is from what the manager waits for. -/
def weight (o : Opt) : Nat :=
  5 * o.inbox.length + o.outbox.length + (match o.phase with | .waiting => 3 | .ready => 2 | .paused => 1 | _ => 0) +
    (if o.alive then 1 else 0)

/-- How far the first in the list is. -/
def loadOf (σ : Sys) : Nat :=
  match σ.pc with
  | .waiting (i :: _) _ | .clearing (i :: _) _ => weight (σ.opts i)
  | .draining _ => σ.queue.length
  | _ => 0

/-- Nearer to the end. -/
def Nearer (σ' σ : Sys) : Prop :=
  Prod.Lex (· < ·) (Prod.Lex (· < ·) (· < ·)) (rank σ'.pc, (todoOf σ'.pc).length, loadOf σ') (rank σ.pc, (todoOf σ.pc).length, loadOf σ)

theorem nearer_wf : WellFounded Nearer :=
  InvImage.wf (fun σ : Sys => (rank σ.pc, (todoOf σ.pc).length, loadOf σ))
    (Prod.lex Nat.lt_wfRel (Prod.lex Nat.lt_wfRel Nat.lt_wfRel)).wf

theorem nearer_rank {σ' σ : Sys} (h : rank σ'.pc < rank σ.pc) : Nearer σ' σ := .left _ _ h
theorem nearer_todo {σ' σ : Sys} (h : rank σ'.pc = rank σ.pc) (h' : (todoOf σ'.pc).length < (todoOf σ.pc).length) : Nearer σ' σ := by
  unfold Nearer; rw [h]; exact .right _ (.left _ _ h')
theorem nearer_load {σ' σ : Sys} (h : σ'.pc = σ.pc) (h' : loadOf σ' < loadOf σ) : Nearer σ' σ := by
  unfold Nearer; rw [h]; exact .right _ (.right _ h')

theorem filter_ne_length {i : Nat} {w : List Nat} (h : i ∈ w) : (w.filter fun j => decide (j ≠ i)).length < w.length := by
  induction w with
  | nil => cases h
  | cons a w ih =>
    rw [List.filter_cons]
    by_cases e : a = i
    · subst e
      simp only [ne_eq, not_true_eq_false, decide_false, Bool.false_eq_true, if_false, List.length_cons]
      exact Nat.lt_succ_of_le (List.length_filter_le _ _)
    · simp only [ne_eq, e, not_false_eq_true, decide_true, if_true, List.length_cons]
      rcases List.mem_cons.1 h with h | h
      · exact absurd h.symm e
      · exact Nat.succ_lt_succ (ih h)

/-- An optimizer can do something that brings it nearer. -/
theorem opt_move {σ : Sys} {i : Nat} {a : OAct} {o : Opt} (hm : i ∈ σ.packs) (ho : ostep i a (σ.opts i) = some (o, []))
    (hw : weight o < weight (σ.opts i)) (hl : Live σ) (hwell : CountsOn σ.pc i → Well o)
    (hp : (∃ t h, σ.pc = .waiting (i :: t) h) ∨ ∃ t h, σ.pc = .clearing (i :: t) h) :
    ∃ σ', step σ (.opt i a) = some σ' ∧ Live σ' ∧ σ'.pc ≠ .crashed ∧ Nearer σ' σ := by
  refine ⟨{ σ with opts := upd σ.opts i o, queue := σ.queue ++ [] }, ?_, ?_, ?_, ?_⟩
  · simp only [step, if_pos hm, ho]
  · intro j hj
    by_cases e : j = i
    · subst e; simp only [upd_same]; exact hwell hj
    · simp only [upd_other _ _ e]; exact hl j hj
  · rcases hp with ⟨t, h, hp⟩ | ⟨t, h, hp⟩ <;> simp [hp]
  · refine nearer_load rfl ?_
    rcases hp with ⟨t, h, hp⟩ | ⟨t, h, hp⟩ <;> simp only [loadOf, hp, upd_same] <;> exact hw

theorem progress {σ : Sys} (hi : Inv σ) (hc : Clean σ) (hl : Live σ) (h1 : σ.pc ≠ .idle) (h2 : σ.pc ≠ .crashed) :
    ∃ a σ', step σ a = some σ' ∧ Live σ' ∧ σ'.pc ≠ .crashed ∧ Nearer σ' σ := by
  have hs := hi.shape
  cases hp : σ.pc with
  | idle => exact absurd hp h1
  | crashed => exact absurd hp h2
  | pausing todo m =>
    cases todo with
    | nil =>
      refine ⟨.mgr .asked, { σ with pc := .waiting m ⟨m, [], m⟩ }, by simp [step, mstep, hp], ?_, by simp, nearer_rank (by simp [hp, rank])⟩
      intro i hc; exact absurd hc.1 hc.2
    | cons i t =>
      cases ha : (σ.opts i).alive with
      | true =>
        refine ⟨.mgr .ask, { send σ i .pause with pc := .pausing t (m ++ [i]) }, by simp [step, mstep, hp, ha], fun j hc => hc.elim,
          by simp, nearer_todo (by simp [hp, rank]) (by simp [hp, todoOf])⟩
      | false =>
        refine ⟨.mgr .ask, { σ with pc := .pausing t m }, by simp [step, mstep, hp, ha], fun j hc => hc.elim,
          by simp, nearer_todo (by simp [hp, rank]) (by simp [hp, todoOf])⟩
  | waiting w h =>
    rw [hp] at hs
    cases w with
    | nil =>
      refine ⟨.mgr .synced, { σ with pc := .draining h }, by simp [step, mstep, hp], ?_, by simp, nearer_rank (by simp [hp, rank])⟩
      intro i hc; exact hl i (by rw [hp]; exact ⟨hc, by simp⟩)
    | cons i t =>
      have hm : i ∈ σ.packs := hs.2.2.2 (hs.2.1 (hs.1 (.head _)))
      have hg := hi.good i hm
      rw [hp] at hg
      simp only [stage, List.mem_cons, true_or, if_true] at hg
      have hnc : ∀ o, CountsOn σ.pc i → Well o := by
        intro o hc; rw [hp] at hc; exact absurd (List.mem_cons_self ..) hc.2
      cases ha : (σ.opts i).alive with
      | false =>
        refine ⟨.mgr (.hear i), { σ with pc := .waiting ((i :: t).filter (fun j => decide (j ≠ i))) { h with
          skip := h.skip ++ [i], living := h.living.filter (fun j => decide (j ≠ i)) } }, ?_, ?_, by simp,
          nearer_todo (by simp [hp, rank]) (by rw [hp]; exact filter_ne_length (.head _))⟩
        · simp [step, mstep, hp, hear, ha]
        · intro j hj
          obtain ⟨hj1, hj2⟩ := hj
          simp only [List.mem_filter, decide_eq_true_eq] at hj1 hj2
          exact hl j (by rw [hp]; exact ⟨hj1.1, fun hx => hj2 ⟨hx, hj1.2⟩⟩)
      | true =>
        obtain ⟨g0, g⟩ := hg ha
        rcases g with ⟨g1, g2, g3⟩ | ⟨g1, g2, g3⟩
        · cases hph : (σ.opts i).phase with
          | waiting => rw [hph] at g1; cases g1
          | ready => rw [hph] at g1; cases g1
          | ended =>
            obtain ⟨σ', h'⟩ := opt_move (a := .die) (o := { σ.opts i with alive := false }) hm (by simp [ostep, ha])
              (by simp [weight, ha]) hl (hnc _) (.inl ⟨t, h, hp⟩)
            exact ⟨_, σ', h'⟩
          | gone =>
            obtain ⟨σ', h'⟩ := opt_move (a := .die) (o := { σ.opts i with alive := false }) hm (by simp [ostep, ha])
              (by simp [weight, ha]) hl (hnc _) (.inl ⟨t, h, hp⟩)
            exact ⟨_, σ', h'⟩
          | paused =>
            obtain ⟨σ', h'⟩ := opt_move (a := .wake) (o := { σ.opts i with phase := .working }) hm (by simp [ostep, ha, hph, g0])
              (by simp [weight, ha, hph]) hl (hnc _) (.inl ⟨t, h, hp⟩)
            exact ⟨_, σ', h'⟩
          | working =>
            cases hin : (σ.opts i).inbox with
            | nil => rw [hin] at g2; cases g2
            | cons s r =>
              obtain ⟨σ', h'⟩ := opt_move (a := .read true) (o := handle { σ.opts i with inbox := r } true s) hm
                (by simp [ostep, ha, hph, hin, Phase.reads])
                (by cases s <;> simp [weight, handle, ha, hph, hin] <;> omega) hl (hnc _) (.inl ⟨t, h, hp⟩)
              exact ⟨_, σ', h'⟩
        · have hcl := hc i hm ⟨ha, by simp [g1], by simp [g1]⟩
          cases hob : (σ.opts i).outbox with
          | nil => rw [hob] at g3; cases g3
          | cons r rs =>
            have hr := hcl r (by rw [hob]; exact .head _)
            subst hr
            refine ⟨.mgr (.hear i), { σ with
              opts := upd σ.opts i { σ.opts i with outbox := rs }, pc := .waiting ((i :: t).filter (fun j => decide (j ≠ i))) h }, ?_, ?_,
              by simp, nearer_todo (by simp [hp, rank]) (by rw [hp]; exact filter_ne_length (.head _))⟩
            · simp [step, mstep, hp, hear, ha, hob]
            · intro j hj
              obtain ⟨hj1, hj2⟩ := hj
              by_cases e : j = i
              · subst e; simp only [upd_same]; exact ⟨ha, by simp [g1], by simp [g1]⟩
              · simp only [upd_other _ _ e]
                simp only [List.mem_filter, decide_eq_true_eq] at hj2
                exact hl j (by rw [hp]; exact ⟨hj1, fun hx => hj2 ⟨hx, e⟩⟩)
  | draining h =>
    cases hq : σ.queue with
    | nil =>
      refine ⟨.mgr .drained, { σ with pc := .asserting h }, by simp [step, mstep, hp, hq], fun i hc => hl i (by rw [hp]; exact hc),
        by simp, nearer_rank (by simp [hp, rank])⟩
    | cons x q =>
      cases x with
      | eval k =>
        refine ⟨.mgr .take, { σ with queue := q, logged := upd σ.logged k (σ.logged k + 1), pc := .draining { h with skip := h.skip ++ [] } },
          by simp [step, mstep, hp, takeItem, hq], fun i hc => hl i (by rw [hp]; exact hc), by simp, ?_⟩
        unfold Nearer
        rw [hp]
        exact .right _ (.right _ (by simp [loadOf, hp, hq]))
      | fin k =>
        refine ⟨.mgr .take, { σ with queue := q, pc := .draining { h with skip := h.skip ++ [k] } },
          by simp [step, mstep, hp, takeItem, hq], fun i hc => hl i (by rw [hp]; exact hc), by simp, ?_⟩
        unfold Nearer
        rw [hp]
        exact .right _ (.right _ (by simp [loadOf, hp, hq]))
  | asserting h =>
    have hq := hi.queue
    rw [hp] at hq
    simp only [QueueOk] at hq
    refine ⟨.mgr .assert, { σ with pc := .telling h.messaged h }, by simp [step, mstep, hp, hq],
      fun i hc => hl i (by rw [hp]; exact hc), by simp, nearer_rank (by simp [hp, rank])⟩
  | telling todo h =>
    cases todo with
    | nil =>
      refine ⟨.mgr .told, { σ with pc := .clearing h.living h }, by simp [step, mstep, hp], fun i hc => hl i (by rw [hp]; exact hc),
        by simp, nearer_rank (by simp [hp, rank])⟩
    | cons i t =>
      cases ha : (σ.opts i).alive with
      | true =>
        refine ⟨.mgr .tell, { send σ i (if i ∈ h.skip then .pass else .save) with pc := .telling t h }, by simp [step, mstep, hp, ha],
          fun j hc => ?_, by simp, nearer_todo (by simp [hp, rank]) (by simp [hp, todoOf])⟩
        have := hl j (by rw [hp]; exact hc)
        by_cases e : j = i
        · subst e; simp only [send, upd_same]; exact this
        · simpa only [send, upd_other _ _ e] using this
      | false =>
        refine ⟨.mgr .tell, { σ with pc := .telling t h }, by simp [step, mstep, hp, ha], fun j hc => hl j (by rw [hp]; exact hc),
          by simp, nearer_todo (by simp [hp, rank]) (by simp [hp, todoOf])⟩
  | clearing w h =>
    rw [hp] at hs
    cases w with
    | nil =>
      refine ⟨.mgr .allCleared, { σ with pc := .filing h }, by simp [step, mstep, hp], fun i hc => hc.elim, by simp,
        nearer_rank (by simp [hp, rank])⟩
    | cons i t =>
      have hm : i ∈ σ.packs := hs.2.2 (hs.2.1 (hs.1 (.head _)))
      have hg := hi.good i hm
      rw [hp] at hg
      simp only [stage, if_pos (hs.1 (List.mem_cons_self ..)), List.mem_cons, true_or, if_true] at hg
      obtain ⟨ha, hw1, hw2⟩ := hl i (by rw [hp]; exact List.mem_cons_self ..)
      obtain ⟨g0, g⟩ := hg ha
      have hmove : ∀ {a o}, ostep i a (σ.opts i) = some (o, []) → weight o < weight (σ.opts i) → Well o →
          ∃ a σ', step σ a = some σ' ∧ Live σ' ∧ σ'.pc ≠ .crashed ∧ Nearer σ' σ := by
        intro a o ho hw hwell
        obtain ⟨σ', h'⟩ := opt_move hm ho hw hl (fun _ => hwell) (.inr ⟨t, h, hp⟩)
        exact ⟨_, σ', h'⟩
      rcases g with ⟨g1, g2, g3⟩ | ⟨g1, g2, g3⟩ | ⟨g1, g2, g3⟩
      · cases hin : (σ.opts i).inbox with
        | nil => rw [hin] at g2; cases g2
        | cons s r =>
          have hs' : s ≠ .pause := by
            rintro rfl
            rw [hin, ctl_cons] at g2
            simp only [Sig.ctl, if_true, List.cons.injEq] at g2
            revert g2
            split <;> simp
          refine hmove (a := .read true) (o := handle { σ.opts i with inbox := r } true s)
            (by simp [ostep, ha, g1, hin, Phase.reads])
            (by cases s <;> simp [weight, handle, ha, g1, hin] at hs' ⊢ <;> omega) ?_
          cases s <;> simp [handle, Well, ha, g1] at hs' ⊢
      · have g1 : (σ.opts i).phase = .ready := by
          rcases g1 with g1 | g1 | g1
          · exact g1
          · exact absurd g1 hw1
          · exact absurd g1 hw2
        cases hin : (σ.opts i).inbox with
        | nil =>
          exact hmove (a := .clear) (o := { σ.opts i with phase := .paused, event := false })
            (by simp [ostep, ha, g1, hin]) (by simp [weight, ha, g1, hin]) ⟨ha, by simp, by simp⟩
        | cons s r =>
          have hs' : s.ctl = false := by
            rw [hin, ctl_cons] at g2
            cases hh : s.ctl with
            | false => rfl
            | true => rw [hh] at g2; cases g2
          refine hmove (a := .read true) (o := handle { σ.opts i with inbox := r } true s)
            (by simp [ostep, ha, g1, hin, Phase.reads])
            (by cases s <;> simp [weight, handle, ha, g1, hin, Sig.ctl] at hs' ⊢ <;> omega) ?_
          cases s <;> simp [handle, Well, ha, g1, Sig.ctl] at hs' ⊢
      · refine ⟨.mgr (.cleared i), { σ with pc := .clearing ((i :: t).filter (fun j => decide (j ≠ i))) h }, ?_, ?_, by simp,
          nearer_todo (by simp [hp, rank]) (by rw [hp]; exact filter_ne_length (.head _))⟩
        · simp [step, mstep, hp, g3]
        · intro j hj
          have : j ∈ i :: t := (List.mem_filter.1 hj).1
          exact hl j (by rw [hp]; exact this)
  | filing h =>
    by_cases hf : ∀ i ∈ h.messaged, i ∉ h.skip → (σ.opts i).file = true
    · exact ⟨.mgr .files, { σ with pc := .snapshot h }, by simp only [step, mstep, hp, if_pos hf], fun i hc => hc.elim, by simp,
        nearer_rank (by simp [hp, rank])⟩
    · exact ⟨.mgr .files, { σ with pc := .releasing σ.packs }, by simp only [step, mstep, hp, if_neg hf], fun i hc => hc.elim, by simp,
        nearer_rank (by simp [hp, rank])⟩
  | snapshot h =>
    exact ⟨.mgr .saved, { σ with pc := .releasing σ.packs }, by simp [step, mstep, hp], fun i hc => hc.elim, by simp,
      nearer_rank (by simp [hp, rank])⟩
  | releasing todo =>
    cases todo with
    | nil => exact ⟨.mgr .released, { σ with pc := .idle }, by simp [step, mstep, hp], fun i hc => hc.elim, by simp,
        nearer_rank (by simp [hp, rank])⟩
    | cons i t =>
      cases ha : (σ.opts i).alive with
      | true =>
        exact ⟨.mgr .release, { σ with opts := upd σ.opts i { σ.opts i with event := true }, pc := .releasing t },
          by simp [step, mstep, hp, ha], fun j hc => hc.elim, by simp, nearer_todo (by simp [hp, rank]) (by simp [hp, todoOf])⟩
      | false =>
        exact ⟨.mgr .release, { σ with pc := .releasing t }, by simp [step, mstep, hp, ha], fun j hc => hc.elim, by simp,
          nearer_todo (by simp [hp, rank]) (by simp [hp, todoOf])⟩

/-- **C37 (no deadlock).** From every moment of every run in which the manager has not failed and every optimizer it counts on lives and is
not at its end, the checkpoint can be completed: some continuation brings the manager back to its main loop. Missing for the full
property: optimizers which end after their reply (refuted below). -/
theorem C37_can_complete_partial (σ : Sys) (hr : Reachable σ) (hc : σ.pc ≠ .crashed)
    (hl : ∀ i, CountsOn σ.pc i → Well (σ.opts i)) : ∃ as σ', run σ as = some σ' ∧ σ'.pc = .idle := by
  obtain ⟨bs, hr⟩ := hr
  have hi := inv_run hr inv_init
  have hcl := clean_run hr (fun i hm => by cases hm)
  clear hr
  induction σ using nearer_wf.induction with
  | _ σ ih =>
    by_cases hp : σ.pc = .idle
    · exact ⟨[], σ, rfl, hp⟩
    · obtain ⟨a, σ1, h1, h2, h3, h4⟩ := progress hi hcl hl hp hc
      obtain ⟨as, σ', h5, h6⟩ := ih σ1 h4 h3 h2 (inv_step h1 hi) (clean_step h1 hcl)
      refine ⟨a :: as, σ', ?_, h6⟩
      simp only [run, h1, h5]

/-- Optimizer 1 is dead with its event set, and the manager waits for the event to be cleared. -/
structure Stuck (h : Sets) (σ : Sys) : Prop where
  pc : σ.pc = .clearing [1] h
  event : (σ.opts 1).event = true
  quiet : (σ.opts 1).alive = false ∨ (σ.opts 1).phase = .ended ∨ (σ.opts 1).phase = .gone

theorem stuck_step {h : Sets} {σ σ' : Sys} {a : Act} (hs : step σ a = some σ') (k : Stuck h σ) : Stuck h σ' := by
  obtain ⟨k1, k2, k3⟩ := k
  cases a with
  | mgr a =>
    cases a <;> simp [step, mstep, k1] at hs
    obtain ⟨⟨rfl, h2⟩, -⟩ := hs
    rw [k2] at h2; cases h2
  | opt i a =>
    simp only [step] at hs
    split at hs
    · split at hs
      · cases hs
      · rename_i o items ho
        cases hs
        by_cases e : i = 1
        · subst e
          refine ⟨k1, ?_, ?_⟩ <;> simp only [upd_same]
          all_goals
            rcases k3 with k3 | k3 | k3
            · simp [ostep, k3] at ho
            all_goals
              cases hal : (σ.opts 1).alive
              · simp [ostep, hal] at ho
              · cases a <;> simp [ostep, hal, k3, Phase.reads] at ho <;> obtain ⟨rfl, rfl⟩ := ho <;> simp [k2, k3]
        · refine ⟨k1, ?_, ?_⟩ <;> simp only [upd_other _ _ (Ne.symm e)]
          · exact k2
          · exact k3
    · cases hs

theorem stuck_run {h : Sets} {as : List Act} : ∀ {σ σ' : Sys}, run σ as = some σ' → Stuck h σ → Stuck h σ' := by
  induction as with
  | nil => intro σ σ' hr k; cases hr; exact k
  | cons a as ih =>
    intro σ σ' hr k
    rw [run] at hr
    split at hr
    · cases hr
    · rename_i h1; exact ih hr (stuck_step h1 k)

/-- The state after a run that is possible. -/
def after (as : List Act) (hs : (run {} as).isSome) : Sys := (run {} as).get hs

theorem after_run (as : List Act) (hs : (run {} as).isSome) : run {} as = some (after as hs) := by
  simp [after]

/-- Optimizer 1 replies that it is paused and then dies. -/
def hangRun : List Act :=
  [.mgr (.start 1), .mgr .begin_, .mgr .ask, .mgr .asked, .opt 1 (.read true), .mgr (.hear 1), .opt 1 .die, .mgr .synced, .mgr .drained,
    .mgr .assert, .mgr .tell, .mgr .told]

/-- Optimizer 1 replies that it is paused; its `checkpoint_save` raises. -/
def hangRun' : List Act :=
  [.mgr (.start 1), .mgr .begin_, .mgr .ask, .mgr .asked, .opt 1 (.read true), .mgr (.hear 1), .mgr .synced, .mgr .drained,
    .mgr .assert, .mgr .tell, .mgr .told, .opt 1 .breakSave]

/-- **C37, refuted (none is left waiting).** If an optimizer dies after its reply, or its `checkpoint_save` raises, the manager waits for
ever for its event to be cleared: no continuation leaves that loop. -/
theorem C37_hang_refuted :
    (∃ as σ, run {} as = some σ ∧ .opt 1 .die ∈ as ∧ (∀ bs σ', run σ bs = some σ' → ∃ h, σ'.pc = .clearing [1] h)) ∧
    (∃ as σ, run {} as = some σ ∧ .opt 1 .breakSave ∈ as ∧ (∀ bs σ', run σ bs = some σ' → ∃ h, σ'.pc = .clearing [1] h)) := by
  refine ⟨⟨hangRun, after hangRun (by decide +kernel), after_run _ _, by decide +kernel, fun bs σ' hb => ?_⟩,
    ⟨hangRun', after hangRun' (by decide +kernel), after_run _ _, by decide +kernel, fun bs σ' hb => ?_⟩⟩
  · exact ⟨_, (stuck_run (h := ⟨[1], [], [1]⟩) hb ⟨by decide +kernel, by decide +kernel, .inl (by decide +kernel)⟩).pc⟩
  · exact ⟨_, (stuck_run (h := ⟨[1], [], [1]⟩) hb ⟨by decide +kernel, by decide +kernel, .inr (.inl (by decide +kernel))⟩).pc⟩

/-- The manager has failed and optimizer 1 waits for an instruction. -/
structure Left (σ : Sys) : Prop where
  pc : σ.pc = .crashed
  phase : (σ.opts 1).phase = .waiting
  inbox : ∀ s ∈ (σ.opts 1).inbox, s = .stop

theorem left_step {σ σ' : Sys} {a : Act} (hs : step σ a = some σ') (k : Left σ) : Left σ' := by
  obtain ⟨k1, k2, k3⟩ := k
  cases a with
  | mgr a =>
    cases a <;> simp [step, mstep, k1] at hs
    rename_i i
    subst hs
    by_cases e : i = 1
    · subst e
      refine ⟨k1, ?_, ?_⟩ <;> simp only [send, upd_same]
      · exact k2
      · intro s hs
        rcases List.mem_append.1 hs with hs | hs
        · exact k3 s hs
        · exact List.mem_singleton.1 hs
    · refine ⟨k1, ?_, ?_⟩ <;> simp only [send, upd_other _ _ (Ne.symm e)]
      · exact k2
      · exact k3
  | opt i a =>
    simp only [step] at hs
    split at hs
    · split at hs
      · cases hs
      · rename_i o items ho
        cases hs
        by_cases e : i = 1
        · subst e
          have : o.phase = .waiting ∧ ∀ s ∈ o.inbox, s = .stop := by
            cases hal : (σ.opts 1).alive
            · simp [ostep, hal] at ho
            · cases hin : (σ.opts 1).inbox with
              | nil =>
                cases a <;> simp [ostep, hal, k2, Phase.reads, hin] at ho
                obtain ⟨rfl, rfl⟩ := ho; simp [k2, hin]
              | cons s r =>
                have hs := k3 s (by rw [hin]; exact .head _)
                subst hs
                cases a <;> simp [ostep, hal, k2, Phase.reads, hin, handle] at ho <;> obtain ⟨rfl, rfl⟩ := ho <;> refine ⟨rfl, fun s hs => ?_⟩
                · exact k3 s (by rw [hin]; exact .tail _ hs)
                · exact k3 s (by rw [hin]; exact hs)
          refine ⟨k1, ?_, ?_⟩ <;> simp only [upd_same]
          · exact this.1
          · exact this.2
        · refine ⟨k1, ?_, ?_⟩ <;> simp only [upd_other _ _ (Ne.symm e)]
          · exact k2
          · exact k3
    · cases hs

theorem left_run {as : List Act} : ∀ {σ σ' : Sys}, run σ as = some σ' → Left σ → Left σ' := by
  induction as with
  | nil => intro σ σ' hr k; cases hr; exact k
  | cons a as ih =>
    intro σ σ' hr k
    rw [run] at hr
    split at hr
    · cases hr
    · rename_i h1; exact ih hr (left_step h1 k)

/-- Optimizer 1 replies that it is paused, optimizer 2 fails with an exception. -/
def leftRun : List Act :=
  [.mgr (.start 1), .mgr (.start 2), .mgr .begin_, .mgr .ask, .mgr .ask, .mgr .asked, .opt 1 (.read true), .mgr (.hear 1), .opt 2 .crash,
    .mgr (.hear 2)]

/-- **C37, refuted (none is left waiting).** The report of a failure in one optimizer, arriving during the hand-shake, makes the manager
fail with the others asked to wait: another optimizer, living, waits for its instruction in every continuation. -/
theorem C37_left_waiting_refuted :
    ∃ as σ, run {} as = some σ ∧ (σ.opts 1).alive = true ∧
      ∀ bs σ', run σ bs = some σ' → σ'.pc = .crashed ∧ (σ'.opts 1).phase = .waiting := by
  refine ⟨leftRun, after leftRun (by decide +kernel), after_run _ _, by decide +kernel, fun bs σ' hb => ?_⟩
  have := left_run hb ⟨by decide +kernel, by decide +kernel, by decide +kernel⟩
  exact ⟨this.pc, this.phase⟩

/-- A checkpoint with three optimizers: 1 evaluates and is saved, 2 ends on its own before it sees the request, 3 is killed by a hunt
while the manager waits. -/
def goodRun : List Act :=
  [.mgr (.start 1), .mgr (.start 2), .mgr (.start 3), .opt 1 .work, .opt 2 .work, .mgr .begin_, .mgr .ask, .opt 2 .finish, .mgr .ask,
    .mgr .ask, .mgr .asked, .opt 1 .work, .opt 1 (.read true), .opt 3 (.read true), .mgr (.hear 1), .mgr .take, .mgr (.kill 3),
    .mgr (.hear 2), .opt 2 .mark, .opt 2 .die, .mgr (.hear 2), .mgr (.hear 3), .mgr .synced, .mgr .take, .mgr .take, .mgr .take,
    .mgr .drained, .mgr .assert, .mgr .tell, .mgr .tell, .mgr .tell, .mgr .told, .opt 3 (.read true), .opt 3 (.read true), .opt 3 .clear,
    .opt 1 (.read true), .opt 1 .clear, .mgr (.cleared 3), .mgr (.cleared 1), .mgr .allCleared, .mgr .files]

/-- It reaches the snapshot; optimizer 1 has its file, 3 has none and is alive. -/
example : (run {} goodRun).map (fun σ => (σ.pc, (σ.opts 1).file, (σ.opts 3).file, (σ.opts 3).alive, σ.logged 1, σ.logged 2)) =
    some (.snapshot ⟨[1, 2, 3], [3, 2, 2, 2], [1, 3]⟩, true, false, true, 2, 1) := by decide +kernel

/-- Optimizer 1 meets the premise of `C37_all_saved` in it. -/
example : ∀ a ∈ goodRun, ¬ EndOf 1 a := by
  simp [goodRun, EndOf]

/-- In the middle of it the premises of `C37_can_complete_partial` hold while the manager counts on 1 and waits for the others. -/
example : (run {} (goodRun.take 15)).map (fun σ => (σ.pc, (σ.opts 1).alive, (σ.opts 1).phase)) =
    some (.waiting [2, 3] ⟨[1, 2, 3], [], [1, 2, 3]⟩, true, .waiting) := by decide +kernel

/-- And it ends with the main loop and everybody released. -/
example : (run {} (goodRun ++ [.mgr .saved, .mgr .release, .mgr .release, .mgr .release, .mgr .released])).map
    (fun σ => (σ.pc, (σ.opts 1).event, (σ.opts 3).event)) = some (.idle, true, true) := by decide +kernel

/-- A file is there, or may still be written before the event is cleared, or the event will not be cleared. -/
def Has (o : Opt) : Prop := o.file = true ∨ (o.event = true ∧ (Sig.save ∈ o.inbox ∨ ¬ Well o))

theorem has_ostep {i : Nat} {a : OAct} {o o' : Opt} {items : List Item} (h : ostep i a o = some (o', items)) (hw : a ≠ .read false)
    (hh : Has o) : Has o' := by
  obtain ⟨al, ph, inb, outb, ev, stp, fil, md⟩ := o
  cases al with
  | false => simp [ostep] at h
  | true =>
    cases a with
    | read w =>
      cases w with
      | false => exact absurd rfl hw
      | true =>
        cases inb with
        | nil => simp [ostep] at h
        | cons s r =>
          cases ph <;> simp [ostep, Phase.reads] at h <;> obtain ⟨rfl, -⟩ := h <;> cases s <;> simp_all [Has, handle, Well]
    | breakSave =>
      cases inb with
      | nil => simp [ostep] at h
      | cons s r => cases s <;> cases ph <;> simp [ostep, Phase.reads] at h <;> obtain ⟨rfl, -⟩ := h <;> simp_all [Has, Well]
    | clear =>
      cases ph <;> simp [ostep] at h
      obtain ⟨rfl, rfl, -⟩ := h
      simp_all [Has, Well]
    | wake =>
      cases ph <;> simp [ostep] at h
      obtain ⟨h1, rfl, -⟩ := h
      simp_all [Has, Well]
    | _ =>
      cases ph <;> simp [ostep] at h <;> obtain ⟨rfl, -⟩ := h <;> simp_all [Has, Well]
      all_goals exact hh.imp id And.left

theorem file_ostep {i : Nat} {a : OAct} {o o' : Opt} {items : List Item} (h : ostep i a o = some (o', items)) (hw : a ≠ .read false)
    (hh : o.file = true) : o'.file = true := by
  obtain ⟨al, ph, inb, outb, ev, stp, fil, md⟩ := o
  cases al with
  | false => simp [ostep] at h
  | true =>
    cases a with
    | read w =>
      cases w with
      | false => exact absurd rfl hw
      | true =>
        cases inb with
        | nil => simp [ostep] at h
        | cons s r =>
          cases ph <;> simp [ostep, Phase.reads] at h <;> obtain ⟨rfl, -⟩ := h <;> cases s <;> simp_all [handle]
    | breakSave =>
      cases inb with
      | nil => simp [ostep] at h
      | cons s r => cases s <;> cases ph <;> simp [ostep, Phase.reads] at h <;> obtain ⟨rfl, -⟩ := h <;> simp_all
    | clear | wake =>
      cases ph <;> simp [ostep] at h
      obtain ⟨h1, rfl, -⟩ := h
      simp_all
    | _ =>
      cases ph <;> simp [ostep] at h <;> obtain ⟨rfl, -⟩ := h <;> simp_all

theorem dead_ostep {i : Nat} {a : OAct} {o o' : Opt} {items : List Item} (h : ostep i a o = some (o', items)) (hd : o'.alive = false) :
    o'.event = o.event := by
  obtain ⟨al, ph, inb, outb, ev, stp, fil, md⟩ := o
  cases al with
  | false => simp [ostep] at h
  | true =>
    cases a with
    | read w =>
      cases inb with
      | nil => simp [ostep] at h
      | cons s r => cases ph <;> simp [ostep, Phase.reads] at h <;> obtain ⟨rfl, -⟩ := h <;> cases s <;> simp_all [handle]
    | breakSave =>
      cases inb with
      | nil => simp [ostep] at h
      | cons s r => cases s <;> cases ph <;> simp [ostep, Phase.reads] at h <;> obtain ⟨rfl, -⟩ := h <;> simp_all
    | clear | wake =>
      cases ph <;> simp [ostep] at h
      obtain ⟨h1, rfl, -⟩ := h
      simp_all
    | _ =>
      cases ph <;> simp [ostep] at h <;> obtain ⟨rfl, -⟩ := h <;> simp_all

/-- Files will be there when they are looked for. -/
def Filed (f : Nat → Opt) : Pc → Prop
  | .pausing _ m => ∀ i ∈ m, (f i).event = true
  | .waiting _ h | .draining h | .asserting h =>
    (∀ i ∈ h.messaged, (f i).event = true) ∧ ∀ i ∈ h.messaged, i ∈ h.skip ∨ i ∈ h.living
  | .telling t h =>
    (∀ i ∈ t, (f i).event = true) ∧ (∀ i ∈ h.messaged, i ∈ h.skip ∨ i ∈ h.living) ∧ ∀ i ∈ h.messaged, i ∉ h.skip → i ∉ t → Has (f i)
  | .clearing w h => ∀ i ∈ h.messaged, i ∉ h.skip → if i ∈ w then Has (f i) else (f i).file = true
  | .filing h => ∀ i ∈ h.messaged, i ∉ h.skip → (f i).file = true
  | _ => True

/-- One optimizer changes. -/
theorem filed_one {f : Nat → Opt} {pc : Pc} {j : Nat} {o : Opt} (hf : Filed f pc)
    (h1 : (∃ st, stage pc j = st ∧ (st = .asked ∨ st = .synced ∨ st = .lost)) → (f j).event = true → o.event = true)
    (h2 : Has (f j) → Has o) (h3 : (f j).file = true → o.file = true)
    (hpm : ∀ t m, pc = .pausing t m → ∀ i ∈ m, i ∉ t) : Filed (upd f j o) pc := by
  have key : ∀ i, (i = j ∧ upd f j o i = o) ∨ (i ≠ j ∧ upd f j o i = f i) := by
    intro i
    by_cases e : i = j
    · subst e; exact .inl ⟨rfl, upd_same ..⟩
    · exact .inr ⟨e, upd_other _ _ e⟩
  cases pc with
  | pausing t m =>
    intro i hm
    rcases key i with ⟨rfl, e⟩ | ⟨_, e⟩ <;> rw [e]
    · refine h1 ⟨_, rfl, ?_⟩ (hf i hm)
      simp [stage, hpm t m rfl i hm, hm]
    · exact hf i hm
  | waiting w h =>
    refine ⟨fun i hm => ?_, hf.2⟩
    rcases key i with ⟨rfl, e⟩ | ⟨_, e⟩ <;> rw [e]
    · refine h1 ⟨_, rfl, ?_⟩ (hf.1 i hm)
      unfold stage
      simp only
      split
      · exact .inl rfl
      · split
        · exact .inr (.inl rfl)
        · exact .inr (.inr rfl)
    · exact hf.1 i hm
  | draining h | asserting h =>
    refine ⟨fun i hm => ?_, hf.2⟩
    rcases key i with ⟨rfl, e⟩ | ⟨_, e⟩ <;> rw [e]
    · refine h1 ⟨_, rfl, ?_⟩ (hf.1 i hm)
      unfold stage
      simp only
      split
      · exact .inr (.inl rfl)
      · exact .inr (.inr rfl)
    · exact hf.1 i hm
  | telling t h =>
    refine ⟨fun i hm => ?_, hf.2.1, fun i hm hk ht => ?_⟩
    · rcases key i with ⟨rfl, e⟩ | ⟨_, e⟩ <;> rw [e]
      · refine h1 ⟨_, rfl, ?_⟩ (hf.1 i hm)
        unfold stage
        simp only [hm, if_true]
        split
        · exact .inr (.inl rfl)
        · exact .inr (.inr rfl)
      · exact hf.1 i hm
    · rcases key i with ⟨rfl, e⟩ | ⟨_, e⟩ <;> rw [e]
      · exact h2 (hf.2.2 i hm hk ht)
      · exact hf.2.2 i hm hk ht
  | clearing w h =>
    intro i hm hk
    have := hf i hm hk
    rcases key i with ⟨rfl, e⟩ | ⟨_, e⟩ <;> rw [e]
    · split
      · rename_i hw; rw [if_pos hw] at this; exact h2 this
      · rename_i hw; rw [if_neg hw] at this; exact h3 this
    · exact this
  | filing h =>
    intro i hm hk
    have := hf i hm hk
    rcases key i with ⟨rfl, e⟩ | ⟨_, e⟩ <;> rw [e]
    · exact h3 this
    · exact this
  | idle | snapshot h | releasing t | crashed => trivial

theorem sub_of_inv {σ : Sys} (hi : Inv σ) : ∀ t m, σ.pc = .pausing t m → ∀ i ∈ m, i ∉ t := by
  have hs := hi.shape
  intro t m hp i hm ht
  rw [hp] at hs
  exact (List.nodup_append.1 hs.1).2.2 i hm i ht rfl

theorem filed_opt {σ σ' : Sys} {j : Nat} {a : OAct} (h : step σ (.opt j a) = some σ') (hw : a ≠ .read false) (hi : Inv σ)
    (hf : Filed σ.opts σ.pc) : Filed σ'.opts σ'.pc := by
  have hi' := inv_step h hi
  simp only [step] at h
  split at h
  · rename_i hj
    split at h
    · cases h
    · rename_i o items ho
      cases h
      refine filed_one hf ?_ (has_ostep ho hw) (file_ostep ho hw) (sub_of_inv hi')
      rintro ⟨st, hst, hst'⟩ he
      have hg := hi'.good j hj
      simp only [upd_same, hst] at hg
      cases hd : o.alive with
      | false => rw [dead_ostep ho hd]; exact he
      | true =>
        have := hg hd
        rcases hst' with rfl | rfl | rfl
        · exact this.1
        · exact this.1
        · exact this.elim
  · cases h

theorem filed_send {σ : Sys} {pc : Pc} (hf : Filed σ.opts pc) (j : Nat) (s : Sig) (s2 : ∀ t m, pc = .pausing t m → ∀ i ∈ m, i ∉ t) :
    Filed (send σ j s).opts pc := by
  refine filed_one hf (fun _ h => h) ?_ (fun h => h) s2
  rintro (h | ⟨h, h'⟩)
  · exact .inl h
  · refine .inr ⟨h, ?_⟩
    rcases h' with h' | h'
    · exact .inl (List.mem_append_left _ h')
    · exact .inr h'

theorem take_opts {σ σ' : Sys} {pc : List Nat → Pc} (h : takeItem σ pc = some σ') : σ'.opts = σ.opts := by
  unfold takeItem at h
  split at h <;> cases h <;> rfl

theorem filed_mgr {σ σ' : Sys} {a : MAct} (h : mstep a σ = some σ') (hi : Inv σ) (hf : Filed σ.opts σ.pc) : Filed σ'.opts σ'.pc := by
  have hs := hi.shape
  unfold mstep at h
  split at h <;> rename_i hp <;> (try rw [hp] at hs hf)
  · split at h
    · cases h
    · cases h; rw [hp]; trivial
  · obtain ⟨l, e⟩ := take_pc h; rw [e]; trivial
  · rw [listen_pc h, hp]; trivial
  · cases h; simp only [send]; rw [hp]; trivial
  · cases h; simp only [send]; rw [hp]; trivial
  · cases h; intro i hm; cases hm
  · -- ask
    rename_i i t m
    have hnd := List.nodup_append.1 hs.1
    split at h
    · rename_i ha
      cases h
      intro j hj
      by_cases e : j = i
      · subst e
        simp only [send, upd_same]
        have hg := hi.good j (hs.2 (List.mem_append_right _ (.head _)))
        rw [hp] at hg
        simp only [stage, List.mem_cons, true_or, if_true] at hg
        exact (hg ha).1
      · simp only [send, upd_other _ _ e]
        rcases List.mem_append.1 hj with hj | hj
        · exact hf j hj
        · exact absurd (List.mem_singleton.1 hj) e
    · cases h; exact hf
  · cases h; exact ⟨hf, fun i hm => .inr hm⟩
  · -- hear
    rename_i i w hh
    split at h
    · unfold hear at h
      split at h
      · split at h
        · cases h
        · cases h
          refine filed_one (o := { σ.opts i with outbox := _ }) (f := σ.opts) ⟨hf.1, fun j hj => ?_⟩ (fun _ h => h) (fun h => h) (fun h => h)
            (fun _ _ e => by cases e)
          exact (hf.2 j hj).imp (fun h => List.mem_append_left _ h) id
        · cases h
          exact filed_one (o := { σ.opts i with outbox := _ }) (f := σ.opts) hf (fun _ h => h) (fun h => h) (fun h => h)
            (fun _ _ e => by cases e)
        · cases h; trivial
      · cases h
        refine ⟨hf.1, fun j hj => ?_⟩
        by_cases e : j = i
        · subst e; exact .inl (by simp)
        · exact (hf.2 j hj).imp (fun h => List.mem_append_left _ h) (fun h => List.mem_filter.2 ⟨h, by simpa using e⟩)
    · cases h
  · rename_i w hh
    obtain ⟨l, e⟩ := take_pc h; rw [e, take_opts h]
    exact ⟨hf.1, fun j hj => (hf.2 j hj).imp (fun h => List.mem_append_left _ h) id⟩
  · rename_i i w hh
    cases h
    refine filed_send (pc := .waiting w { hh with skip := hh.skip ++ [i] }) ⟨hf.1, fun j hj => ?_⟩ _ _ (fun _ _ e => by cases e)
    exact (hf.2 j hj).imp (fun h => List.mem_append_left _ h) id
  · rename_i i w hh
    cases h
    exact filed_send (pc := .waiting w hh) hf _ _ (fun _ _ e => by cases e)
  · cases h; exact hf
  · rename_i hh
    obtain ⟨l, e⟩ := take_pc h; rw [e, take_opts h]
    exact ⟨hf.1, fun j hj => (hf.2 j hj).imp (fun h => List.mem_append_left _ h) id⟩
  · rename_i i hh
    cases h
    refine filed_send (pc := .draining { hh with skip := hh.skip ++ [i] }) ⟨hf.1, fun j hj => ?_⟩ _ _ (fun _ _ e => by cases e)
    exact (hf.2 j hj).imp (fun h => List.mem_append_left _ h) id
  · rename_i i hh
    cases h
    exact filed_send (pc := .draining hh) hf _ _ (fun _ _ e => by cases e)
  · split at h
    · cases h; exact hf
    · cases h
  · cases h
    simp only
    split
    · exact ⟨hf.1, hf.2, fun i hm _ ht => absurd hm ht⟩
    · trivial
  · -- tell
    rename_i i t hh
    have hit : i ∉ t := (List.nodup_cons.1 hs.1).1
    have hev := hf.1 i (.head _)
    split at h
    · cases h
      refine ⟨fun j hj => ?_, hf.2.1, fun j hm hk ht => ?_⟩
      · have := hf.1 j (.tail _ hj)
        by_cases e : j = i
        · subst e; simp only [send, upd_same]; exact this
        · simp only [send, upd_other _ _ e]; exact this
      · by_cases e : j = i
        · subst e
          simp only [send, upd_same, if_neg hk]
          exact .inr ⟨hev, .inl (by simp)⟩
        · simp only [send, upd_other _ _ e]
          exact hf.2.2 j hm hk (by simp [e, ht])
    · rename_i ha
      cases h
      refine ⟨fun j hj => hf.1 j (.tail _ hj), hf.2.1, fun j hm hk ht => ?_⟩
      by_cases e : j = i
      · subst e
        exact .inr ⟨hev, .inr fun hw => ha hw.1⟩
      · exact hf.2.2 j hm hk (by simp [e, ht])
  · -- told
    cases h
    intro i hm hk
    rcases hf.2.1 i hm with h | h
    · exact absurd h hk
    · rw [if_pos h]
      exact hf.2.2 i hm hk (by simp)
  · -- cleared
    rename_i i w hh
    split at h
    · rename_i hc
      cases h
      intro j hm hk
      have := hf j hm hk
      by_cases e : j = i
      · subst e
        rw [if_pos hc.1] at this
        rw [if_neg (by simp)]
        rcases this with h | ⟨h, -⟩
        · exact h
        · rw [hc.2] at h; cases h
      · simpa [e] using this
    · cases h
  · cases h
    intro i hm hk
    have := hf i hm hk
    simpa using this
  · split at h <;> cases h <;> trivial
  · cases h; trivial
  · cases h; trivial
  · split at h <;> cases h <;> trivial
  · cases h; trivial
  · cases h; simp only [send]; rw [hp]; trivial
  · cases h

theorem filed_run {as : List Act} : ∀ {σ σ' : Sys}, run σ as = some σ' → (∀ i, Act.opt i (.read false) ∉ as) → Inv σ →
    Filed σ.opts σ.pc → Filed σ'.opts σ'.pc := by
  induction as with
  | nil => intro σ σ' h _ _ hg; cases h; exact hg
  | cons a as ih =>
    intro σ σ' h hw hi hg
    rw [run] at h
    split at h
    · cases h
    · rename_i σ1 h1
      refine ih h (fun i hb => hw i (.tail _ hb)) (inv_step h1 hi) ?_
      cases a with
      | mgr a => exact filed_mgr h1 hi hg
      | opt j a => exact filed_opt h1 (fun e => hw j (by subst e; exact .head _)) hi hg

/-- **C37 (not abandoned).** If every optimizer which carries out `checkpoint_save` leaves its file, then no interleaving makes the manager
give up the checkpoint for a missing file: optimizers which end, die or are stopped in between are not asked for one. -/
theorem C37_not_abandoned (as : List Act) (σ : Sys) (hr : run {} as = some σ) (hw : ∀ i, Act.opt i (.read false) ∉ as) (h : Sets)
    (hp : σ.pc = .filing h) : ∃ σ', step σ (.mgr .files) = some σ' ∧ σ'.pc = .snapshot h := by
  have := filed_run hr hw inv_init trivial
  rw [hp] at this
  refine ⟨{ σ with pc := .snapshot h }, ?_, rfl⟩
  simp only [step, mstep, hp]
  exact if_pos this

/-- `goodRun` meets its premises just before the files are looked for. -/
example : (∀ i, Act.opt i (.read false) ∉ goodRun.take 40) ∧
    (run {} (goodRun.take 40)).map (fun σ => σ.pc) = some (.filing ⟨[1, 2, 3], [3, 2, 2, 2], [1, 3]⟩) := by
  refine ⟨?_, by decide +kernel⟩
  simp [goodRun]

end Glompo.Props
