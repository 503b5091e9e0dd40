import Verif.Model.Handshake

/-!
# Invariant of the checkpoint hand-shake
-/

namespace Glompo.Handshake

open Glompo

/-- Messages of the hand-shake. -/
def Sig.ctl : Sig → Bool
  | .pause | .save | .pass => true
  | _ => false

/-- The messages of the hand-shake in a pipe. -/
def ctl (l : List Sig) : List Sig := l.filter Sig.ctl

/-- What the manager believes of an optimizer. -/
inductive Stage where
  | quiet | asked | synced | told (save : Bool) | stilled | lost | any
  deriving DecidableEq

/-- Belief at a point of the manager's program. -/
def stage (pc : Pc) (i : Nat) : Stage :=
  match pc with
  | .idle => .quiet
  | .pausing todo m => if i ∈ todo then .quiet else if i ∈ m then .asked else .lost
  | .waiting w h => if i ∈ w then .asked else if i ∈ h.living then .synced else .lost
  | .draining h | .asserting h => if i ∈ h.living then .synced else .lost
  | .telling todo h => if i ∈ h.living then (if i ∈ todo then .synced else .told (decide (i ∉ h.skip))) else .lost
  | .clearing w h => if i ∈ h.living then (if i ∈ w then .told (decide (i ∉ h.skip)) else .stilled) else .lost
  | .filing h | .snapshot h => if i ∈ h.living then .stilled else .lost
  | .releasing todo => if i ∈ todo then .stilled else .quiet
  | .crashed => .any

/-- Running its own code, or about to, or over. -/
def Phase.free : Phase → Bool
  | .working | .paused | .ended | .gone => true
  | _ => false

/-- The replies of the hand-shake in a pipe. -/
def acks (l : List Reply) : List Reply := l.filter fun r => decide (r = .paused)

/-- The belief is true of a living optimizer. -/
def Good (st : Stage) (o : Opt) : Prop :=
  o.alive = true →
  match st with
  | .quiet => o.event = true ∧ o.phase.free = true ∧ ctl o.inbox = [] ∧ acks o.outbox = []
  | .asked => o.event = true ∧
      ((o.phase.free = true ∧ ctl o.inbox = [.pause] ∧ acks o.outbox = []) ∨
       (o.phase = .waiting ∧ ctl o.inbox = [] ∧ acks o.outbox = [.paused]))
  | .synced => o.event = true ∧ o.phase = .waiting ∧ ctl o.inbox = [] ∧ acks o.outbox = []
  | .told b => acks o.outbox = [] ∧
      ((o.phase = .waiting ∧ ctl o.inbox = [if b then .save else .pass] ∧ o.event = true) ∨
       ((o.phase = .ready ∨ o.phase = .ended ∨ o.phase = .gone) ∧ ctl o.inbox = [] ∧ o.event = true) ∨
       (o.phase = .paused ∧ ctl o.inbox = [] ∧ o.event = false))
  | .stilled => acks o.outbox = [] ∧ o.phase = .paused ∧ ctl o.inbox = [] ∧ o.event = false
  | .lost => False
  | .any => True

theorem ctl_cons (s : Sig) (r : List Sig) : ctl (s :: r) = if s.ctl then s :: ctl r else ctl r := by
  simp [ctl, List.filter_cons]

theorem ctl_append (a b : List Sig) : ctl (a ++ b) = ctl a ++ ctl b := by simp [ctl]

theorem acks_append (a b : List Reply) : acks (a ++ b) = acks a ++ acks b := by simp [acks]

theorem acks_cons (s : Reply) (r : List Reply) : acks (s :: r) = if s = .paused then s :: acks r else acks r := by
  simp [acks, List.filter_cons]

/-- Whatever an optimizer does by itself, the belief stays true. -/
theorem good_ostep {st : Stage} {i : Nat} {a : OAct} {o o' : Opt} {items : List Item} (h : ostep i a o = some (o', items))
    (hg : Good st o) : Good st o' := by
  obtain ⟨al, ph, inb, outb, ev, stp, fil, md⟩ := o
  cases al with
  | false => simp [ostep] at h
  | true =>
    simp only [Good, forall_const] at hg
    cases a with
    | read w =>
      cases inb with
      | nil => simp [ostep] at h
      | cons s r =>
        cases ph <;> simp [ostep, Phase.reads] at h <;> obtain ⟨rfl, -⟩ := h <;>
          cases s <;> cases st <;>
          simp_all [Good, handle, Phase.free, ctl_cons, Sig.ctl, acks_append, acks_cons, acks]
        all_goals grind
    | breakSave =>
      cases inb with
      | nil => simp [ostep] at h
      | cons s r =>
        cases s <;> cases ph <;> simp [ostep, Phase.reads] at h <;> obtain ⟨rfl, -⟩ := h <;> cases st <;>
          simp_all [Good, Phase.free, ctl_cons, Sig.ctl, acks_append, acks_cons, acks]
    | clear | wake =>
      cases ph <;> simp [ostep] at h
      obtain ⟨h1, rfl, -⟩ := h
      cases st <;> simp_all [Good, Phase.free, ctl]
    | _ =>
      cases ph <;> simp [ostep] at h <;> obtain ⟨rfl, -⟩ := h <;> cases st <;>
          simp_all [Good, Phase.free, ctl, acks_append, acks_cons, acks]

/-- Sending `stop` or `inject` disturbs nothing. -/
theorem good_send {st : Stage} {o : Opt} {s : Sig} (hs : s.ctl = false) (hg : Good st o) :
    Good st { o with inbox := o.inbox ++ [s] } := by
  intro ha
  have := hg ha
  cases st <;> simp_all [ctl_append, ctl]

theorem upd_same {α : Type} (f : Nat → α) (i : Nat) (a : α) : upd f i a i = a := by simp [upd]
theorem upd_other {α : Type} (f : Nat → α) {i j : Nat} (a : α) (h : j ≠ i) : upd f i a j = f j := by simp [upd, h]

theorem ostep_made {i : Nat} {a : OAct} {o o' : Opt} {items : List Item} (h : ostep i a o = some (o', items)) :
    o'.made = o.made + items.count (.eval i) ∧ (∀ j, Item.eval j ∈ items → j = i) ∧
    (items = [] ∨ o.alive = true ∧ o.phase = .working ∨ o.alive = true ∧ o.phase = .ended ∧ items = [.fin i]) := by
  obtain ⟨al, ph, inb, outb, ev, stp, fil, md⟩ := o
  cases al with
  | false => simp [ostep] at h
  | true =>
    cases a with
    | read w =>
      cases inb with
      | nil => simp [ostep] at h
      | cons s r => cases ph <;> simp [ostep, Phase.reads] at h <;> obtain ⟨rfl, rfl⟩ := h <;> cases s <;> simp [handle]
    | breakSave =>
      cases inb with
      | nil => simp [ostep] at h
      | cons s r => cases s <;> cases ph <;> simp [ostep, Phase.reads] at h <;> obtain ⟨rfl, rfl⟩ := h <;> simp
    | clear | wake =>
      cases ph <;> simp [ostep] at h
      obtain ⟨h1, rfl, rfl⟩ := h
      simp
    | _ =>
      cases ph <;> simp [ostep] at h <;> obtain ⟨rfl, rfl⟩ := h <;> simp

/-- The sets are in order. -/
def Shape (packs : List Nat) : Pc → Prop
  | .pausing todo m => (m ++ todo).Nodup ∧ m ++ todo ⊆ packs
  | .waiting w h => w ⊆ h.living ∧ h.living ⊆ h.messaged ∧ h.messaged.Nodup ∧ h.messaged ⊆ packs
  | .draining h | .asserting h => h.living ⊆ h.messaged ∧ h.messaged.Nodup ∧ h.messaged ⊆ packs
  | .telling todo h => todo.Nodup ∧ h.living ⊆ h.messaged ∧ h.messaged ⊆ packs
  | .clearing w h => w ⊆ h.living ∧ h.living ⊆ h.messaged ∧ h.messaged ⊆ packs
  | .filing h | .snapshot h => h.living ⊆ h.messaged ∧ h.messaged ⊆ packs
  | .releasing todo => todo.Nodup
  | _ => True

/-- What is known of the queue. -/
def QueueOk (queue : List Item) : Pc → Prop
  | .asserting _ => queue = []
  | .telling _ _ | .clearing _ _ | .filing _ | .snapshot _ => ∀ i, Item.eval i ∉ queue
  | _ => True

/-- The invariant. -/
structure Inv (σ : Sys) : Prop where
  nodup : σ.packs.Nodup
  shape : Shape σ.packs σ.pc
  good : ∀ i ∈ σ.packs, Good (stage σ.pc i) (σ.opts i)
  count : ∀ i ∈ σ.packs, (σ.opts i).made = σ.logged i + σ.queue.count (.eval i)
  known : ∀ i, Item.eval i ∈ σ.queue → i ∈ σ.packs
  queue : QueueOk σ.queue σ.pc

theorem inv_init : Inv {} := ⟨.nil, trivial, by simp, by simp, by simp, trivial⟩

theorem work_stage {st : Stage} {o : Opt} (hg : Good st o) (ha : o.alive = true) (hw : o.phase = .working) :
    st = .quiet ∨ st = .asked ∨ st = .any := by
  have := hg ha
  cases st <;> simp_all

theorem ended_stage {st : Stage} {o : Opt} (hg : Good st o) (ha : o.alive = true) (hw : o.phase = .ended) :
    st ≠ .synced ∧ st ≠ .lost := by
  have := hg ha
  cases st <;> simp_all

/-- Where the manager believes nobody works, nobody does. -/
theorem quiet_items {pc : Pc} {i : Nat} {a : OAct} {o o' : Opt} {items queue : List Item} (h : ostep i a o = some (o', items))
    (hg : Good (stage pc i) o) (hq : QueueOk queue pc) : QueueOk (queue ++ items) pc := by
  rcases (ostep_made h).2.2 with h | ⟨ha, h⟩ | ⟨ha, h, hi⟩
  · rwa [h, List.append_nil]
  · have := work_stage hg ha h
    cases pc <;> simp only [stage, QueueOk] at * <;> split at this <;> (try split at this) <;> simp_all
  · have := ended_stage hg ha h
    subst hi
    cases pc <;> simp only [stage, QueueOk] at *
    · split at this <;> simp_all
    all_goals intro j; simp [hq j]

theorem inv_opt {σ σ' : Sys} {i : Nat} {a : OAct} (h : step σ (.opt i a) = some σ') (hi : Inv σ) : Inv σ' := by
  simp only [step] at h
  split at h
  · rename_i hp
    split at h
    · cases h
    · rename_i o items ho
      cases h
      have hm := ostep_made ho
      refine ⟨hi.nodup, hi.shape, fun j hj => ?_, fun j hj => ?_, fun j hj => ?_, ?_⟩
      · by_cases e : j = i
        · subst e; simp only [upd_same]; exact good_ostep ho (hi.good j hj)
        · simp only [upd_other _ _ e]; exact hi.good j hj
      · have := hi.count j hj
        by_cases e : j = i
        · subst e; simp only [upd_same, List.count_append]; omega
        · have hz : items.count (.eval j) = 0 := List.count_eq_zero.2 fun hh => e (hm.2.1 j hh)
          simp only [upd_other _ _ e, List.count_append, hz]; omega
      · rcases List.mem_append.1 hj with hj | hj
        · exact hi.known j hj
        · rw [hm.2.1 j hj]; exact hp
      · exact quiet_items ho (hi.good i hp) hi.queue
  · cases h

/-- Only the manager's place changes. -/
theorem inv_repc {σ : Sys} (hi : Inv σ) (pc : Pc) (hs : Shape σ.packs pc)
    (hg : ∀ i ∈ σ.packs, Good (stage σ.pc i) (σ.opts i) → Good (stage pc i) (σ.opts i)) (hq : QueueOk σ.queue pc) :
    Inv { σ with pc := pc } :=
  ⟨hi.nodup, hs, fun i hp => hg i hp (hi.good i hp), hi.count, hi.known, hq⟩

/-- Messages outside the hand-shake. -/
theorem inv_send {σ : Sys} (hi : Inv σ) (i : Nat) {s : Sig} (hs : s.ctl = false) : Inv (send σ i s) := by
  refine ⟨hi.nodup, hi.shape, fun j hj => ?_, fun j hj => ?_, hi.known, hi.queue⟩
  · by_cases e : j = i
    · subst e; simp only [send, upd_same]; exact good_send hs (hi.good j hj)
    · simp only [send, upd_other _ _ e]; exact hi.good j hj
  · have := hi.count j hj
    by_cases e : j = i
    · subst e; simpa only [send, upd_same] using this
    · simpa only [send, upd_other _ _ e] using this

/-- The manager's place and one optimizer change. -/
theorem inv_one {σ : Sys} (hi : Inv σ) (i : Nat) (o : Opt) (pc : Pc) (hm : o.made = (σ.opts i).made) (hs : Shape σ.packs pc)
    (hg : ∀ j ∈ σ.packs, j ≠ i → Good (stage σ.pc j) (σ.opts j) → Good (stage pc j) (σ.opts j))
    (ho : i ∈ σ.packs → Good (stage σ.pc i) (σ.opts i) → Good (stage pc i) o) (hq : QueueOk σ.queue pc) :
    Inv { σ with opts := upd σ.opts i o, pc := pc } := by
  refine ⟨hi.nodup, hs, fun j hj => ?_, fun j hj => ?_, hi.known, hq⟩
  · by_cases e : j = i
    · subst e; simp only [upd_same]; exact ho hj (hi.good j hj)
    · simp only [upd_other _ _ e]; exact hg j hj e (hi.good j hj)
  · have := hi.count j hj
    by_cases e : j = i
    · subst e; simp only [upd_same, hm]; exact this
    · simpa only [upd_other _ _ e] using this

theorem inv_take {σ σ' : Sys} (hi : Inv σ) {pc : List Nat → Pc} (h : takeItem σ pc = some σ')
    (hs : ∀ l, Shape σ.packs (pc l)) (hst : ∀ l i, stage (pc l) i = stage σ.pc i) (hq : ∀ l q, QueueOk q (pc l)) : Inv σ' := by
  unfold takeItem at h
  split at h
  · cases h
  · rename_i k q e
    cases h
    refine ⟨hi.nodup, hs _, fun j hj => ?_, fun j hj => ?_, fun j hj => ?_, hq _ _⟩
    · simp only [hst]; exact hi.good j hj
    · have := hi.count j hj
      rw [e] at this
      by_cases ee : j = k
      · subst ee; simp only [upd_same]; simp at this; omega
      · simp only [upd_other _ _ ee]
        rw [List.count_cons_of_ne (by simpa using fun h => ee h.symm)] at this
        exact this
    · exact hi.known j (by rw [e]; exact .tail _ hj)
  · rename_i k q e
    cases h
    refine ⟨hi.nodup, hs _, fun j hj => ?_, fun j hj => ?_, fun j hj => ?_, hq _ _⟩
    · simp only [hst]; exact hi.good j hj
    · have := hi.count j hj
      rw [e, List.count_cons_of_ne (by simp)] at this
      exact this
    · exact hi.known j (by rw [e]; exact .tail _ hj)

theorem good_lost_of_dead {st : Stage} {o : Opt} (h : o.alive = false) : Good st o := by
  intro ha; rw [h] at ha; cases ha

theorem inv_hear {σ σ' : Sys} {i : Nat} {w : List Nat} {hh : Sets} (hi : Inv σ) (hp : σ.pc = .waiting w hh) (hw : i ∈ w)
    (h : hear σ i w hh = some σ') : Inv σ' := by
  have hs := hi.shape
  rw [hp] at hs
  obtain ⟨s1, s2, s3, s4⟩ := hs
  have hst : ∀ j, stage σ.pc j = if j ∈ w then .asked else if j ∈ hh.living then .synced else .lost := by
    intro j; rw [hp]; rfl
  unfold hear at h
  split at h
  · rename_i ha
    split at h
    · cases h
    · rename_i r e
      cases h
      refine inv_one hi i _ _ rfl ⟨s1, s2, s3, s4⟩ (fun j _ _ hj => ?_) (fun _ hj => ?_) trivial
      · rw [hst] at hj; exact hj
      · rw [hst, if_pos hw] at hj
        simp only [stage, if_pos hw]
        intro ha'
        have := hj ha
        rw [e] at this
        simpa [acks_cons] using this
    · rename_i r e
      cases h
      refine inv_one hi i _ _ rfl ⟨fun j hj => s1 ((List.mem_filter.1 hj).1), s2, s3, s4⟩ (fun j _ hne hj => ?_) (fun _ hj => ?_) trivial
      · rw [hst] at hj
        simp only [stage, List.mem_filter, decide_eq_true_eq, hne, not_false_eq_true, and_true, ne_eq]
        exact hj
      · rw [hst, if_pos hw] at hj
        simp only [stage, List.mem_filter, ne_eq, not_true_eq_false, decide_false, Bool.false_eq_true, and_false, if_false,
          if_pos (s1 hw)]
        intro ha'
        have := hj ha
        rw [e] at this
        simpa [acks_cons] using this
    · cases h
      exact inv_repc hi _ trivial (fun _ _ _ _ => trivial) trivial
  · rename_i ha
    cases h
    have ha : (σ.opts i).alive = false := by simpa using ha
    refine inv_repc hi _ ⟨fun j hj => ?_, fun j hj => s2 ((List.mem_filter.1 hj).1), s3, s4⟩ (fun j _ hj => ?_) trivial
    · simp only [List.mem_filter] at hj ⊢
      exact ⟨s1 hj.1, hj.2⟩
    · by_cases e : j = i
      · subst e; exact good_lost_of_dead ha
      · rw [hst] at hj
        simp only [stage, List.mem_filter, decide_eq_true_eq, e, not_false_eq_true, and_true, ne_eq]
        exact hj

theorem inv_mgr {σ σ' : Sys} {a : MAct} (h : mstep a σ = some σ') (hi : Inv σ) : Inv σ' := by
  have hs := hi.shape
  unfold mstep at h
  split at h <;> rename_i hp <;> (try rw [hp] at hs)
  · -- start
    rename_i i
    split at h
    · cases h
    · rename_i hn
      cases h
      refine ⟨?_, by rw [hp]; trivial, fun j hj => ?_, fun j hj => ?_, fun j hj => ?_, by rw [hp]; trivial⟩
      · rw [List.nodup_append]
        refine ⟨hi.nodup, by simp, ?_⟩
        intro a ha b hb e
        simp at hb
        exact hn (by rw [← hb, ← e]; exact ha)
      · by_cases e : j = i
        · subst e
          simp only [upd_same, hp, stage]
          intro _; simp [Phase.free, ctl, acks]
        · simp only [upd_other _ _ e]
          have hj' : j ∈ σ.packs := by
            rcases List.mem_append.1 hj with hj | hj
            · exact hj
            · simp at hj; exact absurd hj e
          exact hi.good j hj'
      · by_cases e : j = i
        · subst e
          simp only [upd_same]
          rw [List.count_eq_zero.2 fun hq => hn (hi.known j hq)]
        · simp only [upd_other _ _ e]
          have hj' : j ∈ σ.packs := by
            rcases List.mem_append.1 hj with hj | hj
            · exact hj
            · simp at hj; exact absurd hj e
          exact hi.count j hj'
      · exact List.mem_append_left _ (hi.known j hj)
  · exact inv_take hi h (fun _ => trivial) (fun _ _ => by rw [hp]) (fun _ _ => trivial)
  · -- listen
    rename_i i
    unfold listen at h
    split at h
    · cases h
    · rename_i r0 r e
      cases h
      have := inv_one hi i { σ.opts i with outbox := r } .idle rfl trivial (fun j _ _ hj => by rw [hp] at hj; exact hj)
        (fun _ hj => by
          rw [hp] at hj
          intro ha
          have := hj ha
          simp only [stage] at this ⊢
          rw [e, acks_cons] at this
          split at this <;> simp_all) trivial
      rw [← hp] at this
      exact this
  · cases h; exact inv_send hi _ rfl
  · cases h; exact inv_send hi _ rfl
  · -- begin
    cases h
    refine ⟨hi.nodup, ⟨by simpa using hi.nodup, by simp⟩, fun j hj => ?_, fun j hj => hi.count j hj, hi.known, trivial⟩
    have := hi.good j hj
    rw [hp] at this
    simp only [stage, if_pos hj] at this ⊢
    exact this
  · -- ask
    rename_i i t m
    obtain ⟨h1, h2⟩ := hs
    have hnd := List.nodup_append.1 h1
    have hit : i ∉ t := (List.nodup_cons.1 hnd.2.1).1
    have him : i ∉ m := fun h => hnd.2.2 i h i (.head _) rfl
    split at h
    · rename_i ha
      cases h
      refine inv_one hi i _ _ rfl ⟨?_, ?_⟩ (fun j _ hne hj => ?_) (fun _ hj => ?_) trivial
      · simpa using h1
      · simpa using h2
      · rw [hp] at hj
        simp only [stage, List.mem_cons, List.mem_append, hne, false_or, List.not_mem_nil, or_false] at hj ⊢
        exact hj
      · rw [hp] at hj
        simp only [stage, List.mem_cons, true_or, if_true] at hj
        simp only [stage, if_neg hit, List.mem_append, List.mem_cons, true_or, or_true, if_true]
        intro _
        obtain ⟨g1, g2, g3, g4⟩ := hj ha
        exact ⟨g1, .inl ⟨g2, by simp only [ctl_append, g3]; rfl, g4⟩⟩
    · rename_i ha
      cases h
      have ha : (σ.opts i).alive = false := by simpa using ha
      refine inv_repc hi _ ⟨?_, ?_⟩ (fun j _ hj => ?_) trivial
      · refine List.nodup_append.2 ⟨hnd.1, (List.nodup_cons.1 hnd.2.1).2, fun a ha b hb => hnd.2.2 a ha b (.tail _ hb)⟩
      · intro x hx
        apply h2
        simp only [List.mem_append, List.mem_cons] at hx ⊢
        rcases hx with hx | hx
        · exact .inl hx
        · exact .inr (.inr hx)
      · by_cases e : j = i
        · subst e; exact good_lost_of_dead ha
        · rw [hp] at hj
          simp only [stage, List.mem_cons, e, false_or] at hj ⊢
          exact hj
  · -- asked
    rename_i m
    cases h
    refine inv_repc hi _ ⟨fun _ h => h, fun _ h => h, by simpa using hs.1, by simpa using hs.2⟩ (fun j _ hj => ?_) trivial
    rw [hp] at hj
    simp only [stage, List.not_mem_nil, if_false] at hj ⊢
    split at hj <;> simp_all
  · split at h
    · rename_i hw; exact inv_hear hi hp hw h
    · cases h
  · exact inv_take hi h (fun _ => hs) (fun _ _ => by rw [hp]; rfl) (fun _ _ => trivial)
  · cases h
    exact inv_repc (inv_send hi _ rfl) _ hs (fun j _ hj => by simp only [send, hp] at hj ⊢; exact hj) trivial
  · cases h
    exact inv_repc (inv_send hi _ rfl) _ hs (fun j _ hj => by simp only [send, hp] at hj ⊢; exact hj) trivial
  · cases h
    refine inv_repc hi _ hs.2 (fun j _ hj => ?_) trivial
    rw [hp] at hj
    simpa only [stage, List.not_mem_nil, if_false] using hj
  · exact inv_take hi h (fun _ => hs) (fun _ _ => by rw [hp]; rfl) (fun _ _ => trivial)
  · cases h
    exact inv_repc (inv_send hi _ rfl) _ hs (fun j _ hj => by simp only [send, hp] at hj ⊢; exact hj) trivial
  · cases h
    exact inv_repc (inv_send hi _ rfl) _ hs (fun j _ hj => by simp only [send, hp] at hj ⊢; exact hj) trivial
  · split at h
    · rename_i hq
      cases h
      refine inv_repc hi _ hs (fun j _ hj => ?_) hq
      rw [hp] at hj; exact hj
    · cases h
  · -- assert
    have hq := hi.queue
    rw [hp] at hq
    simp only [QueueOk] at hq
    simp only [hq, if_true] at h
    cases h
    have := inv_repc hi (.telling _ _) ⟨hs.2.1, hs.1, hs.2.2⟩ (fun j _ hj => ?_) (by intro i; rw [hq]; simp)
    · rw [hq] at this; exact this
    rw [hp] at hj
    simp only [stage] at hj ⊢
    split at hj
    · rename_i hl
      rw [if_pos hl, if_pos (hs.1 hl)]; exact hj
    · rename_i hl
      rw [if_neg hl]; exact hj
  · -- tell
    rename_i i t hh
    obtain ⟨h1, h2, h3⟩ := hs
    have hit := (List.nodup_cons.1 h1).1
    have hq := hi.queue
    rw [hp] at hq
    split at h
    · rename_i ha
      cases h
      refine inv_one hi i _ _ rfl ⟨(List.nodup_cons.1 h1).2, h2, h3⟩ (fun j _ hne hj => ?_) (fun _ hj => ?_) hq
      · rw [hp] at hj
        simp only [stage, List.mem_cons, hne, false_or] at hj ⊢
        exact hj
      · rw [hp] at hj
        simp only [stage, List.mem_cons, true_or, if_true, if_neg hit] at hj ⊢
        split at hj
        · rename_i hl
          rw [if_pos hl]
          intro _
          obtain ⟨g1, g2, g3, g4⟩ := hj ha
          refine ⟨g4, .inl ⟨g2, ?_, g1⟩⟩
          by_cases hk : i ∈ hh.skip <;> simp only [ctl_append, g3, hk, if_true, if_false, not_true_eq_false, not_false_eq_true,
            decide_true, decide_false] <;> rfl
        · exact absurd (hj ha) (by simp)
    · rename_i ha
      cases h
      have ha : (σ.opts i).alive = false := by simpa using ha
      refine inv_repc hi _ ⟨(List.nodup_cons.1 h1).2, h2, h3⟩ (fun j _ hj => ?_) hq
      by_cases e : j = i
      · subst e; exact good_lost_of_dead ha
      · rw [hp] at hj
        simp only [stage, List.mem_cons, e, false_or] at hj ⊢
        exact hj
  · -- told
    have hq := hi.queue
    rw [hp] at hq
    cases h
    refine inv_repc hi _ ⟨fun _ h => h, hs.2⟩ (fun j _ hj => ?_) hq
    rw [hp] at hj
    simp only [stage, List.not_mem_nil, if_false] at hj ⊢
    split at hj <;> simp_all
  · -- cleared
    rename_i i w hh
    have hq := hi.queue
    rw [hp] at hq
    split at h
    · rename_i hc
      cases h
      refine inv_repc hi _ ⟨fun j hj => hs.1 ((List.mem_filter.1 hj).1), hs.2⟩ (fun j _ hj => ?_) hq
      rw [hp] at hj
      by_cases e : j = i
      · subst e
        simp only [stage, if_pos (hs.1 hc.1), if_pos hc.1] at hj
        simp only [stage, if_pos (hs.1 hc.1), List.mem_filter, ne_eq, not_true_eq_false, decide_false, Bool.false_eq_true,
          and_false, if_false]
        intro ha
        have := hj ha
        simp_all
      · simp only [stage, List.mem_filter, decide_eq_true_eq, e, not_false_eq_true, and_true, ne_eq] at hj ⊢
        exact hj
    · cases h
  · -- allCleared
    have hq := hi.queue
    rw [hp] at hq
    cases h
    refine inv_repc hi _ hs.2 (fun j _ hj => ?_) hq
    rw [hp] at hj
    simpa only [stage, List.not_mem_nil, if_false] using hj
  · -- files
    have hq := hi.queue
    rw [hp] at hq
    split at h
    · cases h
      refine inv_repc hi _ hs (fun j _ hj => ?_) hq
      rw [hp] at hj; exact hj
    · cases h
      refine inv_repc hi _ hi.nodup (fun j hpj hj => ?_) trivial
      rw [hp] at hj
      simp only [stage, if_pos hpj] at hj ⊢
      split at hj
      · exact hj
      · exact fun ha => (hj ha).elim
  · -- saved
    cases h
    refine inv_repc hi _ hi.nodup (fun j hpj hj => ?_) trivial
    rw [hp] at hj
    simp only [stage, if_pos hpj] at hj ⊢
    split at hj
    · exact hj
    · exact fun ha => (hj ha).elim
  · cases h
    exact inv_repc (inv_send hi _ rfl) _ hs (fun j _ hj => by simp only [send, hp] at hj ⊢; exact hj) trivial
  · -- release
    rename_i i t
    have hit := (List.nodup_cons.1 hs).1
    split at h
    · rename_i ha
      cases h
      refine inv_one hi i _ _ rfl (List.nodup_cons.1 hs).2 (fun j _ hne hj => ?_) (fun _ hj => ?_) trivial
      · rw [hp] at hj
        simp only [stage, List.mem_cons, hne, false_or] at hj ⊢
        exact hj
      · rw [hp] at hj
        simp only [stage, List.mem_cons, true_or, if_true, if_neg hit] at hj ⊢
        intro _
        have := hj ha
        simp_all [Phase.free]
    · rename_i ha
      cases h
      have ha : (σ.opts i).alive = false := by simpa using ha
      refine inv_repc hi _ (List.nodup_cons.1 hs).2 (fun j _ hj => ?_) trivial
      by_cases e : j = i
      · subst e; exact good_lost_of_dead ha
      · rw [hp] at hj
        simp only [stage, List.mem_cons, e, false_or] at hj ⊢
        exact hj
  · cases h
    refine inv_repc hi _ trivial (fun j _ hj => ?_) trivial
    rw [hp] at hj
    simpa only [stage, List.not_mem_nil, if_false] using hj
  · cases h; exact inv_send hi _ rfl
  · cases h

theorem inv_step {σ σ' : Sys} {a : Act} (h : step σ a = some σ') (hi : Inv σ) : Inv σ' := by
  cases a with
  | mgr a => exact inv_mgr h hi
  | opt i a => exact inv_opt h hi

theorem inv_run {as : List Act} : ∀ {σ σ' : Sys}, run σ as = some σ' → Inv σ → Inv σ' := by
  induction as with
  | nil => intro σ σ' h hi; cases h; exact hi
  | cons a as ih =>
    intro σ σ' h hi
    rw [run] at h
    split at h
    · cases h
    · rename_i σ1 h1; exact ih h (inv_step h1 hi)

end Glompo.Handshake
