import Verif.Lemmas.ManagerExt
import Verif.Spec.Manager

/-!
# What the hand-shake of a checkpoint does

`Em m C Q`: the piece `m` of the program starts no process, adds to the record only events in `C`, and if it ends normally
the state before, the answer, the events added and the state after are related by `Q`.
-/

namespace Glompo.Manager

open M Glompo.Spec

/-- From `s` to `t` the events `l` happened, and no process was started. -/
structure Adds (s t : State) (l : List Ev) : Prop where
  ev : t.ev = s.ev ++ l
  st : t.startedP = s.startedP
  dead : ∀ i, i ∈ t.dead ↔ i ∈ s.dead ∨ Ev.died i ∈ l

def Em {α : Type} (m : M α) (C : Ev → Prop) (Q : State → α → List Ev → State → Prop) : Prop :=
  ∀ s e, ∃ l, Adds s (m s e).2.1 l ∧ (∀ x ∈ l, C x) ∧ ∀ a, (m s e).1 = .ok a → Q s a l (m s e).2.1

section rules
variable {α β : Type} {C : Ev → Prop}

theorem Adds.refl (s : State) : Adds s s [] := ⟨by simp, rfl, by simp⟩

theorem Adds.trans {s t u : State} {l l' : List Ev} (h : Adds s t l) (h' : Adds t u l') : Adds s u (l ++ l') :=
  ⟨by rw [h'.ev, h.ev, List.append_assoc], h'.st.trans h.st, fun i => by rw [h'.dead, h.dead, List.mem_append, or_assoc]⟩

theorem Em.conseq {m : M α} {C' : Ev → Prop} {Q Q' : State → α → List Ev → State → Prop} (h : Em m C Q)
    (hc : ∀ x, C x → C' x) (hq : ∀ s a l t, Adds s t l → (∀ x ∈ l, C x) → Q s a l t → Q' s a l t) : Em m C' Q' := by
  intro s e
  obtain ⟨l, h1, h2, h3⟩ := h s e
  exact ⟨l, h1, fun x hx => hc x (h2 x hx), fun a ha => hq _ _ _ _ h1 h2 (h3 a ha)⟩

theorem Em.mono {m : M α} {C' : Ev → Prop} {Q : State → α → List Ev → State → Prop} (h : Em m C Q)
    (hc : ∀ x, C x → C' x) : Em m C' Q := h.conseq hc fun _ _ _ _ _ _ h => h

theorem Em.pure (a : α) {Q : State → α → List Ev → State → Prop} (h : ∀ s, Q s a [] s) : Em (Pure.pure a : M α) C Q :=
  fun s _ => ⟨[], Adds.refl s, by simp, fun b hb => by cases hb; exact h s⟩

theorem Em.throw (x : Exc) {Q : State → α → List Ev → State → Prop} : Em (M.throw x : M α) C Q :=
  fun s _ => ⟨[], Adds.refl s, by simp, fun b hb => by cases hb⟩

theorem Em.pend {Q : State → α → List Ev → State → Prop} : Em (M.pend : M α) C Q :=
  fun s _ => ⟨[], Adds.refl s, by simp, fun b hb => by cases hb⟩

theorem Em.get : Em M.get C (fun s a l t => a = s ∧ l = [] ∧ t = s) :=
  fun s _ => ⟨[], Adds.refl s, by simp, fun b hb => by cases hb; exact ⟨rfl, rfl, rfl⟩⟩

/-- A change of variables without event. -/
theorem Em.modify {f : State → State} (h : ∀ s, (f s).ev = s.ev ∧ (f s).startedP = s.startedP ∧ (f s).dead = s.dead) :
    Em (M.modify f) C (fun s _ l t => l = [] ∧ t = f s) :=
  fun s _ => ⟨[], ⟨by simp [M.modify, (h s).1], (h s).2.1, fun i => by simp [M.modify, (h s).2.2]⟩, by simp,
    fun b hb => ⟨rfl, rfl⟩⟩

/-- A change of variables with an event. -/
theorem Em.snoc {f : State → State} {x : State → Ev} (hc : ∀ s, C (x s)) (hd : ∀ s i, x s ≠ .died i)
    (h : ∀ s, (f s).ev = s.ev ++ [x s] ∧ (f s).startedP = s.startedP ∧ (f s).dead = s.dead) :
    Em (M.modify f) C (fun s _ l t => l = [x s] ∧ t = f s) :=
  fun s _ => ⟨[x s], ⟨(h s).1, (h s).2.1, fun i => by
    show i ∈ (f s).dead ↔ _
    rw [(h s).2.2, List.mem_singleton]
    exact ⟨.inl, fun h => h.elim id fun h => absurd h.symm (hd s i)⟩⟩, by simp [hc s], fun b hb => ⟨rfl, rfl⟩⟩

theorem Em.emit {x : Ev} (hc : C x) (hd : ∀ i, x ≠ .died i) :
    Em (emit x) C (fun s _ l t => l = [x] ∧ t = { s with ev := s.ev ++ [x] }) :=
  Em.snoc (x := fun _ => x) (fun _ => hc) (fun _ => hd) fun s => ⟨rfl, rfl, rfl⟩

theorem Em.bind {m : M α} {f : α → M β} {Q : State → α → List Ev → State → Prop} {S : State → β → List Ev → State → Prop}
    {R : α → State → β → List Ev → State → Prop} (hm : Em m C Q) (hf : ∀ a, Em (f a) C (R a))
    (h : ∀ s a l t b l' u, Adds s t l → (∀ x ∈ l, C x) → Q s a l t → Adds t u l' → (∀ x ∈ l', C x) → R a t b l' u →
      S s b (l ++ l') u) : Em (Bind.bind m f : M β) C S := by
  intro s e
  show ∃ l, Adds s (M.bind m f s e).2.1 l ∧ (∀ x ∈ l, C x) ∧ ∀ a, (M.bind m f s e).1 = .ok a → S s a l (M.bind m f s e).2.1
  obtain ⟨l, h1, h2, h3⟩ := hm s e
  unfold M.bind
  generalize m s e = r at h1 h3 ⊢
  obtain ⟨o, s', e'⟩ := r
  cases o with
  | ok a =>
    obtain ⟨l', h1', h2', h3'⟩ := hf a s' e'
    refine ⟨l ++ l', h1.trans h1', fun x hx => ?_, fun b hb => h _ _ _ _ _ _ _ h1 h2 (h3 a rfl) h1' h2' (h3' b hb)⟩
    rcases List.mem_append.mp hx with h | h
    · exact h2 x h
    · exact h2' x h
  | raised x => exact ⟨l, h1, h2, fun b hb => by cases hb⟩
  | pending => exact ⟨l, h1, h2, fun b hb => by cases hb⟩

/-- Nothing is said about how it ends. -/
abbrev Just (C : Ev → Prop) (m : M α) : Prop := Em m C (fun _ _ _ _ => True)

theorem Em.just {m : M α} {Q : State → α → List Ev → State → Prop} (h : Em m C Q) : Just C m :=
  h.conseq (fun _ h => h) fun _ _ _ _ _ _ _ => trivial

theorem Just.bind {m : M α} {f : α → M β} (hm : Just C m) (hf : ∀ a, Just C (f a)) : Just C (Bind.bind m f : M β) :=
  Em.bind hm hf fun _ _ _ _ _ _ _ _ _ _ _ _ _ => trivial

theorem Just.tryCatch {m : M α} {h : Exc → Option (M α)} (hm : Just C m) (hh : ∀ x k, h x = some k → Just C k) :
    Just C (M.tryCatch m h) := by
  intro s e
  obtain ⟨l, h1, h2, h3⟩ := hm s e
  unfold M.tryCatch
  generalize m s e = r at h1 h3 ⊢
  obtain ⟨o, s', e'⟩ := r
  cases o with
  | raised x =>
    simp only []
    cases hx : h x with
    | none => exact ⟨l, h1, h2, fun _ _ => trivial⟩
    | some k =>
      obtain ⟨l', h1', h2', -⟩ := hh x k hx s' e'
      exact ⟨l ++ l', h1.trans h1', fun x hx => (List.mem_append.mp hx).elim (h2 x) (h2' x), fun _ _ => trivial⟩
  | ok a => exact ⟨l, h1, h2, fun _ _ => trivial⟩
  | pending => exact ⟨l, h1, h2, fun _ _ => trivial⟩

end rules

theorem adds_die : ∀ (d : List Nat) (s : State), ∃ l, Adds s (die d s) l ∧ ∀ x ∈ l, ∃ i, x = Ev.died i
  | [], s => ⟨[], Adds.refl s, by simp⟩
  | i :: t, s => by
    unfold die
    split
    · obtain ⟨l, h1, h2⟩ := adds_die t { s with dead := i :: s.dead, ev := s.ev ++ [.died i] }
      refine ⟨[.died i] ++ l, Adds.trans (t := { s with dead := i :: s.dead, ev := s.ev ++ [.died i] }) ⟨rfl, rfl, fun j => ?_⟩ h1, fun x hx => ?_⟩
      · simp only [List.mem_cons, Ev.died.injEq, List.not_mem_nil, or_false]
        exact or_comm
      · rcases List.mem_append.mp hx with h | h
        · exact ⟨i, List.mem_singleton.mp h⟩
        · exact h2 x h
    · exact adds_die t s

/-- Only processes terminate. -/
def Deaths : Ev → Prop
  | .died _ => True
  | _ => False

theorem em_observe : Just Deaths observe := by
  intro s e
  unfold observe
  cases e with
  | nil => exact ⟨[], Adds.refl s, by simp, fun _ _ => trivial⟩
  | cons o t =>
    obtain ⟨l, h1, h2⟩ := adds_die o.deaths s
    have h2' : ∀ x ∈ l, Deaths x := fun x hx => by obtain ⟨i, rfl⟩ := h2 x hx; exact trivial
    simp only []
    split <;> exact ⟨l, h1, h2', fun _ _ => trivial⟩

/-- Known pieces. -/
syntax "em_known" : tactic
/-- Goes through a piece of the program. -/
macro "em_go" : tactic => `(tactic| repeat' (first
  | with_reducible exact Em.pure _ fun _ => trivial | with_reducible exact Em.pend | with_reducible exact Em.throw _
  | with_reducible exact Em.get.just
  | with_reducible exact (Em.modify fun _ => ⟨rfl, rfl, rfl⟩).just
  | em_known
  | with_reducible refine Just.bind ?_ fun _ => ?_
  | dsimp only
  | split))

macro_rules | `(tactic| em_known) => `(tactic| with_reducible exact em_observe)

theorem em_askUnit : Just Deaths askUnit := by unfold askUnit; em_go
macro_rules | `(tactic| em_known) => `(tactic| with_reducible exact em_askUnit)
theorem em_askBool : Just Deaths askBool := by unfold askBool; em_go
macro_rules | `(tactic| em_known) => `(tactic| with_reducible exact em_askBool)
theorem em_askSig : Just Deaths askSig := by unfold askSig; em_go
macro_rules | `(tactic| em_known) => `(tactic| with_reducible exact em_askSig)
theorem em_askChunk : Just Deaths askChunk := by unfold askChunk; em_go
macro_rules | `(tactic| em_known) => `(tactic| with_reducible exact em_askChunk)
theorem em_askNames : Just Deaths askNames := by unfold askNames; em_go
macro_rules | `(tactic| em_known) => `(tactic| with_reducible exact em_askNames)

theorem em_draw : Just Deaths draw := by
  unfold draw
  refine Just.bind Em.get.just fun s => ?_
  split
  · refine Just.tryCatch em_askUnit fun x k hx => ?_
    split at hx
    · cases hx; exact Em.pure _ fun _ => trivial
    · cases hx
  · exact Em.pure _ fun _ => trivial
macro_rules | `(tactic| em_known) => `(tactic| with_reducible exact em_draw)

theorem em_logOp (C : Ev → Prop) (op : Logger.Op) : Just C (logOp op) := by
  intro s e
  unfold logOp
  split <;> exact ⟨[], ⟨by simp, rfl, by simp⟩, by simp, fun _ _ => trivial⟩

theorem em_isAlive (i : Nat) : Em (isAlive i) Deaths (fun _ a _ t => a = t.alive i) := by
  unfold isAlive
  refine Em.bind em_askUnit (fun _ => Em.bind Em.get (fun s => Em.pure (Q := fun t a l u => a = s.alive i ∧ l = [] ∧ u = t) (s.alive i) fun t => ⟨rfl, rfl, rfl⟩)
    (S := fun _ a _ t => a = t.alive i) ?_) ?_
  · rintro s a l t b l' u - - ⟨rfl, -, rfl⟩ - - ⟨rfl, -, rfl⟩; rfl
  · intro s a l t b l' u _ _ _ _ _ h; exact h

/-- Everything but what is of interest in the hand-shake. -/
def Dull : Ev → Prop
  | .ckptBegin => False
  | .pauseReq _ => False
  | .save _ => False
  | .pass _ => False
  | .killed _ _ => False
  | .finished _ => False
  | _ => True

theorem deaths_dull : ∀ x, Deaths x → Dull x := by
  intro x h; cases x <;> first | exact trivial | exact absurd h id

macro_rules | `(tactic| em_known) => `(tactic| with_reducible exact em_draw.mono deaths_dull)
macro_rules | `(tactic| em_known) => `(tactic| with_reducible exact em_askUnit.mono deaths_dull)
macro_rules | `(tactic| em_known) => `(tactic| with_reducible exact em_askBool.mono deaths_dull)
macro_rules | `(tactic| em_known) => `(tactic| with_reducible exact em_askNames.mono deaths_dull)
macro_rules | `(tactic| em_known) => `(tactic| with_reducible exact em_askChunk.mono deaths_dull)
macro_rules | `(tactic| em_known) => `(tactic| with_reducible exact em_askSig.mono deaths_dull)
macro_rules | `(tactic| em_known) => `(tactic| with_reducible exact em_logOp _ _)
macro_rules | `(tactic| em_known) => `(tactic| with_reducible exact ((em_isAlive _).mono deaths_dull).just)
macro_rules | `(tactic| em_known) => `(tactic| (with_reducible refine Em.just (Em.emit ?_ ?_)) <;> [exact trivial; simp])

theorem em_putEnd (i : Nat) (w : String) : Just Dull (putEnd i w) := by unfold putEnd; em_go
macro_rules | `(tactic| em_known) => `(tactic| with_reducible exact em_putEnd _ _)

theorem em_shareLoop (b : BestIter) (l : List Nat) : Just Dull (shareLoop b l) := by
  induction l with
  | nil => unfold shareLoop; em_go
  | cons i t ih => unfold shareLoop; em_go <;> exact ih
macro_rules | `(tactic| em_known) => `(tactic| with_reducible exact em_shareLoop _ _)

theorem em_updateBestResult (cfg : Cfg) : Just Dull (updateBestResult cfg) := by
  unfold updateBestResult
  refine Just.bind Em.get.just fun s => ?_
  have up : ∀ f : State → State, (∀ t, (f t).ev = t.ev ++ [.updated s.log.best.x s.log.best.fx s.log.best.optId] ∧
      (f t).startedP = t.startedP ∧ (f t).dead = t.dead) → Just Dull (M.modify f) := fun f hf =>
    (Em.snoc (x := fun _ => .updated s.log.best.x s.log.best.fx s.log.best.optId) (fun _ => trivial) (by simp) hf).just
  dsimp only
  split
  · exact Just.bind (em_shareLoop _ _) fun _ => up _ fun _ => ⟨rfl, rfl, rfl⟩
  · exact up _ fun _ => ⟨rfl, rfl, rfl⟩

theorem em_extraNames (r : IterRes) : Just Dull (extraNames r) := by unfold extraNames; em_go

theorem em_record (r : IterRes) (names : List String) : Just Dull (record r names) := by
  intro s e
  unfold record
  simp only []
  split
  · exact ⟨[], Adds.refl s, by simp, fun _ _ => trivial⟩
  · split
    · exact ⟨[.accepted r], ⟨rfl, rfl, by simp⟩, by simp [Dull], fun _ _ => trivial⟩
    · exact ⟨[], ⟨by simp, rfl, by simp⟩, by simp, fun _ _ => trivial⟩

/-- The same, but optimizers may be shut down. -/
def Hunts : Ev → Prop
  | .killed _ _ => True
  | x => Dull x

theorem dull_hunts : ∀ x, Dull x → Hunts x := by
  intro x h; cases x <;> first | exact trivial | exact h

theorem dull_killed {l : List Ev} (h : ∀ x ∈ l, Dull x) {i : Nat} {b : Option Nat} : Ev.killed i b ∉ l := fun hm => h _ hm

/-- Those shut down are among `vs`. -/
def Named (vs : List Nat) (l : List Ev) : Prop := ∀ i b, Ev.killed i b ∈ l → i ∈ vs

theorem named_dull {vs : List Nat} {l : List Ev} (h : ∀ x ∈ l, Dull x) : Named vs l := fun _ _ hm => absurd hm (dull_killed h)

theorem Named.append {vs : List Nat} {l l' : List Ev} (h : Named vs l) (h' : Named vs l') : Named vs (l ++ l') :=
  fun i b hm => (List.mem_append.mp hm).elim (h i b) (h' i b)

theorem Just.named {α : Type} {m : M α} (h : Just Dull m) : Em m Hunts (fun _ _ l _ => ∀ x ∈ l, Dull x) :=
  h.conseq dull_hunts fun _ _ _ _ _ hc _ => hc

/-- `i` was shut down. -/
def Shot (i : Nat) (l : List Ev) : Prop := ∃ b, Ev.killed i b ∈ l

theorem Shot.left {i : Nat} {l l' : List Ev} (h : Shot i l) : Shot i (l ++ l') := h.imp fun _ h => List.mem_append_left _ h
theorem Shot.right {i : Nat} {l l' : List Ev} (h : Shot i l') : Shot i (l ++ l') := h.imp fun _ h => List.mem_append_right _ h

theorem em_shutdownJob (i : Nat) (h : Option Nat) (w : String) :
    Em (shutdownJob i h w) Hunts (fun _ _ l _ => Named [i] l ∧ Shot i l) := by
  unfold shutdownJob
  refine Em.bind (Em.snoc (C := Hunts) (x := fun _ => .killed i h) (fun _ => trivial) (by simp) fun _ => ⟨rfl, rfl, rfl⟩)
    (fun _ => Just.named (m := do askUnit; emit (.stop i); putEnd i (killText h w); draw) (by em_go)) ?_
  rintro s a l t b l' u - - ⟨rfl, -⟩ - - hd
  refine ⟨Named.append ?_ (named_dull hd), h, by simp⟩
  intro j b hj
  simp at hj; simp [hj.1]

/-- Those shut down are exactly the new ones among `vs'`. -/
def Marked (vs vs' : List Nat) (l : List Ev) : Prop := vs ⊆ vs' ∧ Named vs' l ∧ ∀ i ∈ vs', i ∈ vs ∨ Shot i l

theorem Marked.refl (vs : List Nat) : Marked vs vs [] := ⟨List.Subset.refl _, by simp [Named], fun _ h => .inl h⟩

theorem Marked.trans {a b c : List Nat} {l l' : List Ev} (h : Marked a b l) (h' : Marked b c l') : Marked a c (l ++ l') :=
  ⟨List.Subset.trans h.1 h'.1, Named.append (fun i x hm => h'.1 (h.2.1 i x hm)) h'.2.1, fun i hi => (h'.2.2 i hi).elim
    (fun hi => (h.2.2 i hi).imp id Shot.left) fun hi => .inr hi.right⟩

theorem Marked.dull {a : List Nat} {l : List Ev} (h : ∀ x ∈ l, Dull x) : Marked a a l :=
  ⟨List.Subset.refl _, named_dull h, fun _ h => .inl h⟩

theorem em_huntLoop (hunter : Nat) (ids : List Nat) : ∀ vs, Em (huntLoop hunter ids vs) Hunts
    (fun _ vs' l _ => Marked vs vs' l) := by
  induction ids with
  | nil => intro vs; unfold huntLoop; exact Em.pure _ fun _ => Marked.refl _
  | cons v t ih =>
    intro vs
    unfold huntLoop
    have post : ∀ {α : Type} {m : M α} {f : α → M (List Nat)}, Just Dull m → (∀ a, Em (f a) Hunts (fun _ vs' l _ => Marked vs vs' l)) →
        Em (m >>= f) Hunts (fun _ vs' l _ => Marked vs vs' l) := fun hm hf =>
      Em.bind hm.named hf fun _ _ _ _ _ _ _ _ _ hq _ _ hr => (Marked.dull hq).trans hr
    refine post Em.get.just fun s => ?_
    split
    · refine post (by em_go) fun kill => post Em.get.just fun s => ?_
      split
      · refine Em.bind (em_shutdownJob _ _ _) (fun _ => ih (vs ++ [v])) ?_
        intro s a l t b l' u _ _ hq _ _ hr
        refine Marked.trans (b := vs ++ [v]) ⟨by simp, fun i b hm => ?_, fun i hi => ?_⟩ hr
        · exact List.mem_append_right _ (hq.1 i b hm)
        · exact (List.mem_append.mp hi).imp id fun h => by rw [List.mem_singleton.mp h]; exact hq.2
      · exact ih vs
    · exact ih vs

theorem em_startHunt (hunter : Nat) : Em (startHunt hunter) Hunts (fun _ vs l _ => Marked [] vs l) := by
  unfold startHunt
  refine Em.bind (Em.snoc (C := Hunts) (x := fun _ => .hunt hunter) (fun _ => trivial) (by simp) fun _ => ⟨rfl, rfl, rfl⟩)
    (fun _ => Em.bind Em.get (fun s => em_huntLoop hunter _ []) (S := fun _ vs l _ => Marked [] vs l) ?_) ?_
  · rintro s a l t b l' u - - ⟨-, rfl, -⟩ - - hr; exact hr
  · rintro s a l t b l' u - - ⟨rfl, -⟩ - - hr
    exact (Marked.dull (by simp [Dull])).trans hr

theorem em_huntIfDue (cfg : Cfg) : Em (huntIfDue cfg) Hunts (fun _ vs l _ => Marked [] vs l) := by
  unfold huntIfDue
  have post : ∀ {α : Type} {m : M α} {f : α → M (List Nat)}, Just Dull m → (∀ a, Em (f a) Hunts (fun _ vs l _ => Marked [] vs l)) →
      Em (m >>= f) Hunts (fun _ vs l _ => Marked [] vs l) := fun hm hf =>
    Em.bind hm.named hf fun _ _ _ _ _ _ _ _ _ hq _ _ hr => (Marked.dull hq).trans hr
  refine post (em_updateBestResult cfg) fun _ => post Em.get.just fun s => ?_
  split
  · split
    · exact em_startHunt _
    · exact Em.pure _ fun _ => Marked.refl _
  · exact Em.pure _ fun _ => Marked.refl _

/-- The optimizers shut down are all in the tally, those in the tally were shut down or gave their last message. -/
def Counted (t : Tally) (t' : Tally) (l : List Ev) : Prop :=
  Marked t.victims t'.victims l ∧ ∀ i ∈ t'.closed, i ∈ t.closed ∨ Ev.released i ∈ l

theorem Counted.refl (t : Tally) : Counted t t [] := ⟨Marked.refl _, fun _ h => .inl h⟩

theorem Counted.trans {a b c : Tally} {l l' : List Ev} (h : Counted a b l) (h' : Counted b c l') : Counted a c (l ++ l') :=
  ⟨h.1.trans h'.1, fun i hi => (h'.2 i hi).elim (fun hi => (h.2 i hi).imp id fun h => List.mem_append_left _ h)
    fun hi => .inr (List.mem_append_right _ hi)⟩

theorem Counted.dull {a : Tally} {l : List Ev} (h : ∀ x ∈ l, Dull x) : Counted a a l := ⟨Marked.dull h, fun _ h => .inl h⟩

theorem em_chunkLoop (cfg : Cfg) (ms : List Msg) : ∀ t, Em (chunkLoop cfg ms t) Hunts (fun _ t' l _ => Counted t t' l) := by
  induction ms with
  | nil => intro t; unfold chunkLoop; exact Em.pure _ fun _ => Counted.refl _
  | cons m ms ih =>
    intro t
    have post : ∀ {α : Type} {m : M α} {f : α → M Tally}, Just Dull m → (∀ a, Em (f a) Hunts (fun _ t' l _ => Counted t t' l)) →
        Em (m >>= f) Hunts (fun _ t' l _ => Counted t t' l) := fun hm hf =>
      Em.bind hm.named hf fun _ _ _ _ _ _ _ _ _ hq _ _ hr => (Counted.dull hq).trans hr
    unfold chunkLoop
    refine post (by em_go) fun _ => ?_
    cases m with
    | fin i =>
      refine post Em.get.just fun s => ?_
      split
      · split
        · refine post (by em_go) fun _ => ?_
          refine Em.bind (Em.emit (x := .released i) trivial (by simp)) (fun _ => ih { t with closed := t.closed ++ [i] }) ?_
          rintro s a l t' b l' u - - ⟨rfl, -⟩ - - hr
          refine Counted.trans (b := { t with closed := t.closed ++ [i] }) ⟨Marked.dull (by simp [Dull]), fun j hj => ?_⟩ hr
          exact (List.mem_append.mp hj).imp id fun h => by simpa using h
        · exact ih t
      · exact ih t
    | res r =>
      refine post Em.get.just fun s => ?_
      split
      · exact post (by em_go) fun _ => ih t
      · refine post (em_extraNames r) fun names => post (em_record r names) fun _ => post (by em_go) fun _ => ?_
        refine Em.bind (em_huntIfDue cfg) (fun vs => ih { t with accepted := t.accepted + 1, victims := t.victims ++ vs }) ?_
        intro s a l t' b l' u _ _ hq _ _ hr
        refine Counted.trans (b := { t with accepted := t.accepted + 1, victims := t.victims ++ a })
          ⟨⟨by simp, fun i b hm => List.mem_append_right _ (hq.2.1 i b hm), fun i hi => ?_⟩, fun _ h => .inl h⟩ hr
        exact (List.mem_append.mp hi).imp id fun h => (hq.2.2 i h).resolve_left (by simp)

theorem em_resultsLoop (cfg : Cfg) (k : Option Nat) (n : Nat) : ∀ t, Em (resultsLoop cfg k n t) Hunts (fun _ t' l _ => Counted t t' l) := by
  induction n with
  | zero => intro t; unfold resultsLoop; exact Em.pend
  | succ n ih =>
    intro t
    have post : ∀ {α : Type} {m : M α} {f : α → M Tally}, Just Dull m → (∀ a, Em (f a) Hunts (fun _ t' l _ => Counted t t' l)) →
        Em (m >>= f) Hunts (fun _ t' l _ => Counted t t' l) := fun hm hf =>
      Em.bind hm.named hf fun _ _ _ _ _ _ _ _ _ hq _ _ hr => (Counted.dull hq).trans hr
    have body : Em (do
        match ← askChunk with
        | none => pure t
        | some c =>
          emit (.took c.length)
          let t' ← chunkLoop cfg c t
          resultsLoop cfg k n t') Hunts (fun _ t' l _ => Counted t t' l) := by
      refine post (by em_go) fun o => ?_
      cases o with
      | none => exact Em.pure _ fun _ => Counted.refl _
      | some c =>
        refine post (by em_go) fun _ => ?_
        exact Em.bind (em_chunkLoop cfg c t) (fun t' => ih t') fun _ _ _ _ _ _ _ _ _ hq _ _ hr => hq.trans hr
    have both : ∀ more : Bool, Em (if more = true then do
        match ← askChunk with
        | none => pure t
        | some c =>
          emit (.took c.length)
          let t' ← chunkLoop cfg c t
          resultsLoop cfg k n t' else pure t) Hunts (fun _ t' l _ => Counted t t' l) := by
      intro more
      split
      · exact body
      · exact Em.pure _ fun _ => Counted.refl _
    simp only [resultsLoop]
    cases k with
    | some k => exact post (Em.pure _ fun _ => trivial) both
    | none => exact post (by em_go) fun _ => post (Em.pure _ fun _ => trivial) both

theorem em_processResults (cfg : Cfg) (fuel : Nat) (k : Option Nat) :
    Em (processResults cfg fuel k) Hunts (fun _ t l _ => Counted ⟨0, [], []⟩ t l) := em_resultsLoop cfg _ fuel _

/-! ### The hand-shake -/

theorem Adds.alive {s t : State} {l : List Ev} (h : Adds s t l) {i : Nat} (ha : t.alive i = true) : s.alive i = true := by
  simp only [State.alive, Bool.and_eq_true, decide_eq_true_eq, Bool.not_eq_true', decide_eq_false_iff_not, h.st, h.dead, not_or] at ha ⊢
  exact ⟨ha.1, ha.2.1⟩

/-- While optimizers are asked to pause. -/
def Pausing : Ev → Prop
  | .died _ => True
  | .pauseReq _ => True
  | _ => False

/-- While the optimizers are told to save. -/
def Saving : Ev → Prop
  | .died _ => True
  | .save _ => True
  | .pass _ => True
  | _ => False

/-- Before the optimizers are told to save. -/
def Holding : Ev → Prop
  | .ckptBegin => False
  | .save _ => False
  | .pass _ => False
  | _ => True

/-- Between the requests to pause and those to save. -/
def Replies : Ev → Prop
  | .pauseReq _ => False
  | x => Holding x

theorem deaths_pausing : ∀ x, Deaths x → Pausing x := by
  intro x h; cases x <;> first | exact trivial | exact absurd h id
theorem deaths_saving : ∀ x, Deaths x → Saving x := by
  intro x h; cases x <;> first | exact trivial | exact absurd h id
theorem deaths_replies : ∀ x, Deaths x → Replies x := by
  intro x h; cases x <;> first | exact trivial | exact absurd h id
theorem hunts_replies : ∀ x, Hunts x → Replies x := by
  intro x h; cases x <;> first | exact trivial | exact absurd h id
theorem dull_replies : ∀ x, Dull x → Replies x := fun x h => hunts_replies x (dull_hunts x h)
theorem pausing_waiting : ∀ x, Pausing x → Holding x := by
  intro x h; cases x <;> first | exact trivial | exact absurd h id
theorem replies_waiting : ∀ x, Replies x → Holding x := by
  intro x h; cases x <;> first | exact trivial | exact absurd h id

theorem em_pauseLoop (ids : List Nat) : ∀ acc, Em (pauseLoop ids acc) Pausing (fun _ a l t =>
    (∀ i, i ∈ a ↔ i ∈ acc ∨ Ev.pauseReq i ∈ l) ∧ ∀ i ∈ ids, t.alive i = true → Ev.pauseReq i ∈ l) := by
  induction ids with
  | nil => intro acc; unfold pauseLoop; exact Em.pure _ fun _ => ⟨by simp, by simp⟩
  | cons i t' ih =>
    intro acc
    unfold pauseLoop
    refine Em.bind (Q := fun _ al l t => al = t.alive i ∧ ∀ x ∈ l, Deaths x)
      (R := fun al s a l t => (∀ j, j ∈ a ↔ (j ∈ acc ∨ Ev.pauseReq j ∈ l)) ∧ (∀ j ∈ i :: t', t.alive j = true → al = s.alive i → Ev.pauseReq j ∈ l))
      ((em_isAlive i).conseq deaths_pausing fun _ _ _ _ _ hc hq => ⟨hq, hc⟩) (fun al => ?_) ?_
    · split
      · rename_i hal
        refine Em.bind (Em.emit (x := .pauseReq i) trivial (by simp)) (fun _ => ih (acc ++ [i])) ?_
        rintro s a l t b l' u - - ⟨rfl, -⟩ - - hr
        refine ⟨fun j => ?_, fun j hj ha _ => ?_⟩
        · rw [hr.1]; simp [or_assoc]
        · rcases List.mem_cons.mp hj with rfl | hj
          · simp
          · exact List.mem_append_right _ (hr.2 j hj ha)
      · rename_i hal
        refine (ih acc).conseq (fun _ h => h) fun s a l u had _ hr => ⟨hr.1, fun j hj ha he => ?_⟩
        rcases List.mem_cons.mp hj with rfl | hj
        · exact absurd (he.trans (had.alive ha)) hal
        · exact hr.2 j hj ha
    · rintro s a l t b l' u - - ⟨rfl, hd⟩ - - hr
      refine ⟨fun j => ?_, fun j hj ha => List.mem_append_right _ (hr.2 j hj ha rfl)⟩
      rw [hr.1, List.mem_append]
      have : Ev.pauseReq j ∉ l := fun h => hd _ h
      simp [this]

/-- Why an optimizer is not to be saved. -/
def Over (i : Nat) (l : List Ev) : Prop := Shot i l ∨ Ev.finished i ∈ l

theorem Over.left {i : Nat} {l l' : List Ev} (h : Over i l) : Over i (l ++ l') := h.imp Shot.left fun h => List.mem_append_left _ h
theorem Over.right {i : Nat} {l l' : List Ev} (h : Over i l') : Over i (l ++ l') := h.imp Shot.right fun h => List.mem_append_right _ h

/-- Those which ended are not saved; those not saved ended, announced it or are dead. -/
def Skips (skip skip' : List Nat) (l : List Ev) (t : State) : Prop :=
  skip ⊆ skip' ∧ (∀ i, Over i l → i ∈ skip') ∧
  ∀ i ∈ skip', i ∈ skip ∨ Over i l ∨ Ev.released i ∈ l ∨ t.alive i = false

theorem Skips.trans {a b c : List Nat} {l l' : List Ev} {t u : State} (h : Skips a b l t) (hu : Adds t u l')
    (h' : Skips b c l' u) : Skips a c (l ++ l') u := by
  refine ⟨List.Subset.trans h.1 h'.1, fun i hi => ?_, fun i hi => ?_⟩
  · rcases hi with ⟨x, hi⟩ | hi
    · rcases List.mem_append.mp hi with h1 | h1
      · exact h'.1 (h.2.1 i (.inl ⟨x, h1⟩))
      · exact h'.2.1 i (.inl ⟨x, h1⟩)
    · rcases List.mem_append.mp hi with h1 | h1
      · exact h'.1 (h.2.1 i (.inr h1))
      · exact h'.2.1 i (.inr h1)
  · rcases h'.2.2 i hi with h1 | h1 | h1 | h1
    · rcases h.2.2 i h1 with h2 | h2 | h2 | h2
      · exact .inl h2
      · exact .inr (.inl h2.left)
      · exact .inr (.inr (.inl (List.mem_append_left _ h2)))
      · refine .inr (.inr (.inr ?_))
        cases hh : u.alive i with
        | false => rfl
        | true => rw [hu.alive hh] at h2; cases h2
    · exact .inr (.inl h1.right)
    · exact .inr (.inr (.inl (List.mem_append_right _ h1)))
    · exact .inr (.inr (.inr h1))

theorem dull_over {l : List Ev} (h : ∀ x ∈ l, Dull x) (i : Nat) : ¬ Over i l := by
  rintro (⟨b, hb⟩ | hb)
  · exact h _ hb
  · exact h _ hb

theorem Skips.refl (a : List Nat) {l : List Ev} (t : State) (h : ∀ x ∈ l, Dull x) : Skips a a l t :=
  ⟨List.Subset.refl _, fun i hi => absurd hi (dull_over h i), fun _ h => .inl h⟩

theorem Skips.bind {α β : Type} {m : M α} {f : α → M β} {skip : List Nat} {g : β → List Nat} (hm : Just Dull m)
    (hf : ∀ a, Em (f a) Replies (fun _ b l t => Skips skip (g b) l t)) :
    Em (m >>= f) Replies (fun _ b l t => Skips skip (g b) l t) :=
  Em.bind (hm.conseq dull_replies fun _ _ _ _ _ hc _ => hc) hf fun _ _ _ t _ _ _ _ _ hq ha _ hr =>
    (Skips.refl skip t hq).trans ha hr

theorem em_finish (i : Nat) (msg : String) (skip : List Nat) : Em (finish i msg) Replies (fun _ _ l t => Skips skip (skip ++ [i]) l t) := by
  unfold finish
  refine Skips.bind (g := fun _ => skip ++ [i]) (m := emit (.said i msg)) (by em_go) fun _ => ?_
  refine Skips.bind (g := fun _ => skip ++ [i]) (em_putEnd _ _) fun _ => ?_
  refine Em.conseq (Em.snoc (C := Replies) (x := fun _ => .finished i) (fun _ => trivial) (by simp) fun _ => ⟨rfl, rfl, rfl⟩)
    (fun _ h => h) ?_
  rintro s a l t - - ⟨rfl, -⟩
  refine ⟨by simp, fun j hj => ?_, fun j hj => ?_⟩
  · rcases hj with ⟨b, hb⟩ | hj
    · simp at hb
    · simp at hj; simp [hj]
  · exact (List.mem_append.mp hj).imp id fun h => .inl (.inr (by simpa using h))

theorem em_replyLoop (ids : List Nat) : ∀ h, Em (replyLoop ids h) Replies (fun _ h' l t => Skips h.skip h'.skip l t) := by
  induction ids with
  | nil => intro h; unfold replyLoop; exact Em.pure _ fun t => Skips.refl _ t (by simp)
  | cons i t ih =>
    intro h
    unfold replyLoop
    refine Em.bind (Q := fun _ al l t => al = t.alive i ∧ ∀ x ∈ l, Dull x)
      (R := fun al s h' l t => al = s.alive i → Skips h.skip h'.skip l t)
      ((em_isAlive i).conseq deaths_replies fun _ _ _ _ _ hc hq => ⟨hq, fun x hx => deaths_dull x (hc x hx)⟩) (fun al => ?_) ?_
    · split
      · have hgo : Em (do
            match ← askSig with
            | none => replyLoop t h
            | some (.done msg) =>
              finish i msg
              replyLoop t { h with skip := h.skip ++ [i] }
            | some .paused =>
              draw
              replyLoop t { h with wait := h.wait.filter fun j => decide (j ≠ i) }
            | some .eof => M.throw .eofError
            | some (.note _ _) => M.throw .unhandledMessage
            | some .unknown => M.throw .unhandledMessage) Replies (fun _ h' l t => Skips h.skip h'.skip l t) := by
          refine Skips.bind (by em_go) fun o => ?_
          match o with
          | none => exact ih h
          | some .eof => exact Em.throw _
          | some (.note _ _) => exact Em.throw _
          | some .unknown => exact Em.throw _
          | some .paused => exact Skips.bind (by em_go) fun _ => ih { h with wait := h.wait.filter fun j => decide (j ≠ i) }
          | some (.done msg) =>
            exact Em.bind (em_finish i msg h.skip) (fun _ => ih { h with skip := h.skip ++ [i] })
              fun _ _ _ _ _ _ _ _ _ hq ha _ hr => hq.trans ha hr
        exact hgo.conseq (fun _ h => h) fun _ _ _ _ _ _ hq _ => hq
      · rename_i hal
        refine (ih ⟨h.skip ++ [i], h.wait.filter fun j => decide (j ≠ i), h.living.filter fun j => decide (j ≠ i)⟩).conseq
          (fun _ h => h) fun s a l u had _ hr he => ?_
        refine Skips.trans (l := []) (t := s) ⟨by simp, fun j hj => absurd hj (dull_over (by simp) j), fun j hj => ?_⟩ had hr
        refine (List.mem_append.mp hj).imp id fun h => .inr (.inr ?_)
        rw [List.mem_singleton.mp h, ← he]; simpa using hal
    · rintro s a l t b l' u - - ⟨rfl, hd⟩ ha - hr
      exact (Skips.refl _ t hd).trans ha (hr rfl)

theorem em_processResults' (cfg : Cfg) (fuel : Nat) (k : Option Nat) (skip : List Nat) :
    Em (processResults cfg fuel k) Replies (fun _ t l u => Skips skip (skip ++ t.closed ++ t.victims) l u) := by
  refine Em.conseq (Q := fun _ t l _ => Counted ⟨0, [], []⟩ t l ∧ ∀ x ∈ l, Hunts x) (C := Hunts)
    ((em_processResults cfg fuel k).conseq (fun _ h => h) fun _ _ _ _ _ hc hq => ⟨hq, hc⟩) hunts_replies ?_
  rintro s t l u - - ⟨hq, hc⟩
  refine ⟨by simp, fun i hi => ?_, fun i hi => ?_⟩
  · rcases hi with ⟨b, hb⟩ | hi
    · exact List.mem_append_right _ (hq.1.2.1 i b hb)
    · exact absurd (hc _ hi) id
  · rcases List.mem_append.mp hi with h | h
    · exact (List.mem_append.mp h).imp id fun h => .inr (.inl ((hq.2 i h).resolve_left (by simp)))
    · exact .inr (.inl (.inl ((hq.1.2.2 i h).resolve_left (by simp))))

theorem em_waitLoop (cfg : Cfg) (fuel k : Nat) (n : Nat) : ∀ h, Em (waitLoop cfg fuel k n h) Replies
    (fun _ h' l t => Skips h.skip h'.skip l t) := by
  induction n with
  | zero => intro h; unfold waitLoop; exact Em.pend
  | succ n ih =>
    intro h
    simp only [waitLoop]
    split
    · exact Em.pure _ fun t => Skips.refl _ t (by simp)
    · refine Skips.bind (by em_go) fun full => ?_
      have rest : ∀ h' : Shake, Em (do
          let h'' ← replyLoop h'.wait h'
          waitLoop cfg fuel k n h'') Replies (fun _ h'' l t => Skips h'.skip h''.skip l t) := fun h' =>
        Em.bind (em_replyLoop _ h') (fun h'' => ih h'') fun _ _ _ _ _ _ _ _ _ hq ha _ hr => hq.trans ha hr
      split
      · refine Em.bind (em_processResults' cfg fuel _ h.skip) (fun t => ?_)
          (R := fun t _ h'' l u => Skips (h.skip ++ t.closed ++ t.victims) h''.skip l u)
          fun _ _ _ _ _ _ _ _ _ hq ha _ hr => hq.trans ha hr
        exact rest { h with skip := h.skip ++ t.closed ++ t.victims }
      · exact rest h

theorem em_saveLoop (skip ids : List Nat) : Em (saveLoop skip ids) Saving (fun _ _ l t =>
    (∀ i ∈ ids, t.alive i = true → (i ∉ skip → Ev.save i ∈ l) ∧ (i ∈ skip → Ev.pass i ∈ l)) ∧
    (∀ i, Ev.save i ∈ l → i ∈ ids ∧ i ∉ skip) ∧ ∀ i, Ev.pass i ∈ l → i ∈ ids ∧ i ∈ skip) := by
  induction ids with
  | nil => unfold saveLoop; exact Em.pure _ fun _ => ⟨by simp, by simp, by simp⟩
  | cons i t' ih =>
    unfold saveLoop
    have more : ∀ {s u : State} {l : List Ev}, Adds s u l → (∀ i ∈ t', u.alive i = true → (i ∉ skip → Ev.save i ∈ l) ∧ (i ∈ skip → Ev.pass i ∈ l)) ∧
        (∀ i, Ev.save i ∈ l → i ∈ t' ∧ i ∉ skip) ∧ (∀ i, Ev.pass i ∈ l → i ∈ t' ∧ i ∈ skip) → ∀ (l0 : List Ev),
        (u.alive i = true → (i ∉ skip → Ev.save i ∈ l0) ∧ (i ∈ skip → Ev.pass i ∈ l0)) →
        (∀ j, Ev.save j ∈ l0 → j = i ∧ j ∉ skip) → (∀ j, Ev.pass j ∈ l0 → j = i ∧ j ∈ skip) →
        (∀ j ∈ i :: t', u.alive j = true → (j ∉ skip → Ev.save j ∈ l0 ++ l) ∧ (j ∈ skip → Ev.pass j ∈ l0 ++ l)) ∧
        (∀ j, Ev.save j ∈ l0 ++ l → j ∈ i :: t' ∧ j ∉ skip) ∧ ∀ j, Ev.pass j ∈ l0 ++ l → j ∈ i :: t' ∧ j ∈ skip := by
      rintro s u l - ⟨h1, h2, h3⟩ l0 k1 k2 k3
      refine ⟨fun j hj ha => ?_, fun j hj => ?_, fun j hj => ?_⟩
      · rcases List.mem_cons.mp hj with rfl | hj
        · exact ⟨fun h => List.mem_append_left _ ((k1 ha).1 h), fun h => List.mem_append_left _ ((k1 ha).2 h)⟩
        · exact ⟨fun h => List.mem_append_right _ ((h1 j hj ha).1 h), fun h => List.mem_append_right _ ((h1 j hj ha).2 h)⟩
      · rcases List.mem_append.mp hj with h | h
        · obtain ⟨rfl, h⟩ := k2 j h; exact ⟨List.mem_cons_self, h⟩
        · exact ⟨List.mem_cons_of_mem _ (h2 j h).1, (h2 j h).2⟩
      · rcases List.mem_append.mp hj with h | h
        · obtain ⟨rfl, h⟩ := k3 j h; exact ⟨List.mem_cons_self, h⟩
        · exact ⟨List.mem_cons_of_mem _ (h3 j h).1, (h3 j h).2⟩
    refine Em.bind (Q := fun _ al l t => al = t.alive i ∧ ∀ x ∈ l, Deaths x)
      (R := fun al s _ l t => al = s.alive i →
        (∀ j ∈ i :: t', t.alive j = true → (j ∉ skip → Ev.save j ∈ l) ∧ (j ∈ skip → Ev.pass j ∈ l)) ∧
        (∀ j, Ev.save j ∈ l → j ∈ i :: t' ∧ j ∉ skip) ∧ ∀ j, Ev.pass j ∈ l → j ∈ i :: t' ∧ j ∈ skip)
      ((em_isAlive i).conseq deaths_saving fun _ _ _ _ _ hc hq => ⟨hq, hc⟩) (fun al => ?_) ?_
    · split
      · split
        · rename_i hs
          refine Em.bind (Q := fun _ _ l _ => ∀ x ∈ l, Deaths x) (em_draw.conseq deaths_saving fun _ _ _ _ _ hc _ => hc)
            (fun _ => Em.bind (Em.emit (x := .save i) trivial (by simp)) (fun _ => ih)
              (S := fun _ _ l t => (∀ j ∈ i :: t', t.alive j = true → (j ∉ skip → Ev.save j ∈ l) ∧ (j ∈ skip → Ev.pass j ∈ l)) ∧
        (∀ j, Ev.save j ∈ l → j ∈ i :: t' ∧ j ∉ skip) ∧ ∀ j, Ev.pass j ∈ l → j ∈ i :: t' ∧ j ∈ skip) ?_) ?_
          · rintro s a l t b l' u - - ⟨rfl, -⟩ ha - hr
            exact more ha hr [.save i] (fun _ => ⟨fun _ => by simp, fun h => absurd h hs⟩) (fun j hj => by simp at hj; subst hj; exact ⟨rfl, hs⟩)
              fun j hj => by simp at hj
          · rintro s a l t b l' u - - hd - - ⟨h1, h2, h3⟩ -
            refine ⟨fun j hj ha => ⟨fun h => List.mem_append_right _ ((h1 j hj ha).1 h), fun h => List.mem_append_right _ ((h1 j hj ha).2 h)⟩,
              fun j hj => h2 j ((List.mem_append.mp hj).resolve_left fun h => hd _ h),
              fun j hj => h3 j ((List.mem_append.mp hj).resolve_left fun h => hd _ h)⟩
        · rename_i hs
          refine Em.bind (Em.emit (x := .pass i) trivial (by simp)) (fun _ => ih) ?_
          rintro s a l t b l' u - - ⟨rfl, -⟩ ha - hr -
          exact more ha hr [.pass i] (fun _ => ⟨fun h => absurd h hs, fun _ => by simp⟩) (fun j hj => by simp at hj)
            fun j hj => by simp at hj; subst hj; exact ⟨rfl, Classical.not_not.mp hs⟩
      · rename_i hal
        refine ih.conseq (fun _ h => h) fun s a l u had _ hr he => ?_
        exact more had hr [] (fun ha => absurd (he.trans (had.alive ha)) hal) (by simp) (by simp)
    · rintro s a l t b l' u - - ⟨rfl, hd⟩ - - hr
      obtain ⟨h1, h2, h3⟩ := hr rfl
      refine ⟨fun j hj ha => ⟨fun h => List.mem_append_right _ ((h1 j hj ha).1 h), fun h => List.mem_append_right _ ((h1 j hj ha).2 h)⟩,
        fun j hj => h2 j ((List.mem_append.mp hj).resolve_left fun h => hd _ h),
        fun j hj => h3 j ((List.mem_append.mp hj).resolve_left fun h => hd _ h)⟩

theorem em_clearedLoop (n : Nat) : ∀ ids, Just Deaths (clearedLoop n ids) := by
  induction n with
  | zero =>
    intro ids
    cases ids with
    | nil => unfold clearedLoop; exact Em.pure _ fun _ => trivial
    | cons i t => unfold clearedLoop; exact Em.pend
  | succ n ih =>
    intro ids
    cases ids with
    | nil => unfold clearedLoop; exact Em.pure _ fun _ => trivial
    | cons i t =>
      unfold clearedLoop
      refine Just.bind em_askBool fun _ => ?_
      split <;> exact ih _

theorem em_filesLoop (ids : List Nat) : Just Deaths (filesLoop ids) := by
  induction ids with
  | nil => unfold filesLoop; exact Em.pure _ fun _ => trivial
  | cons i t ih =>
    unfold filesLoop
    refine Just.bind em_askBool fun _ => ?_
    split
    · exact ih
    · exact Em.throw _

/-- What the hand-shake does with the optimizers `ids`: first those living are asked to pause and what they report is taken,
then they are told to save or to go on. -/
def Shook (ids : List Nat) (files : List Nat) (l : List Ev) (t : State) : Prop :=
  ∃ m1 m2, l = m1 ++ m2 ∧ (∀ x ∈ m1, Holding x) ∧ (∀ x ∈ m2, Saving x) ∧
    (∀ i ∈ ids, t.alive i = true → Ev.pauseReq i ∈ m1) ∧
    (∀ i, Ev.pauseReq i ∈ m1 → t.alive i = true → (i ∈ files → Ev.save i ∈ m2) ∧ (i ∉ files → Ev.pass i ∈ m2)) ∧
    (∀ i, Ev.save i ∈ m2 → i ∈ files) ∧ (∀ i, Ev.pass i ∈ m2 → Ev.pauseReq i ∈ m1 ∧ i ∉ files) ∧
    (∀ i ∈ files, Ev.pauseReq i ∈ m1 ∧ ¬ Over i m1) ∧
    ∀ i, Ev.pauseReq i ∈ m1 → t.alive i = true → ¬ Over i m1 → Ev.released i ∉ m1 → i ∈ files

theorem Saving.notPause {l : List Ev} (h : ∀ x ∈ l, Saving x) (i : Nat) : Ev.pauseReq i ∉ l := fun hm => h _ hm

/-- What saving does. -/
def Saved' (messaged skip files : List Nat) (l : List Ev) (t : State) : Prop :=
  files = messaged.filter (fun i => decide (i ∉ skip)) ∧
  (∀ i ∈ messaged, t.alive i = true → (i ∉ skip → Ev.save i ∈ l) ∧ (i ∈ skip → Ev.pass i ∈ l)) ∧
  (∀ i, Ev.save i ∈ l → i ∈ messaged ∧ i ∉ skip) ∧ ∀ i, Ev.pass i ∈ l → i ∈ messaged ∧ i ∈ skip

theorem Saved'.pre {messaged skip files : List Nat} {l l' : List Ev} {t : State} (hd : ∀ x ∈ l', Deaths x)
    (h : Saved' messaged skip files l t) : Saved' messaged skip files (l' ++ l) t :=
  ⟨h.1, fun i hi ha => ⟨fun hs => List.mem_append_right _ ((h.2.1 i hi ha).1 hs), fun hs => List.mem_append_right _ ((h.2.1 i hi ha).2 hs)⟩,
    fun i hi => h.2.2.1 i ((List.mem_append.mp hi).resolve_left fun h => hd _ h),
    fun i hi => h.2.2.2 i ((List.mem_append.mp hi).resolve_left fun h => hd _ h)⟩

theorem em_saveAll (n : Nat) (living messaged skip : List Nat) : Em (do
    let empty ← askBool
    if empty = false then M.throw .queueNotEmpty
    else
      askUnit
      saveLoop skip messaged
      clearedLoop n living
      filesLoop (messaged.filter fun i => decide (i ∉ skip))
      pure (messaged.filter fun i => decide (i ∉ skip))) Saving (fun _ files l t => Saved' messaged skip files l t) := by
  have D : ∀ {α : Type} {m : M α}, Just Deaths m → Em m Saving (fun _ _ l _ => ∀ x ∈ l, Deaths x) :=
    fun h => h.conseq deaths_saving fun _ _ _ _ _ hc _ => hc
  refine Em.bind (D em_askBool) (fun b => ?_) fun _ _ _ _ _ _ _ _ _ hd _ _ hr => Saved'.pre hd hr
  split
  · exact Em.throw _
  refine Em.bind (D em_askUnit) (fun b => ?_) fun _ _ _ _ _ _ _ _ _ hd _ _ hr => Saved'.pre hd hr
  refine Em.bind (em_saveLoop skip messaged) (fun _ => ?_) (R := fun _ _ files l t => (∀ x ∈ l, Deaths x) ∧
    files = messaged.filter fun i => decide (i ∉ skip)) ?_
  · refine Em.bind (D (em_clearedLoop _ _)) (fun _ => Em.bind (D (em_filesLoop _)) (fun _ => Em.pure _
      (Q := fun _ files l t => (∀ x ∈ l, Deaths x) ∧ files = messaged.filter fun i => decide (i ∉ skip)) fun _ => ⟨by simp, rfl⟩)
      (S := fun _ files l t => (∀ x ∈ l, Deaths x) ∧ files = messaged.filter fun i => decide (i ∉ skip)) ?_) ?_
    · intro _ _ _ _ _ _ _ _ _ hd _ _ hr
      exact ⟨fun x hx => (List.mem_append.mp hx).elim (hd x) (hr.1 x), hr.2⟩
    · intro _ _ _ _ _ _ _ _ _ hd _ _ hr
      exact ⟨fun x hx => (List.mem_append.mp hx).elim (hd x) (hr.1 x), hr.2⟩
  · rintro s a l t files l' u - - ⟨h1, h2, h3⟩ ha - ⟨hd, rfl⟩
    exact ⟨rfl, fun i hi hal => ⟨fun hs => List.mem_append_left _ ((h1 i hi (ha.alive hal)).1 hs),
        fun hs => List.mem_append_left _ ((h1 i hi (ha.alive hal)).2 hs)⟩,
      fun i hi => h2 i ((List.mem_append.mp hi).resolve_right fun h => hd _ h),
      fun i hi => h3 i ((List.mem_append.mp hi).resolve_right fun h => hd _ h)⟩

theorem em_checkpointOptimizers (cfg : Cfg) (fuel : Nat) : Em (checkpointOptimizers cfg fuel) (fun x => x ≠ .ckptBegin)
    (fun s files l t => Shook (s.packs.map (·.1)) files l t) := by
  unfold checkpointOptimizers
  refine Em.bind Em.get (fun s => ?_) (R := fun s _ files l t => Shook (s.packs.map (·.1)) files l t) ?_
  swap
  · rintro s a l t b l' u - - ⟨rfl, rfl, rfl⟩ - - hr; exact hr
  refine Em.bind ((em_pauseLoop (s.packs.map (·.1)) []).conseq (C' := fun x => x ≠ .ckptBegin)
    (Q' := fun _ a l t => ((∀ i, i ∈ a ↔ Ev.pauseReq i ∈ l) ∧ ∀ i ∈ s.packs.map (·.1), t.alive i = true → Ev.pauseReq i ∈ l) ∧
      ∀ x ∈ l, Pausing x) (fun x h e => by subst e; exact h)
      fun _ _ _ _ _ hc hq => ⟨⟨fun i => by rw [hq.1]; simp, hq.2⟩, hc⟩) (fun messaged => ?_)
    (R := fun messaged _ files l t => ∃ (skip : List Nat) (m1 m2 : List Ev), files = messaged.filter (fun i => decide (i ∉ skip)) ∧ l = m1 ++ m2 ∧
      (∀ x ∈ m1, Replies x) ∧ (∀ x ∈ m2, Saving x) ∧
      (∀ i ∈ messaged, t.alive i = true → (i ∉ skip → Ev.save i ∈ m2) ∧ (i ∈ skip → Ev.pass i ∈ m2)) ∧
      (∀ i, Ev.save i ∈ m2 → i ∈ messaged ∧ i ∉ skip) ∧ (∀ i, Ev.pass i ∈ m2 → i ∈ messaged ∧ i ∈ skip) ∧
      (∀ i, Over i m1 → i ∈ skip) ∧ ∀ i ∈ skip, Over i m1 ∨ Ev.released i ∈ m1 ∨ t.alive i = false) ?_
  · have nr : ∀ x, Replies x → x ≠ Ev.ckptBegin := by rintro x h rfl; exact h
    have ns : ∀ x, Saving x → x ≠ Ev.ckptBegin := by rintro x h rfl; exact h
    refine Em.bind ((em_waitLoop cfg fuel messaged.length fuel ⟨[], messaged, messaged⟩).conseq nr
      (Q' := fun _ h' l t => Skips [] h'.skip l t ∧ ∀ x ∈ l, Replies x) fun _ _ _ _ _ hc hq => ⟨hq, hc⟩) (fun h => ?_)
      (R := fun h s files l t => ∃ (skip : List Nat) (m1 m2 : List Ev) (u : State), l = m1 ++ m2 ∧ Skips h.skip skip m1 u ∧
        (∀ x ∈ m1, Replies x) ∧ (∀ x ∈ m2, Saving x) ∧ Adds u t m2 ∧ Saved' messaged skip files m2 t ∧ Adds s u m1) ?_
    · refine Em.bind ((em_processResults' cfg fuel none h.skip).conseq nr
        (Q' := fun _ t l u => Skips h.skip (h.skip ++ t.closed ++ t.victims) l u ∧ ∀ x ∈ l, Replies x)
        fun _ _ _ _ _ hc hq => ⟨hq, hc⟩) (fun t => Em.conseq (em_saveAll fuel h.living messaged (h.skip ++ t.closed ++ t.victims))
        ns (Q' := fun _ files l u => Saved' messaged (h.skip ++ t.closed ++ t.victims) files l u ∧ ∀ x ∈ l, Saving x)
        fun _ _ _ _ _ hc hq => ⟨hq, hc⟩) ?_
      intro s a l t b l' u ha _ hq ha' _ hr
      exact ⟨_, l, l', t, rfl, hq.1, hq.2, hr.2, ha', hr.1, ha⟩
    · rintro s h l t files l' u ha - ⟨hq, hq'⟩ - - ⟨skip, m1, m2, v, rfl, g1, g2, g3, g4, ⟨rfl, g6, g7, g8⟩, hv⟩
      have hs := hq.trans hv g1
      refine ⟨skip, l ++ m1, m2, rfl, by simp, fun x hx => (List.mem_append.mp hx).elim (hq' x) (g2 x), g3, g6, g7, g8, hs.2.1,
        fun i hi => ?_⟩
      rcases hs.2.2 i hi with h | h | h | h
      · cases h
      · exact .inl h
      · exact .inr (.inl h)
      · refine .inr (.inr ?_)
        cases hu : u.alive i with
        | false => rfl
        | true => rw [g4.alive hu] at h; cases h
  · rintro s' messaged l t files l' u - - ⟨⟨h1, h2⟩, h3⟩ ha - ⟨skip, m1, m2, rfl, rfl, k1, k2, k3, k4, k5, k6, k7⟩
    have hov : ∀ i, Over i (l ++ m1) → Over i m1 := by
      rintro i (⟨b, hb⟩ | hb)
      · exact .inl ⟨b, (List.mem_append.mp hb).resolve_left fun h => h3 _ h⟩
      · exact .inr ((List.mem_append.mp hb).resolve_left fun h => h3 _ h)
    have hpr : ∀ i, Ev.pauseReq i ∈ l ++ m1 ↔ i ∈ messaged := fun i => by
      rw [List.mem_append, h1]
      exact ⟨fun h => h.resolve_right fun h => k1 _ h, .inl⟩
    refine ⟨l ++ m1, m2, by simp, fun x hx => ?_, k2, fun i hi hal => (hpr i).mpr ((h1 i).mpr (h2 i hi (ha.alive hal))),
      fun i hi hal => ?_, fun i hi => ?_, fun i hi => ?_, fun i hi => ?_, fun i hi hal hno hnr => ?_⟩
    · exact (List.mem_append.mp hx).elim (fun h => pausing_waiting x (h3 x h)) fun h => replies_waiting x (k1 x h)
    · have := k3 i ((hpr i).mp hi) hal
      refine ⟨fun h => this.1 (by simpa using (List.mem_filter.mp h).2), fun h => this.2 ?_⟩
      by_contra hs
      exact h (List.mem_filter.mpr ⟨(hpr i).mp hi, by simpa using hs⟩)
    · exact List.mem_filter.mpr ⟨(k4 i hi).1, by simpa using (k4 i hi).2⟩
    · refine ⟨(hpr i).mpr (k5 i hi).1, fun h => ?_⟩
      have := (List.mem_filter.mp h).2
      simp [(k5 i hi).2] at this
    · obtain ⟨h4, h5⟩ := List.mem_filter.mp hi
      refine ⟨(hpr i).mpr h4, fun h => ?_⟩
      simp [k6 i (hov i h)] at h5
    · refine List.mem_filter.mpr ⟨(hpr i).mp hi, ?_⟩
      simp only [decide_eq_true_eq]
      intro hs
      rcases k7 i hs with h | h | h
      · exact hno h.right
      · exact hnr (List.mem_append_right _ h)
      · rw [hal] at h; cases h

/-- While the optimizers are told to go on. -/
def Closing : Ev → Prop
  | .died _ => True
  | .stop _ => True
  | .resume _ => True
  | _ => False

theorem deaths_closing : ∀ x, Deaths x → Closing x := by
  intro x h; cases x <;> first | exact trivial | exact absurd h id

theorem em_resumeLoop (ids : List Nat) : Em (resumeLoop ids) Closing (fun _ _ l t => ∀ i ∈ ids, t.alive i = true → Ev.resume i ∈ l) := by
  induction ids with
  | nil => unfold resumeLoop; exact Em.pure _ fun _ => by simp
  | cons i t' ih =>
    unfold resumeLoop
    refine Em.bind (Q := fun _ al _ t => al = t.alive i)
      (R := fun al s _ l t => ∀ j ∈ i :: t', t.alive j = true → al = s.alive i → Ev.resume j ∈ l)
      ((em_isAlive i).conseq deaths_closing fun _ _ _ _ _ hc hq => hq) (fun al => ?_) ?_
    · split
      · rename_i hal
        refine Em.bind (Em.emit (x := .resume i) trivial (by simp)) (fun _ => ih) ?_
        rintro s a l t b l' u - - ⟨rfl, -⟩ - - hr j hj ha _
        rcases List.mem_cons.mp hj with rfl | hj
        · simp
        · exact List.mem_append_right _ (hr j hj ha)
      · rename_i hal
        refine ih.conseq (fun _ h => h) fun s a l u had _ hr j hj ha he => ?_
        rcases List.mem_cons.mp hj with rfl | hj
        · exact absurd (he.trans (had.alive ha)) hal
        · exact hr j hj ha
    · rintro s a l t b l' u - - rfl - - hr j hj ha
      exact List.mem_append_right _ (hr j hj ha rfl)

theorem em_stopLoop (ids : List Nat) : Em (stopLoop ids) Closing (fun _ _ l t => ∀ i ∈ ids, t.alive i = true → Ev.stop i ∈ l) := by
  induction ids with
  | nil => unfold stopLoop; exact Em.pure _ fun _ => by simp
  | cons i t' ih =>
    unfold stopLoop
    refine Em.bind (Q := fun _ al _ t => al = t.alive i)
      (R := fun al s _ l t => ∀ j ∈ i :: t', t.alive j = true → al = s.alive i → Ev.stop j ∈ l)
      ((em_isAlive i).conseq deaths_closing fun _ _ _ _ _ hc hq => hq) (fun al => ?_) ?_
    · split
      · rename_i hal
        refine Em.bind (Em.emit (x := .stop i) trivial (by simp)) (fun _ => ih) ?_
        rintro s a l t b l' u - - ⟨rfl, -⟩ - - hr j hj ha _
        rcases List.mem_cons.mp hj with rfl | hj
        · simp
        · exact List.mem_append_right _ (hr j hj ha)
      · rename_i hal
        refine ih.conseq (fun _ h => h) fun s a l u had _ hr j hj ha he => ?_
        rcases List.mem_cons.mp hj with rfl | hj
        · exact absurd (he.trans (had.alive ha)) hal
        · exact hr j hj ha
    · rintro s a l t b l' u - - rfl - - hr j hj ha
      exact List.mem_append_right _ (hr j hj ha rfl)

theorem sinceCkpt_snoc (ev : List Ev) (x : Ev) (h : x ≠ .ckptBegin) : sinceCkpt (ev ++ [x]) = sinceCkpt ev ++ [x] := by
  simp only [sinceCkpt, List.foldl_append, List.foldl_cons, List.foldl_nil]

theorem sinceCkpt_append (ev : List Ev) : ∀ l, (∀ x ∈ l, x ≠ Ev.ckptBegin) → sinceCkpt (ev ++ l) = sinceCkpt ev ++ l := by
  intro l
  induction l generalizing ev with
  | nil => simp
  | cons x t ih =>
    intro h
    rw [show ev ++ x :: t = (ev ++ [x]) ++ t by simp, ih _ fun y hy => h y (List.mem_cons_of_mem _ hy),
      sinceCkpt_snoc _ _ (h x List.mem_cons_self)]
    simp

theorem mem_killed {i : Nat} {l : List Ev} : i ∈ killedOf l ↔ Shot i l := by
  simp only [killedOf, List.mem_filterMap, Shot]
  constructor
  · rintro ⟨x, hx, h⟩; cases x <;> simp at h; subst h; exact ⟨_, hx⟩
  · rintro ⟨y, h⟩; exact ⟨_, h, rfl⟩

theorem mem_finished {i : Nat} {l : List Ev} : i ∈ finishedOf l ↔ Ev.finished i ∈ l := by
  simp only [finishedOf, List.mem_filterMap]
  constructor
  · rintro ⟨x, hx, h⟩; cases x <;> simp at h; subst h; exact hx
  · intro h; exact ⟨_, h, rfl⟩

/-- Since the checkpoint began processes only terminated. -/
def Fresh (s : State) : Prop := ∀ x ∈ sinceCkpt s.ev, ∃ j, x = Ev.died j

/-- The hand-shake, told of the history. -/
theorem handShake {s t : State} {l : List Ev} {files ids : List Nat} (hf : Fresh s) (ha : Adds s t l)
    (hl : ∀ x ∈ l, x ≠ Ev.ckptBegin) (hr : ∀ i, Running t.ev i ↔ t.alive i = true)
    (hi : ∀ i, s.alive i = true → i ∈ ids) (h : Shook ids files l t) : HandShake t.ev files := by
  obtain ⟨m1, m2, rfl, h1, h2, h3, h4, h5, h6, h7, h8⟩ := h
  have hask : ∀ i, Running t.ev i → Ev.pauseReq i ∈ m1 := fun i hh => h3 i (hi i (ha.alive ((hr i).mp hh))) ((hr i).mp hh)
  have hk : ∀ i, i ∈ killedOf (sinceCkpt s.ev ++ m1) ↔ Shot i m1 := by
    intro i
    rw [mem_killed]
    refine ⟨fun ⟨y, hy⟩ => ?_, fun h => h.right⟩
    rcases List.mem_append.mp hy with hy | hy
    · obtain ⟨j, hj⟩ := hf _ hy; cases hj
    · exact ⟨y, hy⟩
  have hn : ∀ i, i ∈ finishedOf (sinceCkpt s.ev ++ m1) ↔ Ev.finished i ∈ m1 := by
    intro i
    rw [mem_finished, List.mem_append]
    refine ⟨fun hy => hy.elim (fun hy => ?_) id, .inr⟩
    obtain ⟨j, hj⟩ := hf _ hy; cases hj
  have hold : ∀ x, (∀ j, x ≠ Ev.died j) → (x ∈ sinceCkpt s.ev ++ m1 ↔ x ∈ m1) := by
    intro x hx
    rw [List.mem_append]
    refine ⟨fun hy => hy.elim (fun hy => ?_) id, .inr⟩
    obtain ⟨j, hj⟩ := hf _ hy; exact absurd hj (hx j)
  refine ⟨sinceCkpt s.ev ++ m1, m2, ?_, fun i => ⟨?_, ?_⟩, fun x hx => ?_, fun i hh => ?_, fun i hh => ?_, h5, fun i hh => ?_,
    fun i hh => ?_, fun i hh hk' hn' hr' => ?_⟩
  · rw [ha.ev, sinceCkpt_append _ _ hl, List.append_assoc]
  · rw [hold _ (by simp)]; exact fun h => h1 _ h
  · rw [hold _ (by simp)]; exact fun h => h1 _ h
  · have := h2 x hx
    cases x <;> simp [Saving] at this ⊢
  · rw [hold _ (by simp)]; exact hask i hh
  · have := h4 i (hask i hh) ((hr i).mp hh)
    split
    · exact this.1 ‹_›
    · exact this.2 ‹_›
  · rw [hold _ (by simp)]; exact (h6 i hh).symm
  · have := h7 i hh
    rw [hold _ (by simp), hk, hn]
    exact ⟨this.1, fun h => this.2 (.inl h), fun h => this.2 (.inr h)⟩
  · rw [hk] at hk'; rw [hn] at hn'; rw [hold _ (by simp)] at hr'
    exact h8 i (hask i hh) ((hr i).mp hh) (fun h => h.elim hk' hn') hr'

end Glompo.Manager
