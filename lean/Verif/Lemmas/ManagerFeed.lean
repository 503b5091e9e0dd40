import Verif.Spec.Manager
import Verif.Lemmas.ManagerWalk

/-!
# What the manager is handed and what it processes

Every message of every chunk taken from the results queue is processed, in order, unless an exception interrupts the
processing of a chunk.
-/

namespace Glompo.Manager

open Glompo.Spec Glompo.Manager.M

theorem handed_append (a b : Env) : handed (a ++ b) = handed a ++ handed b := by
  simp [handed]

theorem receivedOf_snoc (ev : List Ev) (x : Ev) (h : ∀ m, x ≠ .received m) : receivedOf (ev ++ [x]) = receivedOf ev := by
  unfold receivedOf
  rw [List.filterMap_append]
  cases x with
  | received m => exact absurd rfl (h m)
  | _ => simp

/-- Nothing is processed; no chunk is taken (unless the run stops short there). -/
def Mute {α : Type} (m : M α) : Prop :=
  ∀ s e, ∃ used, e = used ++ (m s e).2.2 ∧ receivedOf (m s e).2.1.ev = receivedOf s.ev ∧
    ((m s e).1 = .pending ∨ handed used = [])

/-- `CheckpointingError` is not raised. -/
def NoCk {α : Type} (m : M α) : Prop := ∀ s e, (m s e).1 ≠ .raised .ckpt

/-- Everything taken is processed, unless an exception (but `CheckpointingError`) is raised. -/
def Feeds {α : Type} (m : M α) : Prop :=
  ∀ s e, ∃ used rest, e = used ++ (m s e).2.2 ∧ receivedOf (m s e).2.1.ev ++ rest = receivedOf s.ev ++ handed used ∧
    ((∃ a, (m s e).1 = .ok a) ∨ (m s e).1 = .raised .ckpt → rest = [])

theorem Mute.feeds {α : Type} {m : M α} (h : Mute m) : Feeds m := by
  intro s e
  obtain ⟨u, h1, h2, h3⟩ := h s e
  refine ⟨u, handed u, h1, by rw [h2], fun ho => ?_⟩
  rcases h3 with h3 | h3
  · rw [h3] at ho
    rcases ho with ⟨a, ho⟩ | ho <;> cases ho
  · exact h3

theorem Mute.pure {α : Type} (a : α) : Mute (M.pure a) := fun s e => ⟨[], rfl, rfl, .inr rfl⟩
theorem Mute.throw {α : Type} (x : Exc) : Mute (M.throw x : M α) := fun s e => ⟨[], rfl, rfl, .inr rfl⟩
theorem Mute.pend {α : Type} : Mute (M.pend : M α) := fun s e => ⟨[], rfl, rfl, .inr rfl⟩
theorem Mute.get : Mute M.get := fun s e => ⟨[], rfl, rfl, .inr rfl⟩

theorem Mute.modify {f : State → State} (h : ∀ s, receivedOf (f s).ev = receivedOf s.ev) : Mute (M.modify f) :=
  fun s e => ⟨[], rfl, h s, .inr rfl⟩

theorem Mute.bind {α β : Type} {m : M α} {f : α → M β} (hm : Mute m) (hf : ∀ a, Mute (f a)) : Mute (M.bind m f) := by
  intro s e
  obtain ⟨u, h1, h2, h3⟩ := hm s e
  unfold M.bind
  generalize m s e = r at h1 h2 h3
  obtain ⟨o, s', e'⟩ := r
  cases o with
  | ok a =>
    obtain ⟨v, k1, k2, k3⟩ := hf a s' e'
    simp only at h1 h2 h3 k1 k2 k3 ⊢
    refine ⟨u ++ v, by rw [List.append_assoc, ← k1, ← h1], k2.trans h2, k3.imp id fun k => ?_⟩
    rcases h3 with h3 | h3
    · cases h3
    · rw [handed_append, h3, k, List.nil_append]
  | raised x =>
    refine ⟨u, h1, h2, ?_⟩
    rcases h3 with h3 | h3
    · cases h3
    · exact .inr h3
  | pending => exact ⟨u, h1, h2, .inl rfl⟩

theorem Mute.tryCatch {α : Type} {m : M α} {h : Exc → Option (M α)} (hm : Mute m) (hh : ∀ x k, h x = some k → Mute k) :
    Mute (M.tryCatch m h) := by
  intro s e
  obtain ⟨u, h1, h2, h3⟩ := hm s e
  unfold M.tryCatch
  generalize m s e = r at h1 h2 h3
  obtain ⟨o, s', e'⟩ := r
  cases o with
  | raised x =>
    simp only at h1 h2 h3 ⊢
    have h3 : handed u = [] := h3.resolve_left (by simp)
    cases hx : h x with
    | none => exact ⟨u, h1, h2, .inr h3⟩
    | some k =>
      obtain ⟨v, k1, k2, k3⟩ := hh x k hx s' e'
      exact ⟨u ++ v, by rw [List.append_assoc, ← k1, ← h1], k2.trans h2, k3.imp id fun k => by
        rw [handed_append, h3, k, List.nil_append]⟩
  | ok a => exact ⟨u, h1, h2, h3⟩
  | pending => exact ⟨u, h1, h2, h3⟩

theorem Mute.forEach {β : Type} {f : β → M Unit} (h : ∀ b, Mute (f b)) : ∀ l : List β, Mute (M.forEach l f)
  | [] => Mute.pure ()
  | b :: t => Mute.bind (h b) fun _ => Mute.forEach h t

theorem Feeds.bind {α β : Type} {m : M α} {f : α → M β} (hm : Feeds m) (hf : ∀ a, Feeds (f a)) : Feeds (M.bind m f) := by
  intro s e
  obtain ⟨u, r, h1, h2, h3⟩ := hm s e
  unfold M.bind
  generalize m s e = x at h1 h2 h3
  obtain ⟨o, s', e'⟩ := x
  cases o with
  | ok a =>
    obtain ⟨v, r', k1, k2, k3⟩ := hf a s' e'
    simp only at h1 h2 h3 k1 k2 k3 ⊢
    obtain rfl := h3 (.inl ⟨a, rfl⟩)
    refine ⟨u ++ v, r', by rw [List.append_assoc, ← k1, ← h1], ?_, k3⟩
    rw [k2, handed_append, ← List.append_assoc, ← h2, List.append_nil]
  | raised x => exact ⟨u, r, h1, h2, fun h => h3 (.inr (by
      rcases h with ⟨a, h⟩ | h
      · cases h
      · simpa using h))⟩
  | pending => exact ⟨u, r, h1, h2, fun h => by rcases h with ⟨a, h⟩ | h <;> cases h⟩

theorem Feeds.tryCatch {α : Type} {m : M α} {h : Exc → Option (M α)} (hm : Feeds m)
    (hh : ∀ x k, h x = some k → x = .ckpt ∧ Feeds k) : Feeds (M.tryCatch m h) := by
  intro s e
  obtain ⟨u, r, h1, h2, h3⟩ := hm s e
  unfold M.tryCatch
  generalize m s e = x at h1 h2 h3
  obtain ⟨o, s', e'⟩ := x
  cases o with
  | raised x =>
    simp only at h1 h2 h3 ⊢
    cases hx : h x with
    | none => exact ⟨u, r, h1, h2, h3⟩
    | some k =>
      obtain ⟨rfl, hk⟩ := hh x k hx
      obtain ⟨v, r', k1, k2, k3⟩ := hk s' e'
      obtain rfl := h3 (.inr rfl)
      refine ⟨u ++ v, r', by rw [List.append_assoc, ← k1, ← h1], ?_, k3⟩
      simp only
      rw [k2, handed_append, ← List.append_assoc, ← h2, List.append_nil]
  | ok a => exact ⟨u, r, h1, h2, h3⟩
  | pending => exact ⟨u, r, h1, h2, h3⟩

theorem NoCk.pure {α : Type} (a : α) : NoCk (M.pure a) := fun s e h => by cases h
theorem NoCk.pend {α : Type} : NoCk (M.pend : M α) := fun s e h => by cases h
theorem NoCk.get : NoCk M.get := fun s e h => by cases h
theorem NoCk.modify (f : State → State) : NoCk (M.modify f) := fun s e h => by cases h

theorem NoCk.bind {α β : Type} {m : M α} {f : α → M β} (hm : NoCk m) (hf : ∀ a, NoCk (f a)) : NoCk (M.bind m f) := by
  intro s e
  have h := hm s e
  unfold M.bind
  generalize m s e = r at h
  obtain ⟨o, s', e'⟩ := r
  cases o with
  | ok a => exact hf a s' e'
  | raised x => exact fun hx => h (by cases hx; rfl)
  | pending => exact fun hx => by cases hx

/-! ### Observations -/

theorem die_received (l : List Nat) (s : State) : receivedOf (die l s).ev = receivedOf s.ev := by
  induction l generalizing s with
  | nil => rfl
  | cons i t ih =>
    simp only [die]
    rw [ih]
    split
    · exact receivedOf_snoc _ _ (by simp)
    · rfl

/-- An observation which is not a look at the queue. -/
theorem mute_ask {α : Type} {f : Ans → M α} (h : ∀ a, (∃ c, a = .chunk (some c)) → f a = M.pend)
    (h' : ∀ a, Mute (f a)) : Mute (M.bind observe f) := by
  intro s e
  unfold M.bind observe
  cases e with
  | nil => exact ⟨[], rfl, rfl, .inl rfl⟩
  | cons o t =>
    simp only
    cases ha : o.ans with
    | raise x => exact ⟨[o], rfl, die_received _ _, .inr (by simp [handed, ha])⟩
    | chunk c =>
      cases c with
      | none =>
        obtain ⟨v, k1, k2, k3⟩ := h' (.chunk none) (die o.deaths s) t
        exact ⟨o :: v, by simp only [List.cons_append, ← k1], k2.trans (die_received _ _), k3.imp id fun k => by
          simpa [handed, ha] using k⟩
      | some c =>
        simp only
        rw [h _ ⟨c, rfl⟩]
        exact ⟨[o], rfl, die_received _ _, .inl rfl⟩
    | _ =>
      obtain ⟨v, k1, k2, k3⟩ := h' _ (die o.deaths s) t
      exact ⟨o :: v, by simp only [List.cons_append, ← k1], k2.trans (die_received _ _), k3.imp id fun k => by
        simpa [handed, ha] using k⟩

theorem NoCk.tryCatch {α : Type} {m : M α} {h : Exc → Option (M α)} (hm : NoCk m) (hh : ∀ x k, h x = some k → NoCk k) :
    NoCk (M.tryCatch m h) := by
  intro s e
  have g := hm s e
  unfold M.tryCatch
  generalize m s e = r at g
  obtain ⟨o, s', e'⟩ := r
  cases o with
  | ok a => exact fun hx => by cases hx
  | pending => exact fun hx => by cases hx
  | raised x =>
    simp only []
    cases hx : h x with
    | none => exact fun hx => g (by cases hx; rfl)
    | some k => exact hh x k hx s' e'

theorem nock_observe : NoCk observe := by
  intro s e
  unfold observe
  cases e with
  | nil => simp
  | cons o t =>
    simp only
    cases o.ans <;> simp

theorem mute_askUnit : Mute askUnit := by
  unfold askUnit
  refine mute_ask (fun a ha => ?_) fun a => ?_
  · obtain ⟨c, rfl⟩ := ha; rfl
  · cases a <;> first | exact Mute.pure _ | exact Mute.pend
theorem mute_askBool : Mute askBool := by
  unfold askBool
  refine mute_ask (fun a ha => ?_) fun a => ?_
  · obtain ⟨c, rfl⟩ := ha; rfl
  · cases a <;> first | exact Mute.pure _ | exact Mute.pend
theorem mute_askSel : Mute askSel := by
  unfold askSel
  refine mute_ask (fun a ha => ?_) fun a => ?_
  · obtain ⟨c, rfl⟩ := ha; rfl
  · cases a <;> first | exact Mute.pure _ | exact Mute.pend
theorem mute_askSig : Mute askSig := by
  unfold askSig
  refine mute_ask (fun a ha => ?_) fun a => ?_
  · obtain ⟨c, rfl⟩ := ha; rfl
  · cases a <;> first | exact Mute.pure _ | exact Mute.pend
theorem mute_askNames : Mute askNames := by
  unfold askNames
  refine mute_ask (fun a ha => ?_) fun a => ?_
  · obtain ⟨c, rfl⟩ := ha; rfl
  · cases a <;> first | exact Mute.pure _ | exact Mute.pend
theorem mute_askFiles : Mute askFiles := by
  unfold askFiles
  refine mute_ask (fun a ha => ?_) fun a => ?_
  · obtain ⟨c, rfl⟩ := ha; rfl
  · cases a <;> first | exact Mute.pure _ | exact Mute.pend

theorem nock_askUnit : NoCk askUnit := by
  unfold askUnit
  refine NoCk.bind nock_observe fun a => ?_
  cases a <;> first | exact NoCk.pure _ | exact NoCk.pend
theorem nock_askBool : NoCk askBool := by
  unfold askBool
  refine NoCk.bind nock_observe fun a => ?_
  cases a <;> first | exact NoCk.pure _ | exact NoCk.pend
theorem nock_askNames : NoCk askNames := by
  unfold askNames
  refine NoCk.bind nock_observe fun a => ?_
  cases a <;> first | exact NoCk.pure _ | exact NoCk.pend
theorem nock_askChunk : NoCk askChunk := by
  unfold askChunk
  refine NoCk.bind nock_observe fun a => ?_
  cases a <;> first | exact NoCk.pure _ | exact NoCk.pend

theorem mute_draw : Mute draw := by
  unfold draw
  refine Mute.bind Mute.get fun s => ?_
  split
  · refine Mute.tryCatch mute_askUnit fun x k h => ?_
    split at h <;> cases h
    exact Mute.pure _
  · exact Mute.pure _
theorem nock_draw : NoCk draw := by
  unfold draw
  refine NoCk.bind NoCk.get fun s => ?_
  split
  · refine NoCk.tryCatch nock_askUnit fun x k h => ?_
    split at h <;> cases h
    exact NoCk.pure _
  · exact NoCk.pure _

theorem mute_isAlive (i : Nat) : Mute (isAlive i) := by
  unfold isAlive
  exact Mute.bind mute_askUnit fun _ => Mute.bind Mute.get fun _ => Mute.pure _
theorem nock_isAlive (i : Nat) : NoCk (isAlive i) := by
  unfold isAlive
  exact NoCk.bind nock_askUnit fun _ => NoCk.bind NoCk.get fun _ => NoCk.pure _

theorem mute_emit {x : Ev} (h : ∀ m, x ≠ .received m) : Mute (emit x) :=
  Mute.modify fun s => receivedOf_snoc s.ev x h

theorem mute_logOp (op : Logger.Op) : Mute (logOp op) := by
  intro s e
  unfold logOp
  split <;> exact ⟨[], rfl, rfl, .inr rfl⟩
theorem nock_logOp (op : Logger.Op) : NoCk (logOp op) := by
  intro s e
  unfold logOp
  split <;> simp

theorem mute_snoc {f : State → State} {x : Ev} (h : ∀ m, x ≠ .received m) (hf : ∀ s, (f s).ev = s.ev ++ [x]) :
    Mute (M.modify f) := Mute.modify fun s => by rw [hf]; exact receivedOf_snoc _ _ h

theorem mute_putEnd (i : Nat) (w : String) : Mute (putEnd i w) := by
  unfold putEnd
  exact Mute.bind (mute_logOp _) fun _ => mute_logOp _
theorem nock_putEnd (i : Nat) (w : String) : NoCk (putEnd i w) := by
  unfold putEnd
  exact NoCk.bind (nock_logOp _) fun _ => nock_logOp _

/-! ### The pieces of the program -/

theorem mute_setup (k : Int) : Mute (setupNewOptimizer k) := by
  unfold setupNewOptimizer
  refine Mute.bind mute_askSel fun a => ?_
  cases a with
  | stop => exact Mute.bind (Mute.modify fun s => receivedOf_snoc _ _ (by simp)) fun _ => Mute.pure _
  | nothing => exact Mute.bind (mute_emit (by simp)) fun _ => Mute.pure _
  | chosen w c =>
    exact Mute.bind (mute_emit (by simp)) fun _ => Mute.bind (Mute.modify fun s => receivedOf_snoc _ _ (by simp)) fun _ =>
      Mute.bind mute_askUnit fun _ => Mute.bind Mute.get fun _ => Mute.bind (mute_logOp _) fun _ =>
      Mute.bind (Mute.modify fun s => rfl) fun _ => Mute.pure _

theorem mute_startNewJob (i : Nat) (w : Int) : Mute (startNewJob i w) := by
  unfold startNewJob
  exact Mute.bind mute_askUnit fun _ => Mute.bind (Mute.modify fun s => rfl) fun _ => Mute.bind mute_askUnit fun _ =>
    Mute.bind (Mute.modify fun s => receivedOf_snoc _ _ (by simp)) fun _ => mute_draw

theorem mute_fillLoop (cfg : Cfg) : ∀ n k b, Mute (fillLoop cfg n k b)
  | 0, k, b => Mute.pend
  | n + 1, k, b => by
    unfold fillLoop
    refine Mute.bind Mute.get fun s => ?_
    split
    · refine Mute.bind (mute_setup _) fun o => ?_
      cases o with
      | none => exact Mute.pure _
      | some p => exact Mute.bind (mute_startNewJob _ _) fun _ => mute_fillLoop cfg n _ _
    · exact Mute.pure _

theorem mute_fillSlots (cfg : Cfg) (fuel : Nat) : Mute (fillSlots cfg fuel) := by
  unfold fillSlots
  refine Mute.bind mute_askUnit fun _ => Mute.bind Mute.get fun s => ?_
  split
  · exact Mute.throw _
  · refine Mute.bind (mute_fillLoop _ _ _ _) fun b => Mute.bind mute_askUnit fun _ => Mute.bind Mute.get fun s => ?_
    split
    · exact Mute.modify fun s => rfl
    · split
      · exact Mute.throw _
      · exact Mute.pure _

theorem mute_finish (i : Nat) (m : String) : Mute (finish i m) := by
  unfold finish
  exact Mute.bind (mute_emit (by simp)) fun _ => Mute.bind (mute_putEnd _ _) fun _ => Mute.modify fun s => receivedOf_snoc _ _ (by simp)

theorem mute_checkSignals (i : Nat) : Mute (checkSignals i) := by
  unfold checkSignals
  refine Mute.bind Mute.get fun s => ?_
  split
  · exact Mute.pure _
  · refine Mute.bind mute_askSig fun o => ?_
    cases o with
    | none => exact Mute.pure _
    | some m =>
      cases m with
      | eof => exact Mute.pure _
      | paused => exact Mute.pure _
      | unknown => exact Mute.pure _
      | done m => exact Mute.bind (mute_finish _ _) fun _ => Mute.bind mute_draw fun _ => Mute.pure _
      | note m tb =>
        exact Mute.bind (mute_logOp _) fun _ => Mute.bind (Mute.modify fun s => receivedOf_snoc _ _ (by simp)) fun _ =>
          Mute.bind mute_draw fun _ => Mute.pure _

theorem mute_shutdownJob (i : Nat) (h : Option Nat) (r : String) : Mute (shutdownJob i h r) := by
  unfold shutdownJob
  exact Mute.bind (Mute.modify fun s => receivedOf_snoc _ _ (by simp)) fun _ => Mute.bind mute_askUnit fun _ =>
    Mute.bind (mute_emit (by simp)) fun _ => Mute.bind (mute_putEnd _ _) fun _ => mute_draw
theorem nock_shutdownJob (i : Nat) (h : Option Nat) (r : String) : NoCk (shutdownJob i h r) := by
  unfold shutdownJob
  exact NoCk.bind (NoCk.modify _) fun _ => NoCk.bind nock_askUnit fun _ => NoCk.bind (NoCk.modify _) fun _ =>
    NoCk.bind (nock_putEnd _ _) fun _ => nock_draw

theorem mute_huntLoop (h : Nat) : ∀ l vs, Mute (huntLoop h l vs)
  | [], vs => Mute.pure _
  | v :: t, vs => by
    unfold huntLoop
    refine Mute.bind Mute.get fun s => ?_
    split
    · refine Mute.bind mute_askBool fun k => Mute.bind Mute.get fun s => ?_
      split
      · exact Mute.bind (mute_shutdownJob _ _ _) fun _ => mute_huntLoop h t _
      · exact mute_huntLoop h t _
    · exact mute_huntLoop h t _
theorem nock_huntLoop (h : Nat) : ∀ l vs, NoCk (huntLoop h l vs)
  | [], vs => NoCk.pure _
  | v :: t, vs => by
    unfold huntLoop
    refine NoCk.bind NoCk.get fun s => ?_
    split
    · refine NoCk.bind nock_askBool fun k => NoCk.bind NoCk.get fun s => ?_
      split
      · exact NoCk.bind (nock_shutdownJob _ _ _) fun _ => nock_huntLoop h t _
      · exact nock_huntLoop h t _
    · exact nock_huntLoop h t _

theorem mute_startHunt (h : Nat) : Mute (startHunt h) := by
  unfold startHunt
  exact Mute.bind (Mute.modify fun s => receivedOf_snoc _ _ (by simp)) fun _ => Mute.bind Mute.get fun _ => mute_huntLoop _ _ _
theorem nock_startHunt (h : Nat) : NoCk (startHunt h) := by
  unfold startHunt
  exact NoCk.bind (NoCk.modify _) fun _ => NoCk.bind NoCk.get fun _ => nock_huntLoop _ _ _

theorem mute_shareLoop (b : BestIter) : ∀ l, Mute (shareLoop b l)
  | [] => Mute.pure _
  | i :: t => by
    unfold shareLoop
    split
    · refine Mute.bind (mute_isAlive _) fun al => ?_
      split
      · exact Mute.bind (mute_emit (by simp)) fun _ => mute_shareLoop b t
      · exact mute_shareLoop b t
    · exact mute_shareLoop b t
theorem nock_shareLoop (b : BestIter) : ∀ l, NoCk (shareLoop b l)
  | [] => NoCk.pure _
  | i :: t => by
    unfold shareLoop
    split
    · refine NoCk.bind (nock_isAlive _) fun al => ?_
      split
      · exact NoCk.bind (NoCk.modify _) fun _ => nock_shareLoop b t
      · exact nock_shareLoop b t
    · exact nock_shareLoop b t

theorem mute_update (cfg : Cfg) : Mute (updateBestResult cfg) := by
  unfold updateBestResult
  refine Mute.bind Mute.get fun s => ?_
  dsimp only
  split
  · exact Mute.bind (mute_shareLoop _ _) fun _ => Mute.modify fun s => receivedOf_snoc _ _ (by simp)
  · exact Mute.modify fun s => receivedOf_snoc _ _ (by simp)
theorem nock_update (cfg : Cfg) : NoCk (updateBestResult cfg) := by
  unfold updateBestResult
  refine NoCk.bind NoCk.get fun s => ?_
  dsimp only
  split
  · exact NoCk.bind (nock_shareLoop _ _) fun _ => NoCk.modify _
  · exact NoCk.modify _

theorem mute_extraNames (r : IterRes) : Mute (extraNames r) := by
  unfold extraNames
  refine Mute.bind Mute.get fun s => ?_
  split
  · exact Mute.bind mute_askNames fun _ => Mute.bind (Mute.modify fun s => receivedOf_snoc _ _ (by simp)) fun _ => Mute.pure _
  · exact Mute.pure _
theorem nock_extraNames (r : IterRes) : NoCk (extraNames r) := by
  unfold extraNames
  refine NoCk.bind NoCk.get fun s => ?_
  split
  · exact NoCk.bind nock_askNames fun _ => NoCk.bind (NoCk.modify _) fun _ => NoCk.pure _
  · exact NoCk.pure _

theorem mute_record (r : IterRes) (n : List String) : Mute (record r n) := by
  intro s e
  unfold record
  simp only
  split
  · exact ⟨[], rfl, rfl, .inr rfl⟩
  · split
    · exact ⟨[], rfl, receivedOf_snoc _ _ (by simp), .inr rfl⟩
    · exact ⟨[], rfl, rfl, .inr rfl⟩
theorem nock_record (r : IterRes) (n : List String) : NoCk (record r n) := by
  intro s e
  unfold record
  simp only
  split
  · simp
  · split <;> simp

theorem mute_huntIfDue (cfg : Cfg) : Mute (huntIfDue cfg) := by
  unfold huntIfDue
  refine Mute.bind (mute_update _) fun _ => Mute.bind Mute.get fun s => ?_
  split
  · split
    · exact mute_startHunt _
    · exact Mute.pure _
  · exact Mute.pure _
theorem nock_huntIfDue (cfg : Cfg) : NoCk (huntIfDue cfg) := by
  unfold huntIfDue
  refine NoCk.bind (nock_update _) fun _ => NoCk.bind NoCk.get fun s => ?_
  split
  · split
    · exact nock_startHunt _
    · exact NoCk.pure _
  · exact NoCk.pure _

/-- All of the chunk is processed, or an exception other than `CheckpointingError` is raised. -/
def Eats {α : Type} (ms : List Msg) (m : M α) : Prop :=
  ∀ s e, ∃ used rest, e = used ++ (m s e).2.2 ∧ receivedOf (m s e).2.1.ev ++ rest = receivedOf s.ev ++ ms ∧
    ((m s e).1 = .pending ∨ handed used = []) ∧ ((∃ a, (m s e).1 = .ok a) → rest = []) ∧ (m s e).1 ≠ .raised .ckpt

theorem Mute.eats_bind {α β : Type} {ms : List Msg} {m : M α} {f : α → M β} (hm : Mute m) (hn : NoCk m)
    (hf : ∀ a, Eats ms (f a)) : Eats ms (M.bind m f) := by
  intro s e
  obtain ⟨u, h1, h2, h3⟩ := hm s e
  have hn := hn s e
  unfold M.bind
  generalize m s e = r at h1 h2 h3 hn
  obtain ⟨o, s', e'⟩ := r
  cases o with
  | ok a =>
    obtain ⟨v, r, k1, k2, k3, k4, k5⟩ := hf a s' e'
    simp only at h1 h2 h3 k1 k2 k3 ⊢
    refine ⟨u ++ v, r, by rw [List.append_assoc, ← k1, ← h1], by rw [k2, h2], k3.imp id fun k => ?_, k4, k5⟩
    rw [handed_append, h3.resolve_left (by simp), k, List.nil_append]
  | raised x =>
    refine ⟨u, ms, h1, congrArg (· ++ ms) h2, h3.imp (fun h => by cases h) id, fun h => ?_, fun hx => hn ?_⟩
    · obtain ⟨a, h⟩ := h; cases h
    · simpa using hx
  | pending =>
    refine ⟨u, ms, h1, congrArg (· ++ ms) h2, .inl rfl, fun h => ?_, by simp⟩
    obtain ⟨a, h⟩ := h; cases h

theorem eats_chunkLoop (cfg : Cfg) : ∀ ms t, Eats ms (chunkLoop cfg ms t)
  | [], t => fun s e => ⟨[], [], rfl, rfl, .inr rfl, fun _ => rfl, by simp [chunkLoop, pure, M.pure]⟩
  | m :: ms, t => by
    have key : ∀ (f : Unit → M Tally), (∀ a, Eats ms (f a)) → Eats (m :: ms) (M.bind (emit (.received m)) f) := by
      intro f hf s e
      obtain ⟨u, r, h1, h2, h3, h4, h5⟩ := hf () { s with ev := s.ev ++ [.received m] } e
      refine ⟨u, r, h1, h2.trans ?_, h3, h4, h5⟩
      simp [receivedOf]
    unfold chunkLoop
    refine key _ fun _ => ?_
    cases m with
    | fin i =>
      refine Mute.eats_bind Mute.get NoCk.get fun s => ?_
      split
      · split
        · exact Mute.eats_bind (mute_logOp _) (nock_logOp _) fun _ =>
            Mute.eats_bind (mute_emit (by simp)) (NoCk.modify _) fun _ => eats_chunkLoop cfg ms _
        · exact eats_chunkLoop cfg ms _
      · exact eats_chunkLoop cfg ms _
    | res r =>
      refine Mute.eats_bind Mute.get NoCk.get fun s => ?_
      split
      · exact Mute.eats_bind (mute_emit (by simp)) (NoCk.modify _) fun _ => eats_chunkLoop cfg ms _
      · exact Mute.eats_bind (mute_extraNames _) (nock_extraNames _) fun _ =>
          Mute.eats_bind (mute_record _ _) (nock_record _ _) fun _ =>
          Mute.eats_bind mute_draw nock_draw fun _ =>
          Mute.eats_bind (mute_huntIfDue _) (nock_huntIfDue _) fun _ => eats_chunkLoop cfg ms _

theorem feeds_chunk {β : Type} {f : Option (List Msg) → M β} {g : List Msg → M β}
    (hn : Feeds (f none))
    (hs : ∀ c, ∃ (a : M Tally) (k : Tally → M β), Eats c a ∧ (∀ t, Feeds (k t)) ∧
      f (some c) = M.bind (emit (.took c.length)) fun _ => M.bind a k) : Feeds (M.bind askChunk f) := by
  intro s e
  cases e with
  | nil => exact ⟨[], [], rfl, rfl, fun _ => rfl⟩
  | cons o t =>
    unfold M.bind
    have hun : askChunk s (o :: t) = match o.ans with
      | .raise x => (.raised (.env x), die o.deaths s, t)
      | .chunk c => (.ok c, die o.deaths s, t)
      | _ => (.pending, die o.deaths s, t) := by
      simp only [askChunk, bind, M.bind, observe]
      cases o.ans <;> rfl
    rw [hun]
    cases ha : o.ans with
    | raise x => exact ⟨[o], [], rfl, by simp [handed, ha, die_received], fun _ => rfl⟩
    | chunk c =>
      cases c with
      | none =>
        obtain ⟨v, r, k1, k2, k3⟩ := hn (die o.deaths s) t
        exact ⟨o :: v, r, by simp only [List.cons_append, ← k1], by rw [k2, die_received]; simp [handed, ha], k3⟩
      | some c =>
        obtain ⟨a, k, h1, h2, h3⟩ := hs c
        simp only
        rw [h3]
        obtain ⟨v, r, a1, a2, a3, a4, a5⟩ := h1 { die o.deaths s with ev := (die o.deaths s).ev ++ [.took c.length] } t
        have step : (M.bind (emit (.took c.length)) fun _ => M.bind a k) (die o.deaths s) t =
            M.bind a k { die o.deaths s with ev := (die o.deaths s).ev ++ [.took c.length] } t := rfl
        rw [step]
        have e0 : receivedOf ((die o.deaths s).ev ++ [.took c.length]) = receivedOf s.ev := by
          rw [receivedOf_snoc _ _ (by simp), die_received]
        unfold M.bind
        generalize a { die o.deaths s with ev := (die o.deaths s).ev ++ [.took c.length] } t = x at a1 a2 a3 a4 a5
        obtain ⟨o', s', e'⟩ := x
        simp only [e0] at a1 a2 a3 a4 a5
        have hh : handed (o :: v) = c ++ handed v := by simp [handed, ha]
        cases o' with
        | ok b =>
          obtain rfl := a4 ⟨b, rfl⟩
          have a3 := a3.resolve_left (by simp)
          obtain ⟨w, r', k1, k2, k3⟩ := h2 b s' e'
          refine ⟨o :: v ++ w, r', by simp only [List.cons_append, List.append_assoc, ← k1, ← a1], ?_, k3⟩
          simp only
          rw [k2, handed_append, hh, a3, List.append_nil, ← List.append_assoc, ← a2, List.append_nil]
        | raised x =>
          have a3 := a3.resolve_left (by simp)
          exact ⟨o :: v, r, by simp only [List.cons_append, ← a1], by rw [hh, a3, List.append_nil]; exact a2, fun h => by
            rcases h with ⟨b, h⟩ | h
            · cases h
            · exact absurd (by cases h; rfl) a5⟩
        | pending =>
          exact ⟨o :: v, r ++ handed v, by simp only [List.cons_append, ← a1], by
            rw [hh, ← List.append_assoc, ← List.append_assoc]; exact congrArg (· ++ handed v) a2, fun h => by
            rcases h with ⟨b, h⟩ | h <;> cases h⟩
    | _ => exact ⟨[o], [], rfl, by simp [handed, ha, die_received], fun _ => rfl⟩

theorem feeds_resultsLoop (cfg : Cfg) (mx : Option Nat) : ∀ n t, Feeds (resultsLoop cfg mx n t)
  | 0, t => Mute.pend.feeds
  | n + 1, t => by
    have tail : ∀ b : Bool, Feeds (if b = true then M.bind askChunk fun o => match o with
        | none => M.pure t
        | some c => M.bind (emit (.took c.length)) fun _ => M.bind (chunkLoop cfg c t) fun t' => resultsLoop cfg mx n t'
        else M.pure t) := by
      intro b
      split
      · refine feeds_chunk (g := fun _ => M.pure t) (Mute.pure _).feeds fun c => ⟨_, _, eats_chunkLoop cfg c t, fun t' => feeds_resultsLoop cfg mx n t', rfl⟩
      · exact (Mute.pure _).feeds
    unfold resultsLoop
    cases mx with
    | some k => exact Feeds.bind (Mute.pure _).feeds fun b => tail b
    | none => exact Feeds.bind mute_askBool.feeds fun b => Feeds.bind (Mute.pure (!b)).feeds fun b => tail b

theorem feeds_processResults (cfg : Cfg) (fuel : Nat) (mx : Option Nat) : Feeds (processResults cfg fuel mx) :=
  feeds_resultsLoop _ _ _ _

theorem mute_stopFile (f : Option Nat) : Mute (stopFile f) := by
  unfold stopFile
  cases f with
  | none => exact Mute.pure _
  | some i =>
    refine Mute.bind Mute.get fun s => ?_
    split
    · exact Mute.pure _
    · refine Mute.tryCatch (Mute.bind mute_askUnit fun _ => mute_shutdownJob _ _ _) fun x k h => ?_
      split at h
      · cases h; exact Mute.pure _
      · cases h

theorem mute_manualShutdowns : Mute manualShutdowns := by
  unfold manualShutdowns
  exact Mute.bind mute_askFiles fun _ => Mute.forEach mute_stopFile _

theorem mute_pauseLoop : ∀ l acc, Mute (pauseLoop l acc)
  | [], acc => Mute.pure _
  | i :: t, acc => by
    unfold pauseLoop
    refine Mute.bind (mute_isAlive _) fun al => ?_
    split
    · exact Mute.bind (mute_emit (by simp)) fun _ => mute_pauseLoop t _
    · exact mute_pauseLoop t _

theorem mute_replyLoop : ∀ l h, Mute (replyLoop l h)
  | [], h => Mute.pure _
  | i :: t, h => by
    unfold replyLoop
    refine Mute.bind (mute_isAlive _) fun al => ?_
    split
    · refine Mute.bind mute_askSig fun o => ?_
      cases o with
      | none => exact mute_replyLoop t _
      | some m =>
        cases m with
        | done m => exact Mute.bind (mute_finish _ _) fun _ => mute_replyLoop t _
        | paused => exact Mute.bind mute_draw fun _ => mute_replyLoop t _
        | eof => exact Mute.throw _
        | note _ _ => exact Mute.throw _
        | unknown => exact Mute.throw _
    · exact mute_replyLoop t _

theorem feeds_waitLoop (cfg : Cfg) (fuel k : Nat) : ∀ n h, Feeds (waitLoop cfg fuel k n h)
  | 0, h => Mute.pend.feeds
  | n + 1, h => by
    unfold waitLoop
    split
    · exact (Mute.pure _).feeds
    · refine Feeds.bind mute_askBool.feeds fun b => ?_
      split
      · exact Feeds.bind (feeds_processResults _ _ _) fun _ => Feeds.bind (Mute.pure _).feeds fun h' =>
          Feeds.bind (mute_replyLoop _ _).feeds fun _ => feeds_waitLoop cfg fuel k n _
      · exact Feeds.bind (Mute.pure _).feeds fun h' =>
          Feeds.bind (mute_replyLoop _ _).feeds fun _ => feeds_waitLoop cfg fuel k n _

theorem mute_saveLoop (skip : List Nat) : ∀ l, Mute (saveLoop skip l)
  | [] => Mute.pure _
  | i :: t => by
    unfold saveLoop
    refine Mute.bind (mute_isAlive _) fun al => ?_
    split
    · split
      · exact Mute.bind mute_draw fun _ => Mute.bind (mute_emit (by simp)) fun _ => mute_saveLoop skip t
      · exact Mute.bind (mute_emit (by simp)) fun _ => mute_saveLoop skip t
    · exact mute_saveLoop skip t

theorem mute_clearedLoop : ∀ n l, Mute (clearedLoop n l)
  | 0, [] => Mute.pure _
  | _ + 1, [] => Mute.pure _
  | 0, _ :: _ => Mute.pend
  | n + 1, i :: t => by
    unfold clearedLoop
    refine Mute.bind mute_askBool fun b => ?_
    split
    · exact mute_clearedLoop n _
    · exact mute_clearedLoop n _

theorem mute_filesLoop : ∀ l, Mute (filesLoop l)
  | [] => Mute.pure _
  | i :: t => by
    unfold filesLoop
    refine Mute.bind mute_askBool fun b => ?_
    split
    · exact mute_filesLoop t
    · exact Mute.throw _

theorem feeds_checkpointOptimizers (cfg : Cfg) (fuel : Nat) : Feeds (checkpointOptimizers cfg fuel) := by
  unfold checkpointOptimizers
  refine Feeds.bind Mute.get.feeds fun s => Feeds.bind (mute_pauseLoop _ _).feeds fun l => Feeds.bind (feeds_waitLoop _ _ _ _ _) fun h =>
    Feeds.bind (feeds_processResults _ _ _) fun t => Feeds.bind mute_askBool.feeds fun b => ?_
  split
  · exact (Mute.throw _).feeds
  · exact (Mute.bind mute_askUnit fun _ => Mute.bind (mute_saveLoop _ _) fun _ => Mute.bind (mute_clearedLoop _ _) fun _ =>
      Mute.bind (mute_filesLoop _) fun _ => Mute.pure _).feeds

theorem mute_resumeLoop : ∀ l, Mute (resumeLoop l)
  | [] => Mute.pure _
  | i :: t => by
    unfold resumeLoop
    refine Mute.bind (mute_isAlive _) fun al => ?_
    split
    · exact Mute.bind (mute_emit (by simp)) fun _ => mute_resumeLoop t
    · exact mute_resumeLoop t

theorem mute_stopLoop : ∀ l, Mute (stopLoop l)
  | [] => Mute.pure _
  | i :: t => by
    unfold stopLoop
    refine Mute.bind (mute_isAlive _) fun al => ?_
    split
    · exact Mute.bind (mute_emit (by simp)) fun _ => mute_stopLoop t
    · exact mute_stopLoop t

theorem feeds_checkpoint (cfg : Cfg) (fuel : Nat) : Feeds (checkpoint cfg fuel) := by
  unfold checkpoint
  refine Feeds.bind (mute_emit (by simp)).feeds fun _ => Feeds.bind mute_askUnit.feeds fun _ => Feeds.bind ?_ fun _ => ?_
  · refine Feeds.tryCatch ?_ fun x k h => ?_
    · refine Feeds.bind mute_askUnit.feeds fun _ => Feeds.bind Mute.get.feeds fun _ => Feeds.bind (feeds_checkpointOptimizers _ _) fun _ =>
        Feeds.bind (Mute.modify fun s => rfl).feeds fun _ => Feeds.bind mute_draw.feeds fun _ =>
        Feeds.bind mute_askBool.feeds fun b => ?_
      split
      · exact (Mute.pure _).feeds
      · exact (Mute.throw _).feeds
    · split at h
      · rename_i hx
        cases h
        exact ⟨hx.1, (Mute.pure _).feeds⟩
      · cases h
  · refine Feeds.bind Mute.get.feeds fun s => ?_
    split
    · exact (Mute.bind (mute_stopLoop _) fun _ => Mute.bind (mute_resumeLoop _) fun _ => mute_emit (by simp)).feeds
    · exact (Mute.bind (mute_resumeLoop _) fun _ => mute_emit (by simp)).feeds

theorem feeds_manualCheckpoints (cfg : Cfg) (fuel : Nat) : Feeds (manualCheckpoints cfg fuel) := by
  unfold manualCheckpoints
  refine Feeds.bind mute_askBool.feeds fun b => ?_
  split
  · exact feeds_checkpoint _ _
  · exact (Mute.pure _).feeds

theorem mute_inspectDead (i : Nat) : Mute (inspectDead i) := by
  unfold inspectDead
  refine Mute.bind Mute.get fun s => ?_
  split
  · refine Mute.bind (mute_isAlive _) fun al => ?_
    split
    · refine Mute.bind mute_askBool fun b => Mute.bind (mute_emit (by simp)) fun _ => ?_
      split
      · refine Mute.bind (mute_checkSignals _) fun b => ?_
        split
        · exact Mute.bind (Mute.modify fun s => receivedOf_snoc _ _ (by simp)) fun _ => Mute.bind (mute_logOp _) fun _ => mute_putEnd _ _
        · exact Mute.pure _
      · exact Mute.bind (Mute.modify fun s => receivedOf_snoc _ _ (by simp)) fun _ => Mute.bind (mute_logOp _) fun _ => mute_putEnd _ _
    · exact Mute.pure _
  · exact Mute.pure _

theorem mute_inspectHanging (cfg : Cfg) (i : Nat) : Mute (inspectHanging cfg i) := by
  unfold inspectHanging
  refine Mute.bind (mute_isAlive _) fun al => Mute.bind mute_askBool fun b => Mute.bind (mute_emit (by simp)) fun _ => Mute.bind Mute.get fun s => ?_
  split
  · exact Mute.bind (Mute.modify fun s => receivedOf_snoc _ _ (by simp)) fun _ => Mute.bind (mute_logOp _) fun _ =>
      Mute.bind (mute_putEnd _ _) fun _ => Mute.bind mute_askUnit fun _ => mute_emit (by simp)
  · exact Mute.pure _

theorem mute_inspectZombie (cfg : Cfg) (i : Nat) : Mute (inspectZombie cfg i) := by
  unfold inspectZombie
  refine Mute.bind Mute.get fun s => ?_
  split
  · refine Mute.bind (mute_isAlive _) fun al => Mute.bind mute_askBool fun b => Mute.bind (mute_emit (by simp)) fun _ => ?_
    split
    · exact Mute.bind mute_askUnit fun _ => Mute.bind (mute_emit (by simp)) fun _ => Mute.bind (mute_logOp _) fun _ => mute_putEnd _ _
    · exact Mute.pure _
  · exact Mute.pure _

theorem mute_inspectChildren (cfg : Cfg) : Mute (inspectChildren cfg) := by
  unfold inspectChildren
  exact Mute.bind Mute.get fun _ => Mute.forEach (fun i => Mute.bind (mute_inspectDead i) fun _ =>
    Mute.bind (mute_inspectHanging cfg i) fun _ => mute_inspectZombie cfg i) _

theorem mute_purge : Mute purge := by
  unfold purge
  refine Mute.bind Mute.get fun _ => Mute.forEach (fun i => Mute.bind (mute_isAlive _) fun al => Mute.bind Mute.get fun s => ?_) _
  split
  · exact Mute.modify fun s => rfl
  · exact Mute.pure _

theorem feeds_iteration (cfg : Cfg) (fuel : Nat) : Feeds (iteration cfg fuel) := by
  unfold iteration
  refine Feeds.bind (mute_fillSlots _ _).feeds fun _ => Feeds.bind Mute.get.feeds fun _ =>
    Feeds.bind (Mute.forEach (fun i => Mute.bind (mute_checkSignals i) fun _ => Mute.pure _) _).feeds fun _ =>
    Feeds.bind (feeds_processResults _ _ _) fun _ => Feeds.bind mute_manualShutdowns.feeds fun _ =>
    Feeds.bind (feeds_manualCheckpoints _ _) fun _ => Feeds.bind (mute_inspectChildren _).feeds fun _ =>
    Feeds.bind mute_purge.feeds fun _ => Feeds.bind mute_askUnit.feeds fun _ => Feeds.bind Mute.get.feeds fun _ =>
    Feeds.bind mute_askBool.feeds fun _ => Feeds.bind (Mute.modify fun s => receivedOf_snoc _ _ (by simp)).feeds fun _ =>
    Feeds.bind mute_askUnit.feeds fun _ => ?_
  split
  · refine Feeds.bind mute_askBool.feeds fun b => ?_
    split
    · exact feeds_checkpoint _ _
    · exact (Mute.pure _).feeds
  · exact (Mute.pure _).feeds

theorem feeds_mainLoop (cfg : Cfg) (fuel : Nat) : ∀ n, Feeds (mainLoop cfg fuel n)
  | 0 => Mute.pend.feeds
  | n + 1 => by
    unfold mainLoop
    refine Feeds.bind Mute.get.feeds fun s => ?_
    split
    · exact (mute_emit (by simp)).feeds
    · exact Feeds.bind (feeds_iteration _ _) fun _ => feeds_mainLoop cfg fuel n

theorem mute_stopRecord (w : String) (i : Nat) : Mute (stopRecord w i) := by
  have tail : Mute (M.bind (isAlive i) fun al => if al = true then askUnit else M.pure ()) := by
    refine Mute.bind (mute_isAlive _) fun al => ?_
    split
    · exact mute_askUnit
    · exact Mute.pure _
  unfold stopRecord
  refine Mute.bind Mute.get fun s => ?_
  split
  · exact tail
  · exact Mute.bind (Mute.modify fun s => rfl) fun _ => Mute.bind (mute_putEnd _ _) fun _ => tail

theorem mute_stopAllChildren (w : String) : Mute (stopAllChildren w) := by
  have hc : ∀ (x : Exc) (k : M Unit), (if x.isException = true then some (M.pure ()) else none) = some k → Mute k := by
    intro x k h
    split at h
    · cases h; exact Mute.pure _
    · cases h
  unfold stopAllChildren
  exact Mute.bind Mute.get fun _ => Mute.bind (Mute.tryCatch (mute_stopLoop _) hc) fun _ =>
    Mute.bind (Mute.tryCatch mute_askUnit hc) fun _ => Mute.forEach (mute_stopRecord w) _

theorem mute_restartLoop : ∀ l, Mute (restartLoop l)
  | [] => Mute.pure _
  | (i, w) :: t => by
    unfold restartLoop
    exact Mute.bind mute_askUnit fun _ => Mute.bind (Mute.modify fun s => receivedOf_snoc _ _ (by simp)) fun _ => mute_restartLoop t

theorem feeds_tryBlock (cfg : Cfg) (fuel : Nat) : Feeds (tryBlock cfg fuel) := by
  have tail : Feeds (M.bind (mainLoop cfg fuel fuel) fun _ => M.bind (if cfg.checkpointing = true ∧ cfg.checkpointAtConv = true
      then checkpoint cfg fuel else M.pure ()) fun _ => stopAllChildren "GloMPO Convergence") := by
    refine Feeds.bind (feeds_mainLoop _ _ _) fun _ => Feeds.bind ?_ fun _ => (mute_stopAllChildren _).feeds
    split
    · exact feeds_checkpoint _ _
    · exact (Mute.pure _).feeds
  have eq : tryBlock cfg fuel = M.bind askUnit fun _ => M.bind M.get fun s => M.bind
      (if s.restart = true then restartLoop s.packs else M.pure ()) fun _ => M.bind (mainLoop cfg fuel fuel) fun _ =>
      M.bind (if cfg.checkpointing = true ∧ cfg.checkpointAtConv = true then checkpoint cfg fuel else M.pure ()) fun _ =>
        stopAllChildren "GloMPO Convergence" := by
    unfold tryBlock
    refine congrArg (M.bind askUnit) (funext fun _ => congrArg (M.bind M.get) (funext fun a => ?_))
    by_cases hc : cfg.checkpointing = true ∧ cfg.checkpointAtConv = true
    · simp only [hc, and_self, if_true]
      split <;> rfl
    · simp only [hc, if_false]
      split <;> rfl
  rw [eq]
  refine Feeds.bind mute_askUnit.feeds fun _ => Feeds.bind Mute.get.feeds fun s => Feeds.bind ?_ fun _ => tail
  split
  · exact (mute_restartLoop _).feeds
  · exact (Mute.pure _).feeds

theorem feeds_afterCheck (cfg : Cfg) (fuel : Nat) (s : State) (e : Env) :
    ∃ used rest, e = used ++ (afterCheck cfg fuel s e).2.2 ∧
      receivedOf (afterCheck cfg fuel s e).2.1.ev ++ rest = receivedOf s.ev ++ handed used ∧
      ((afterCheck cfg fuel s e).1 = some .regular → rest = []) := by
  obtain ⟨u, r, h1, h2, h3⟩ := feeds_tryBlock cfg fuel s e
  unfold afterCheck
  generalize tryBlock cfg fuel s e = x at h1 h2 h3
  obtain ⟨o, s', e'⟩ := x
  cases o with
  | ok a => exact ⟨u, r, h1, h2, fun _ => h3 (.inl ⟨a, rfl⟩)⟩
  | pending => exact ⟨u, r, h1, h2, fun h => by cases h⟩
  | raised x =>
    have fin : ∀ w, ∃ used rest, e = used ++ (stopAllChildren w s' e').2.2 ∧
        receivedOf (stopAllChildren w s' e').2.1.ev ++ rest = receivedOf s.ev ++ handed used := by
      intro w
      obtain ⟨v, k1, k2, k3⟩ := mute_stopAllChildren w s' e'
      refine ⟨u ++ v, r ++ handed v, ?_, ?_⟩
      · rw [List.append_assoc, ← k1]; exact h1
      · rw [k2, handed_append, ← List.append_assoc, ← List.append_assoc]
        exact congrArg (· ++ handed v) h2
    simp only
    split
    · obtain ⟨v, r', k1, k2⟩ := fin "GloMPO Crash"
      generalize stopAllChildren "GloMPO Crash" s' e' = y at k1 k2
      obtain ⟨o, s3, e3⟩ := y
      cases o <;> exact ⟨v, r', k1, k2, fun h => by cases h⟩
    · obtain ⟨v, r', k1, k2⟩ := fin "User Interrupt"
      generalize stopAllChildren "User Interrupt" s' e' = y at k1 k2
      obtain ⟨o, s3, e3⟩ := y
      cases o <;> exact ⟨v, r', k1, k2, fun h => by cases h⟩

theorem feeds_startManager (cfg : Cfg) (fuel : Nat) (s : State) (e : Env) :
    ∃ used rest, e = used ++ (startManager cfg fuel s e).2.2 ∧
      receivedOf (startManager cfg fuel s e).2.1.ev ++ rest = receivedOf s.ev ++ handed used ∧
      ((startManager cfg fuel s e).1 = some .regular ∨ (startManager cfg fuel s e).1 = some .metBefore → rest = []) := by
  obtain ⟨u, h1, h2, h3⟩ := mute_askBool s e
  unfold startManager
  generalize askBool s e = x at h1 h2 h3
  obtain ⟨o, s', e'⟩ := x
  have go : ∀ s1 : State, receivedOf s1.ev = receivedOf s'.ev → handed u = [] →
      ∃ used rest, e = used ++ (afterCheck cfg fuel s1 e').2.2 ∧
      receivedOf (afterCheck cfg fuel s1 e').2.1.ev ++ rest = receivedOf s.ev ++ handed used ∧
      ((afterCheck cfg fuel s1 e').1 = some .regular ∨ (afterCheck cfg fuel s1 e').1 = some .metBefore → rest = []) := by
    intro s1 hs hu
    obtain ⟨v, r, k1, k2, k3⟩ := feeds_afterCheck cfg fuel s1 e'
    refine ⟨u ++ v, r, by rw [List.append_assoc, ← k1]; exact h1, ?_, fun h => ?_⟩
    · rw [k2, handed_append, hu, List.nil_append, hs]; exact congrArg (· ++ handed v) h2
    · rcases h with h | h
      · exact k3 h
      · exfalso
        unfold afterCheck at h
        split at h
        · cases h
        · cases h
        · split at h
          · split at h <;> cases h
          · split at h <;> cases h
  cases o with
  | pending => exact ⟨u, handed u, h1, by simp only; rw [h2], fun h => by rcases h with h | h <;> cases h⟩
  | raised x =>
    simp only
    split
    · exact go _ rfl (h3.resolve_left (by simp))
    · exact ⟨u, [], h1, by simp only; rw [h2, h3.resolve_left (by simp)], fun _ => rfl⟩
  | ok b =>
    simp only
    split
    · exact ⟨u, [], h1, by simp only; rw [receivedOf_snoc _ _ (by simp), h2, h3.resolve_left (by simp)], fun _ => rfl⟩
    · exact go { s' with converged := false, ev := s'.ev ++ [.checked b] } (receivedOf_snoc _ _ (by simp)) (h3.resolve_left (by simp))

end Glompo.Manager
