import Verif.Spec.System
import Verif.Props.ManagerFeed
import Verif.Props.Optimizer
import Verif.Props.QueueConc

/-! # C99: from the optimizers' evaluations to the manager's log and result -/

namespace Glompo.Props

open Glompo.Spec Glompo.Manager Glompo.Props.Runs

namespace EndToEnd

/-- Evaluations of optimizer `i`. -/
abbrev of (i : Nat) (l : List IterRes) : List IterRes := l.filter fun r => r.optId == i

/-- Whose message it is. -/
def owner : IterRes ⊕ Nat → Nat
  | .inl r => r.optId
  | .inr i => i

theorem queueOf_prefix (c : Child) (h : ∀ x ∈ c.did, Spec.Optimizer.isLost x = false) :
    Spec.Optimizer.queueOf c.did <+: (c.made.map .inl ++ [.inr c.cfg.optId]) := by
  by_cases hp : (Opt.run c.cfg c.code c.fuel c.env).1 = .pending
  · obtain ⟨last, -, hl⟩ := C42_at_every_moment c.cfg c.code c.fuel c.env hp h
    refine ⟨last ++ [.inr c.cfg.optId], ?_⟩
    rw [← List.append_assoc]
    exact congrArg (· ++ [_]) hl.symm
  · exact ⟨[], by rw [List.append_nil]; exact C42_every_evaluation_once c.cfg c.code c.fuel c.env hp h⟩

theorem made_owner (i : Nat) (l : List Optimizer.Ev) : ∀ r ∈ Spec.Optimizer.evalsOf i l, r.optId = i := by
  intro r hr
  induction l with
  | nil => simp [Spec.Optimizer.evalsOf] at hr
  | cons x t ih =>
    unfold Spec.Optimizer.evalsOf at hr
    split at hr
    · cases hr
    · rename_i h
      cases h
      rcases List.mem_cons.mp hr with rfl | hr
      · rfl
      · exact ih hr
    · rename_i h
      cases h
      exact ih hr

/-- What the queue gives away belongs to the thread it came from. -/
theorem owners {e : List Obs} {q : QueueConc.State (IterRes ⊕ Nat)} {child : Nat → Child} (h : Together e q child) :
    ∀ m ∈ q.received.flatten, owner m.2 = m.1 := by
  intro m hm
  obtain ⟨cap, chunk, hr⟩ := h.reach
  have c := C58_concurrent_fifo cap chunk q hr m.1
  have h1 : m.2 ∈ QueueConc.ofThread m.1 q.received.flatten :=
    List.mem_map.mpr ⟨m, List.mem_filter.mpr ⟨hm, by simp⟩, rfl⟩
  have h2 : m.2 ∈ q.sent m.1 := by
    rw [← c]
    simp [h1]
  rw [h.puts] at h2
  have h3 := (queueOf_prefix _ (h.good m.1)).subset h2
  rw [h.ids] at h3
  rcases List.mem_append.mp h3 with h3 | h3
  · obtain ⟨r, hr, he⟩ := List.mem_map.mp h3
    rw [← he]
    have := made_owner _ _ r hr
    rw [h.ids] at this
    exact this
  · rw [List.mem_singleton] at h3
    rw [h3]
    rfl

/-- The evaluations of `i` among messages of known origin. -/
theorem of_thread (i : Nat) : ∀ (l : List (QueueConc.Item (IterRes ⊕ Nat))), (∀ m ∈ l, owner m.2 = m.1) →
    of i (evaluations (l.map fun m => asMsg m.2)) =
      (QueueConc.ofThread i l).filterMap fun x => match x with | .inl r => some r | .inr _ => none := by
  intro l
  induction l with
  | nil => intro _; rfl
  | cons m t ih =>
    intro h
    have ht := ih fun m hm => h m (List.mem_cons_of_mem _ hm)
    have hm := h m (List.mem_cons_self ..)
    obtain ⟨j, x⟩ := m
    cases x with
    | inl r =>
      simp only [owner] at hm
      by_cases hj : j = i
      · subst hj
        simp only [List.map_cons, asMsg, evaluations, List.filterMap_cons, of, List.filter_cons, hm, beq_self_eq_true, if_true,
          QueueConc.ofThread] at ht ⊢
        rw [ht]
      · have hj' : (j == i) = false := by simpa using hj
        simp only [List.map_cons, asMsg, evaluations, List.filterMap_cons, of, List.filter_cons, hm, hj', QueueConc.ofThread,
          Bool.false_eq_true, if_false] at ht ⊢
        exact ht
    | inr k =>
      by_cases hj : j = i
      · subst hj
        simp only [List.map_cons, asMsg, evaluations, List.filterMap_cons, of, List.filter_cons, beq_self_eq_true, if_true,
          QueueConc.ofThread] at ht ⊢
        exact ht
      · have hj' : (j == i) = false := by simpa using hj
        simp only [List.map_cons, asMsg, evaluations, List.filterMap_cons, of, List.filter_cons, hj', QueueConc.ofThread,
          Bool.false_eq_true, if_false] at ht ⊢
        exact ht

theorem handed_eq (e : List Obs) : handed e = (chunksOf e).flatten := rfl

theorem chunks_append (a b : List Obs) : chunksOf (a ++ b) = chunksOf a ++ chunksOf b := List.filterMap_append ..

theorem inl_of_made (l : List IterRes) :
    (l.map (Sum.inl (β := Nat))).filterMap (fun x => match x with | .inl r => some r | .inr _ => none) = l := by
  induction l with
  | nil => rfl
  | cons a t ih => simp only [List.map_cons, List.filterMap_cons]; rw [ih]

variable {cfg : Cfg} {s : State} (hs : Startable cfg s) (fuel : Nat) {e : Env} {q : QueueConc.State (IterRes ⊕ Nat)}
  {child : Nat → Child}

include hs in
theorem happened_split (e : Env) : happened cfg s fuel e = s.ev ++ thisRun cfg s fuel e := by
  obtain ⟨l, hl⟩ := steps_ev (startManager_spec fuel hs.spec.1 e).1
  have : happened cfg s fuel e = s.ev ++ l := hl
  rw [thisRun, this, List.drop_left]

/-- What the manager has received of optimizer `i` in this run is the beginning of what `i` evaluated, everything if it
received the end marker. -/
theorem received_prefix (hT : Together e q child) (hsplit : happened cfg s fuel e = s.ev ++ thisRun cfg s fuel e) (i : Nat) :
    of i (evaluations (receivedOf (thisRun cfg s fuel e))) <+: (child i).made ∧
    (Msg.fin i ∈ receivedOf (thisRun cfg s fuel e) →
      of i (evaluations (receivedOf (thisRun cfg s fuel e))) = (child i).made) := by
  obtain ⟨used, rest, h1, h2, -⟩ := feeds_startManager cfg fuel s e
  obtain ⟨thrown, hg⟩ := hT.gets
  have hrec : receivedOf (thisRun cfg s fuel e) ++ rest = handed used := by
    have h2 : receivedOf (happened cfg s fuel e) ++ rest = receivedOf s.ev ++ handed used := h2
    rw [hsplit] at h2
    have : receivedOf (s.ev ++ thisRun cfg s fuel e) = receivedOf s.ev ++ receivedOf (thisRun cfg s fuel e) :=
      List.filterMap_append ..
    rw [this, List.append_assoc] at h2
    exact List.append_cancel_left h2
  have hpre : receivedOf (thisRun cfg s fuel e) <+: q.received.flatten.map fun m => asMsg m.2 := by
    have a : q.received.flatten.map (fun m => asMsg m.2) = (q.received.map fun c => c.map fun m => asMsg m.2).flatten := by
      rw [List.map_flatten]
    have hc : chunksOf e = chunksOf used ++ chunksOf (startManager cfg fuel s e).2.2 := by
      conv => lhs; rw [h1]
      exact chunks_append ..
    rw [a, hg, hc]
    refine ⟨rest ++ (chunksOf (startManager cfg fuel s e).2.2).flatten ++ thrown.flatten, ?_⟩
    rw [← List.append_assoc, ← List.append_assoc, hrec, handed_eq]
    simp
  obtain ⟨n, hn⟩ : ∃ n, receivedOf (thisRun cfg s fuel e) = (q.received.flatten.take n).map fun m => asMsg m.2 :=
    ⟨(receivedOf (thisRun cfg s fuel e)).length, by rw [List.map_take]; exact List.prefix_iff_eq_take.mp hpre⟩
  have hown : ∀ m ∈ q.received.flatten.take n, owner m.2 = m.1 := fun m hm => owners hT m (List.mem_of_mem_take hm)
  have hthread : QueueConc.ofThread i (q.received.flatten.take n) <+:
      ((child i).made.map .inl ++ [.inr i]) := by
    obtain ⟨cap, chunk, hr⟩ := hT.reach
    have c := C58_concurrent_fifo cap chunk q hr i
    have p1 : QueueConc.ofThread i (q.received.flatten.take n) <+: QueueConc.ofThread i q.received.flatten :=
      ((List.take_prefix n q.received.flatten).filter _).map _
    have p2 : QueueConc.ofThread i q.received.flatten <+: q.sent i := by
      rw [← c, List.append_assoc, List.append_assoc]
      exact List.prefix_append _ _
    rw [hT.puts] at p2
    have p3 := queueOf_prefix _ (hT.good i)
    rw [hT.ids] at p3
    exact p1.trans (p2.trans p3)
  rw [hn, of_thread i _ hown]
  constructor
  · have := hthread.filterMap (fun x : IterRes ⊕ Nat => match x with | .inl r => some r | .inr _ => none)
    rw [List.filterMap_append, inl_of_made] at this
    simpa using this
  · intro hfin
    obtain ⟨m, hm, he⟩ := List.mem_map.mp hfin
    have hm2 : m.2 = .inr i := by
      cases hx : m.2 with
      | inl r => rw [hx] at he; cases he
      | inr k => rw [hx] at he; cases he; rfl
    have hin : Sum.inr i ∈ QueueConc.ofThread i (q.received.flatten.take n) := by
      refine List.mem_map.mpr ⟨m, List.mem_filter.mpr ⟨hm, ?_⟩, hm2⟩
      have := hown m hm
      rw [hm2] at this
      simpa [owner] using this.symm
    have hall : QueueConc.ofThread i (q.received.flatten.take n) = (child i).made.map .inl ++ [.inr i] := by
      rcases List.prefix_concat_iff.mp hthread with h | h
      · exact h
      · obtain ⟨a, -, hb⟩ := List.mem_map.mp (h.subset hin)
        cases hb
    rw [hall, List.filterMap_append, inl_of_made]
    simp

/-- What is due of optimizer `i` in the present run. -/
theorem due_run (i : Nat) (old : List Ev) : ∀ l : List Ev, ∃ d, of i (dueOf (old ++ l)) = of i (dueOf old) ++ d ∧
    d <+: of i (evaluations (receivedOf l)) ∧
    (i ∉ killedOf (old ++ l) → d = of i (evaluations (receivedOf l))) := by
  refine snoc_induction ⟨[], by simp, by simp, fun _ => by simp [receivedOf, evaluations]⟩ fun l x ih => ?_
  obtain ⟨d, h1, h2, h3⟩ := ih
  have hk := due_killed (old ++ l)
  have hsn : dueOf (old ++ (l ++ [x])) = (dueStep (dueAux (old ++ l)) x).2 := by
    rw [← List.append_assoc, dueOf, dueAux_eq, List.foldl_append, ← dueAux_eq]; rfl
  have hrec : receivedOf (l ++ [x]) = receivedOf l ++ receivedOf [x] := List.filterMap_append ..
  have hev : ∀ a b, evaluations (a ++ b) = evaluations a ++ evaluations b := fun a b => List.filterMap_append ..
  have hof : ∀ a b, of i (a ++ b) = of i a ++ of i b := fun a b => List.filter_append ..
  have hkl : i ∉ killedOf (old ++ (l ++ [x])) → i ∉ killedOf (old ++ l) := by
    intro h h'
    apply h
    have : killedOf (old ++ (l ++ [x])) = killedOf (old ++ l) ++ killedOf [x] := by
      rw [← List.append_assoc]; exact List.filterMap_append ..
    rw [this]
    exact List.mem_append_left _ h'
  have same : (dueStep (dueAux (old ++ l)) x).2 = dueOf (old ++ l) → receivedOf [x] = [] →
      ∃ d, of i (dueOf (old ++ (l ++ [x]))) = of i (dueOf old) ++ d ∧
        d <+: of i (evaluations (receivedOf (l ++ [x]))) ∧
        (i ∉ killedOf (old ++ (l ++ [x])) → d = of i (evaluations (receivedOf (l ++ [x])))) := by
    intro hd hr
    refine ⟨d, by rw [hsn, hd, h1], ?_, fun h => ?_⟩
    · rw [hrec, hr, List.append_nil]; exact h2
    · rw [hrec, hr, List.append_nil]; exact h3 (hkl h)
  cases x with
  | received m =>
    cases m with
    | fin k =>
      refine ⟨d, by rw [hsn]; exact h1, ?_, fun h => ?_⟩
      · rw [hrec, hev, hof]; exact h2.trans (List.prefix_append _ _)
      · rw [hrec, hev, hof, h3 (hkl h)]; simp [receivedOf, evaluations]
    | res r =>
      by_cases hv : r.optId ∈ killedOf (old ++ l)
      · have hd : (dueStep (dueAux (old ++ l)) (.received (.res r))).2 = dueOf (old ++ l) := by
          simp only [dueStep]
          rw [if_pos (by rw [hk]; exact hv)]
          rfl
        refine ⟨d, by rw [hsn, hd, h1], ?_, fun h => ?_⟩
        · rw [hrec, hev, hof]; exact h2.trans (List.prefix_append _ _)
        · have hne : (r.optId == i) = false := by
            simp only [beq_eq_false_iff_ne, ne_eq]
            rintro rfl
            exact hkl h hv
          rw [hrec, hev, hof, h3 (hkl h)]
          simp [receivedOf, evaluations, of, hne]
      · have hd : (dueStep (dueAux (old ++ l)) (.received (.res r))).2 = dueOf (old ++ l) ++ [r] := by
          simp only [dueStep]
          rw [if_neg (by rw [hk]; exact hv)]
          rfl
        have hrr : of i (evaluations (receivedOf [Ev.received (.res r)])) = of i [r] := rfl
        by_cases hi : r.optId = i
        · have hi' : i ∉ killedOf (old ++ l) := by rw [← hi]; exact hv
          have hd3 := h3 hi'
          refine ⟨d ++ of i [r], by rw [hsn, hd, hof, h1, List.append_assoc], ?_, fun _ => ?_⟩
          · rw [hrec, hev, hof, hrr, hd3]; exact List.prefix_refl _
          · rw [hrec, hev, hof, hrr, hd3]
        · have hr0 : of i [r] = [] := by simp [of, hi]
          refine ⟨d, by rw [hsn, hd, hof, h1, hr0, List.append_nil], ?_, fun h => ?_⟩
          · rw [hrec, hev, hof, hrr, hr0, List.append_nil]; exact h2
          · rw [hrec, hev, hof, hrr, hr0, List.append_nil]; exact h3 (hkl h)
  | _ => exact same rfl rfl

theorem isBest_le {x : Vec} {fx : PyF} {i : Nat} {es : List IterRes} (h : IsBest x fx i es) {r : IterRes} (hr : r ∈ es) :
    PyF.lt r.fx fx = false := by
  rcases h with ⟨h, -, rfl, -⟩ | ⟨k, r0, ⟨r1, h1, -, -, h2⟩, h3, -, rfl, -⟩
  · exact h r hr trivial
  · rw [h3] at h1
    cases h1
    obtain ⟨j, hj⟩ := List.mem_iff_getElem?.mp hr
    exact (h2 j r hj trivial).1

/-- A run never writes that the manager was loaded. -/
theorem steps_new {cfg : Cfg} {A : Lab → Prop} {s t : State} (h : Steps cfg A s t) :
    ∃ l, t.ev = s.ev ++ l ∧ ∀ c n, Ev.resumed c n ∉ l := by
  induction h with
  | refl => exact ⟨[], by simp, by simp⟩
  | @tail t u _ _ st _ ih =>
    obtain ⟨l, hl, hr⟩ := ih
    have one : ∃ l', u.ev = t.ev ++ l' ∧ ∀ c n, Ev.resumed c n ∉ l' := by
      cases st <;> first | exact ⟨[], (List.append_nil _).symm, by simp⟩ | (refine ⟨[_], rfl, ?_⟩; simp; done) | skip
      rename_i x hx _
      refine ⟨[x], rfl, fun c n hm => ?_⟩
      rw [List.mem_singleton] at hm
      rw [← hm] at hx
      cases hx
    obtain ⟨l', h', hr'⟩ := one
    exact ⟨l ++ l', by rw [h', hl, List.append_assoc], fun c n hm => (List.mem_append.mp hm).elim (hr c n) (hr' c n)⟩

/-- A run keeps the settings the history began with. -/
theorem steps_first {cfg : Cfg} {A : Lab → Prop} {s t : State} (h : Steps cfg A s t) : t.first = s.first := by
  induction h with
  | refl => rfl
  | @tail t u _ _ st _ ih =>
    have : u.first = t.first := by cases st <;> rfl
    rw [this, ih]

end EndToEnd

open EndToEnd

variable {cfg : Cfg} {s : State} (hs : Startable cfg s) (fuel : Nat) {e : Env} {q : QueueConc.State (IterRes ⊕ Nat)}
  {child : Nat → Child}

include hs in
theorem EndToEnd.accepted_run (hT : Together e q child) (i : Nat) :
    of i (acceptedOf (thisRun cfg s fuel e)) <+: (child i).made ∧
    (inHand (happened cfg s fuel e) = none → i ∉ killedOf (happened cfg s fuel e) →
      Msg.fin i ∈ receivedOf (thisRun cfg s fuel e) → of i (acceptedOf (thisRun cfg s fuel e)) = (child i).made) := by
  have hsp := happened_split hs fuel e
  obtain ⟨p1, p2⟩ := received_prefix fuel hT hsp i
  obtain ⟨d, d1, d2, d3⟩ := due_run i s.ev (thisRun cfg s fuel e)
  have g := moment_good hs fuel e
  have h0 : dueOf s.ev = acceptedOf s.ev := by
    have := due_ok s.ev hs.spec.1.inv.good
    rw [hs.spec.1.hand, List.append_nil] at this
    exact this
  have h1 := due_ok _ g
  have h1 : dueOf (happened cfg s fuel e) = acceptedOf (happened cfg s fuel e) ++ _ := h1
  have ha : acceptedOf (happened cfg s fuel e) = acceptedOf s.ev ++ acceptedOf (thisRun cfg s fuel e) := by
    conv => lhs; rw [hsp]
    exact List.filterMap_append ..
  rw [← hsp, h1, ha, h0] at d1
  simp only [of, List.filter_append, List.append_assoc] at d1
  have d1 := List.append_cancel_left d1
  refine ⟨?_, fun hn hk hf => ?_⟩
  · refine List.IsPrefix.trans ?_ (d2.trans p1)
    rw [← d1]
    exact List.prefix_append _ _
  · rw [hn] at d1
    simp only [List.filter_nil, List.append_nil] at d1
    rw [hsp] at hk
    rw [← p2 hf, ← d3 hk]
    exact d1

include hs in
/-- **C99.** Manager, queue and any number of optimizers running together, whatever they do and however they are scheduled: the
evaluations the manager has accepted of an optimizer in this run are the first ones this optimizer made, in their order, each
once. -/
theorem C99_first_evaluations (hT : Together e q child) (i : Nat) :
    (acceptedOf (thisRun cfg s fuel e)).filter (fun r => r.optId == i) <+: (child i).made :=
  (accepted_run hs fuel hT i).1

include hs in
/-- **C99.** When the manager has read the end marker of an optimizer which was not shut down, it has accepted all evaluations
that optimizer made in this run. -/
theorem C99_all_evaluations (hT : Together e q child) (i : Nat) (hh : inHand (happened cfg s fuel e) = none)
    (hk : i ∉ killedOf (happened cfg s fuel e)) (hf : Msg.fin i ∈ receivedOf (thisRun cfg s fuel e)) :
    (acceptedOf (thisRun cfg s fuel e)).filter (fun r => r.optId == i) = (child i).made :=
  (accepted_run hs fuel hT i).2 hh hk hf

include hs in
/-- **C99.** When the run is over and the end marker of an optimizer which was not shut down was read, the result is at least
as good as every evaluation that optimizer made. -/
theorem C99_result (hT : Together e q child) (hreg : ended cfg s fuel e = some .regular)
    (hL : Lossless (happened cfg s fuel e)) (i : Nat) (hk : i ∉ killedOf (happened cfg s fuel e))
    (hf : Msg.fin i ∈ receivedOf (thisRun cfg s fuel e)) :
    ∀ r ∈ (child i).made, ∃ fx, (moment cfg s fuel e).result.fx = some fx ∧ PyF.lt r.fx fx = false := by
  intro r hr
  have hh := (C23_evaluation_count hs fuel e).2.2.2.2.2.1 hreg
  rw [← C99_all_evaluations hs fuel hT i hh hk hf] at hr
  have hr : r ∈ acceptedOf (happened cfg s fuel e) := by
    have : acceptedOf (happened cfg s fuel e) = acceptedOf s.ev ++ acceptedOf (thisRun cfg s fuel e) := by
      conv => lhs; rw [happened_split hs fuel e]
      exact List.filterMap_append ..
    rw [this]
    exact List.mem_append_right _ (List.mem_filter.mp hr).1
  obtain ⟨h1, -, h3, -⟩ := C22_result_is_best hs fuel e hL
  rcases h1 (h3 hreg) with ⟨h, -⟩ | ⟨x, fx, j, t, -, hfx, -, hb⟩
  · rw [h] at hr
    cases hr
  · exact ⟨fx, hfx, isBest_le hb hr⟩

/-- **C99.** In a first run which keeps all histories, the history of an optimizer in the log is exactly the sequence of values
it evaluated, once its end marker was read; before that, or if it was shut down, the beginning of that sequence. -/
theorem C99_history (cfg : Cfg) (htr : cfg.traj = true) (hT : Together e q child) (i : Nat) :
    ∃ l, (moment cfg (init cfg) fuel e).log.getHistory i "fx" = .ok (l.map fun r => Cell.num r.fx) ∧ l <+: (child i).made ∧
      (inHand (happened cfg (init cfg) fuel e) = none → i ∉ killedOf (happened cfg (init cfg) fuel e) →
        Msg.fin i ∈ receivedOf (happened cfg (init cfg) fuel e) → l = (child i).made) := by
  have hs : Startable cfg (init cfg) := .fresh cfg
  have hrun : thisRun cfg (init cfg) fuel e = happened cfg (init cfg) fuel e := rfl
  have hno : ∀ c n, Ev.resumed c n ∉ happened cfg (init cfg) fuel e := by
    obtain ⟨l, hl, hr⟩ := steps_new (startManager_spec fuel hs.spec.1 e).1
    have : happened cfg (init cfg) fuel e = [] ++ l := hl
    rw [this]
    exact hr
  have hL : Lossless (happened cfg (init cfg) fuel e) := lossless_of_fresh hno
  have hset : (inForce cfg (init cfg) fuel e []).traj = true := by
    have h := (moment_inv hs fuel e).set
    have h' := settings_append (pre := []) (c₀ := (moment cfg (init cfg) fuel e).first) (happened cfg (init cfg) fuel e) hno
    rw [List.nil_append] at h'
    have h : settings (moment cfg (init cfg) fuel e).first (happened cfg (init cfg) fuel e) = cfg := h
    rw [h] at h'
    show (settings (moment cfg (init cfg) fuel e).first []).traj = true
    rw [← h']
    exact htr
  have hist := (C21_killed_are_ignored hs fuel e).2.2.2.2 hset i
  rw [logged_of_lossless _ hL] at hist
  obtain ⟨h1, h2⟩ := accepted_run hs fuel hT i
  rw [hrun] at h1 h2
  exact ⟨_, hist, h1, h2⟩

include hs in
/-- **C99.** In any run, of a manager set up afresh or loaded from a checkpoint, which keeps all histories: a run adds to the
history of an optimizer exactly the values it evaluated in this run, once its end marker was read; before that, or if it was
shut down, the beginning of that sequence. What was there before stays. -/
theorem C99_history_grows (hT : Together e q child) (htr : (inForce cfg s fuel e []).traj = true) (i : Nat) :
    ∃ old l, s.log.getHistory i "fx" = .ok old ∧
      (moment cfg s fuel e).log.getHistory i "fx" = .ok (old ++ l.map fun r => Cell.num r.fx) ∧ l <+: (child i).made ∧
      (inHand (happened cfg s fuel e) = none → i ∉ killedOf (happened cfg s fuel e) →
        Msg.fin i ∈ receivedOf (thisRun cfg s fuel e) → l = (child i).made) := by
  obtain ⟨l, hl, hr⟩ := steps_new (startManager_spec fuel hs.spec.1 e).1
  have hl : happened cfg s fuel e = s.ev ++ l := hl
  have hrun : thisRun cfg s fuel e = l := by rw [thisRun, hl, List.drop_left]
  have hist := (C21_killed_are_ignored hs fuel e).2.2.2.2 htr i
  rw [hl, loggedOf_append l hr, List.filter_append, List.map_append, ← hrun] at hist
  have inv := hs.spec.1.inv
  have hfirst : (moment cfg s fuel e).first = s.first := steps_first (startManager_spec fuel hs.spec.1 e).1
  have old := (C02_history_exact s.first.traj s.ops i inv.wf (.inl (by rw [← hfirst]; exact htr))).1
  rw [← inv.log, inv.evs] at old
  obtain ⟨h1, h2⟩ := accepted_run hs fuel hT i
  exact ⟨_, _, old, hist, h1, h2⟩

namespace EndToEnd

/-- Evaluates one point and returns. -/
def once : Optimizer.Routine where
  σ := Bool
  init := true
  next
    | true => .call false [5] fun _ => false
    | false => .ret

/-- Optimizer 1 evaluates one point; the others have not begun. -/
def onlyOne (i : Nat) : Child :=
  { cfg := { optId := i, logDetailed := false, hasDetailed := false, stopDefault := true }, code := once, fuel := 5
    env := if i = 1 then [.value (.fin 5), .unit, .unit] else [] }

/-- The manager reads its evaluation and its end marker. -/
def toldEnd : Env := startNo ++ [ch [r 1 5], ch [.fin 1], nothing, files, b false, u, u, b false, u, u, b false, u,
  u, u, sg (some (.done "x")), nothing, files, b false, d 1, b false, u, u, b false, u, u, u]

def report : IterRes ⊕ Nat := .inl ⟨1, [5], .fin 5, []⟩

/-- The queue: two calls of `put_nowait` of thread 1, each followed by a `get`. -/
theorem queue_run : ∃ q : QueueConc.State (IterRes ⊕ Nat), QueueConc.Reachable 10 3 q ∧
    q.received = [[(1, report)], [(1, .inr 1)]] ∧ ∀ i, q.sent i = if i = 1 then [report, .inr 1] else [] := by
  have h0 : QueueConc.Reachable 10 3 (QueueConc.init 10 3 : QueueConc.State (IterRes ⊕ Nat)) := .init
  have h1 := h0.step _ _ (.nowaitSlow _ 1 report rfl rfl)
  have h2 := h1.step _ _ (.slowOk _ 1 report rfl (.inr (by decide)))
  have h3 := h2.step _ _ (.get _ _ _ rfl)
  have h4 := h3.step _ _ (.nowaitSlow _ 1 (.inr 1) rfl rfl)
  have h5 := h4.step _ _ (.slowOk _ 1 (.inr 1) rfl (.inr (by decide)))
  have h6 := h5.step _ _ (.get _ _ _ rfl)
  refine ⟨_, h6, rfl, fun i => ?_⟩
  by_cases hi : i = 1
  · subst hi; rfl
  · simp [QueueConc.begin, QueueConc.goto, QueueConc.init, hi]

theorem together_of (e : Env) (he : chunksOf e = chunksOf toldEnd) : ∃ q, Together e q onlyOne := by
  obtain ⟨q, h1, h2, h3⟩ := queue_run
  have hdid : ∀ i, (onlyOne i).did = if i = 1 then
      [.evaluated [5] [.fin 5], .queued ⟨1, [5], .fin 5, []⟩, .queuedEnd 1] else [] := by
    intro i
    by_cases hi : i = 1
    · subst hi; decide +kernel
    · rw [if_neg hi]
      unfold onlyOne Child.did
      simp only [if_neg hi]
      rfl
  refine ⟨q, ⟨10, 3, h1⟩, fun i => rfl, fun i => ?_, fun i x hx => ?_, ⟨[], ?_⟩⟩
  · rw [h3, hdid]
    by_cases hi : i = 1
    · simp [hi, Spec.Optimizer.queueOf, report]
    · simp [hi, Spec.Optimizer.queueOf]
  · rw [hdid] at hx
    by_cases hi : i = 1
    · rw [if_pos hi] at hx
      simp only [List.mem_cons, List.not_mem_nil, or_false] at hx
      rcases hx with rfl | rfl | rfl <;> rfl
    · rw [if_neg hi] at hx
      cases hx
  · rw [h2, he]
    decide +kernel

theorem onlyOne_together : ∃ q, Together toldEnd q onlyOne := together_of _ rfl

/-- The hypotheses are met, the run ends regularly and the result is the evaluation made. -/
example : (∃ q, Together toldEnd q onlyOne) ∧ ended cfg2 (init cfg2) 20 toldEnd = some .regular ∧
    Msg.fin 1 ∈ receivedOf (thisRun cfg2 (init cfg2) 20 toldEnd) ∧ killedOf (happened cfg2 (init cfg2) 20 toldEnd) = [] ∧
    (onlyOne 1).made = [⟨1, [5], .fin 5, []⟩] ∧
    (moment cfg2 (init cfg2) 20 toldEnd).result.fx = some (.fin 5) :=
  ⟨onlyOne_together, by decide +kernel, by decide +kernel, by decide +kernel, by decide +kernel, by decide +kernel⟩

/-- Keeping all histories. -/
example : (moment { cfg2 with traj := true } (init { cfg2 with traj := true }) 20 toldEnd).log.getHistory 1 "fx" =
    .ok [Cell.num (.fin 5)] := by decide +kernel

/-- As `loaded`, keeping all histories. -/
def cfgKeep : Cfg := { cfgSave with traj := true }

def kept : State := loadFirst cfgKeep (startManager cfgKeep 20 (init cfgKeep) saves).2.1 [(1, true)]

/-- The optimizer continued evaluates one point and ends. -/
def goesOnEnd : Env := [b false, u, u, u, u, sg none, ch [r 1 5], ch [.fin 1], u, u, u, u]

/-- The same in a manager loaded from a checkpoint: one value was in the history before, and one is added. -/
example : Startable cfgKeep kept ∧ (∃ q, Together goesOnEnd q onlyOne) ∧ (inForce cfgKeep kept 20 goesOnEnd []).traj = true ∧
    Msg.fin 1 ∈ receivedOf (thisRun cfgKeep kept 20 goesOnEnd) ∧ inHand (happened cfgKeep kept 20 goesOnEnd) = none ∧
    kept.log.getHistory 1 "fx" = .ok [Cell.num (.fin 5)] ∧
    (moment cfgKeep kept 20 goesOnEnd).log.getHistory 1 "fx" = .ok [Cell.num (.fin 5), Cell.num (.fin 5)] :=
  ⟨startable_loadFirst _ _ _ _ _ _ (.fresh _) (by decide +kernel), together_of _ (by decide +kernel), by decide +kernel,
    by decide +kernel, by decide +kernel, by decide +kernel, by decide +kernel⟩

end EndToEnd

end Glompo.Props
