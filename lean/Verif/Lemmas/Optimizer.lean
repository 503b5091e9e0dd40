import Verif.Spec.Optimizer

/-! # Lemmas about `Model/Optimizer` -/

namespace Glompo.Optimizer

open Glompo Glompo.Spec.Optimizer

/-- What a program reads and records. -/
def Reads (m : M α) (P : Out α → List Obs → List Ev → Prop) : Prop :=
  ∀ w, ∃ used new, w.env = used ++ (m w).2.env ∧ (m w).2.ev = w.ev ++ new ∧ P (m w).1 used new

theorem Reads.mono {m : M α} {P Q} (h : Reads m P) (hPQ : ∀ o u n, P o u n → Q o u n) : Reads m Q := by
  intro w
  obtain ⟨u, n, h1, h2, h3⟩ := h w
  exact ⟨u, n, h1, h2, hPQ _ _ _ h3⟩

theorem Reads.bind {m : M α} {f : α → M β} {P : Out α → List Obs → List Ev → Prop}
    {Q : α → Out β → List Obs → List Ev → Prop} {R : Out β → List Obs → List Ev → Prop}
    (hm : Reads m P) (hf : ∀ a, Reads (f a) (Q a))
    (hok : ∀ a u1 n1 o u2 n2, P (.ok a) u1 n1 → Q a o u2 n2 → R o (u1 ++ u2) (n1 ++ n2))
    (herr : ∀ e u n, P (.err e) u n → R (.err e) u n)
    (hpend : ∀ u n, P .pending u n → R .pending u n) : Reads (m >>= f) R := by
  intro w
  show ∃ used new, w.env = used ++ (M.bind m f w).2.env ∧ (M.bind m f w).2.ev = w.ev ++ new ∧ R (M.bind m f w).1 used new
  obtain ⟨u, n, h1, h2, h3⟩ := hm w
  unfold M.bind
  rcases hmw : m w with ⟨o, w'⟩
  rw [hmw] at h1 h2 h3
  cases o with
  | err e => exact ⟨u, n, h1, h2, herr _ _ _ h3⟩
  | pending => exact ⟨u, n, h1, h2, hpend _ _ h3⟩
  | ok a =>
    obtain ⟨u', n', g1, g2, g3⟩ := hf a w'
    refine ⟨u ++ u', n ++ n', ?_, ?_, hok _ _ _ _ _ _ h3 g3⟩
    · simp only at h1 ⊢; rw [h1, g1, List.append_assoc]
    · simp only at h2 ⊢; rw [g2, h2, List.append_assoc]

theorem reads_pure (a : α) : Reads (pure a : M α) (fun o u n => o = .ok a ∧ u = [] ∧ n = []) :=
  fun w => ⟨[], [], rfl, by simp [Pure.pure, M.pure], rfl, rfl, rfl⟩

theorem reads_throw (e : Exc) : Reads (M.throw e : M α) (fun o u n => o = .err e ∧ u = [] ∧ n = []) :=
  fun w => ⟨[], [], rfl, by simp [M.throw], rfl, rfl, rfl⟩

theorem reads_pending : Reads (M.pending : M α) (fun o u n => o = .pending ∧ u = [] ∧ n = []) :=
  fun w => ⟨[], [], rfl, by simp [M.pending], rfl, rfl, rfl⟩

theorem reads_emit (e : Ev) : Reads (M.emit e) (fun o u n => o = .ok () ∧ u = [] ∧ n = [e]) :=
  fun w => ⟨[], [e], rfl, rfl, rfl, rfl, rfl⟩

theorem Reads.attempt {m : M α} {P} (h : Reads m P) :
    Reads (M.attempt m) (fun o u n => (∃ a, o = .ok (.ok a) ∧ P (.ok a) u n) ∨
      (∃ e, o = .ok (.error e) ∧ P (.err e) u n) ∨ (o = .pending ∧ P .pending u n)) := by
  intro w
  obtain ⟨u, n, h1, h2, h3⟩ := h w
  unfold M.attempt
  rcases hmw : m w with ⟨o, w'⟩
  rw [hmw] at h1 h2 h3
  cases o with
  | err e => exact ⟨u, n, h1, h2, Or.inr (Or.inl ⟨e, rfl, h3⟩)⟩
  | pending => exact ⟨u, n, h1, h2, Or.inr (Or.inr ⟨rfl, h3⟩)⟩
  | ok a => exact ⟨u, n, h1, h2, Or.inl ⟨a, rfl, h3⟩⟩

theorem reads_ask (f : Obs → Option α) : Reads (M.ask f) (fun o u n => n = [] ∧
    ((∃ x a, f x = some a ∧ o = .ok a ∧ u = [x]) ∨ (∃ e, o = .err e ∧ u = [.raise e]) ∨ (o = .pending ∧ u = []))) := by
  intro w
  unfold M.ask
  split
  · exact ⟨[], [], by simp, by simp, rfl, Or.inr (Or.inr ⟨rfl, rfl⟩)⟩
  · rename_i e t he
    exact ⟨[.raise e], [], by simp [he], by simp, rfl, Or.inr (Or.inl ⟨e, rfl, rfl⟩)⟩
  · rename_i o t hne he
    cases hf : f o with
    | some a => exact ⟨[o], [], by simp [he], by simp, rfl, Or.inl ⟨o, a, hf, rfl, rfl⟩⟩
    | none => exact ⟨[], [], by simp, by simp, rfl, Or.inr (Or.inr ⟨rfl, rfl⟩)⟩

theorem reads_askUnit : Reads askUnit (fun _ u n => n = [] ∧ msgsOf u = []) := by
  refine (reads_ask _).mono ?_
  rintro o u n ⟨rfl, ⟨x, a, hx, rfl, rfl⟩ | ⟨e, rfl, rfl⟩ | ⟨rfl, rfl⟩⟩
  · refine ⟨rfl, ?_⟩
    split at hx
    · rename_i hx'; subst hx'; rfl
    · cases hx
  · exact ⟨rfl, rfl⟩
  · exact ⟨rfl, rfl⟩

theorem reads_poll : Reads poll (fun o u n => n = [] ∧
    ((∃ m, o = .ok (some m) ∧ msgsOf u = [m]) ∨ ((∀ m, o ≠ .ok (some m)) ∧ msgsOf u = []))) := by
  refine (reads_ask _).mono ?_
  rintro o u n ⟨rfl, ⟨x, a, hx, rfl, rfl⟩ | ⟨e, rfl, rfl⟩ | ⟨rfl, rfl⟩⟩
  · refine ⟨rfl, ?_⟩
    cases x <;> simp at hx
    · subst hx; exact Or.inr ⟨by simp, rfl⟩
    · subst hx; exact Or.inl ⟨_, rfl, rfl⟩
  · exact ⟨rfl, Or.inr ⟨by simp, rfl⟩⟩
  · exact ⟨rfl, Or.inr ⟨by simp, rfl⟩⟩

theorem msgsOf_append (a b : List Obs) : msgsOf (a ++ b) = msgsOf a ++ msgsOf b := by
  induction a with
  | nil => rfl
  | cons o t ih => cases o <;> simp [msgsOf, ih]

theorem msgsOf_quiet (l : List Obs) (h : ∀ o ∈ l, o = Obs.quiet) : msgsOf l = [] := by
  induction l with
  | nil => rfl
  | cons o t ih => simp only [List.mem_cons, forall_eq_or_imp] at h; rw [h.1]; exact ih h.2

theorem mem_takeWhile_imp {p : α → Bool} {l : List α} {x : α} (h : x ∈ l.takeWhile p) : p x = true := by
  induction l with
  | nil => cases h
  | cons a t ih =>
    rw [List.takeWhile_cons] at h
    split at h
    · cases h with
      | head => assumption
      | tail _ h => exact ih h
    · cases h

theorem reads_waitMsg : Reads waitMsg (fun _ u n => n = [] ∧ msgsOf u = []) := by
  intro w
  have hw := (List.takeWhile_append_dropWhile (p := fun o : Obs => decide (o = .quiet)) (l := w.env)).symm
  have hq : msgsOf (w.env.takeWhile fun o => decide (o = .quiet)) = [] :=
    msgsOf_quiet _ fun o ho => by simpa using mem_takeWhile_imp ho
  unfold waitMsg
  split
  · rename_i h
    rw [h] at hw
    exact ⟨_, [], hw, by simp, rfl, hq⟩
  · rename_i e t h
    rw [h] at hw
    refine ⟨(w.env.takeWhile fun o => decide (o = .quiet)) ++ [.raise e], [], ?_, by simp, rfl, ?_⟩
    · simpa using hw
    · rw [msgsOf_append, hq]; rfl
  · rename_i o t _ h
    rw [h] at hw
    exact ⟨_, [], hw, by simp, rfl, hq⟩

/-! ### Order -/

def Ok : Out α → Prop
  | .ok _ => True
  | _ => False

/-- The reactions are those documented, in order; if the run did not return, the last one may be missing. -/
def Track (pre : List Ev) (o : Out α) (used : List Obs) (new : List Ev) : Prop :=
  (Ok o → actsOf new = pre ++ (msgsOf used).map documented) ∧
  actsOf new <+: pre ++ (msgsOf used).map documented ∧
  (pre ++ (msgsOf used).map documented).length ≤ (actsOf new).length + 1

theorem actsOf_append (a b : List Ev) : actsOf (a ++ b) = actsOf a ++ actsOf b := by simp [actsOf]

theorem Track.append {pre : List Ev} {a : α} {u1 n1} {o : Out β} {u2 n2} (h1 : Track pre (Out.ok a) u1 n1)
    (h2 : Track [] o u2 n2) : Track pre o (u1 ++ u2) (n1 ++ n2) := by
  have e := h1.1 trivial
  obtain ⟨ha, hb, hc⟩ := h2
  simp only [List.nil_append] at ha hb hc
  refine ⟨fun ho => ?_, ?_, ?_⟩
  · rw [actsOf_append, msgsOf_append, e, ha ho, List.map_append, List.append_assoc]
  · rw [actsOf_append, msgsOf_append, e, List.map_append, ← List.append_assoc]
    exact List.prefix_append_right_inj _ |>.mpr hb
  · rw [actsOf_append, msgsOf_append, e, List.map_append, ← List.append_assoc]
    simp only [List.length_append, List.length_map] at hc ⊢
    omega

theorem Track.of_eq {pre : List Ev} {o : Out α} {u n} (h : actsOf n = pre ++ (msgsOf u).map documented) : Track pre o u n :=
  ⟨fun _ => h, h ▸ List.prefix_rfl, by rw [h]; exact Nat.le_succ _⟩

/-- The first reaction is missing and nothing follows. -/
theorem Track.missing {e : Ev} {o : Out α} {u n} (ho : ¬ Ok o) (hn : n = []) (hu : msgsOf u = []) : Track [e] o u n := by
  subst hn
  exact ⟨fun h => absurd h ho, by simp [actsOf], by simp [hu]⟩

theorem Track.stop {pre : List Ev} {o : Out α} {o' : Out β} {u n} (ho : ¬ Ok o) (h : Track pre o' u n) : Track pre o u n :=
  ⟨fun h => absurd h ho, h.2⟩

/-! ### Pauses -/

def nHeld (l : List Ev) : Nat := l.countP fun e => decide (e = .held)
def nRel (l : List Ev) : Nat := l.countP isRelease

theorem nHeld_append (a b : List Ev) : nHeld (a ++ b) = nHeld a + nHeld b := by simp [nHeld]
theorem nRel_append (a b : List Ev) : nRel (a ++ b) = nRel a + nRel b := by simp [nRel]

/-- Every pause follows a reply and, after that, a save or continue; at every moment there were at least as many of these
as pauses. -/
def Paused (new : List Ev) : Prop :=
  (∀ pre post, new = pre ++ .held :: post → ∃ a b, pre = a ++ .sent 1 :: b ∧ ∃ e ∈ b, isRelease e = true) ∧
  ∀ pre, pre <+: new → nHeld pre ≤ nRel pre

theorem Paused.nil : Paused [] := by
  refine ⟨fun pre post h => ?_, fun pre h => ?_⟩
  · simp at h
  · rw [List.prefix_nil.mp h]; exact Nat.le_refl _

theorem prefix_append_cases {p a b : List α} (h : p <+: a ++ b) : p <+: a ∨ ∃ q, p = a ++ q ∧ q <+: b := by
  rcases Nat.le_total p.length a.length with hl | hl
  · exact Or.inl (List.prefix_of_prefix_length_le h (List.prefix_append a b) hl)
  · obtain ⟨q, rfl⟩ := List.prefix_of_prefix_length_le (List.prefix_append a b) h hl
    exact Or.inr ⟨q, rfl, (List.prefix_append_right_inj a).mp h⟩

theorem Paused.append {a b : List Ev} (ha : Paused a) (hb : Paused b) : Paused (a ++ b) := by
  refine ⟨fun pre post h => ?_, fun pre h => ?_⟩
  · rcases List.append_eq_append_iff.mp h with ⟨c, h1, h2⟩ | ⟨c, h1, h2⟩
    · obtain ⟨x, y, rfl, hy⟩ := hb.1 c post h2
      exact ⟨a ++ x, y, by rw [h1, List.append_assoc], hy⟩
    · cases c with
      | nil =>
        simp only [List.nil_append] at h2
        simp only [List.append_nil] at h1
        exact absurd (hb.1 [] post h2.symm) (by simp)
      | cons c0 c =>
        simp only [List.cons_append, List.cons.injEq] at h2
        obtain ⟨rfl, h2⟩ := h2
        exact ha.1 pre c h1
  · rcases prefix_append_cases h with h | ⟨q, rfl, hq⟩
    · exact ha.2 pre h
    · rw [nHeld_append, nRel_append]
      exact Nat.add_le_add (ha.2 a List.prefix_rfl) (hb.2 q hq)

theorem Paused.single {e : Ev} (h : e ≠ .held) : Paused [e] := by
  refine ⟨fun pre post hp => ?_, fun pre hp => ?_⟩
  · cases pre with
    | nil => simp only [List.nil_append, List.cons.injEq] at hp; exact absurd hp.1 h
    | cons a t => simp at hp
  · have : nHeld [e] = 0 := by simp [nHeld, h]
    have h2 : nHeld pre ≤ nHeld [e] := hp.sublist.countP_le
    omega

/-- The pause of `_prepare_checkpoint` up to the moment it is entered. -/
theorem Paused.hold {l : List Ev} (h : Paused l) (hr : nHeld l + 1 ≤ nRel l) : Paused (.sent 1 :: l ++ [.held]) := by
  refine ⟨fun pre post hp => ?_, fun pre hp => ?_⟩
  · rcases List.append_eq_append_iff.mp hp with ⟨c, h1, h2⟩ | ⟨c, h1, h2⟩
    · cases c with
      | cons c0 c => simp at h2
      | nil =>
        simp only [List.append_nil] at h1
        refine ⟨[], l, h1, ?_⟩
        have : 0 < l.countP isRelease := by unfold nRel at hr; omega
        simpa using List.countP_pos_iff.mp this
    · cases c with
      | nil =>
        simp only [List.append_nil] at h1
        refine ⟨[], l, h1.symm, ?_⟩
        have : 0 < l.countP isRelease := by unfold nRel at hr; omega
        simpa using List.countP_pos_iff.mp this
      | cons c0 c =>
        simp only [List.cons_append, List.cons.injEq] at h2
        obtain ⟨rfl, h2⟩ := h2
        cases pre with
        | nil => simp at h1
        | cons p0 pre =>
          simp only [List.cons_append, List.cons.injEq] at h1
          obtain ⟨rfl, h1⟩ := h1
          obtain ⟨x, y, rfl, hy⟩ := h.1 pre c h1
          exact ⟨.sent 1 :: x, y, rfl, hy⟩
  · rcases prefix_append_cases hp with hp | ⟨q, rfl, hq⟩
    · have hs : Paused (.sent 1 :: l) := (Paused.single (e := .sent 1) (by decide)).append h
      exact hs.2 pre hp
    · have h3 : nHeld q ≤ nHeld [.held] := hq.sublist.countP_le
      have h4 : nHeld [.held] = 1 := by decide
      have h5 : nHeld (.sent 1 :: l) = nHeld l := by simp [nHeld]
      have h6 : nRel (.sent 1 :: l) = nRel l := by simp [nRel, isRelease]
      rw [nHeld_append, nRel_append]
      omega

/-! ### The four functions together -/

def isRelCode (k : Int) : Bool := decide (k = 0 ∨ k = 3)

def CheckP (acc : List Int) (o : Out (List Int)) (u : List Obs) (n : List Ev) : Prop :=
  Track [] o u n ∧ Paused n ∧ ∀ codes, o = .ok codes → ∃ c, codes = acc ++ c ∧ nHeld n + c.countP isRelCode ≤ nRel n

def ExecP (k : Int) (args : List Arg) (o : Out Unit) (u : List Obs) (n : List Ev) : Prop :=
  Track [documented (.tuple k args)] o u n ∧ Paused n ∧
    (o = .ok () → nHeld n + (if isRelCode k = true then 1 else 0) ≤ nRel n)

def PrepP (o : Out Unit) (u : List Obs) (n : List Ev) : Prop := Track [.sent 1] o u n ∧ Paused n

def WaitP (o : Out Unit) (u : List Obs) (n : List Ev) : Prop :=
  Track [] o u n ∧ Paused n ∧ (o = .ok () → nHeld n + 1 ≤ nRel n)

theorem checkP_step {k : Int} {args : List Arg} {m : Msg} {acc : List Int} {r : M (List Int)} {x : M Unit}
    (hm : documented m = documented (.tuple k args)) (hx : Reads x (ExecP k args)) (hr : Reads r (CheckP (acc ++ [k]))) :
    Reads (x >>= fun _ => r) (fun o u n => Track [documented m] o u n ∧ Paused n ∧
      ∀ codes, o = .ok codes → ∃ c, codes = acc ++ c ∧ nHeld n + c.countP isRelCode ≤ nRel n) := by
  rw [hm]
  refine hx.bind (fun _ => hr) ?_ ?_ ?_
  · rintro _ u1 n1 o u2 n2 ⟨a1, a2, a3⟩ ⟨b1, b2, b3⟩
    refine ⟨a1.append b1, a2.append b2, fun codes hc => ?_⟩
    obtain ⟨c, rfl, hc⟩ := b3 codes hc
    have h3 := a3 rfl
    refine ⟨k :: c, by simp, ?_⟩
    rw [nHeld_append, nRel_append, List.countP_cons]
    omega
  · rintro e u n ⟨a1, a2, _⟩
    exact ⟨a1.stop (by simp [Ok]), a2, by simp⟩
  · rintro u n ⟨a1, a2, _⟩
    exact ⟨a1.stop (by simp [Ok]), a2, by simp⟩

theorem checkP_ignored {acc : List Int} {m : Msg} {r : M (List Int)} (hm : documented m = .ignored)
    (hr : Reads r (CheckP acc)) :
    Reads (M.emit .ignored >>= fun _ => r) (fun o u n => Track [documented m] o u n ∧ Paused n ∧
      ∀ codes, o = .ok codes → ∃ c, codes = acc ++ c ∧ nHeld n + c.countP isRelCode ≤ nRel n) := by
  rw [hm]
  refine (reads_emit _).bind (fun _ => hr) ?_ ?_ ?_
  · rintro _ u1 n1 o u2 n2 ⟨_, rfl, rfl⟩ ⟨b1, b2, b3⟩
    refine ⟨(Track.of_eq (o := Out.ok ()) (u := []) (n := [.ignored]) rfl).append b1,
      (Paused.single (by decide)).append b2, fun codes hc => ?_⟩
    obtain ⟨c, rfl, hc⟩ := b3 codes hc
    exact ⟨c, rfl, by rw [nHeld_append, nRel_append]; have : nHeld [.ignored] = 0 := rfl; omega⟩
  · rintro e u n ⟨h, _⟩; cases h
  · rintro u n ⟨h, _⟩; cases h

theorem documented_not_key {k : Int} (h : k ∉ keys) (args : List Arg) :
    documented (.int k) = .ignored ∧ documented (.tuple k args) = .ignored := by
  simp only [keys, List.mem_cons, List.not_mem_nil, or_false, not_or] at h
  obtain ⟨h0, h1, h2, h3, h4⟩ := h
  constructor
  · unfold documented; split <;> simp_all
  · unfold documented; split <;> simp_all

theorem documented_int {k : Int} (h : k ∈ keys) : documented (.int k) = documented (.tuple k []) := by
  simp only [keys, List.mem_cons, List.not_mem_nil, or_false] at h
  rcases h with rfl | rfl | rfl | rfl | rfl <;> rfl

theorem reads_throw_exec (e : Exc) (k : Int) (args : List Arg) : Reads (M.throw e) (ExecP k args) := by
  refine (reads_throw e).mono ?_
  rintro o u n ⟨rfl, rfl, rfl⟩
  exact ⟨Track.missing (by simp [Ok]) rfl rfl, Paused.nil, by simp⟩

theorem reads_emit_exec {e : Ev} {k : Int} {args : List Arg} (h : documented (.tuple k args) = e) (hn : e ≠ .held)
    (hn' : e ≠ .resumed) (hk : isRelCode k = true → isRelease e = true) : Reads (M.emit e) (ExecP k args) := by
  refine (reads_emit e).mono ?_
  rintro o u n ⟨rfl, rfl, rfl⟩
  refine ⟨Track.of_eq (by simp [h, actsOf, hn, hn', msgsOf]), Paused.single hn, fun _ => ?_⟩
  have h0 : nHeld [e] = 0 := by simp [nHeld, hn]
  by_cases hc : isRelCode k = true
  · simp [h0, nRel, hk hc, hc]
  · simp [h0, hc]

theorem reads_save (args : List Arg) : Reads (save args) (ExecP 0 args) := by
  unfold save
  split
  · refine reads_askUnit.bind (fun _ => reads_emit _) ?_ ?_ ?_
    · rintro _ u1 n1 o u2 n2 ⟨rfl, hu⟩ ⟨rfl, rfl, rfl⟩
      rw [List.append_nil]
      refine ⟨Track.of_eq (by rw [hu]; rfl), Paused.single (by simp), fun _ => by simp [nHeld, nRel, isRelease, isRelCode]⟩
    · rintro e u n ⟨rfl, hu⟩
      exact ⟨Track.missing (by simp [Ok]) rfl hu, Paused.nil, by simp⟩
    · rintro u n ⟨rfl, hu⟩
      exact ⟨Track.missing (by simp [Ok]) rfl hu, Paused.nil, by simp⟩
  · exact reads_throw_exec _ _ _

theorem reads_callStop (cfg : Cfg) (args : List Arg) : Reads (callStop cfg args) (ExecP 1 args) := by
  have key : ∀ r args, documented (.tuple 1 args) = .stopped r →
      Reads (M.emit (.stopped r) >>= fun _ => askUnit) (ExecP 1 args) := by
    intro r args hd
    refine (reads_emit _).bind (fun _ => reads_askUnit) ?_ ?_ ?_
    · rintro _ u1 n1 o u2 n2 ⟨_, rfl, rfl⟩ ⟨rfl, hu⟩
      refine ⟨Track.of_eq ?_, Paused.single (by simp), fun _ => by simp [nHeld, isRelCode]⟩
      simp [hu, hd, actsOf]
    · rintro e u n ⟨h, _⟩; cases h
    · rintro u n ⟨h, _⟩; cases h
  unfold callStop
  split
  · exact key _ _ rfl
  · split
    · exact key _ _ rfl
    · exact reads_throw_exec _ _ _
  · exact reads_throw_exec _ _ _

theorem reads_pass (args : List Arg) : Reads (pass args) (ExecP 3 args) := by
  unfold pass
  split
  · exact reads_emit_exec rfl (by simp) (by simp) (fun _ => rfl)
  · exact reads_throw_exec _ _ _

theorem reads_inject (args : List Arg) : Reads (inject args) (ExecP 4 args) := by
  unfold inject
  split
  · exact reads_emit_exec rfl (by simp) (by simp) (by simp [isRelCode])
  · exact reads_throw_exec _ _ _

theorem all_reads (cfg : Cfg) (n : Nat) :
    (∀ acc, Reads (checkLoop cfg n acc) (CheckP acc)) ∧ (∀ k args, k ∈ keys → Reads (execute cfg n k args) (ExecP k args)) ∧
    Reads (prepare cfg n) PrepP ∧ Reads (waitLoop cfg n) WaitP := by
  induction n with
  | zero =>
    refine ⟨fun acc => ?_, fun k args _ => ?_, ?_, ?_⟩
    · rw [checkLoop]
      refine reads_pending.mono ?_
      rintro o u n ⟨rfl, rfl, rfl⟩
      exact ⟨Track.of_eq rfl, Paused.nil, by simp⟩
    · rw [execute]
      refine reads_pending.mono ?_
      rintro o u n ⟨rfl, rfl, rfl⟩
      exact ⟨Track.missing (by simp [Ok]) rfl rfl, Paused.nil, by simp⟩
    · rw [prepare]
      refine reads_pending.mono ?_
      rintro o u n ⟨rfl, rfl, rfl⟩
      exact ⟨Track.missing (by simp [Ok]) rfl rfl, Paused.nil⟩
    · rw [waitLoop]
      refine reads_pending.mono ?_
      rintro o u n ⟨rfl, rfl, rfl⟩
      exact ⟨Track.of_eq rfl, Paused.nil, by simp⟩
  | succ n ih =>
    obtain ⟨ih1, ih2, ih3, ih4⟩ := ih
    refine ⟨fun acc => ?_, fun k args hk => ?_, ?_, ?_⟩
    · rw [checkLoop]
      refine reads_poll.bind (Q := fun a o u n => Track (a.toList.map documented) o u n ∧
        Paused n ∧ ∀ codes, o = .ok codes → ∃ c, codes = acc ++ c ∧ nHeld n + c.countP isRelCode ≤ nRel n) ?_ ?_ ?_ ?_
      · intro a
        cases a with
        | none =>
          refine (reads_pure acc).mono ?_
          rintro o u n ⟨rfl, rfl, rfl⟩
          refine ⟨Track.of_eq rfl, Paused.nil, fun codes hc => ⟨[], ?_, Nat.le_refl _⟩⟩
          cases hc; simp
        | some m =>
          cases m with
          | int k =>
            dsimp only
            split
            · rename_i hk
              exact checkP_step (documented_int hk) (ih2 k [] hk) (ih1 _)
            · rename_i hk
              exact checkP_ignored (documented_not_key hk []).1 (ih1 _)
          | tuple k args =>
            dsimp only
            split
            · rename_i hk
              exact checkP_step rfl (ih2 k args hk) (ih1 _)
            · rename_i hk
              exact checkP_ignored (documented_not_key hk args).2 (ih1 _)
          | emptyTuple =>
            refine (reads_throw _).mono ?_
            rintro o u n ⟨rfl, rfl, rfl⟩
            exact ⟨Track.missing (by simp [Ok]) rfl rfl, Paused.nil, by simp⟩
          | other => exact checkP_ignored rfl (ih1 _)
      · rintro a u1 n1 o u2 n2 ⟨rfl, h⟩ ⟨h1, h2, h3⟩
        have hu : (msgsOf u1).map documented = a.toList.map documented := by
          rcases h with ⟨m, hm, hu⟩ | ⟨hm, hu⟩
          · cases hm; rw [hu]; rfl
          · cases a with
            | none => rw [hu]; rfl
            | some m => exact absurd rfl (hm m)
        refine ⟨?_, by simpa using h2, by simpa using h3⟩
        rw [← hu] at h1
        unfold Track at h1 ⊢
        rw [msgsOf_append, List.map_append]
        simpa using h1
      · rintro e u n ⟨rfl, ⟨m, hm, _⟩ | ⟨_, hu⟩⟩
        · cases hm
        · exact ⟨Track.of_eq (by rw [hu]; rfl), Paused.nil, by simp⟩
      · rintro u n ⟨rfl, ⟨m, hm, _⟩ | ⟨_, hu⟩⟩
        · cases hm
        · exact ⟨Track.of_eq (by rw [hu]; rfl), Paused.nil, by simp⟩
    · rw [execute]
      simp only [keys, List.mem_cons, List.not_mem_nil, or_false] at hk
      split
      · rename_i h0; subst h0; exact reads_save args
      · split
        · rename_i h0; subst h0; exact reads_callStop cfg args
        · split
          · rename_i h2
            subst h2
            split
            · rename_i ha
              subst ha
              refine ih3.mono ?_
              rintro o u n ⟨h1, h2⟩
              exact ⟨h1, h2, fun _ => by simpa [isRelCode] using h2.2 n List.prefix_rfl⟩
            · exact reads_throw_exec _ _ _
          · split
            · rename_i h3; subst h3; exact reads_pass args
            · have : k = 4 := by omega
              subst this; exact reads_inject args
    · rw [prepare]
      refine reads_askUnit.bind (Q := fun _ => PrepP) (fun _ => ?_) ?_ ?_ ?_
      · refine (reads_emit _).bind (Q := fun _ o u n => Track [] o u n ∧ Paused (.sent 1 :: n)) (fun _ => ?_) ?_ ?_ ?_
        · refine ih4.bind (Q := fun _ o u n => Track [] o u n ∧ ∀ l, Paused (.sent 1 :: l ++ [.held]) → Paused (.sent 1 :: l ++ n))
            (fun _ => ?_) ?_ ?_ ?_
          · refine (reads_emit _).bind (Q := fun _ o u n => Track [] o u n ∧ Paused n) (fun _ => ?_) ?_ ?_ ?_
            · refine reads_askUnit.bind (fun _ => reads_emit _) ?_ ?_ ?_
              · rintro _ u1 n1 o u2 n2 ⟨rfl, hu⟩ ⟨rfl, rfl, rfl⟩
                exact ⟨Track.of_eq (by simp [hu, actsOf]), Paused.single (by decide)⟩
              · rintro e u n ⟨rfl, hu⟩
                exact ⟨Track.of_eq (by simp [hu, actsOf]), Paused.nil⟩
              · rintro u n ⟨rfl, hu⟩
                exact ⟨Track.of_eq (by simp [hu, actsOf]), Paused.nil⟩
            · rintro _ u1 n1 o u2 n2 ⟨_, rfl, rfl⟩ ⟨h1, h2⟩
              refine ⟨(Track.of_eq (o := Out.ok ()) (u := []) (n := [.held]) rfl).append h1, fun l hl => ?_⟩
              rw [← List.append_assoc]
              exact hl.append h2
            · rintro e u n ⟨h, _⟩; cases h
            · rintro u n ⟨h, _⟩; cases h
          · rintro _ u1 n1 o u2 n2 ⟨a1, a2, a3⟩ ⟨b1, b2⟩
            exact ⟨a1.append b1, b2 n1 (a2.hold (a3 rfl))⟩
          · rintro e u n ⟨a1, a2, _⟩
            exact ⟨a1.stop (by simp [Ok]), (Paused.single (e := .sent 1) (by decide)).append a2⟩
          · rintro u n ⟨a1, a2, _⟩
            exact ⟨a1.stop (by simp [Ok]), (Paused.single (e := .sent 1) (by decide)).append a2⟩
        · rintro _ u1 n1 o u2 n2 ⟨_, rfl, rfl⟩ ⟨h1, h2⟩
          exact ⟨(Track.of_eq (pre := [.sent 1]) (o := Out.ok ()) (u := []) (n := [.sent 1]) rfl).append h1, h2⟩
        · rintro e u n ⟨h, _⟩; cases h
        · rintro u n ⟨h, _⟩; cases h
      · rintro _ u1 n1 o u2 n2 ⟨rfl, hu⟩ ⟨h1, h2⟩
        refine ⟨?_, h2⟩
        unfold Track at h1 ⊢
        rw [msgsOf_append, hu]
        exact h1
      · rintro e u n ⟨rfl, hu⟩
        exact ⟨Track.missing (by simp [Ok]) rfl hu, Paused.nil⟩
      · rintro u n ⟨rfl, hu⟩
        exact ⟨Track.missing (by simp [Ok]) rfl hu, Paused.nil⟩
    · rw [waitLoop]
      refine reads_waitMsg.bind (Q := fun _ => WaitP) (fun _ => ?_) ?_ ?_ ?_
      · refine (ih1 []).bind (Q := fun got o u n => Track [] o u n ∧ Paused n ∧
          (o = .ok () → (0 ∈ got ∨ 3 ∈ got) ∨ nHeld n + 1 ≤ nRel n)) (fun got => ?_) ?_ ?_ ?_
        · split
          · rename_i hg
            refine (reads_pure ()).mono ?_
            rintro o u n ⟨rfl, rfl, rfl⟩
            exact ⟨Track.of_eq rfl, Paused.nil, fun _ => Or.inl hg⟩
          · refine ih4.mono ?_
            rintro o u n ⟨h1, h2, h3⟩
            exact ⟨h1, h2, fun ho => Or.inr (h3 ho)⟩
        · rintro got u1 n1 o u2 n2 ⟨a1, a2, a3⟩ ⟨b1, b2, b3⟩
          refine ⟨a1.append b1, a2.append b2, fun ho => ?_⟩
          obtain ⟨c, hc, hr⟩ := a3 got rfl
          rw [nHeld_append, nRel_append]
          have hb := b2.2 n2 List.prefix_rfl
          rcases b3 ho with hg | hg
          · have : 0 < c.countP isRelCode := by
              rw [List.countP_pos_iff]
              simp only [List.nil_append] at hc
              subst hc
              rcases hg with hg | hg
              · exact ⟨0, hg, rfl⟩
              · exact ⟨3, hg, rfl⟩
            omega
          · omega
        · rintro e u n ⟨a1, a2, _⟩
          exact ⟨a1.stop (by simp [Ok]), a2, by simp⟩
        · rintro u n ⟨a1, a2, _⟩
          exact ⟨a1.stop (by simp [Ok]), a2, by simp⟩
      · rintro _ u1 n1 o u2 n2 ⟨rfl, hu⟩ ⟨h1, h2, h3⟩
        refine ⟨?_, h2, h3⟩
        unfold Track at h1 ⊢
        rw [msgsOf_append, hu]
        exact h1
      · rintro e u n ⟨rfl, hu⟩
        exact ⟨Track.of_eq (by rw [hu]; rfl), Paused.nil, by simp⟩
      · rintro u n ⟨rfl, hu⟩
        exact ⟨Track.of_eq (by rw [hu]; rfl), Paused.nil, by simp⟩

/-! ### Results queue -/

theorem queueOf_append (a b : List Ev) : queueOf (a ++ b) = queueOf a ++ queueOf b := by
  induction a with
  | nil => rfl
  | cons e t ih => cases e <;> simp [queueOf, ih]

theorem evalsOf_append (i : Nat) (a b : List Ev) : evalsOf i (a ++ b) = evalsOf i a ++ evalsOf i b := by
  induction a with
  | nil => rfl
  | cons e t ih =>
    cases e with
    | evaluated x v => cases v <;> simp [evalsOf, ih]
    | _ => simp [evalsOf, ih]

/-- Neither an evaluation nor anything for the queue. -/
def Silent (n : List Ev) : Prop :=
  ∀ e ∈ n, (∀ x v, e ≠ .evaluated x v) ∧ (∀ r, e ≠ .queued r) ∧ (∀ i, e ≠ .queuedEnd i) ∧ isLost e = false

theorem Silent.append {a b : List Ev} (ha : Silent a) (hb : Silent b) : Silent (a ++ b) := by
  intro e he
  rcases List.mem_append.mp he with h | h
  · exact ha e h
  · exact hb e h

theorem Silent.nil : Silent [] := by intro e he; cases he

theorem reads_silent_bind {m : M α} {f : α → M β} (hm : Reads m fun _ _ n => Silent n)
    (hf : ∀ a, Reads (f a) fun _ _ n => Silent n) : Reads (m >>= f) fun _ _ n => Silent n :=
  hm.bind hf (fun _ _ _ _ _ _ h1 h2 => h1.append h2) (fun _ _ _ h => h) (fun _ _ h => h)

theorem silent_askUnit : Reads askUnit fun _ _ n => Silent n :=
  reads_askUnit.mono fun _ _ _ h => h.1 ▸ Silent.nil

theorem silent_emit {e : Ev} (h : Silent [e]) : Reads (M.emit e) fun _ _ n => Silent n :=
  (reads_emit e).mono fun _ _ _ h' => h'.2.2 ▸ h

theorem silent_throw (e : Exc) : Reads (M.throw e : M α) fun _ _ n => Silent n :=
  (reads_throw e).mono fun _ _ _ h => h.2.2 ▸ Silent.nil

theorem silent_pending : Reads (M.pending : M α) fun _ _ n => Silent n :=
  reads_pending.mono fun _ _ _ h => h.2.2 ▸ Silent.nil

theorem silent_pure (a : α) : Reads (pure a : M α) fun _ _ n => Silent n :=
  (reads_pure a).mono fun _ _ _ h => h.2.2 ▸ Silent.nil

theorem silent_all (cfg : Cfg) (n : Nat) :
    (∀ acc, Reads (checkLoop cfg n acc) fun _ _ n => Silent n) ∧
    (∀ k args, Reads (execute cfg n k args) fun _ _ n => Silent n) ∧
    (Reads (prepare cfg n) fun _ _ n => Silent n) ∧ Reads (waitLoop cfg n) fun _ _ n => Silent n := by
  induction n with
  | zero =>
    refine ⟨fun acc => ?_, fun k args => ?_, ?_, ?_⟩
    · rw [checkLoop]; exact silent_pending
    · rw [execute]; exact silent_pending
    · rw [prepare]; exact silent_pending
    · rw [waitLoop]; exact silent_pending
  | succ n ih =>
    obtain ⟨ih1, ih2, ih3, ih4⟩ := ih
    refine ⟨fun acc => ?_, fun k args => ?_, ?_, ?_⟩
    · rw [checkLoop]
      refine reads_silent_bind (reads_poll.mono fun _ _ _ h => h.1 ▸ Silent.nil) fun a => ?_
      rcases a with _ | m
      · exact silent_pure _
      · cases m <;> dsimp only <;> try split
        all_goals first
          | exact silent_throw _
          | exact reads_silent_bind (ih2 _ _) fun _ => ih1 _
          | exact reads_silent_bind (silent_emit (by simp [Silent, isLost])) fun _ => ih1 _
    · rw [execute]
      split
      · unfold save
        split
        · exact reads_silent_bind silent_askUnit fun _ => silent_emit (by simp [Silent, isLost])
        · exact silent_throw _
      · split
        · unfold callStop
          split
          · exact reads_silent_bind (silent_emit (by simp [Silent, isLost])) fun _ => silent_askUnit
          · split
            · exact reads_silent_bind (silent_emit (by simp [Silent, isLost])) fun _ => silent_askUnit
            · exact silent_throw _
          · exact silent_throw _
        · split
          · split
            · exact ih3
            · exact silent_throw _
          · split
            · unfold pass
              split
              · exact silent_emit (by simp [Silent, isLost])
              · exact silent_throw _
            · unfold inject
              split
              · exact silent_emit (by simp [Silent, isLost])
              · exact silent_throw _
    · rw [prepare]
      refine reads_silent_bind silent_askUnit fun _ => reads_silent_bind (silent_emit (by simp [Silent, isLost])) fun _ =>
        reads_silent_bind ih4 fun _ => reads_silent_bind (silent_emit (by simp [Silent, isLost])) fun _ =>
        reads_silent_bind silent_askUnit fun _ => silent_emit (by simp [Silent, isLost])
    · rw [waitLoop]
      refine reads_silent_bind (reads_waitMsg.mono fun _ _ _ h => h.1 ▸ Silent.nil) fun _ =>
        reads_silent_bind (ih1 _) fun got => ?_
      split
      · exact silent_pure _
      · exact ih4

/-- Every evaluation is followed at once by its report; `o` tells whether the last one may still be missing. -/
inductive Reported (i : Nat) : List Ev → Prop
  | nil : Reported i []
  | silent (h : Silent [e]) : Reported i t → Reported i (e :: t)
  | empty : Reported i t → Reported i (.evaluated x [] :: t)
  | report : Reported i t → Reported i (.evaluated x (v :: ex) :: .queued ⟨i, x, v, ex⟩ :: t)
  | lost : Reported i t → Reported i (.evaluated x (v :: ex) :: .lost x :: t)

theorem Reported.append {i : Nat} {a b : List Ev} (ha : Reported i a) (hb : Reported i b) : Reported i (a ++ b) := by
  induction ha with
  | nil => exact hb
  | silent h _ ih => exact .silent h ih
  | empty _ ih => exact .empty ih
  | report _ ih => exact .report ih
  | lost _ ih => exact .lost ih

theorem Silent.reported {i : Nat} {a : List Ev} (h : Silent a) : Reported i a := by
  induction a with
  | nil => exact .nil
  | cons e t ih =>
    exact .silent (fun x hx => h x (by simp only [List.mem_singleton] at hx; simp [hx]))
      (ih fun x hx => h x (List.mem_cons_of_mem _ hx))

/-- ... or the run is pending right after an evaluation. -/
def Reports (i : Nat) (o : Out α) (n : List Ev) : Prop :=
  Reported i n ∨ o = .pending ∧ ∃ m x v ex, Reported i m ∧ n = m ++ [.evaluated x (v :: ex)]

theorem reports_bind {i : Nat} {m : M α} {f : α → M β} (hm : Reads m fun o _ n => Reports i o n)
    (hf : ∀ a, Reads (f a) fun o _ n => Reports i o n) : Reads (m >>= f) fun o _ n => Reports i o n := by
  refine hm.bind hf ?_ ?_ ?_
  · rintro a u1 n1 o u2 n2 (h1 | ⟨h, _⟩) h2
    · rcases h2 with h2 | ⟨rfl, m, x, v, ex, h2, rfl⟩
      · exact Or.inl (h1.append h2)
      · exact Or.inr ⟨rfl, n1 ++ m, x, v, ex, h1.append h2, by simp⟩
    · cases h
  · rintro e u n (h | ⟨h, _⟩)
    · exact Or.inl h
    · cases h
  · rintro u n (h | ⟨_, h⟩)
    · exact Or.inl h
    · exact Or.inr ⟨rfl, h⟩

theorem reports_of_silent {i : Nat} {m : M α} (h : Reads m fun _ _ n => Silent n) : Reads m fun o _ n => Reports i o n :=
  h.mono fun _ _ _ h => Or.inl h.reported

theorem reports_attempt {i : Nat} {m : M α} (h : Reads m fun o _ n => Reports i o n) :
    Reads (M.attempt m) fun o _ n => Reports i o n := by
  refine h.attempt.mono ?_
  rintro o u n (⟨a, rfl, h | ⟨h, _⟩⟩ | ⟨a, rfl, h | ⟨h, _⟩⟩ | ⟨rfl, h | ⟨_, h⟩⟩)
  · exact Or.inl h
  · cases h
  · exact Or.inl h
  · cases h
  · exact Or.inl h
  · exact Or.inr ⟨rfl, h⟩

theorem reads_tryUnit : Reads (M.attempt askUnit) fun o _ n => n = [] ∧ ∀ e, o ≠ .err e := by
  refine reads_askUnit.attempt.mono ?_
  rintro o u n (⟨a, rfl, h, _⟩ | ⟨a, rfl, h, _⟩ | ⟨rfl, h, _⟩) <;> exact ⟨h, by simp⟩

theorem reads_putResult (r : IterRes) : Reads (putResult r) fun o _ n =>
    n = [.queued r] ∨ n = [.lost r.x] ∨ n = [] ∧ o = .pending := by
  refine reads_tryUnit.bind (Q := fun _ _ _ n => n = [.queued r] ∨ n = [.lost r.x]) (fun a => ?_) ?_ ?_ ?_
  · cases a with
    | ok _ => exact (reads_emit _).mono fun _ _ _ h => Or.inl h.2.2
    | error e =>
      refine (reads_emit _).bind (fun _ => reads_throw e) ?_ ?_ ?_
      · rintro _ u1 n1 o u2 n2 ⟨_, _, rfl⟩ ⟨_, _, rfl⟩; exact Or.inr rfl
      · rintro e u n ⟨h, _⟩; cases h
      · rintro u n ⟨h, _⟩; cases h
  · rintro a u1 n1 o u2 n2 ⟨rfl, _⟩ h
    rcases h with rfl | rfl
    · exact Or.inl rfl
    · exact Or.inr (Or.inl rfl)
  · rintro e u n ⟨_, h⟩; exact absurd rfl (h e)
  · rintro u n ⟨rfl, _⟩; exact Or.inr (Or.inr ⟨rfl, rfl⟩)

theorem reads_evaluate (d : Bool) (x : Vec) : Reads (evaluate d x) fun o _ n =>
    (∃ v, o = .ok v ∧ n = [.evaluated x v]) ∨ n = [] ∧ ∀ v, o ≠ .ok v := by
  refine (reads_ask _).bind (Q := fun v o _ n => o = .ok v ∧ n = [.evaluated x v]) (fun v => ?_) ?_ ?_ ?_
  · refine (reads_emit _).bind (fun _ => reads_pure v) ?_ ?_ ?_
    · rintro _ u1 n1 o u2 n2 ⟨_, _, rfl⟩ ⟨rfl, _, rfl⟩; exact ⟨rfl, rfl⟩
    · rintro e u n ⟨h, _⟩; cases h
    · rintro u n ⟨h, _⟩; cases h
  · rintro v u1 n1 o u2 n2 ⟨rfl, _⟩ ⟨rfl, rfl⟩; exact Or.inl ⟨v, rfl, rfl⟩
  · rintro e u n ⟨rfl, _⟩; exact Or.inr ⟨rfl, by simp⟩
  · rintro u n ⟨rfl, _⟩; exact Or.inr ⟨rfl, by simp⟩

theorem reports_calculate (cfg : Cfg) (d : Bool) (x : Vec) :
    Reads (calculate cfg d x) fun o _ n => Reports cfg.optId o n := by
  refine (reads_evaluate _ x).bind (Q := fun v o _ n => Reports cfg.optId o (.evaluated x v :: n)) (fun v => ?_) ?_ ?_ ?_
  · cases v with
    | nil =>
      refine (reads_throw _).mono ?_
      rintro o u n ⟨_, _, rfl⟩
      exact Or.inl (.empty .nil)
    | cons fx ex =>
      refine (reads_putResult _).bind (fun _ => reads_pure _) ?_ ?_ ?_
      · rintro _ u1 n1 o u2 n2 h ⟨rfl, _, rfl⟩
        rcases h with rfl | rfl | ⟨_, h⟩
        · exact Or.inl (.report .nil)
        · exact Or.inl (.lost .nil)
        · cases h
      · rintro e u n h
        rcases h with rfl | rfl | ⟨_, h⟩
        · exact Or.inl (.report .nil)
        · exact Or.inl (.lost .nil)
        · cases h
      · rintro u n h
        rcases h with rfl | rfl | ⟨rfl, _⟩
        · exact Or.inl (.report .nil)
        · exact Or.inl (.lost .nil)
        · exact Or.inr ⟨rfl, [], x, fx, ex, .nil, rfl⟩
  · rintro v u1 n1 o u2 n2 h h2
    rcases h with ⟨v', h, rfl⟩ | ⟨_, h⟩
    · cases h; exact h2
    · exact absurd rfl (h v)
  · rintro e u n h
    rcases h with ⟨v', h, rfl⟩ | ⟨rfl, h⟩
    · cases h
    · exact Or.inl .nil
  · rintro u n h
    rcases h with ⟨v', h, rfl⟩ | ⟨rfl, h⟩
    · cases h
    · exact Or.inl .nil

theorem silent_message (key : Int) : Reads (messageManager key) fun _ _ n => Silent n :=
  reads_silent_bind silent_askUnit fun _ => silent_emit (by simp [Silent, isLost])

theorem reports_routine (cfg : Cfg) (r : Routine) (n : Nat) (s : r.σ) :
    Reads (runRoutine cfg r n s) fun o _ n => Reports cfg.optId o n := by
  induction n generalizing s with
  | zero => rw [runRoutine]; exact reports_of_silent silent_pending
  | succ n ih =>
    rw [runRoutine]
    split
    · exact reports_of_silent (silent_pure _)
    · exact reports_of_silent (silent_throw _)
    · exact reports_bind (reports_attempt (reports_calculate _ _ _)) fun _ => ih _
    · exact reports_bind (reports_attempt (reports_of_silent ((silent_all cfg n).1 _))) fun _ => ih _
    · exact reports_bind (reports_attempt (reports_of_silent (silent_message _))) fun _ => ih _
    · exact reports_bind (reports_attempt (reports_of_silent silent_askUnit)) fun _ => ih _

theorem reports_guarded (cfg : Cfg) (r : Routine) (fuel : Nat) :
    Reads (guarded cfg r fuel) fun o _ n => Reports cfg.optId o n := by
  refine reports_bind (reports_attempt ?_) fun res => ?_
  · split
    · exact reports_bind (reports_of_silent (silent_throw _)) fun _ => reports_routine _ _ _ _
    · exact reports_bind (reports_of_silent (silent_pure _)) fun _ => reports_routine _ _ _ _
  · rcases res with e | _
    · cases e with
      | error e => exact reports_of_silent (reads_silent_bind (silent_message _) fun _ => silent_throw _)
      | exit => exact reports_of_silent (silent_throw _)
      | keyboard => exact reports_of_silent (silent_pure _)
      | brokenPipe => exact reports_of_silent (silent_pure _)
    · exact reports_of_silent (silent_pure _)

theorem reads_putEnd (i : Nat) : Reads (putEnd i) fun o _ n =>
    n = [.queuedEnd i] ∧ o = .ok () ∨ n = [.lostEnd] ∧ (∃ e, o = .err e) ∨ n = [] ∧ o = .pending := by
  refine reads_tryUnit.bind (Q := fun _ o _ n => n = [.queuedEnd i] ∧ o = .ok () ∨ n = [.lostEnd] ∧ ∃ e, o = .err e)
    (fun a => ?_) ?_ ?_ ?_
  · cases a with
    | ok _ => exact (reads_emit _).mono fun _ _ _ h => Or.inl ⟨h.2.2, h.1⟩
    | error e =>
      refine (reads_emit _).bind (fun _ => reads_throw e) ?_ ?_ ?_
      · rintro _ u1 n1 o u2 n2 ⟨_, _, rfl⟩ ⟨rfl, _, rfl⟩; exact Or.inr ⟨rfl, e, rfl⟩
      · rintro e u n ⟨h, _⟩; cases h
      · rintro u n ⟨h, _⟩; cases h
  · rintro a u1 n1 o u2 n2 ⟨rfl, _⟩ h
    rcases h with h | h
    · exact Or.inl h
    · exact Or.inr (Or.inl h)
  · rintro e u n ⟨_, h⟩; exact absurd rfl (h e)
  · rintro u n ⟨rfl, _⟩; exact Or.inr (Or.inr ⟨rfl, rfl⟩)

/-- The whole life of an optimizer. -/
theorem reads_minimize (cfg : Cfg) (r : Routine) (fuel : Nat) :
    Reads (minimize cfg r fuel) fun o _ n =>
      (o = .pending ∧ Reports cfg.optId o n) ∨
      (o ≠ .pending ∧ ∃ m, Reported cfg.optId m ∧ (n = m ++ [.queuedEnd cfg.optId] ∨ n = m ++ [.lostEnd])) := by
  refine (reports_guarded cfg r fuel).attempt.bind (Q := fun _ o _ n =>
    n = [.queuedEnd cfg.optId] ∧ o ≠ .pending ∨ n = [.lostEnd] ∧ o ≠ .pending ∨ n = [] ∧ o = .pending) (fun a => ?_) ?_ ?_ ?_
  · refine (reads_putEnd _).bind (Q := fun _ o _ n => n = [] ∧ o ≠ .pending) (fun _ => ?_) ?_ ?_ ?_
    · cases a with
      | ok _ => exact (reads_pure _).mono fun _ _ _ h => ⟨h.2.2, by rw [h.1]; simp⟩
      | error e => exact (reads_throw _).mono fun _ _ _ h => ⟨h.2.2, by rw [h.1]; simp⟩
    · rintro _ u1 n1 o u2 n2 h ⟨rfl, ho⟩
      rcases h with ⟨rfl, _⟩ | ⟨rfl, e, h⟩ | ⟨_, h⟩
      · exact Or.inl ⟨rfl, ho⟩
      · cases h
      · cases h
    · rintro e u n h
      rcases h with ⟨rfl, h⟩ | ⟨rfl, e, h⟩ | ⟨_, h⟩
      · cases h
      · exact Or.inr (Or.inl ⟨rfl, by simp⟩)
      · cases h
    · rintro u n h
      rcases h with ⟨rfl, h⟩ | ⟨rfl, e, h⟩ | ⟨rfl, h⟩
      · cases h
      · cases h
      · exact Or.inr (Or.inr ⟨rfl, rfl⟩)
  · rintro a u1 n1 o u2 n2 h h2
    have hr : Reported cfg.optId n1 := by
      rcases h with ⟨_, _, h | ⟨h, _⟩⟩ | ⟨_, _, h | ⟨h, _⟩⟩ | ⟨h, _⟩
      · exact h
      · cases h
      · exact h
      · cases h
      · cases h
    rcases h2 with ⟨rfl, ho⟩ | ⟨rfl, ho⟩ | ⟨rfl, ho⟩
    · exact Or.inr ⟨ho, n1, hr, Or.inl rfl⟩
    · exact Or.inr ⟨ho, n1, hr, Or.inr rfl⟩
    · exact Or.inl ⟨ho, Or.inl (by simpa using hr)⟩
  · rintro e u n (⟨_, h, _⟩ | ⟨_, h, _⟩ | ⟨h, _⟩) <;> cases h
  · rintro u n (⟨_, h, _⟩ | ⟨_, h, _⟩ | ⟨_, h⟩)
    · cases h
    · cases h
    · exact Or.inl ⟨rfl, h⟩

theorem Reported.queue {i : Nat} {n : List Ev} (h : Reported i n) (hl : ∀ e ∈ n, isLost e = false) :
    queueOf n = (evalsOf i n).map .inl := by
  induction h with
  | nil => rfl
  | @silent e t h _ ih =>
    obtain ⟨h1, h2, h3, _⟩ := h e (by simp)
    have ih := ih fun x hx => hl x (List.mem_cons_of_mem _ hx)
    cases e with
    | evaluated x v => exact absurd rfl (h1 x v)
    | queued r => exact absurd rfl (h2 r)
    | queuedEnd r => exact absurd rfl (h3 r)
    | _ => simpa [queueOf, evalsOf] using ih
  | empty _ ih => simpa [queueOf, evalsOf] using ih fun x hx => hl x (List.mem_cons_of_mem _ hx)
  | report _ ih =>
    simpa [queueOf, evalsOf] using ih fun x hx => hl x (List.mem_cons_of_mem _ (List.mem_cons_of_mem _ hx))
  | @lost t x v ex _ ih => exact absurd (hl (.lost x) (by simp)) (by simp [isLost])

/-- Nothing is put on the queue but reports of evaluations. -/
theorem Reported.queue_sublist {i : Nat} {n : List Ev} (h : Reported i n) :
    (queueOf n).Sublist ((evalsOf i n).map .inl) := by
  induction h with
  | nil => simp [queueOf]
  | @silent e t h _ ih =>
    obtain ⟨h1, h2, h3, _⟩ := h e (by simp)
    cases e with
    | evaluated x v => exact absurd rfl (h1 x v)
    | queued r => exact absurd rfl (h2 r)
    | queuedEnd r => exact absurd rfl (h3 r)
    | _ => simpa [queueOf, evalsOf] using ih
  | empty _ ih => simpa [queueOf, evalsOf] using ih
  | report _ ih => simpa [queueOf, evalsOf] using ih
  | lost _ ih => simpa [queueOf, evalsOf] using ih.cons _

/-! ### Runs without trouble -/

theorem codeOf_none_key {k : Int} {args : List Arg} (h : codeOf (.tuple k args) = none) : k ∉ keys := by
  simp only [codeOf] at h
  split at h
  · cases h
  · simp only [keys, List.mem_cons, List.not_mem_nil, or_false]; omega

theorem smooth_ignored {m : Msg} (h : codeOf m = none) (t : List Msg) : smooth (m :: t) = .msg m :: smooth t := by
  cases m with
  | tuple k args =>
    have hk := codeOf_none_key h
    simp only [keys, List.mem_cons, List.not_mem_nil, or_false, not_or] at hk
    rw [smooth]
    · intro a h; cases h; exact hk.1 rfl
    · intro a h; cases h; exact hk.2.1 rfl
  | _ => rfl

theorem checkLoop_smooth (cfg : Cfg) (ms : List Msg) : ∀ (fuel : Nat) (acc : List Int) (rest : List Obs) (ev : List Ev),
    (∀ m ∈ ms, Plain m) → ms.length + 2 ≤ fuel →
    checkLoop cfg fuel acc ⟨smooth ms ++ .quiet :: rest, ev⟩ =
      (.ok (acc ++ ms.filterMap codeOf), ⟨rest, ev ++ ms.map documented⟩) := by
  induction ms with
  | nil =>
    intro fuel acc rest ev _ hf
    obtain ⟨n, rfl⟩ : ∃ n, fuel = n + 1 := ⟨fuel - 1, by omega⟩
    simp [checkLoop, smooth, bind, M.bind, poll, M.ask, pure, M.pure]
  | cons m t ih =>
    intro fuel acc rest ev hms hf
    obtain ⟨n, rfl⟩ : ∃ n, fuel = n + 1 + 1 := ⟨fuel - 2, by simp only [List.length_cons] at hf; omega⟩
    have hf' : t.length + 2 ≤ n + 1 := by simp only [List.length_cons] at hf; omega
    have ht := fun acc ev => ih (n + 1) acc rest ev (fun m hm => hms m (List.mem_cons_of_mem _ hm)) hf'
    rcases hms m (by simp) with ⟨p, rfl⟩ | ⟨p, rfl⟩ | rfl | ⟨x, fx, rfl⟩ | ⟨hc, hne⟩
    · rw [checkLoop]
      simp [smooth, bind, M.bind, poll, M.ask, keys, execute, save, askUnit, M.emit, ht, codeOf, documented]
    · rw [checkLoop]
      simp [smooth, bind, M.bind, poll, M.ask, keys, execute, callStop, askUnit, M.emit, ht, codeOf, documented]
    · rw [checkLoop]
      simp [smooth, bind, M.bind, poll, M.ask, keys, execute, pass, M.emit, ht, codeOf, documented]
    · rw [checkLoop]
      simp [smooth, bind, M.bind, poll, M.ask, keys, execute, inject, M.emit, ht, codeOf, documented]
    · rw [smooth_ignored hc, List.filterMap_cons_none hc]
      rw [checkLoop]
      cases m with
      | int k =>
        have hk : k ∉ keys := codeOf_none_key (args := []) hc
        simp [bind, M.bind, poll, M.ask, hk, M.emit, ht, (documented_not_key hk []).1]
      | tuple k args =>
        have hk : k ∉ keys := codeOf_none_key hc
        simp [bind, M.bind, poll, M.ask, hk, M.emit, ht, (documented_not_key hk args).2]
      | emptyTuple => exact absurd rfl hne
      | other => simp [bind, M.bind, poll, M.ask, M.emit, ht, documented]

theorem smooth_head {m : Msg} {t : List Msg} : ∃ l, smooth (m :: t) = .msg m :: l := by
  unfold smooth; split
  · simp_all
  · rename_i h; cases h; exact ⟨_, rfl⟩
  · rename_i h; cases h; exact ⟨_, rfl⟩
  · rename_i h; cases h; exact ⟨_, rfl⟩

theorem waitMsg_smooth {ms : List Msg} (hne : ms ≠ []) {k : Nat} {rest : List Obs} {ev : List Ev} :
    waitMsg ⟨List.replicate k .quiet ++ smooth ms ++ rest, ev⟩ = (.ok (), ⟨smooth ms ++ rest, ev⟩) := by
  obtain ⟨m, t, rfl⟩ : ∃ m t, ms = m :: t := by
    cases ms with
    | nil => exact absurd rfl hne
    | cons m t => exact ⟨m, t, rfl⟩
  obtain ⟨l, hl⟩ := smooth_head (m := m) (t := t)
  have : (List.replicate k Obs.quiet ++ smooth (m :: t) ++ rest).dropWhile (fun o => decide (o = Obs.quiet)) = .msg m :: (l ++ rest) := by
    rw [hl]
    induction k with
    | zero => simp
    | succ k ih => simpa [List.replicate_succ] using ih
  simp only [waitMsg, this]
  rw [hl]; rfl

end Glompo.Optimizer
