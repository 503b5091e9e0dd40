import Verif.Lemmas.ManagerStep
import Verif.Lemmas.LoggerStore

namespace Glompo.Manager

open Glompo.Spec
open Glompo.Logger (Op)

theorem mem_addTo {l : List Nat} {i j : Nat} : j ∈ addTo l i ↔ j ∈ l ∨ j = i := by
  simp only [addTo]; split
  · constructor
    · exact Or.inl
    · rintro (h | rfl) <;> assumption
  · simp

theorem mem_dictSet {l : List (Nat × Int)} {i : Nat} {w : Int} {p : Nat × Int} (h : p ∈ dictSet l i w) :
    p ∈ l ∨ p = (i, w) := by
  induction l with
  | nil => simpa [dictSet] using h
  | cons q t ih =>
    simp only [dictSet] at h
    split at h
    · rename_i hq
      rcases List.mem_cons.mp h with h | h
      · have hq' : q.1 = i := by simpa using hq
        rw [hq'] at h; exact .inr h
      · exact .inl (List.mem_cons_of_mem _ h)
    · rcases List.mem_cons.mp h with h | h
      · exact .inl (h ▸ List.mem_cons_self)
      · exact (ih h).imp_left (List.mem_cons_of_mem _)

theorem wellFormed_snoc {ops : List Op} {op : Op} (h : WellFormed ops) (ho : OpOk ops op) :
    WellFormed (ops ++ [op]) := by
  intro pre o post e
  rcases List.eq_nil_or_concat post with rfl | ⟨post', z, rfl⟩
  · obtain ⟨rfl, h'⟩ := List.append_inj' (s₁ := ops) (t₁ := [op]) (s₂ := pre) (t₂ := [o]) (by simpa using e) rfl
    cases h'; exact ho
  · have e' : ops ++ [op] = (pre ++ o :: post') ++ [z] := by simpa using e
    obtain ⟨h1, h'⟩ := List.append_inj' e' rfl
    exact h pre o post' h1

variable {cfg : Cfg} {s s' : State}

theorem Inv.isBest (inv : Inv cfg s) : IsBest s.log.best.x s.log.best.fx s.log.best.optId (loggedOf s.ev) := by
  rw [inv.log, ← inv.evs]
  rcases Logger.best_run s.first.traj inv.wf with ⟨h1, h2⟩ | ⟨k, r, t, h1, h2, h3, h4⟩
  · left; rw [h2]; exact ⟨h1, rfl, rfl, rfl⟩
  · right; rw [h4]; exact ⟨k, r, h1, h2, rfl, rfl, rfl⟩

theorem Inv.leads (inv : Inv cfg s) {h : Nat} (h0 : 0 < h) (hb : s.log.best.optId = h) :
    Leads (loggedOf s.ev) h := by
  rcases inv.isBest with ⟨-, -, -, h4⟩ | ⟨k, r, h1, h2, -, -, h5⟩
  · omega
  · exact ⟨k, r, h1, h2, by rw [← h5, hb]⟩

theorem Inv.good_snoc (inv : Inv cfg s) {x : Ev} (h : Good cfg s.ev x) : AfterEach (Fine s.first) (s.ev ++ [x]) :=
  afterEach_snoc.mpr ⟨inv.good, by show Good (settings s.first s.ev) s.ev x; rw [inv.set]; exact h⟩

theorem Inv.store (inv : Inv cfg s) : Logger.StoreInv s.ops s.log := by
  rw [inv.log]; exact Logger.storeInv_run _ _ inv.wf

theorem Inv.running (inv : Inv cfg s) {i : Nat} (h : s.alive i = true) : Running s.ev i := by
  simp only [State.alive, Bool.and_eq_true, decide_eq_true_eq, Bool.not_eq_true', decide_eq_false_iff_not] at h
  obtain ⟨h1, h2⟩ := h
  rw [inv.startedP, List.mem_map] at h1
  obtain ⟨⟨j, w⟩, h1, rfl⟩ := h1
  exact ⟨⟨w, h1⟩, fun hd => h2 ((inv.dead _).mpr hd)⟩

theorem Inv.alive_iff (inv : Inv cfg s) {i : Nat} : s.alive i = true ↔ Running s.ev i := by
  refine ⟨inv.running, fun ⟨⟨w, hw⟩, hd⟩ => ?_⟩
  simp only [State.alive, Bool.and_eq_true, decide_eq_true_eq, Bool.not_eq_true', decide_eq_false_iff_not]
  exact ⟨(inv.startedP i).mpr (List.mem_map.mpr ⟨_, hw, rfl⟩), fun h => hd ((inv.dead i).mp h)⟩

theorem Inv.mem_newIds (inv : Inv cfg s) {i : Nat} (h : i ∈ added s.ops) : i ∈ newIdsOf s.ev := by
  rw [inv.ids, List.mem_range'_1]
  have := inv.regs i h
  omega

theorem lateEval_snoc {ev : List Ev} {i : Nat} (h : LateEval i ev) (x : Ev) : LateEval i (ev ++ [x]) := by
  obtain ⟨a, b, r, rfl, h1, h2⟩ := h
  exact ⟨a, b ++ [x], r, by simp, List.mem_append_left _ h1, h2⟩

/-- Operations which add to no history keep the order of releases and additions. -/
theorem late_snoc {ops : List Op} {ev ev' : List Ev} {op : Op}
    (h : ∀ pre o post, ops = pre ++ o :: post → ∀ i, Concerns o i → Op.clear (some i) ∈ pre → LateEval i ev)
    (hev : ∀ i, LateEval i ev → LateEval i ev') (ho : ∀ i, Concerns op i → Op.clear (some i) ∈ ops → LateEval i ev') :
    ∀ pre o post, ops ++ [op] = pre ++ o :: post → ∀ i, Concerns o i → Op.clear (some i) ∈ pre → LateEval i ev' := by
  intro pre o post e
  rcases List.eq_nil_or_concat post with rfl | ⟨post', z, rfl⟩
  · obtain ⟨rfl, h'⟩ := List.append_inj' (s₁ := ops) (t₁ := [op]) (s₂ := pre) (t₂ := [o]) (by simpa using e) rfl
    cases h'; exact ho
  · have e' : ops ++ [op] = (pre ++ o :: post') ++ [z] := by simpa using e
    obtain ⟨h1, h'⟩ := List.append_inj' e' rfl
    exact fun i hc hm => hev i (h pre o post' h1 i hc hm)

theorem headed_snoc {ev : List Ev} {r : IterRes} {hs : List String} (h : Headed ev r hs) (x : Ev) : Headed (ev ++ [x]) r hs :=
  ⟨h.1, fun he => List.mem_append_left _ (h.2 he)⟩

/-- Operations which open no history leave the headings alone. -/
theorem heads_snoc {ops : List Op} {ev ev' : List Ev} {op : Op}
    (h : ∀ pre i hs post, ops = pre ++ .addHist i hs :: post → ∃ r post', post = .put r :: post' ∧ r.optId = i ∧ Headed ev r hs)
    (hev : ∀ r hs, Headed ev r hs → Headed ev' r hs) (ho : ∀ i hs, op ≠ .addHist i hs) :
    ∀ pre i hs post, ops ++ [op] = pre ++ .addHist i hs :: post →
      ∃ r post', post = .put r :: post' ∧ r.optId = i ∧ Headed ev' r hs := by
  intro pre i hs post e
  rcases List.eq_nil_or_concat post with rfl | ⟨post', z, rfl⟩
  · obtain ⟨-, h'⟩ := List.append_inj' (s₁ := ops) (t₁ := [op]) (s₂ := pre) (t₂ := [.addHist i hs]) (by simpa using e) rfl
    cases h'; exact absurd rfl (ho i hs)
  · have e' : ops ++ [op] = (pre ++ .addHist i hs :: post') ++ [z] := by simpa using e
    obtain ⟨h1, h'⟩ := List.append_inj' e' rfl
    obtain ⟨r, q, rfl, h2, h3⟩ := h pre i hs post' h1
    exact ⟨r, q ++ [z], by simp, h2, hev _ _ h3⟩

/-- A history is opened together with its first evaluation. -/
theorem heads_new {ops : List Op} {ev ev' : List Ev} {r : IterRes} {names : List String}
    (h : ∀ pre i hs post, ops = pre ++ .addHist i hs :: post → ∃ r post', post = .put r :: post' ∧ r.optId = i ∧ Headed ev r hs)
    (hev : ∀ r hs, Headed ev r hs → Headed ev' r hs) (hn : Headed ev r names) :
    ∀ pre i hs post, ops ++ [.addHist r.optId names] ++ [.put r] = pre ++ .addHist i hs :: post →
      ∃ r post', post = .put r :: post' ∧ r.optId = i ∧ Headed ev' r hs := by
  intro pre i hs post e
  rcases List.eq_nil_or_concat post with rfl | ⟨post', z, rfl⟩
  · obtain ⟨-, h'⟩ := List.append_inj' (s₁ := ops ++ [.addHist r.optId names]) (t₁ := [.put r]) (s₂ := pre) (t₂ := [.addHist i hs]) (by simpa using e) rfl
    cases h'
  · have e' : ops ++ [.addHist r.optId names] ++ [.put r] = (pre ++ .addHist i hs :: post') ++ [z] := by simpa using e
    obtain ⟨h1, h'⟩ := List.append_inj' e' rfl
    cases h'
    rcases List.eq_nil_or_concat post' with rfl | ⟨q, y, rfl⟩
    · obtain ⟨-, h2⟩ := List.append_inj' (s₁ := ops) (t₁ := [.addHist r.optId names]) (s₂ := pre) (t₂ := [.addHist i hs]) (by simpa using h1) rfl
      cases h2
      exact ⟨r, [], rfl, rfl, hev _ _ hn⟩
    · have h2 : ops ++ [.addHist r.optId names] = (pre ++ .addHist i hs :: q) ++ [y] := by simpa using h1
      obtain ⟨h3, -⟩ := List.append_inj' h2 rfl
      obtain ⟨r', q', rfl, h4, h5⟩ := h pre i hs q h3
      exact ⟨r', q' ++ [y, .put r], by simp, h4, hev _ _ h5⟩

/-- The evaluation in hand was received last. -/
theorem inHand_last {c₀ : Cfg} {ev : List Ev} (hg : AfterEach (Fine c₀) ev) {r : IterRes} (h : inHand ev = some r) :
    ∃ a b, ev = a ++ .received (.res r) :: b ∧ ∀ m, Ev.received m ∉ b := by
  induction ev using snoc_induction with
  | h0 => cases h
  | h l x ih =>
    obtain ⟨g1, g2⟩ := afterEach_snoc.mp hg
    have keep : inHand l = some r → (∀ m, x ≠ .received m) → ∃ a b, l ++ [x] = a ++ .received (.res r) :: b ∧ ∀ m, Ev.received m ∉ b := by
      intro hl hx
      obtain ⟨a, b, rfl, hb⟩ := ih g1 hl
      refine ⟨a, b ++ [x], by simp, fun m hm => ?_⟩
      rcases List.mem_append.mp hm with hm | hm
      · exact hb m hm
      · exact hx m (List.mem_singleton.mp hm).symm
    rw [inHand_snoc] at h
    cases x with
    | received m =>
      have hn : inHand l = none := g2.2
      cases m with
      | fin i => rw [hn] at h; cases h
      | res r' => cases h; exact ⟨l, [], rfl, by simp⟩
    | accepted => cases h
    | ignored => cases h
    | _ => exact keep h (by simp)

theorem note_added {ops : List Op} {op : Op}
    (h : (∃ i k v, op = .putMeta i k v) ∨ (∃ i m, op = .putMsg i m) ∨ ∃ i, op = .clear i) :
    added (ops ++ [op]) = added ops ∧ opened (ops ++ [op]) = opened ops ∧ evals (ops ++ [op]) = evals ops ∧
    OpOk ops op := by
  rcases h with ⟨i, k, v, rfl⟩ | ⟨i, m, rfl⟩ | ⟨i, rfl⟩ <;> simp [added, opened, evals, OpOk]

theorem running_snoc {ev : List Ev} {x : Ev} (hs : ∀ i w, x ≠ .started i w) (hr : ∀ i w, x ≠ .restarted i w)
    {i : Nat} (h : Running (ev ++ [x]) i) : Running ev i := by
  obtain ⟨⟨w, h1⟩, h2⟩ := h
  rw [startedOf_snoc] at h1
  rw [diedOf_snoc] at h2
  cases x with
  | started => exact absurd rfl (hs _ _)
  | restarted => exact absurd rfl (hr _ _)
  | resumed => cases h1
  | died => exact ⟨⟨w, h1⟩, fun hh => h2 (List.mem_append_left _ hh)⟩
  | _ => exact ⟨⟨w, h1⟩, h2⟩

theorem why_snoc {ev : List Ev} {x : Ev} {c : Bool}
    (h : c = true → lastCheck ev = some true ∨ ((∀ i, ¬ Running ev i) ∧ ∃ k, Ev.asked k .stop ∈ ev))
    (hs : ∀ i w, x ≠ .started i w) (hr : ∀ i w, x ≠ .restarted i w) (hc : ∀ b, x ≠ .checked b)
    (hm : ∀ c n, x ≠ .resumed c n) :
    c = true → lastCheck (ev ++ [x]) = some true ∨
      ((∀ i, ¬ Running (ev ++ [x]) i) ∧ ∃ k, Ev.asked k .stop ∈ ev ++ [x]) := by
  intro e
  rcases h e with h | ⟨h, k, hk⟩
  · left; rw [lastCheck_snoc]; cases x <;> simp_all
  · right; exact ⟨fun i hr' => h i (running_snoc hs hr hr'), k, List.mem_append_left _ hk⟩

theorem stats_snoc {s t : State} {x : Ev} (h : StatsOk s) (hr : t.result = s.result) (he : t.ev = s.ev ++ [x])
    (hx : ∀ v f i, x ≠ .updated v f i) : StatsOk t := by
  have : atUpdate t.ev = atUpdate s.ev := by
    rw [he, atUpdate_snoc]; cases x <;> first | rfl | exact absurd rfl (hx _ _ _)
  unfold StatsOk; rw [this, hr]; exact h

/-- An evaluation accepted after the release of the memory came after the last message. -/
theorem Inv.lateEval (inv : Inv cfg s) {r : IterRes} (hi : inHand s.ev = some r) (hm : Op.clear (some r.optId) ∈ s.ops) :
    LateEval r.optId s.ev := by
  obtain ⟨i, e, hf⟩ := inv.rel _ hm
  cases e
  obtain ⟨a, b, he, hb⟩ := inHand_last inv.good hi
  rw [he] at hf
  rcases List.mem_append.mp hf with hf | hf
  · obtain ⟨a1, a2, e2⟩ := List.append_of_mem hf
    exact ⟨a1, a2 ++ .received (.res r) :: b, r, by rw [he, e2]; simp, by simp, rfl⟩
  · rcases List.mem_cons.mp hf with hf | hf
    · cases hf
    · exact absurd hf (hb _)

theorem leads_unique {es : List IterRes} {h h' : Nat} (a : Leads es h) (b : Leads es h') : h = h' := by
  obtain ⟨k, r, h1, h2, h3⟩ := a
  obtain ⟨k', r', h1', h2', h3'⟩ := b
  have := EarliestMin.unique h1 h1'
  subst this
  rw [h2] at h2'; cases h2'
  exact h3.symm.trans h3'

theorem lossless_prefix {a b : List Ev} (h : Lossless (a ++ b)) : Lossless a :=
  fun pre c n post e => h pre c n (post ++ b) (by rw [e]; simp)

theorem logged_of_lossless : ∀ ev, Lossless ev → loggedOf ev = acceptedOf ev := by
  refine snoc_induction (fun _ => rfl) fun l x ih => ?_
  intro h
  have ih := ih (lossless_prefix h)
  rw [loggedOf_snoc, acceptedOf_snoc]
  cases x with
  | accepted r => simp [ih]
  | resumed c n =>
    simp only [List.append_nil]
    rw [List.take_of_length_le (h l c n [] rfl)]; exact ih
  | _ => simpa using ih

/-- Without a loading nothing is lost. -/
theorem lossless_of_fresh {ev : List Ev} (h : ∀ c n, Ev.resumed c n ∉ ev) : Lossless ev :=
  fun pre c n post e => absurd (by rw [e]; simp) (h c n)

theorem result_ok {c₀ : Cfg} : ∀ ev, AfterEach (Fine c₀) ev → Lossless ev →
    (UpToDate ev = true → (acceptedOf ev = [] ∧ lastResult ev = none) ∨
      ∃ x fx i, lastResult ev = some (x, fx, i) ∧ IsBest x fx i (acceptedOf ev)) ∧
    (UpToDate ev = false → ∃ es r, acceptedOf ev = es ++ [r] ∧ ((es = [] ∧ lastResult ev = none) ∨
      ∃ x fx i, lastResult ev = some (x, fx, i) ∧ IsBest x fx i es)) := by
  refine snoc_induction ?_ fun l x ih => ?_
  · intro _ _
    exact ⟨fun _ => .inl ⟨rfl, rfl⟩, fun h => by cases h⟩
  · intro hg hL
    replace hL := lossless_prefix hL
    obtain ⟨hg, hx⟩ := afterEach_snoc.mp hg
    obtain ⟨ih1, ih2⟩ := ih hg hL
    rw [UpToDate_snoc, acceptedOf_snoc, lastResult_snoc]
    cases x with
    | accepted r =>
      refine ⟨fun h => (by cases h), fun _ => ⟨_, r, rfl, ?_⟩⟩
      exact ih1 hx.2.2.1
    | updated v f i =>
      refine ⟨fun _ => .inr ⟨v, f, i, rfl, ?_⟩, fun h => (by cases h)⟩
      rw [List.append_nil, ← logged_of_lossless l hL]; exact hx
    | _ => simpa only [List.append_nil] using And.intro ih1 ih2

theorem kept_snoc {ev : List Ev} {L : Logger}
    (h : Lossless ev → Ev.received (.fin 0) ∉ ev → ∀ i, Leads (loggedOf ev) i → L.hasIterHistory i = true) (x : Ev)
    (hx : loggedOf (ev ++ [x]) = loggedOf ev) :
    Lossless (ev ++ [x]) → Ev.received (.fin 0) ∉ ev ++ [x] → ∀ i, Leads (loggedOf (ev ++ [x])) i → L.hasIterHistory i = true :=
  fun hL h0 i hi => h (lossless_prefix hL) (fun hm => h0 (List.mem_append_left _ hm)) i (hx ▸ hi)

theorem leads_snoc {es : List IterRes} {r : IterRes} {h : Nat} (hl : Leads (es ++ [r]) h) : h = r.optId ∨ Leads es h := by
  obtain ⟨k, r', ⟨r0, hr0, hP, hlt, hmin⟩, hk, hid⟩ := hl
  rcases Nat.lt_or_ge k es.length with hlen | hge
  · right
    rw [List.getElem?_append_left hlen] at hr0 hk
    refine ⟨k, r', ⟨r0, hr0, hP, hlt, fun j rj hj => hmin j rj ?_⟩, hk, hid⟩
    rw [List.getElem?_append_left (List.getElem?_eq_some_iff.mp hj).1]; exact hj
  · left
    have hlen : k < (es ++ [r]).length := (List.getElem?_eq_some_iff.mp hk).1
    have : k = es.length := by simp at hlen; omega
    subst this
    simp at hk
    rw [← hid, hk]

theorem chosenAs_append {ev : List Ev} {i : Nat} {c : String} (h : ChosenAs ev i c) (l : List Ev) : ChosenAs (ev ++ l) i c := by
  obtain ⟨pre, k, w, post, rfl⟩ := h
  exact ⟨pre, k, w, post ++ l, by simp⟩

theorem classOk_append {s t : State} (h : ClassOk s) (l : List Ev) (ho : t.result.origin = s.result.origin) (he : t.ev = s.ev ++ l)
    (h1 : ∀ i c, Op.add i c ∈ t.ops → Op.add i c ∈ s.ops) (h2 : ∀ i v, Op.putMeta i "opt_type" v ∈ t.ops → Op.putMeta i "opt_type" v ∈ s.ops) :
    ClassOk t := by
  refine ⟨fun i c hc => ?_, fun i c hc => ?_, fun i v hv => h.2.2 i v (h2 i v hv)⟩
  · rw [he]; exact chosenAs_append (h.1 i c (h1 i c hc)) l
  · rw [he]; rw [ho] at hc; exact (h.2.1 i c hc).imp id fun h => chosenAs_append h l

/-- Discharges the fields a step does not touch. -/
macro "inv_auto" inv:ident : tactic => `(tactic| (
  first
  | exact ($inv).log
  | exact ($inv).wf
  | exact ($inv).evs
  | exact ($inv).cnt
  | exact ($inv).ids
  | exact ($inv).regs
  | exact ($inv).keys
  | exact ($inv).nodup
  | exact ($inv).startedP
  | exact ($inv).startedReg
  | exact ($inv).dead
  | exact ($inv).deadStarted
  | exact ($inv).slots
  | (intro p hp
     simp only [startedOf_snoc] at hp
     rcases ($inv).slots p hp with ⟨k, c, hkc⟩ | hkc
     · exact Or.inl ⟨k, c, List.mem_append_left _ hkc⟩
     · exact Or.inr hkc)
  | exact ($inv).chosen
  | (intro p hp
     obtain ⟨k, c, hkc⟩ := ($inv).chosen p hp
     exact ⟨k, c, List.mem_append_left _ hkc⟩)
  | exact ($inv).launched
  | simpa only [launchedOf_snoc, newIdsOf_snoc, List.append_nil] using ($inv).launched
  | exact ($inv).stats
  | exact stats_snoc ($inv).stats rfl rfl (by simp)
  | exact ($inv).set
  | simpa only [settings_snoc] using ($inv).set
  | exact ($inv).living
  | exact ($inv).vict
  | exact ($inv).vnodup
  | exact ($inv).vgrave
  | exact ($inv).vids
  | exact ($inv).conv
  | exact ($inv).fgrave
  | exact ($inv).opened
  | exact ($inv).hunt
  | exact ($inv).spawn
  | exact ($inv).res
  | exact ($inv).chk
  | exact ($inv).why
  | exact ($inv).marks
  | exact ($inv).since
  | exact ($inv).hunts
  | exact ($inv).good
  | exact ($inv).rel
  | exact ($inv).late
  | exact ($inv).heads
  | exact ($inv).kept
  | exact ($inv).cls
  | exact classOk_append ($inv).cls _ rfl rfl (fun _ _ h => h) (fun _ _ h => h)
  | exact kept_snoc ($inv).kept _ (by simp only [loggedOf_snoc, List.append_nil])
  | exact fun o h => (($inv).rel o h).imp fun i h => ⟨h.1, List.mem_append_left _ h.2⟩
  | exact fun pre op post e i hc hm => lateEval_snoc (($inv).late pre op post e i hc hm) _
  | exact fun pre i hs post e => (($inv).heads pre i hs post e).imp fun r h => h.imp fun q h => ⟨h.1, h.2.1, headed_snoc h.2.2 _⟩
  | simpa only [lastCheck_snoc] using ($inv).chk
  | exact why_snoc ($inv).why (by simp) (by simp) (by simp) (by simp)
  | simpa only [sinceCrash_snoc] using ($inv).since
  | simpa only [huntsOf_snoc, List.append_nil] using ($inv).hunts
  | simpa only [loggedOf_snoc, List.append_nil] using ($inv).evs
  | simpa only [acceptedOf_snoc, List.append_nil] using ($inv).cnt
  | simpa only [newIdsOf_snoc, List.append_nil] using ($inv).ids
  | simpa only [startedOf_snoc] using ($inv).startedP
  | simpa only [diedOf_snoc] using ($inv).dead
  | simpa only [startedOf_snoc, diedOf_snoc, State.alive] using ($inv).living
  | simpa only [killedOf_snoc, List.append_nil] using ($inv).vict
  | simpa only [newIdsOf_snoc, List.append_nil] using ($inv).vids
  | simpa only [finishedOf_snoc, List.append_nil] using ($inv).conv
  | simpa only [finishedOf_snoc, failedOf_snoc, forcedOf_snoc, List.append_nil] using ($inv).fgrave
  | simpa only [loggedOf_snoc, List.append_nil] using ($inv).opened
  | simpa only [sinceHunt_snoc] using ($inv).hunt
  | simpa only [lastResult_snoc] using ($inv).res
  | simpa only [List.mem_append, List.mem_singleton, reduceCtorEq, or_false] using ($inv).spawn))

theorem accept_room (inv : Inv cfg s) (hc : Room 1 s) :
    ckptFree s.ev = true → lastCheck s.ev ≠ some true ∧ ∀ c, ChunksAtMost c s.ev → sinceCheck s.ev < 9 + c := by
  intro h
  obtain ⟨h1, h2⟩ := hc h
  refine ⟨fun e => ?_, fun c hc' => by have := h2 c hc'; omega⟩
  have := inv.chk e
  rw [h1] at this; cases this

set_option maxHeartbeats 2000000 in
theorem Step.inv {lab : Lab} (h : Step cfg lab s s') (inv : Inv cfg s) : Inv cfg s' := by
  cases h with
  | die _ i h =>
    constructor
    case good => exact inv.good_snoc (inv.running h)
    all_goals first
      | inv_auto inv
      | skip
    · intro j; simp [diedOf_snoc, inv.dead]; exact or_comm
    · intro j hj
      simp only [List.mem_cons] at hj
      rcases hj with rfl | hj
      · simp only [State.alive, Bool.and_eq_true, decide_eq_true_eq] at h; exact h.1
      · exact inv.deadStarted j hj
    · have hl := inv.living
      simp only [State.alive, List.mem_cons, startedOf_snoc, diedOf_snoc, List.append_nil, List.mem_append,
        List.not_mem_nil, or_false] at hl ⊢
      have e1 : (s.packs.filter fun p => decide (p.1 ∈ s.startedP) && !decide (p.1 = i ∨ p.1 ∈ s.dead)) =
          (s.packs.filter fun p => decide (p.1 ∈ s.startedP) && !decide (p.1 ∈ s.dead)).filter
            fun p => decide (p.1 ≠ i) := by
        rw [List.filter_filter]; congr 1; funext p
        by_cases h1 : p.1 = i <;> simp [h1]
      have e2 : ((startedOf s.ev).filter fun p => decide (¬ (p.1 ∈ diedOf s.ev ∨ p.1 = i))) =
          ((startedOf s.ev).filter fun p => decide (p.1 ∉ diedOf s.ev)).filter fun p => decide (p.1 ≠ i) := by
        rw [List.filter_filter]; congr 1; funext p
        by_cases h1 : p.1 = i <;> simp [h1]
      rw [e1, e2, hl]
  | askStop _ k h hl =>
    constructor
    case good => exact inv.good_snoc ⟨inv.spawn.mp h.1, hl⟩
    all_goals first
      | inv_auto inv
      | skip
    simp only [Bool.false_eq_true, false_iff]
    intro hh; exact hh k (by simp)
  | ask _ k a ha h hl =>
    constructor
    case good => exact inv.good_snoc ⟨inv.spawn.mp h.1, hl⟩
    all_goals first
      | inv_auto inv
      | skip
    rw [inv.spawn]
    have : ∀ k', Ev.asked k' SelAns.stop ≠ Ev.asked k a := by
      intro k' e; cases e; exact ha rfl
    simp [this]
  | newId _ h hc =>
    constructor
    case good =>
      refine inv.good_snoc ?_
      exact ⟨by rw [inv.ids, List.length_range'], inv.spawn.mp h.1, hc⟩
    all_goals first
      | inv_auto inv
      | skip
    · rw [newIdsOf_snoc, inv.ids, List.range'_concat]
      simp [Nat.add_comm]
    · intro i hi; have := inv.regs i hi; show 1 ≤ i ∧ i ≤ s.oCounter + 1; omega
    · intro i hi
      rw [launchedOf_snoc, List.append_nil] at hi
      rw [newIdsOf_snoc]; exact List.mem_append_left _ (inv.launched i hi)
    · intro i hi; rw [newIdsOf_snoc]; exact List.mem_append_left _ (inv.vids i hi)
    · exact ⟨inv.marks.1, Nat.le_succ_of_le inv.marks.2⟩
    · rw [sinceCrash_snoc]; simpa using inv.since
  | register _ cls w h0 h hw hcl =>
    have ha : ∀ i, i ∈ added (s.ops ++ [Op.add s.oCounter cls]) ↔ i ∈ added s.ops ∨ i = s.oCounter := by simp [added]
    constructor
    case kept =>
      intro hL hz i hi
      have hk := inv.kept hL hz i hi
      refine Logger.keeps_history s.log (.add s.oCounter cls) i hk (fun t e => ?_) (by simp)
      cases e
      exact h (Logger.hasIterHistory_opened inv.store hk).1
    case cls =>
      refine ⟨fun i c hc => ?_, inv.cls.2.1, fun i v hv => inv.cls.2.2 i v (by simpa using hv)⟩
      rcases List.mem_append.mp hc with hc | hc
      · exact inv.cls.1 i c hc
      · cases List.mem_singleton.mp hc; exact hcl
    case log => rw [Logger.run_snoc, ← inv.log]; rfl
    case wf => exact wellFormed_snoc inv.wf ⟨h0, h⟩
    case evs => simpa [evals] using inv.evs
    case regs =>
      intro i hi; rw [ha] at hi
      rcases hi with hi | rfl
      · exact inv.regs i hi
      · show 1 ≤ s.oCounter ∧ s.oCounter ≤ s.oCounter; omega
    case keys => intro i hi; rw [ha]; exact Or.inl (inv.keys i hi)
    case startedReg => intro i hi; rw [ha]; exact Or.inl (inv.startedReg i hi)
    case opened => simpa [opened] using inv.opened
    case rel => intro o ho; exact inv.rel o (by simpa using ho)
    case late => exact late_snoc inv.late (fun _ h => h) fun i hc => by rcases hc with ⟨r, hr, -⟩ | ⟨hs, hr⟩ <;> cases hr
    case heads => exact heads_snoc inv.heads (fun _ _ h => h) (by simp)
    case chosen =>
      intro p hp
      rcases mem_dictSet hp with hp | rfl
      · exact inv.chosen p hp
      · exact hw
    all_goals inv_auto inv
  | addPack _ i w h h' h'' =>
    have hk : (dictSet s.packs i w).map (·.1) = s.packs.map (·.1) ++ [i] := by rw [dictSet_keys, if_neg h']
    have hd : dictSet s.packs i w = s.packs ++ [(i, w)] := by
      have : ∀ l : List (Nat × Int), i ∉ l.map (·.1) → dictSet l i w = l ++ [(i, w)] := by
        intro l
        induction l with
        | nil => simp [dictSet]
        | cons p t ih =>
          intro hh
          simp only [List.map_cons, List.mem_cons, not_or] at hh
          have : ¬ p.1 = i := fun e => hh.1 e.symm
          simp [dictSet, this, ih hh.2]
      exact this _ h'
    constructor
    case keys =>
      intro j hj; simp only [hk, List.mem_append, List.mem_singleton] at hj
      rcases hj with hj | rfl
      · exact inv.keys j hj
      · exact h
    case nodup =>
      simp only [hk]
      rw [List.nodup_append]
      refine ⟨inv.nodup, by simp, ?_⟩
      intro a ha b hb
      simp only [List.mem_singleton] at hb
      subst hb
      intro e; exact h' (e ▸ ha)
    case living =>
      simp only [hd, List.filter_append, State.alive]
      have : decide (i ∈ s.startedP) = false := by simpa using h''
      simp only [List.filter_cons, this, Bool.false_and, Bool.false_eq_true, if_false, List.filter_nil, List.append_nil]
      exact inv.living
    all_goals inv_auto inv
  | start _ i w h h' h'' hw hl hs hi hn =>
    obtain ⟨init, he⟩ : ∃ init, s.packs = init ++ [(i, w)] := by
      rcases List.eq_nil_or_concat s.packs with e | ⟨l, x, e⟩
      · rw [e] at h; simp at h
      · rw [e] at h; simp at h; exact ⟨l, by rw [e, h]; simp⟩
    have hreg : i ∈ added s.ops := inv.keys i (by rw [he]; simp)
    have hnd := inv.nodup
    rw [he] at hnd
    simp only [List.map_append, List.map_cons, List.map_nil] at hnd
    rw [List.nodup_append] at hnd
    have hni : i ∉ diedOf s.ev := fun hh => h'' ((inv.dead i).mpr hh)
    constructor
    case good =>
      refine inv.good_snoc ⟨?_, inv.mem_newIds hreg, ?_, hn, hw, hl, inv.spawn.mp hs.1⟩
      · rw [inv.ids, List.length_range']; exact hi
      rw [← inv.startedP]; exact h'
    case why =>
      intro hc
      rcases inv.why hc with h | ⟨-, k, hk⟩
      · left; rw [lastCheck_snoc]; exact h
      · exact absurd hk (inv.spawn.mp hs.1 k)
    case startedP =>
      intro j; simp only [startedOf_snoc, List.map_append, List.mem_append, List.mem_cons, inv.startedP]
      simp; exact or_comm
    case startedReg =>
      intro j hj; simp only [List.mem_cons] at hj
      rcases hj with rfl | hj
      · exact hreg
      · exact inv.startedReg j hj
    case deadStarted => intro j hj; exact List.mem_cons_of_mem _ (inv.deadStarted j hj)
    case slots =>
      intro p hp
      simp only [startedOf_snoc, List.mem_append, List.mem_singleton] at hp
      rcases hp with hp | rfl
      · rcases inv.slots p hp with ⟨k, c, hkc⟩ | hkc
        · exact .inl ⟨k, c, List.mem_append_left _ hkc⟩
        · exact .inr hkc
      · obtain ⟨k, c, hkc⟩ := hw
        exact .inl ⟨k, c, List.mem_append_left _ hkc⟩
    case launched =>
      intro j hj
      simp only [launchedOf_snoc, List.mem_append, List.mem_singleton] at hj
      rw [newIdsOf_snoc, List.append_nil]
      rcases hj with hj | rfl
      · exact inv.launched j hj
      · exact inv.mem_newIds hreg
    case living =>
      have hliv := inv.living
      simp only [startedOf_snoc, diedOf_snoc, List.append_nil, State.alive, he, List.filter_append,
        List.mem_cons] at hliv ⊢
      have e1 : decide (i ∈ s.startedP) = false := by simpa using h'
      have e2 : decide (i ∈ s.dead) = false := by simpa using h''
      simp only [List.filter_cons, e1, e2, Bool.false_and, Bool.false_eq_true, if_false, List.filter_nil,
        List.append_nil, true_or, decide_true, Bool.not_false, Bool.and_self, if_true, hni,
        not_false_eq_true] at hliv ⊢
      rw [← hliv]
      congr 1
      apply List.filter_congr
      intro p hp
      have : p.1 ≠ i := fun e => hnd.2.2 p.1 (List.mem_map_of_mem (f := (·.1)) hp) i (by simp) e
      simp [this]
    all_goals inv_auto inv
  | restart _ a b i w he h' hb hw hl hcv =>
    have hreg : i ∈ added s.ops := inv.keys i (by rw [he]; simp)
    have hnd := inv.nodup
    rw [he] at hnd
    simp only [List.map_append, List.map_cons] at hnd
    rw [List.nodup_append, List.nodup_cons] at hnd
    have h'' : i ∉ s.dead := fun hh => h' (inv.deadStarted i hh)
    have hni : i ∉ diedOf s.ev := fun hh => h'' ((inv.dead i).mpr hh)
    constructor
    case good =>
      refine inv.good_snoc ⟨inv.mem_newIds hreg, ?_, hl, hw⟩
      rw [← inv.startedP]; exact h'
    case why =>
      intro hc; change s.converged = true at hc; rw [hcv] at hc; cases hc
    case startedP =>
      intro j; simp only [startedOf_snoc, List.map_append, List.mem_append, List.mem_cons, inv.startedP]
      simp; exact or_comm
    case startedReg =>
      intro j hj; simp only [List.mem_cons] at hj
      rcases hj with rfl | hj
      · exact hreg
      · exact inv.startedReg j hj
    case deadStarted => intro j hj; exact List.mem_cons_of_mem _ (inv.deadStarted j hj)
    case slots =>
      intro p hp
      simp only [startedOf_snoc, List.mem_append, List.mem_singleton] at hp
      rcases hp with hp | rfl
      · rcases inv.slots p hp with ⟨k, c, hkc⟩ | hkc
        · exact .inl ⟨k, c, List.mem_append_left _ hkc⟩
        · exact .inr hkc
      · rcases hw with ⟨k, c, hkc⟩ | hw
        · exact .inl ⟨k, c, List.mem_append_left _ hkc⟩
        · exact .inr hw
    case living =>
      have hliv := inv.living
      simp only [startedOf_snoc, diedOf_snoc, State.alive, he, List.filter_append, List.mem_cons] at hliv ⊢
      have e1 : decide (i ∈ s.startedP) = false := by simpa using h'
      have e2 : decide (i ∈ s.dead) = false := by simpa using h''
      have e3 : (b.filter fun p => decide (p.1 ∈ s.startedP) && !decide (p.1 ∈ s.dead)) = [] := by
        rw [List.filter_eq_nil_iff]; intro p hp; simp [hb p hp]
      have e4 : (b.filter fun p => decide (p.1 = i ∨ p.1 ∈ s.startedP) && !decide (p.1 ∈ s.dead)) = [] := by
        rw [List.filter_eq_nil_iff]; intro p hp
        have : p.1 ≠ i := fun e => hnd.2.1.1 (e ▸ List.mem_map_of_mem (f := (·.1)) hp)
        simp [hb p hp, this]
      simp only [List.filter_cons, e1, e2, e3, e4, Bool.false_and, Bool.false_eq_true, if_false, List.filter_nil,
        List.append_nil, true_or, decide_true, Bool.not_false, Bool.and_self, if_true, hni,
        not_false_eq_true] at hliv ⊢
      rw [← hliv]
      congr 1
      apply List.filter_congr
      intro p hp
      have : p.1 ≠ i := fun e => hnd.2.2 p.1 (List.mem_map_of_mem (f := (·.1)) hp) i (by simp) e
      simp [this]
    all_goals inv_auto inv
  | store _ k hk =>
    constructor
    all_goals inv_auto inv
  | mark _ =>
    constructor
    case marks => have := inv.marks; dsimp only; split <;> omega
    all_goals inv_auto inv
  | note _ op h hty =>
    obtain ⟨ha, ho, he, hok⟩ := note_added (ops := s.ops) (h.imp_right (Or.imp_right fun ⟨i, hi⟩ => ⟨some i, hi.1⟩))
    constructor
    case cls =>
      refine classOk_append inv.cls [] rfl (by simp) (fun i c hm => ?_) fun i c hm => ?_ <;>
        rcases List.mem_append.mp hm with hm | hm
      · exact hm
      · have e := List.mem_singleton.mp hm
        rcases h with ⟨j, k, v, h⟩ | ⟨j, m, h⟩ | ⟨j, h, h'⟩ <;> rw [h] at e <;> cases e
      · exact hm
      · exact absurd (List.mem_singleton.mp hm).symm (hty i c)
    case rel =>
      intro o hm
      rcases List.mem_append.mp hm with hm | hm
      · exact inv.rel o hm
      · rw [List.mem_singleton] at hm
        rcases h with ⟨i, k, v, h⟩ | ⟨i, m, h⟩ | ⟨i, h, h'⟩ <;> rw [h] at hm <;> cases hm
        exact ⟨i, rfl, h'.1⟩
    case kept =>
      intro hL h0 i hi
      have hk := inv.kept hL h0 i hi
      refine Logger.keeps_history _ _ _ hk ?_ ?_
      · rcases h with ⟨j, k, v, h⟩ | ⟨j, m, h⟩ | ⟨j, h, h'⟩ <;> rw [h] <;> simp
      · intro o e
        rcases h with ⟨j, k, v, h⟩ | ⟨j, m, h⟩ | ⟨j, h, hm, hu, b, c, ho, hb⟩ <;> rw [h] at e <;> cases e
        cases j with
        | zero => exact absurd hm h0
        | succ j =>
          refine ⟨j, rfl, fun e => hb ?_⟩
          have hr := inv.res.2.2
          rw [ho] at hr
          rw [e]
          rcases (result_ok _ inv.good hL).1 hu with ⟨-, h2⟩ | ⟨x, fx, l, h1, h2⟩
          · rw [h2] at hr; cases hr
          · rw [h1] at hr
            cases hr
            rw [← logged_of_lossless _ hL] at h2
            rcases h2 with ⟨hn, -⟩ | ⟨k, r, he, hk, -, -, hid⟩
            · obtain ⟨k, r, ⟨r0, hr0, hp, hlt, -⟩, -⟩ := hi
              have := hn r0 (List.mem_of_getElem? hr0) hp
              rw [this] at hlt; cases hlt
            · exact leads_unique ⟨k, r, he, hk, hid.symm⟩ hi
    case heads =>
      refine heads_snoc inv.heads (fun _ _ h => h) fun i hs e => ?_
      rcases h with ⟨i, k, v, h⟩ | ⟨i, m, h⟩ | ⟨i, h, h'⟩ <;> rw [h] at e <;> cases e
    case late =>
      refine late_snoc inv.late (fun _ h => h) fun i hc => ?_
      rcases h with ⟨i, k, v, h⟩ | ⟨i, m, h⟩ | ⟨i, h, h'⟩ <;> rw [h] at hc <;> rcases hc with ⟨r, hr, -⟩ | ⟨hs, hr⟩ <;> cases hr
    case log => rw [Logger.run_snoc, ← inv.log]
    case wf => exact wellFormed_snoc inv.wf hok
    case evs => rw [he]; exact inv.evs
    case regs => rw [ha]; exact inv.regs
    case keys => rw [ha]; exact inv.keys
    case startedReg => rw [ha]; exact inv.startedReg
    case opened => rw [ho]; exact inv.opened
    all_goals inv_auto inv
  | finish _ i h h' =>
    have hid : i ∈ newIdsOf s.ev := inv.mem_newIds (inv.keys i h)
    constructor
    case good =>
      refine inv.good_snoc ⟨hid, fun hc => ?_⟩
      have hg : i ∉ s.graveyard := by
        rcases h' with h' | h'
        · exact h'
        · rw [h'] at hc; cases hc
      refine ⟨fun hh => hg (inv.fgrave i (Or.inl hh)), fun hh => hg (inv.vgrave i (by rw [inv.vict]; exact hh))⟩
    case vgrave => intro j hj; rw [mem_addTo]; exact Or.inl (inv.vgrave j hj)
    case conv => rw [finishedOf_snoc]; simp [inv.conv]
    case fgrave =>
      intro j hj
      simp only [finishedOf_snoc, failedOf_snoc, forcedOf_snoc, List.append_nil, List.mem_append,
        List.mem_singleton] at hj
      rw [mem_addTo]
      rcases hj with (hj | hj) | hj
      · exact Or.inl (inv.fgrave j (Or.inl hj))
      · exact Or.inr hj
      · exact Or.inl (inv.fgrave j (Or.inr hj))
    all_goals inv_auto inv
  | report _ i tb =>
    constructor
    case good => exact inv.good_snoc trivial
    case since =>
      rw [sinceCrash_snoc]
      cases tb <;> simp [inv.since]
    all_goals inv_auto inv
  | kill _ v h hv hg hi hh =>
    have hnv : v ∉ s.victims := fun h => hg (inv.vgrave v h)
    have hid : v ∈ newIdsOf s.ev := inv.mem_newIds (inv.keys v hv)
    have hadd : addTo s.victims v = s.victims ++ [v] := by simp [addTo, hnv]
    constructor
    case good =>
      refine inv.good_snoc ⟨hid, by rw [← inv.vict]; exact hnv,
        fun h => hg (inv.fgrave v (Or.inl h)), fun h => hg (inv.fgrave v (Or.inr (Or.inl h))),
        fun h => hg (inv.fgrave v (Or.inr (Or.inr h))), hi, ?_⟩
      intro h' e
      obtain ⟨h1, h2, h3, h4⟩ := hh h' e
      refine ⟨inv.leads h1 h2, h3, ?_⟩
      exact inv.opened v (Logger.hasIterHistory_opened inv.store h4).2.1
    case vict => rw [hadd, killedOf_snoc, inv.vict]
    case vnodup =>
      rw [hadd, List.nodup_append]
      refine ⟨inv.vnodup, by simp, ?_⟩
      intro a ha b hb
      simp only [List.mem_singleton] at hb
      subst hb
      intro e; exact hnv (e ▸ ha)
    case vgrave =>
      intro j hj; rw [mem_addTo] at hj ⊢
      exact hj.imp (inv.vgrave j) id
    case vids =>
      intro j hj; rw [mem_addTo] at hj
      simp only [newIdsOf_snoc, List.append_nil]
      rcases hj with hj | rfl
      · exact inv.vids j hj
      · exact hid
    case fgrave =>
      intro j hj
      simp only [finishedOf_snoc, failedOf_snoc, forcedOf_snoc, List.append_nil] at hj
      rw [mem_addTo]; exact Or.inl (inv.fgrave j hj)
    all_goals inv_auto inv
  | hunt _ h h0 hb hh hf =>
    have := inv.hunt
    constructor
    case good =>
      refine inv.good_snoc ⟨hh, inv.leads h0 hb, ?_⟩
      omega
    case hunt => simp only [sinceHunt_snoc]; rfl
    case hunts => rw [huntsOf_snoc]; simp [inv.hunts]
    all_goals inv_auto inv
  | share _ i hs ha hi hd hu =>
    constructor
    case good =>
      refine inv.good_snoc ⟨hs, inv.running ha, _, inv.isBest, hi, ?_, hu⟩
      rw [← inv.res.2.1]; exact hd
    all_goals inv_auto inv
  | update _ =>
    constructor
    case good => exact inv.good_snoc inv.isBest
    case res => simp [lastResult_snoc]
    case cls =>
      refine ⟨fun i c hc => chosenAs_append (inv.cls.1 i c hc) _, fun i c hc => ?_, inv.cls.2.2⟩
      have hc : (s.log.best.optId, s.log.best.type) = (i, c) := Option.some.inj hc
      have hb := Logger.best_run s.first.traj inv.wf
      rw [← inv.log] at hb
      rcases hb with ⟨-, hb⟩ | ⟨k, r, t, -, -, ha, hb⟩
      · rw [hb] at hc; cases hc; exact .inl ⟨rfl, rfl⟩
      · rw [hb] at hc; cases hc
        exact .inr (chosenAs_append (inv.cls.1 _ _ ha) _)
    case stats =>
      have e : atUpdate (s.ev ++ [Ev.updated s.log.best.x s.log.best.fx s.log.best.optId]) =
        s.ev ++ [Ev.updated s.log.best.x s.log.best.fx s.log.best.optId] := atUpdate_snoc _ _
      refine ⟨?_, ?_, ?_, ?_⟩ <;> simp only [e]
      · rw [acceptedOf_snoc, List.append_nil]; exact inv.cnt
      · rw [newIdsOf_snoc, List.append_nil, inv.ids, List.length_range']
      · rw [killedOf_snoc, List.append_nil, ← inv.vict]
      · rw [finishedOf_snoc, List.append_nil]; exact inv.conv
    all_goals inv_auto inv
  | receive _ m hu hi =>
    constructor
    case good => exact inv.good_snoc ⟨hu, hi⟩
    all_goals inv_auto inv
  | ignore _ r h hi =>
    constructor
    case good => exact inv.good_snoc ⟨by rw [inv.vict] at h; exact h, hi⟩
    all_goals inv_auto inv
  | acceptOld _ r h hv hu hi hc =>
    obtain ⟨h1, h2, -⟩ := Logger.hasIterHistory_opened inv.store h
    constructor
    case rel =>
      intro o ho
      obtain ⟨i, e, hm⟩ := inv.rel o (by simpa using ho)
      exact ⟨i, e, List.mem_append_left _ hm⟩
    case kept =>
      intro hL h0 i hi
      refine Logger.keeps_history _ _ _ ?_ (by simp) (by simp)
      rw [loggedOf_snoc] at hi
      rcases leads_snoc hi with rfl | hi
      · exact h
      · exact inv.kept (lossless_prefix hL) (fun hm => h0 (List.mem_append_left _ hm)) i hi
    case heads => exact heads_snoc inv.heads (fun _ _ h => headed_snoc h _) (by simp)
    case cls => exact classOk_append inv.cls _ rfl rfl (by simp) (by simp)
    case late =>
      refine late_snoc inv.late (fun _ h => lateEval_snoc h _) fun i hc hm => ?_
      rcases hc with ⟨r', e, rfl⟩ | ⟨_, e⟩ <;> cases e
      exact lateEval_snoc (inv.lateEval hi hm) _
    case good =>
      exact inv.good_snoc ⟨inv.mem_newIds h1, by rw [← inv.vict]; exact hv, hu, hi, accept_room inv hc⟩
    case log => rw [Logger.run_snoc, ← inv.log]
    case wf => exact wellFormed_snoc inv.wf ⟨h1, h2⟩
    case evs => rw [loggedOf_snoc, ← inv.evs]; simp [evals]
    case cnt => rw [acceptedOf_snoc]; simp [inv.cnt]
    case regs => simpa [added] using inv.regs
    case keys => simpa [added] using inv.keys
    case startedReg => simpa [added] using inv.startedReg
    case opened =>
      intro i hi
      obtain ⟨r', h1, h2⟩ := inv.opened i (by simpa [opened] using hi)
      exact ⟨r', by rw [loggedOf_snoc]; exact List.mem_append_left _ h1, h2⟩
    case hunt => simp only [sinceHunt_snoc]; have := inv.hunt; omega
    case marks => exact ⟨Nat.le_succ_of_le inv.marks.1, inv.marks.2⟩
    case since => rw [sinceCrash_snoc]; simpa using inv.since
    all_goals inv_auto inv
  | acceptNew _ r names h ha hv hu hi hc hn =>
    obtain ⟨st, hst⟩ := Logger.addHist_ok ha
    obtain ⟨h1, h2⟩ := Logger.not_opened_of_noHistory inv.store h hst
    have hadd : added (s.ops ++ [Op.addHist r.optId names] ++ [Op.put r]) = added s.ops := by simp [added]
    constructor
    case rel =>
      intro o ho
      obtain ⟨i, e, hm⟩ := inv.rel o (by simpa using ho)
      exact ⟨i, e, List.mem_append_left _ hm⟩
    case kept =>
      intro hL h0 i hi
      refine Logger.keeps_history _ _ _ ?_ (by simp) (by simp)
      rw [loggedOf_snoc] at hi
      rcases leads_snoc hi with rfl | hi
      · exact Logger.addHist_has ha
      · exact Logger.keeps_history _ _ _
          (inv.kept (lossless_prefix hL) (fun hm => h0 (List.mem_append_left _ hm)) i hi) (by simp) (by simp)
    case cls => exact classOk_append inv.cls _ rfl rfl (by simp) (by simp)
    case heads => exact heads_new inv.heads (fun _ _ h => headed_snoc h _) hn
    case late =>
      refine late_snoc (late_snoc (ev' := s.ev) inv.late (fun _ h => h) fun i hc hm => ?_) (fun _ h => lateEval_snoc h _) fun i hc hm => ?_
      · rcases hc with ⟨r', e, rfl⟩ | ⟨_, e⟩ <;> cases e
        exact inv.lateEval hi hm
      · rcases hc with ⟨r', e, rfl⟩ | ⟨_, e⟩ <;> cases e
        exact lateEval_snoc (inv.lateEval hi (by simpa using hm)) _
    case good =>
      exact inv.good_snoc ⟨inv.mem_newIds h1, by rw [← inv.vict]; exact hv, hu, hi, accept_room inv hc⟩
    case log => rw [Logger.run_snoc, Logger.run_snoc, ← inv.log]
    case wf =>
      refine wellFormed_snoc (wellFormed_snoc inv.wf ⟨h1, h2⟩) ⟨?_, ?_⟩
      · simpa [added] using h1
      · simp [opened]
    case evs => rw [loggedOf_snoc, ← inv.evs]; simp [evals]
    case cnt => rw [acceptedOf_snoc]; simp [inv.cnt]
    case regs => rw [hadd]; exact inv.regs
    case keys => rw [hadd]; exact inv.keys
    case startedReg => rw [hadd]; exact inv.startedReg
    case opened =>
      intro i hi
      simp only [opened, List.filterMap_append, List.mem_append] at hi
      rw [loggedOf_snoc]
      rcases hi with (hi | hi) | hi
      · obtain ⟨r', h1, h2⟩ := inv.opened i hi
        exact ⟨r', List.mem_append_left _ h1, h2⟩
      · simp at hi; exact ⟨r, by simp, hi.symm⟩
      · simp at hi
    case hunt => simp only [sinceHunt_snoc]; have := inv.hunt; omega
    case marks => exact ⟨Nat.le_succ_of_le inv.marks.1, inv.marks.2⟩
    case since => rw [sinceCrash_snoc]; simpa using inv.since
    all_goals inv_auto inv
  | fail _ i =>
    constructor
    case good => exact inv.good_snoc trivial
    case vgrave => intro j hj; rw [mem_addTo]; exact Or.inl (inv.vgrave j hj)
    case fgrave =>
      intro j hj
      simp only [finishedOf_snoc, failedOf_snoc, forcedOf_snoc, List.append_nil, List.mem_append,
        List.mem_singleton] at hj
      rw [mem_addTo]
      rcases hj with hj | (hj | hj) | hj
      · exact Or.inl (inv.fgrave j (Or.inl hj))
      · exact Or.inl (inv.fgrave j (Or.inr (Or.inl hj)))
      · exact Or.inr hj
      · exact Or.inl (inv.fgrave j (Or.inr (Or.inr hj)))
    all_goals inv_auto inv
  | force _ i h1 h2 h3 h4 =>
    constructor
    case good =>
      refine inv.good_snoc ⟨h1, h2, ?_, by rw [← inv.vict]; exact h4⟩
      have := inv.regs i (inv.keys i h3)
      rw [inv.ids, List.mem_range'_1]
      omega
    case vgrave => intro j hj; rw [mem_addTo]; exact Or.inl (inv.vgrave j hj)
    case fgrave =>
      intro j hj
      simp only [finishedOf_snoc, failedOf_snoc, forcedOf_snoc, List.append_nil, List.mem_append,
        List.mem_singleton] at hj
      rw [mem_addTo]
      rcases hj with hj | hj | (hj | hj)
      · exact Or.inl (inv.fgrave j (Or.inl hj))
      · exact Or.inl (inv.fgrave j (Or.inr (Or.inl hj)))
      · exact Or.inl (inv.fgrave j (Or.inr (Or.inr hj)))
      · exact Or.inr hj
    all_goals inv_auto inv
  | bury _ i =>
    constructor
    case vgrave => intro j hj; rw [mem_addTo]; exact Or.inl (inv.vgrave j hj)
    case fgrave => intro j hj; rw [mem_addTo]; exact Or.inl (inv.fgrave j hj)
    all_goals inv_auto inv
  | purge _ i h h' =>
    constructor
    case keys =>
      intro j hj
      refine inv.keys j ?_
      simp only [dictDel, List.mem_map, List.mem_filter] at hj ⊢
      obtain ⟨p, ⟨hp, -⟩, e⟩ := hj
      exact ⟨p, hp, e⟩
    case nodup =>
      simp only [dictDel]
      exact (List.Sublist.map _ List.filter_sublist).nodup inv.nodup
    case living =>
      have := inv.living
      simp only [dictDel, State.alive] at this ⊢
      rw [List.filter_filter, ← this]
      apply List.filter_congr
      intro p hp
      by_cases e : p.1 = i
      · simp only [State.alive] at h; rw [e]; simp [h]
      · simp [e]
    all_goals inv_auto inv
  | verdict _ b c h0 hq h1 h2 =>
    constructor
    case chk => rw [lastCheck_snoc]; intro e; cases e; exact h1 rfl
    case why =>
      intro hc
      rcases h2 hc with h | ⟨h, h'⟩
      · left; rw [lastCheck_snoc, h]
      · right
        refine ⟨fun i hr => ?_, ?_⟩
        · obtain ⟨⟨w, hw⟩, hd⟩ := running_snoc (by simp) (by simp) hr
          have hm : (i, w) ∈ (startedOf s.ev).filter fun p => decide (p.1 ∉ diedOf s.ev) :=
            List.mem_filter.mpr ⟨hw, by simpa using hd⟩
          rw [← inv.living] at hm
          simp only [State.livingSlots, List.length_map] at h
          rw [List.length_eq_zero_iff.mp h] at hm
          cases hm
        · refine Classical.byContradiction fun hn => ?_
          have : s.spawning = true := inv.spawn.mpr fun k hk => hn ⟨k, List.mem_append_left _ hk⟩
          rw [h'] at this; cases this
    case good => exact inv.good_snoc hq
    all_goals inv_auto inv
  | setConverged _ h =>
    constructor
    case chk => intro e; rw [h] at e; cases e
    case why => intro e; cases e
    all_goals inv_auto inv
  | loopEnd _ h =>
    constructor
    case good => exact inv.good_snoc (inv.why h)
    all_goals inv_auto inv
  | stop _ i h =>
    constructor
    case good => exact inv.good_snoc trivial
    all_goals inv_auto inv
  | farewell _ i =>
    constructor
    case good => exact inv.good_snoc trivial
    all_goals inv_auto inv
  | pauseReq _ i h =>
    constructor
    case good => exact inv.good_snoc (inv.running h)
    all_goals inv_auto inv
  | save _ i h =>
    constructor
    case good => exact inv.good_snoc h
    all_goals inv_auto inv
  | pass _ i h =>
    constructor
    case good => exact inv.good_snoc (inv.running h)
    all_goals inv_auto inv
  | resume _ i h =>
    constructor
    case good => exact inv.good_snoc (inv.running h)
    all_goals inv_auto inv
  | ckptEnd _ h =>
    constructor
    case good => exact inv.good_snoc fun i hi => ⟨(h i (inv.alive_iff.mpr hi)).1, fun e => (h i (inv.alive_iff.mpr hi)).2 (inv.chk e)⟩
    all_goals inv_auto inv
  | plain _ x h =>
    cases x <;> simp [Plain] at h
    all_goals
      constructor
      case good => exact inv.good_snoc trivial
      all_goals inv_auto inv

theorem inv_init (cfg : Cfg) : Inv cfg (init cfg) := by
  constructor <;> simp [init, acceptedOf, newIdsOf, startedOf, diedOf, killedOf, finishedOf, failedOf, forcedOf, added,
    opened, evals, sinceHunt, lastResult, lastCheck, sinceCrash, huntsOf, WellFormed, Logger.run, AfterEach, session, launchedOf, loggedOf,
    settings, StatsOk, atUpdate, ClassOk]
  rintro - h ⟨k, r, -, h2, -⟩
  simp at h2

end Glompo.Manager
