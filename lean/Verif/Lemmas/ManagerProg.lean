import Verif.Lemmas.ManagerWalk

/-! The pieces of the manager's program perform only atomic changes. -/

namespace Glompo.Manager

open Glompo.Spec
open Glompo.Logger (Op)

variable {cfg : Cfg} {A : Lab → Prop}

/-! ### Facts kept -/

theorem keeps_upToDate (hA : ∀ r, ¬ A (.ev (.accepted r))) : Keeps cfg A (fun s => UpToDate s.ev = true) := by
  intro lab s t st ha inv hr
  cases st with
  | acceptOld _ r => exact absurd ha (hA r)
  | acceptNew _ r => exact absurd ha (hA r)
  | plain _ x hx => cases x <;> simp [Plain] at hx <;> simpa [UpToDate_snoc] using hr
  | _ => first | exact hr | simpa [UpToDate_snoc] using hr

theorem keeps_notUpToDate (hA : ∀ x f i, ¬ A (.ev (.updated x f i))) :
    Keeps cfg A (fun s => UpToDate s.ev = false) := by
  intro lab s t st ha inv hr
  cases st with
  | update => exact absurd ha (hA _ _ _)
  | plain _ x hx => cases x <;> simp [Plain] at hx <;> simpa [UpToDate_snoc] using hr
  | _ => first | exact hr | simpa [UpToDate_snoc] using hr

theorem keeps_key (i : Nat) (hA : ¬ A .purge) : Keeps cfg A (fun s => i ∈ s.packs.map (·.1)) := by
  intro lab s t st ha inv hr
  cases st with
  | purge => exact absurd ha hA
  | addPack _ j w h h' h'' =>
    show i ∈ (dictSet s.packs j w).map (·.1)
    rw [dictSet_keys]; split
    · exact hr
    · exact List.mem_append_left _ hr
  | _ => exact hr

theorem keeps_session (x : Ev) : Keeps cfg A (fun s => x ∈ session s.ev) := by
  intro lab s t st ha inv hr
  cases st with
  | plain _ y hy =>
    show x ∈ session (s.ev ++ [y])
    rw [session_snoc]
    cases y <;> simp [Plain] at hy <;> exact List.mem_append_left _ hr
  | _ => first
    | exact hr
    | (show x ∈ session (s.ev ++ [_])
       rw [session_snoc]; exact List.mem_append_left _ hr)

theorem keeps_event (x : Ev) : Keeps cfg A (fun s => x ∈ s.ev) := by
  intro lab s t st ha inv hr
  cases st <;> first | exact hr | exact List.mem_append_left _ hr

theorem best_note {s : State} {op : Op} (h : IsNote s op) (l : Logger) : (l.step op).1.best = l.best := by
  have := Logger.step_other l op
    (by rcases h with ⟨i, k, v, rfl⟩ | ⟨i, m, rfl⟩ | ⟨i, rfl, -⟩ <;> simp)
    (by rcases h with ⟨i, k, v, rfl⟩ | ⟨i, m, rfl⟩ | ⟨i, rfl, -⟩ <;> simp)
  simp only [Logger.best, this.2.1, this.2.2.1]

theorem keeps_best (b : BestIter) (hA : ∀ r, ¬ A (.ev (.accepted r))) (hp : ¬ A .pack) :
    Keeps cfg A (fun s => s.log.best = b) := by
  intro lab s t st ha inv hr
  cases st with
  | acceptOld _ r => exact absurd ha (hA r)
  | acceptNew _ r => exact absurd ha (hA r)
  | register => exact absurd ha hp
  | note _ op h _ => exact (best_note h s.log).trans hr
  | _ => exact hr

theorem keeps_result (p : Res → Prop) (hA : ∀ x f i, ¬ A (.ev (.updated x f i))) :
    Keeps cfg A (fun s => p s.result) := by
  intro lab s t st ha inv hr
  cases st with
  | update => exact absurd ha (hA _ _ _)
  | _ => exact hr

/-- Labels which leave the graveyard alone. -/
def Lab.noGrave : Lab → Prop
  | .ev (.finished _) => False
  | .ev (.killed _ _) => False
  | .ev (.failed _) => False
  | .ev (.forced _) => False
  | .bury => False
  | _ => True

theorem keeps_notGrave (i : Nat) (hA : ∀ l, A l → l.noGrave) : Keeps cfg A (fun s => i ∉ s.graveyard) := by
  intro lab s t st ha inv hr
  have := hA _ ha
  cases st <;> first | exact hr | exact absurd this id

/-- Facts about variables which deaths do not change. -/
theorem keeps_died {R : State → Prop}
    (h : ∀ s (i : Nat), s.alive i = true → R s → R { s with dead := i :: s.dead, ev := s.ev ++ [.died i] }) :
    Keeps cfg Lab.died R := by
  intro lab s t st ha inv hr
  cases st with
  | die _ i hi => exact h s i hi hr
  | plain _ x hx => cases x <;> simp [Plain] at hx <;> exact absurd ha id
  | _ => exact absurd ha id

/-! ### Filling the slots -/

theorem sum_filter_le (l : List (Nat × Int)) (q : Nat × Int → Bool) (h : ∀ p ∈ l, 0 ≤ p.2) :
    ((l.filter q).map (·.2)).sum ≤ (l.map (·.2)).sum := by
  induction l with
  | nil => simp
  | cons p t ih =>
    have h1 := h p List.mem_cons_self
    have h2 := ih fun p hp => h p (List.mem_cons_of_mem _ hp)
    simp only [List.filter_cons]
    split <;> simp <;> omega

theorem fits_snoc {ev : List Ev} {x : Ev} (h : SelectorFits (ev ++ [x])) : SelectorFits ev :=
  fun k w c hm => h k w c (List.mem_append_left _ hm)

theorem load_died (inv : Inv cfg s) (hf : SelectorFits s.ev) (i : Nat) :
    load (s.ev ++ [.died i]) ≤ load s.ev := by
  simp only [load, startedOf_snoc, diedOf_snoc, List.append_nil, List.mem_append, List.mem_singleton]
  have e2 : ((startedOf s.ev).filter fun p => decide (¬ (p.1 ∈ diedOf s.ev ∨ p.1 = i))) =
      ((startedOf s.ev).filter fun p => decide (p.1 ∉ diedOf s.ev)).filter fun p => decide (p.1 ≠ i) := by
    rw [List.filter_filter]; congr 1; funext p
    by_cases h1 : p.1 = i <;> simp [h1]
  rw [e2]
  apply sum_filter_le
  intro p hp
  rcases inv.slots p (List.mem_filter.mp hp).1 with ⟨k, c, hkc⟩ | h
  · exact (hf _ _ _ hkc).1
  · omega

/-- Events which do not change the load. -/
theorem load_snoc {ev : List Ev} {x : Ev} (h1 : ∀ i w, x ≠ .started i w) (h2 : ∀ i, x ≠ .died i)
    (h3 : ∀ i w, x ≠ .restarted i w := by simp) (h4 : ∀ c n, x ≠ .resumed c n := by simp) : load (ev ++ [x]) = load ev := by
  cases x <;> simp_all [load, startedOf_snoc, diedOf_snoc]

/-- The load known to the loop of `_fill_optimizer_slots`. -/
def Loaded (count : Int) (s : State) : Prop := SelectorFits s.ev → load s.ev ≤ count

theorem keeps_loaded (count : Int) : Keeps cfg Lab.died (Loaded count) := by
  intro lab s t st ha inv hr
  cases st with
  | die _ i hi => exact fun hf => Int.le_trans (load_died inv (fits_snoc hf) i) (hr (fits_snoc hf))
  | plain _ x hx => cases x <;> simp [Plain] at hx <;> exact absurd ha id
  | _ => exact absurd ha id

theorem pos_snoc {ev : List Ev} {x : Ev} (h : SelectorPos (ev ++ [x])) : SelectorPos ev :=
  fun k w c hm => h k w c (List.mem_append_left _ hm)

theorem pos_fits {ev : List Ev} (h : SelectorPos ev) : SelectorFits ev :=
  fun k w c hm => ⟨by have := (h k w c hm).1; omega, (h k w c hm).2⟩

/-- The same within its loop. -/
def Budget (cfg : Cfg) (count : Int) (b : Bool) (s : State) : Prop :=
  0 ≤ cfg.maxJobs → SelectorPos s.ev → ∀ n, sinceCrash s.ev = some n →
    (n : Int) + max 0 (cfg.maxJobs - count) ≤ 2 * cfg.maxJobs + 5 ∧
    (s.lastSpawn.1 = s.fCounter → (n : Int) ≤ cfg.maxJobs + (s.oCounter - s.lastSpawn.2 : Int)) ∧
    (s.lastSpawn.1 ≠ s.fCounter → (b = false → n = 0) ∧ (n : Int) + max 0 (cfg.maxJobs - count) ≤ cfg.maxJobs)

theorem keeps_budget (count : Int) (b : Bool) : Keeps cfg Lab.died (Budget cfg count b) := by
  intro lab s t st ha inv hr
  cases st with
  | die _ i hi =>
    intro h0 hp n hn
    rw [sinceCrash_snoc] at hn
    exact hr h0 (pos_snoc hp) n hn
  | plain _ x hx => cases x <;> simp [Plain] at hx <;> exact absurd ha id
  | _ => exact absurd ha id

def Lab.fill : Lab → Prop
  | .ev (.died _) => True
  | .ev (.asked _ _) => True
  | .ev (.newId _) => True
  | .ev (.started _ _) => True
  | .pack => True
  | .mark => True
  | _ => False

theorem died_fill : ∀ l, Lab.died l → Lab.fill l := by
  intro l h; cases l with
  | ev x => cases x <;> first | exact trivial | exact absurd h id
  | _ => exact absurd h id

/-- What `_setup_new_optimizer` hands over. -/
structure Prepared (count : Int) (i : Nat) (w : Int) (cfg : Cfg) (s : State) : Prop where
  cur : i = s.oCounter
  reg : i ∈ added s.ops
  notPack : i ∉ s.packs.map (·.1)
  notStarted : i ∉ s.startedP
  notLaunched : i ∉ launchedOf s.ev
  asked : ∃ k c, Ev.asked k (.chosen w c) ∈ s.ev
  fits : SelectorFits s.ev → load s.ev ≤ count ∧ 0 ≤ w ∧ w ≤ cfg.maxJobs - count
  spawning : Open s
  budget : Budget cfg (count + w) true s

theorem keeps_prepared (count : Int) (i : Nat) (w : Int) : Keeps cfg Lab.died (Prepared count i w cfg) := by
  intro lab s t st ha inv hr
  have hb := keeps_budget (cfg := cfg) _ _ lab s t st ha inv hr.budget
  cases st with
  | die _ j hi =>
    refine ⟨hr.cur, hr.reg, hr.notPack, hr.notStarted, by simpa [launchedOf_snoc] using hr.notLaunched, ?_,
      fun hf => ?_, hr.spawning, hb⟩
    · obtain ⟨k, c, h⟩ := hr.asked; exact ⟨k, c, List.mem_append_left _ h⟩
    · have := hr.fits (fits_snoc hf)
      exact ⟨Int.le_trans (load_died inv (fits_snoc hf) j) this.1, this.2⟩
  | plain _ x hx => cases x <;> simp [Plain] at hx <;> exact absurd ha id
  | _ => exact absurd ha id

theorem env_e2 {x : Err} {s : State} : E2 (.env x) s ∧ (Exc.env x) ≠ .ckpt := ⟨⟨by simp, by simp, why_env⟩, by simp⟩

/-- Exceptions while optimizers are started. -/
def EF (x : Exc) (s : State) : Prop := E2 x s ∧ x ≠ .ckpt

theorem walk_setup (count : Int) (b : Bool) (hlt : count < cfg.maxJobs) : Walk cfg Lab.fill
    (fun s => Open s ∧ Loaded count s ∧ Budget cfg count b s)
    (setupNewOptimizer (cfg.maxJobs - count))
    (fun o s => match o with
      | none => Budget cfg count b s
      | some (i, w) => Prepared count i w cfg s) EF := by
  have hk : Keeps cfg Lab.died (fun s => Open s ∧ Loaded count s ∧ Budget cfg count b s) :=
    (keeps_died fun _ _ _ h => h).and ((keeps_loaded count).and (keeps_budget count b))
  have hbud : ∀ (s : State) a, Budget cfg count b s → ∀ s' : State, s'.ev = s.ev ++ [.asked (cfg.maxJobs - count) a] →
      s'.lastSpawn = s.lastSpawn → s'.fCounter = s.fCounter → s'.oCounter = s.oCounter → Budget cfg count b s' := by
    intro s a h s' e1 e2 e3 e4 h0 hp n hn
    rw [e1, sinceCrash_snoc] at hn
    rw [e1] at hp
    rw [e2, e3, e4]
    exact h h0 (pos_snoc hp) n hn
  refine Walk.bind ((walk_askSel hk fun x s _ => env_e2).mono died_fill) fun a => ?_
  cases a with
  | stop =>
    refine Walk.bind (Q := fun _ => Budget cfg count b) (Walk.modify (fun s i h => ?_) fun s _ h _ => ?_) fun _ =>
      Walk.pure fun s _ h => h
    · exact ⟨_, .askStop s _ h.1 (fun hf => by have := h.2.1 hf; omega), trivial⟩
    · exact hbud s _ h.2.2 _ rfl rfl rfl rfl
  | nothing =>
    refine Walk.bind (Q := fun _ => Budget cfg count b) (Walk.modify (fun s i h => ?_) fun s _ h _ => ?_) fun _ =>
      Walk.pure fun s _ h => h
    · exact ⟨_, .ask s _ _ (by simp) h.1 (fun hf => by have := h.2.1 hf; omega), trivial⟩
    · exact hbud s _ h.2.2 _ rfl rfl rfl rfl
  | chosen w cls =>
    refine Walk.bind (Q := fun _ s => (Open s ∧ Loaded count s ∧ Budget cfg count b s) ∧
        Ev.asked (cfg.maxJobs - count) (.chosen w cls) ∈ s.ev ∧
        ∃ pre, s.ev = pre ++ [.asked (cfg.maxJobs - count) (.chosen w cls)])
      (Walk.modify (fun s i h => ?_) fun s _ h _ => ?_) fun _ => ?_
    · exact ⟨_, .ask s _ _ (by simp) h.1 (fun hf => by have := h.2.1 hf; omega), trivial⟩
    · refine ⟨⟨h.1, fun hf => ?_, hbud s _ h.2.2 _ rfl rfl rfl rfl⟩, by simp, s.ev, rfl⟩
      show load (s.ev ++ [_]) ≤ count
      rw [load_snoc (by simp) (by simp)]; exact h.2.1 (fits_snoc hf)
    have hk2 : Keeps cfg Lab.died (fun s => ((Open s ∧ Loaded count s ∧ Budget cfg (count + w) true s) ∧
        Ev.asked (cfg.maxJobs - count) (.chosen w cls) ∈ s.ev) ∧
        (s.oCounter ≠ 0 ∧ (∀ i ∈ added s.ops, i < s.oCounter) ∧ s.oCounter ∉ launchedOf s.ev) ∧ ChosenAs s.ev s.oCounter cls) :=
      (((keeps_died fun _ _ _ h => h).and ((keeps_loaded count).and (keeps_budget _ _))).and (keeps_event _)).and
        ((keeps_died fun _ _ _ h => by simpa [launchedOf_snoc] using h).and (keeps_died fun _ _ _ h => chosenAs_append h _))
    refine Walk.bind (Q := fun _ s => ((Open s ∧ Loaded count s ∧ Budget cfg (count + w) true s) ∧
        Ev.asked (cfg.maxJobs - count) (.chosen w cls) ∈ s.ev) ∧
        (s.oCounter ≠ 0 ∧ (∀ i ∈ added s.ops, i < s.oCounter) ∧ s.oCounter ∉ launchedOf s.ev) ∧ ChosenAs s.ev s.oCounter cls)
      (Walk.modify (fun s i h => ⟨_, .newId s h.1.1 ?_, trivial⟩) fun s i h _ => ?_) fun _ => ?_
    · intro h0 hp n hn
      have := (h.1.2.2 h0 hp n hn).1
      omega
    · refine ⟨⟨⟨h.1.1, fun hf => ?_, ?_⟩, List.mem_append_left _ h.2.1⟩, ⟨by simp, fun j hj => ?_, fun hh => ?_⟩, ?_⟩
      · show load (s.ev ++ [_]) ≤ count
        rw [load_snoc (by simp) (by simp)]; exact h.1.2.1 (fits_snoc hf)
      · intro h0 hp n hn
        rw [sinceCrash_snoc] at hn
        have hw := pos_snoc hp _ _ _ h.2.1
        cases hs : sinceCrash s.ev with
        | none => rw [hs] at hn; cases hn
        | some m =>
          rw [hs] at hn
          have hnm : n = m + 1 := by cases hn; rfl
          obtain ⟨g1, g2, g3⟩ := h.1.2.2 h0 (pos_snoc hp) m hs
          subst hnm
          refine ⟨by omega, fun e => ?_, fun e => ⟨(by intro h; cases h), ?_⟩⟩
          · have := g2 e
            have := i.marks.2
            show ((m + 1 : Nat) : Int) ≤ cfg.maxJobs + (((s.oCounter + 1 : Nat) : Int) - s.lastSpawn.2)
            omega
          · have := (g3 e).2; omega
      · have := i.regs j hj; show j < s.oCounter + 1; omega
      · rw [launchedOf_snoc, List.append_nil] at hh
        have := i.launched _ hh
        rw [i.ids, List.mem_range'_1] at this
        simp only at this; omega
      · obtain ⟨pre, e⟩ := h.2.2
        exact ⟨pre, cfg.maxJobs - count, w, [], by rw [e]; simp⟩
    refine Walk.bind ((walk_askUnit hk2 fun x s _ => env_e2).mono died_fill) fun _ => ?_
    intro s e i h
    obtain ⟨⟨⟨h0, h1, hb⟩, h2⟩, ⟨h3, h4, hla⟩, hcl⟩ := h
    have hn : s.oCounter ∉ added s.ops := fun hh => by have := h4 _ hh; omega
    have hstep := Step.register (cfg := cfg) s cls w h3 hn ⟨_, _, h2⟩ hcl
    refine ⟨.one hstep trivial, fun o ho => ?_, fun x hx => by (cases hx), uses_ok⟩
    cases ho
    refine ⟨rfl, (by simp [added] : s.oCounter ∈ added (s.ops ++ [Op.add s.oCounter cls])), fun hh => hn (i.keys _ hh),
      fun hh => hn (i.startedReg _ hh), hla, ⟨_, _, h2⟩, fun hf => ?_, h0, hb⟩
    exact ⟨h1 hf, hf _ _ _ h2⟩

theorem walk_startJob (count : Int) (i : Nat) (w : Int) : Walk cfg Lab.fill (Prepared count i w cfg)
    (startNewJob i w) (fun _ s => Loaded (count + w) s ∧ Budget cfg (count + w) true s) EF := by
  refine Walk.bind ((walk_askUnit (keeps_prepared count i w) fun x s _ => env_e2).mono died_fill) fun _ => ?_
  have hk : Keeps cfg Lab.died (fun s => (i ∉ s.startedP ∧ i ∉ s.dead ∧ s.packs.getLast? = some (i, w) ∧ i = s.oCounter ∧ i ∉ launchedOf s.ev) ∧
      (∃ k c, Ev.asked k (.chosen w c) ∈ s.ev) ∧
      (SelectorFits s.ev → load s.ev ≤ count ∧ 0 ≤ w ∧ w ≤ cfg.maxJobs - count) ∧ Open s ∧
      Budget cfg (count + w) true s) := by
    intro lab s t st ha inv hr
    have hb := keeps_budget (cfg := cfg) _ _ lab s t st ha inv hr.2.2.2.2
    cases st with
    | die _ j hi =>
      obtain ⟨⟨h1, h2, h3⟩, ⟨k, c, h4⟩, h5, h6, h7⟩ := hr
      refine ⟨⟨h1, ?_, h3.1, h3.2.1, by simpa [launchedOf_snoc] using h3.2.2⟩, ⟨k, c, List.mem_append_left _ h4⟩, fun hf => ?_, h6, hb⟩
      · simp only [List.mem_cons, not_or]
        refine ⟨fun e => ?_, h2⟩
        subst e
        simp only [State.alive, Bool.and_eq_true, decide_eq_true_eq] at hi
        exact h1 hi.1
      · have := h5 (fits_snoc hf)
        exact ⟨Int.le_trans (load_died inv (fits_snoc hf) j) this.1, this.2⟩
    | plain _ x hx => cases x <;> simp [Plain] at hx <;> exact absurd ha id
    | _ => exact absurd ha id
  refine Walk.bind (Q := fun _ s => (i ∉ s.startedP ∧ i ∉ s.dead ∧ s.packs.getLast? = some (i, w) ∧ i = s.oCounter ∧ i ∉ launchedOf s.ev) ∧
      (∃ k c, Ev.asked k (.chosen w c) ∈ s.ev) ∧
      (SelectorFits s.ev → load s.ev ≤ count ∧ 0 ≤ w ∧ w ≤ cfg.maxJobs - count) ∧ Open s ∧
      Budget cfg (count + w) true s)
    (Walk.modify (fun s _ h => ⟨_, .addPack s i w h.reg h.notPack h.notStarted, trivial⟩) fun s inv h _ => ?_)
    fun _ => ?_
  · refine ⟨⟨h.notStarted, fun hh => h.notStarted (inv.deadStarted _ hh), ?_, h.cur, h.notLaunched⟩, h.asked, h.fits, h.spawning, h.budget⟩
    have : ∀ l : List (Nat × Int), i ∉ l.map (·.1) → dictSet l i w = l ++ [(i, w)] := by
      intro l
      induction l with
      | nil => simp [dictSet]
      | cons p t ih =>
        intro hh
        simp only [List.map_cons, List.mem_cons, not_or] at hh
        have : ¬ p.1 = i := fun e => hh.1 e.symm
        simp [dictSet, this, ih hh.2]
    show (dictSet s.packs i w).getLast? = some (i, w)
    rw [this _ h.notPack]; simp
  refine Walk.bind ((walk_askUnit hk fun x s _ => env_e2).mono died_fill) fun _ => ?_
  refine Walk.bind (Q := fun _ s => Loaded (count + w) s ∧ Budget cfg (count + w) true s)
    (Walk.modify (fun s _ h => ?_) fun s inv h _ => ?_)
    fun _ => (walk_draw ((keeps_loaded _).and (keeps_budget _ _)) fun x s _ => env_e2).mono died_fill
  · obtain ⟨⟨h1, h2, h3⟩, h4, h5, h6, h7⟩ := h
    exact ⟨_, .start s i w h3.1 h1 h2 h4 (fun hf => by have := h5 hf; omega) h6 h3.2.1 h3.2.2, trivial⟩
  · obtain ⟨⟨h1, h2, h3⟩, h4, h5, h6, h7⟩ := h
    refine ⟨fun hf => ?_, fun h0 hp n hn => ?_⟩
    · have hd : i ∉ diedOf s.ev := fun hh => h2 ((inv.dead i).mpr hh)
      have := h5 (fits_snoc hf)
      have e : load (s.ev ++ [Ev.started i w]) = load s.ev + w := by
        simp [load, startedOf_snoc, diedOf_snoc, List.filter_append, hd]
      show load (s.ev ++ [Ev.started i w]) ≤ count + w
      omega
    · rw [sinceCrash_snoc] at hn
      exact h7 h0 (pos_snoc hp) n hn

theorem fill_open : Keeps cfg Lab.fill (fun s => s.converged = false) := by
  intro lab s t st ha inv hr
  cases st with
  | verdict => exact absurd ha id
  | setConverged => rfl
  | _ => exact hr

/-- Once quiet, always quiet. -/
theorem quiet_stays {c : Cfg} {p : List Ev} (hq : Quiet p) : ∀ q, AfterEach (Fine c) (p ++ q) →
    (∀ c n, Ev.resumed c n ∉ q) → (∀ i w, Ev.restarted i w ∉ q) → Quiet (p ++ q) := by
  refine snoc_induction (fun _ _ _ => by rw [List.append_nil]; exact hq) fun l x ih => ?_
  intro hg h1 h2
  have e : p ++ (l ++ [x]) = (p ++ l) ++ [x] := by simp
  rw [e] at hg ⊢
  obtain ⟨g1, g2⟩ := afterEach_snoc.mp hg
  have ih := ih g1 (fun c n h => h1 c n (List.mem_append_left _ h)) fun i w h => h2 i w (List.mem_append_left _ h)
  refine ⟨fun i hr => ih.1 i (running_snoc ?_ ?_ hr), ih.2.imp fun k hk => List.mem_append_left _ hk⟩
  · rintro i w rfl
    obtain ⟨k, hk⟩ := ih.2
    exact g2.2.2.2.2.2.2 k hk
  · rintro i w rfl
    exact h2 i w (by simp)

theorem Inv.unasked {s : State} (inv : Inv cfg s) (h : ¬ Quiet s.ev) : Unasked s.ev := by
  intro p q e h1 h2 hp
  exact absurd (e ▸ quiet_stays hp q (e ▸ inv.good) h1 h2) h

theorem Unasked.snoc {ev : List Ev} {x : Ev} (h : Unasked ev) (hx : ∀ b, x ≠ .checked b) : Unasked (ev ++ [x]) := by
  intro p q e h1 h2 hp b hb
  rcases List.eq_nil_or_concat q with rfl | ⟨q', y, rfl⟩
  · cases hb
  · have e' : ev ++ [x] = (p ++ q') ++ [y] := by simpa using e
    obtain ⟨e1, e2⟩ := List.append_inj' e' rfl
    cases e2
    simp only [List.concat_eq_append, List.mem_append, List.mem_singleton] at hb h1 h2
    rcases hb with hb | hb
    · exact h p q' e1 (fun c n hh => h1 c n (.inl hh)) (fun i w hh => h2 i w (.inl hh)) hp b hb
    · exact hx b hb.symm

theorem keeps_unasked {A : Lab → Prop} (hA : ∀ b, ¬ A (.ev (.checked b))) : Keeps cfg A (fun s => Unasked s.ev) := by
  intro lab s t st ha inv hr
  cases st with
  | verdict _ b => exact absurd ha (hA b)
  | plain _ x hx => exact hr.snoc (by rintro b rfl; cases hx)
  | _ => first | exact hr | exact hr.snoc (by simp)

theorem Inv.living_quiet {s : State} (inv : Inv cfg s) (h : Quiet s.ev) : s.livingSlots.length = 0 := by
  have : s.packs.filter (fun p => s.alive p.1) = [] := by
    rw [inv.living, List.filter_eq_nil_iff]
    intro p hp hd
    exact h.1 p.1 ⟨⟨p.2, hp⟩, by simpa using hd⟩
  rw [State.livingSlots, this]; rfl

theorem Inv.open_unasked {s : State} (inv : Inv cfg s) (h : s.spawning = true) : Unasked s.ev :=
  inv.unasked fun hq => by obtain ⟨k, hk⟩ := hq.2; exact inv.spawn.mp h k hk

theorem fill_unasked {p : Prop} : Keeps cfg Lab.fill (fun s => p → Unasked s.ev) :=
  fun lab s t st ha inv hr h => keeps_unasked (A := Lab.fill) (fun _ h => h) lab s t st ha inv (hr h)

theorem walk_fillLoop (n : Nat) : ∀ (count : Int) (b : Bool),
    Walk cfg Lab.fill (fun s => ((Loaded count s ∧ Budget cfg count b s) ∧ s.converged = false) ∧ (b = true → Unasked s.ev))
      (fillLoop cfg n count b)
      (fun b' s => (∃ count', Budget cfg count' b' s) ∧ (b' = true → Unasked s.ev)) EF := by
  induction n with
  | zero => intro count b; exact Walk.pend
  | succ n ih =>
    intro count b
    simp only [fillLoop]
    refine Walk.bind (Q := fun a s => a = s ∧ ((Loaded count s ∧ Budget cfg count b s) ∧ s.converged = false) ∧
      (b = true → Unasked s.ev)) (Walk.get fun s _ h => ⟨rfl, h⟩) fun a => ?_
    refine Walk.ite (fun hc => ?_) fun _ => Walk.pure fun _ _ h => ⟨⟨count, h.2.1.1.2⟩, h.2.2⟩
    refine Walk.bind (((walk_setup count b hc.1).frame (fill_open.and (fill_unasked (p := True)))).conseq
      (fun s inv h => ⟨⟨⟨h.1 ▸ hc.2, h.2.1.2⟩, h.2.1.1⟩, h.2.1.2, fun _ => inv.open_unasked (h.1 ▸ hc.2)⟩)
      (fun _ _ _ h => h) fun _ _ _ h => h.1) fun o => ?_
    cases o with
    | none => exact Walk.pure fun _ _ h => ⟨⟨count, h.1⟩, fun _ => h.2.2 trivial⟩
    | some p =>
      obtain ⟨i, w⟩ := p
      exact Walk.bind (((walk_startJob count i w).frame (fill_open.and (fill_unasked (p := True)))).conseq (fun _ _ h => h)
        (fun _ _ _ h => ⟨⟨h.1, h.2.1⟩, fun _ => h.2.2 trivial⟩) fun _ _ _ h => h.1) fun _ => ih _ _

theorem livingSlots_sum (inv : Inv cfg s) : s.livingSlots.sum = load s.ev := by
  simp only [State.livingSlots, load, inv.living]

theorem load_nonneg (inv : Inv cfg s) (hf : SelectorFits s.ev) : 0 ≤ load s.ev := by
  have := sum_filter_le ((startedOf s.ev).filter fun p => decide (p.1 ∉ diedOf s.ev)) (fun _ => false) fun p hp => by
    rcases inv.slots p (List.mem_filter.mp hp).1 with ⟨k, c, hkc⟩ | h
    · exact (hf _ _ _ hkc).1
    · omega
  have e : ∀ l : List (Nat × Int), l.filter (fun _ => false) = [] := fun l => by simp
  rw [e] at this
  exact this

theorem keeps_spawnOk_died : Keeps cfg Lab.died (SpawnOk cfg) := by
  intro lab s t st ha inv hr
  cases st with
  | die _ i hi =>
    intro h0 hp n hn
    rw [sinceCrash_snoc] at hn
    exact hr h0 (pos_snoc hp) n hn
  | plain _ x hx => cases x <;> simp [Plain] at hx <;> exact absurd ha id
  | _ => exact absurd ha id

theorem walk_fillSlots (fuel : Nat) :
    Walk cfg Lab.fill (fun s => SpawnOk cfg s ∧ s.converged = false) (fillSlots cfg fuel)
      (fun _ s => SpawnOk cfg s ∧ Unasked s.ev) EF := by
  unfold fillSlots
  refine Walk.bind ((walk_askUnit (keeps_spawnOk_died.and (fill_open.mono died_fill)) fun x s _ => env_e2).mono died_fill) fun _ => ?_
  refine Walk.bind (Q := fun a s => a = s ∧ SpawnOk cfg s ∧ s.converged = false) (Walk.get fun s _ h => ⟨rfl, h⟩) fun a => ?_
  dsimp only
  refine Walk.ite (fun hc => Walk.throw fun s _ h => ⟨⟨fun _ => h.1 ▸ hc.2.2, by simp, by simp [Why]⟩, by simp⟩) fun hc => ?_
  refine Walk.bind ((walk_fillLoop fuel _ _).pre fun s i h => ?_) fun b => ?_
  · obtain ⟨rfl, h, ho⟩ := h
    rw [livingSlots_sum i]
    refine ⟨⟨⟨fun _ => Int.le_refl _, fun h0 hp n hn => ?_⟩, ho⟩, by simp⟩
    obtain ⟨h1, h2⟩ := h h0 hp n hn
    have hl := load_nonneg i (pos_fits hp)
    have hcr : a.crashed = true := i.since.mpr (by rw [hn]; rfl)
    by_cases e : a.lastSpawn.1 = a.fCounter
    · have h3 := h1 e
      have : ¬ a.oCounter > a.lastSpawn.2 + 5 := fun hh => hc ⟨e, hh, hcr⟩
      exact ⟨by omega, fun _ => h3, fun h => absurd e h⟩
    · have h3 := h2 e
      subst h3
      exact ⟨by omega, fun h => absurd h e, fun _ => ⟨fun _ => rfl, by omega⟩⟩
  have hk : Keeps cfg Lab.died (fun s => (∃ count, Budget cfg count b s) ∧ (b = true → Unasked s.ev)) := by
    intro lab s t st ha inv ⟨⟨c, hr⟩, hu⟩
    exact ⟨⟨c, keeps_budget c b lab s t st ha inv hr⟩, fill_unasked lab s t st (died_fill _ ha) inv hu⟩
  refine Walk.bind ((walk_askUnit hk fun x s _ => env_e2).mono died_fill) fun _ => ?_
  refine Walk.bind (Q := fun a s => a = s ∧ (∃ count, Budget cfg count b s) ∧ (b = true → Unasked s.ev))
    (Walk.get fun s _ h => ⟨rfl, h⟩) fun a => ?_
  refine Walk.ite (fun hb => ?_) fun hb => Walk.ite (fun hl => Walk.throw fun s _ h => ?_) fun hl =>
    Walk.pure fun s inv h => ?_
  · refine Walk.modify (fun s _ _ => ⟨_, .mark s, trivial⟩) fun s inv h _ => ?_
    obtain ⟨-, ⟨c, h⟩, hu⟩ := h
    refine ⟨?_, hu hb⟩
    intro h0 hp n hn
    obtain ⟨h1, h2, h3⟩ := h h0 hp n hn
    by_cases e : s.lastSpawn.1 = s.fCounter
    · simp only [ne_eq, e, not_true_eq_false, if_false, forall_const, false_implies, and_true]
      exact h2 e
    · simp only [ne_eq, e, not_false_eq_true, if_true, forall_const, not_true_eq_false, false_implies, and_true]
      have := (h3 e).2
      omega
  · exact ⟨⟨by simp, fun _ => h.1 ▸ hl, by simp [Why]⟩, by simp⟩
  · obtain ⟨rfl, ⟨c, h⟩, -⟩ := h
    refine ⟨?_, inv.unasked fun hq => hl (inv.living_quiet hq)⟩
    intro h0 hp n hn
    obtain ⟨h1, h2, h3⟩ := h h0 hp n hn
    exact ⟨h2, fun e => (h3 e).1 (by simpa using hb)⟩

end Glompo.Manager
