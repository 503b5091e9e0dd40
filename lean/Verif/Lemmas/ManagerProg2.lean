import Verif.Lemmas.ManagerProg
import Verif.Lemmas.LoggerStore

/-! The pieces of the manager's program perform only atomic changes, continued. -/

namespace Glompo.Manager

open Glompo.Spec
open Glompo.Logger (Op)

variable {cfg : Cfg}

/-- Labels of everything between the start of optimizers and the verdict, except evaluations. -/
def Lab.side : Lab → Prop
  | .ev (.died _) => True
  | .ev (.released _) => True
  | .ev (.named _ _) => True
  | .ev (.said _ _) => True
  | .ev (.exited _ _) => True
  | .ev (.overdue _ _) => True
  | .ev (.hunt _) => True
  | .ev (.killed _ _) => True
  | .ev (.stop _) => True
  | .ev (.finished _) => True
  | .ev (.failed _) => True
  | .ev (.forced _) => True
  | .ev (.crashReport _ _) => True
  | .ev (.share _ _ _) => True
  | .ev (.pauseReq _) => True
  | .ev (.save _) => True
  | .ev (.pass _) => True
  | .ev (.resume _) => True
  | .quiet => True
  | _ => False

/-- The same with new results. -/
def Lab.tell : Lab → Prop
  | .ev (.updated _ _ _) => True
  | l => l.side

/-- The same with evaluations. -/
def Lab.proc : Lab → Prop
  | .ev (.accepted _) => True
  | .ev (.took _) => True
  | .ev (.received _) => True
  | .ev (.ignored _) => True
  | l => l.tell

theorem died_side : ∀ l, Lab.died l → Lab.side l := by
  intro l h; cases l with
  | ev x => cases x <;> first | exact trivial | exact absurd h id
  | _ => exact absurd h id

theorem side_tell : ∀ l, Lab.side l → Lab.tell l := by
  intro l h; cases l with
  | ev x => cases x <;> first | exact trivial | exact absurd h id
  | _ => first | exact trivial | exact absurd h id

theorem tell_proc : ∀ l, Lab.tell l → Lab.proc l := by
  intro l h; cases l with
  | ev x => cases x <;> first | exact trivial | exact absurd h id
  | _ => first | exact trivial | exact absurd h id

theorem side_proc : ∀ l, Lab.side l → Lab.proc l := fun l h => tell_proc l (side_tell l h)

theorem quiet_side : ∀ l, Lab.isQuiet l → Lab.side l := by
  intro l h; cases l <;> first | exact trivial | exact absurd h id

theorem keeps_inHand {A : Lab → Prop} (v : Option IterRes) (h1 : ∀ r, ¬ A (.ev (.accepted r)))
    (h2 : ∀ r, ¬ A (.ev (.received r))) (h3 : ∀ r, ¬ A (.ev (.ignored r))) :
    Keeps cfg A (fun s => inHand s.ev = v) := by
  intro lab s t st ha inv hr
  cases st with
  | acceptOld _ r => exact absurd ha (h1 r)
  | acceptNew _ r => exact absurd ha (h1 r)
  | receive _ m => exact absurd ha (h2 m)
  | ignore _ r => exact absurd ha (h3 r)
  | plain _ x hx => cases x <;> simp [Plain] at hx <;> simpa [inHand_snoc] using hr
  | _ => first | exact hr | simpa [inHand_snoc] using hr

theorem chunks_snoc {c : Nat} {ev : List Ev} {x : Ev} (h : ChunksAtMost c (ev ++ [x])) : ChunksAtMost c ev :=
  fun k hk => h k (List.mem_append_left _ hk)

theorem free_snoc {ev : List Ev} {x : Ev} (h : ckptFree (ev ++ [x]) = true)
    (h1 : ∀ b, x ≠ .checked b := by simp)
    (h2 : ∀ c n, x ≠ .resumed c n := by simp) :
    ckptFree ev = true := by
  rw [ckptFree_snoc] at h
  cases x with
  | checked b => exact absurd rfl (h1 b)
  | resumed c n => exact absurd rfl (h2 c n)
  | ckptBegin => cases h
  | _ => exact h

theorem keeps_ckpting {A : Lab → Prop} (hA : ∀ b, ¬ A (.ev (.checked b))) :
    Keeps cfg A (fun s => ckptFree s.ev = false) := by
  intro lab s t st ha inv hr
  cases st with
  | verdict _ b => exact absurd ha (hA b)
  | plain _ x hx => cases x <;> simp [Plain] at hx <;> simpa [ckptFree_snoc] using hr
  | _ => first | exact hr | simpa [ckptFree_snoc] using hr

/-- Unless a checkpoint has begun since the criterion was asked, it was not met and at most `n` evaluations were accepted
since then. -/
def Cnt (n : Nat) (s : State) : Prop := ckptFree s.ev = true → s.converged = false ∧ sinceCheck s.ev ≤ n

theorem keeps_cnt {A : Lab → Prop} (n : Nat) (h1 : ∀ r, ¬ A (.ev (.accepted r))) (h2 : ∀ b, ¬ A (.ev (.checked b))) :
    Keeps cfg A (Cnt n) := by
  intro lab s t st ha inv hr
  cases st with
  | acceptOld _ r => exact absurd ha (h1 r)
  | acceptNew _ r => exact absurd ha (h1 r)
  | verdict _ b => exact absurd ha (h2 b)
  | setConverged _ => exact fun h => ⟨rfl, (hr h).2⟩
  | plain _ x hx =>
    intro h
    have := hr (free_snoc (x := x) h (by rintro b rfl; simp [Plain] at hx) (by rintro c n rfl; simp [Plain] at hx))
    refine ⟨this.1, ?_⟩
    show sinceCheck (s.ev ++ [x]) ≤ n
    cases x <;> simp [Plain] at hx <;> simpa [sinceCheck_snoc] using this.2
  | _ =>
    first
    | exact hr
    | intro h
      have := hr (free_snoc h)
      refine ⟨this.1, ?_⟩
      simpa [sinceCheck_snoc] using this.2

theorem keeps_room {A : Lab → Prop} (n : Nat) (h1 : ∀ r, ¬ A (.ev (.accepted r))) (h2 : ∀ b, ¬ A (.ev (.checked b))) :
    Keeps cfg A (Room n) := by
  intro lab s t st ha inv hr
  cases st with
  | acceptOld _ r => exact absurd ha (h1 r)
  | acceptNew _ r => exact absurd ha (h1 r)
  | verdict _ b => exact absurd ha (h2 b)
  | setConverged _ => exact fun h => ⟨rfl, (hr h).2⟩
  | plain _ x hx =>
    intro h
    have := hr (free_snoc (x := x) h (by rintro b rfl; simp [Plain] at hx) (by rintro c n rfl; simp [Plain] at hx))
    refine ⟨this.1, fun c hc => ?_⟩
    have := this.2 c (chunks_snoc hc)
    show sinceCheck (s.ev ++ [x]) + n ≤ 9 + c
    cases x <;> simp [Plain] at hx <;> simpa [sinceCheck_snoc] using this
  | _ =>
    first
    | exact hr
    | intro h
      have := hr (free_snoc h)
      refine ⟨this.1, fun c hc => ?_⟩
      have := this.2 c (chunks_snoc hc)
      simpa [sinceCheck_snoc] using this

theorem keeps_spawnOk {A : Lab → Prop} (h1 : ∀ i, ¬ A (.ev (.newId i))) (h2 : ¬ A .mark) :
    Keeps cfg A (SpawnOk cfg) := by
  intro lab s t st ha inv hr
  have acc : ∀ (r : IterRes) (t : State), t.ev = s.ev ++ [.accepted r] → t.fCounter = s.fCounter + 1 →
      t.lastSpawn = s.lastSpawn → SpawnOk cfg t := by
    intro r t e1 e2 e3 h0 hp n hn
    rw [e1, sinceCrash_snoc] at hn
    have hn0 : n = 0 := by
      simp only [Option.map_eq_some_iff] at hn
      obtain ⟨_, -, h⟩ := hn; exact h.symm
    have := inv.marks.1
    rw [e2, e3]
    exact ⟨fun e => by omega, fun _ => hn0⟩
  cases st with
  | acceptOld _ r => exact acc r _ rfl rfl rfl
  | acceptNew _ r => exact acc r _ rfl rfl rfl
  | newId _ => exact absurd ha (h1 _)
  | mark _ => exact absurd ha h2
  | report _ i tb =>
    intro h0 hp n hn
    rw [sinceCrash_snoc] at hn
    cases tb with
    | false => exact hr h0 (pos_snoc hp) n hn
    | true =>
      cases hs : sinceCrash s.ev with
      | some m =>
        rw [hs] at hn; cases hn
        exact hr h0 (pos_snoc hp) m hs
      | none =>
        rw [hs] at hn; cases hn
        have := inv.marks.2
        refine ⟨fun _ => ?_, fun _ => rfl⟩
        show ((0 : Nat) : Int) ≤ cfg.maxJobs + (s.oCounter - s.lastSpawn.2 : Int)
        omega
  | plain _ x hx =>
    intro h0 hp n hn
    refine hr h0 (pos_snoc hp) n ?_
    rw [← hn]
    show _ = sinceCrash (s.ev ++ [x])
    cases x <;> simp [Plain] at hx <;> simp [sinceCrash_snoc]
  | _ =>
    first
    | exact hr
    | intro h0 hp n hn
      refine hr h0 (pos_snoc hp) n ?_
      rw [← hn]
      simp [sinceCrash_snoc]

theorem side_upToDate : Keeps cfg Lab.side (fun s => UpToDate s.ev = true) := keeps_upToDate fun _ h => h
theorem side_notUpToDate : Keeps cfg Lab.side (fun s => UpToDate s.ev = false) := keeps_notUpToDate fun _ _ _ h => h
theorem side_inHand (v : Option IterRes) : Keeps cfg Lab.side (fun s => inHand s.ev = v) :=
  keeps_inHand v (fun _ h => h) (fun _ h => h) fun _ h => h
theorem side_settled : Keeps cfg Lab.side Settled := side_upToDate.and (side_inHand none)
theorem tell_inHand (v : Option IterRes) : Keeps cfg Lab.tell (fun s => inHand s.ev = v) :=
  keeps_inHand v (fun _ h => h) (fun _ h => h) fun _ h => h
theorem tell_room (n : Nat) : Keeps cfg Lab.tell (Room n) := keeps_room n (fun _ h => h) fun _ h => h
theorem tell_cnt (n : Nat) : Keeps cfg Lab.tell (Cnt n) := keeps_cnt n (fun _ h => h) fun _ h => h
theorem proc_spawnOk : Keeps cfg Lab.proc (SpawnOk cfg) := keeps_spawnOk (fun _ h => h) fun h => h
theorem side_key (i : Nat) : Keeps cfg Lab.side (fun s => i ∈ s.packs.map (·.1)) := keeps_key i id
theorem proc_key (i : Nat) : Keeps cfg Lab.proc (fun s => i ∈ s.packs.map (·.1)) := keeps_key i id
theorem side_best (p : BestIter → Prop) : Keeps cfg Lab.side (fun s => p s.log.best) := by
  intro lab s t st ha inv hr
  rw [keeps_best (cfg := cfg) s.log.best (A := Lab.side) (fun _ h => h) id lab s t st ha inv rfl]
  exact hr
theorem side_result (p : Res → Prop) : Keeps cfg Lab.side (fun s => p s.result) := keeps_result p fun _ _ _ h => h

theorem keeps_all {β : Type} {A : Lab → Prop} {l : List β} {R : β → State → Prop} (h : ∀ b, Keeps cfg A (R b)) :
    Keeps cfg A (fun s => ∀ b ∈ l, R b s) := fun lab s t st ha i hr b hb => h b lab s t st ha i (hr b hb)

theorem side_keys (l : List Nat) : Keeps cfg Lab.side (fun s => ∀ i ∈ l, i ∈ s.packs.map (·.1)) := keeps_all side_key
theorem proc_keys (l : List Nat) : Keeps cfg Lab.proc (fun s => ∀ i ∈ l, i ∈ s.packs.map (·.1)) := keeps_all proc_key

/-- An observation within the parts above. -/
theorem side_askUnit {R : State → Prop} (h : Keeps cfg Lab.died R) : Walk cfg Lab.side R askUnit (fun _ => R) E1 :=
  (walk_askUnit h fun x s _ => e1_env).mono died_side
theorem side_draw {R : State → Prop} (h : Keeps cfg Lab.died R) : Walk cfg Lab.side R draw (fun _ => R) E1 :=
  (walk_draw h fun x s _ => e1_env).mono died_side
theorem side_askBool {R : State → Prop} (h : Keeps cfg Lab.died R) : Walk cfg Lab.side R askBool (fun _ => R) E1 :=
  (walk_askBool h fun x s _ => e1_env).mono died_side
theorem side_askSig {R : State → Prop} (h : Keeps cfg Lab.died R) : Walk cfg Lab.side R askSig (fun _ => R) E1 :=
  (walk_askSig h fun x s _ => e1_env).mono died_side
theorem side_askChunk {R : State → Prop} (h : Keeps cfg Lab.died R) : Walk cfg Lab.side R askChunk (fun _ => R) E1 :=
  (walk_askChunk h fun x s _ => e1_env).mono died_side
theorem side_askNames {R : State → Prop} (h : Keeps cfg Lab.died R) : Walk cfg Lab.side R askNames (fun _ => R) E1 :=
  (walk_askNames h fun x s _ => e1_env).mono died_side
theorem side_askFiles {R : State → Prop} (h : Keeps cfg Lab.died R) : Walk cfg Lab.side R askFiles (fun _ => R) E1 :=
  (walk_askFiles h fun x s _ => e1_env).mono died_side
theorem side_isAlive {R : State → Prop} (h : Keeps cfg Lab.died R) (i : Nat) :
    Walk cfg Lab.side R (isAlive i) (fun al s => R s ∧ al = s.alive i) E1 :=
  (walk_isAlive h (fun x s _ => e1_env) i).mono died_side
theorem side_note {R : State → Prop} {op : Op} (hop : ∀ s, R s → IsNote s op) (ht : ∀ i v, op ≠ .putMeta i "opt_type" v)
    (hreg : ∀ s, Inv cfg s → R s → ∀ i, (∃ k v, op = .putMeta i k v) ∨ (∃ m, op = .putMsg i m) → i ∈ added s.ops)
    (h : Keeps cfg Lab.isQuiet R) :
    Walk cfg Lab.side R (logOp op) (fun _ => R) E1 := by
  refine (walk_note hop ht h fun s inv hr h1 h2 h3 l ops => ⟨by simp, ⟨by simp, by simp⟩, fun _ => .inl ?_, by simp⟩).mono quiet_side
  show s.first.traj = false ∧ ∃ i, Ev.received (.fin i) ∈ s.ev
  rcases hop s hr with ⟨i, k, v, rfl⟩ | ⟨i, m, rfl⟩ | ⟨i, rfl, hf, -⟩
  · exact inv.gone (hreg s inv hr i (.inl ⟨k, v, rfl⟩)) (h1 i k v rfl)
  · exact inv.gone (hreg s inv hr i (.inr ⟨m, rfl⟩)) (h2 i m rfl)
  · exact ⟨h3 i rfl, i, hf⟩

theorem side_putMsg {R : State → Prop} (i : Nat) (m : String) (hreg : ∀ s, Inv cfg s → R s → i ∈ added s.ops)
    (h : Keeps cfg Lab.isQuiet R) : Walk cfg Lab.side R (logOp (.putMsg i m)) (fun _ => R) E1 :=
  side_note (fun _ _ => .inr (.inl ⟨_, _, rfl⟩)) (by simp) (fun s inv hr j hj => by
    rcases hj with ⟨k, v, e⟩ | ⟨m, e⟩ <;> cases e
    exact hreg s inv hr) h

theorem side_emit {R : State → Prop} {x : Ev} (hx : Plain x = true) (hl : Lab.side (.ev x))
    (h : Keeps cfg Lab.side R) : Walk cfg Lab.side R (emit x) (fun _ => R) E1 :=
  Walk.modify (fun s _ _ => ⟨_, .plain s x hx, hl⟩) fun s i hr _ => h _ _ _ (.plain s x hx) hl i hr

theorem keeps_received {A : Lab → Prop} (m : Msg) : Keeps cfg A (fun s => Ev.received m ∈ s.ev) := by
  intro lab s t st ha inv hr
  cases st <;> first | exact hr | exact List.mem_append_left _ hr

theorem keeps_victim {A : Lab → Prop} (i : Nat) : Keeps cfg A (fun s => i ∈ s.victims) := by
  intro lab s t st ha inv hr
  cases st with
  | kill _ v h =>
    show i ∈ addTo s.victims v
    unfold addTo
    split
    · exact hr
    · exact List.mem_append_left _ hr
  | _ => exact hr

theorem mem_forced {ev : List Ev} {i : Nat} : i ∈ forcedOf ev ↔ Ev.forced i ∈ ev := by
  simp only [forcedOf, List.mem_filterMap]
  constructor
  · rintro ⟨x, hx, h⟩; cases x <;> simp at h; subst h; exact hx
  · intro h; exact ⟨_, h, rfl⟩

theorem keeps_forced {A : Lab → Prop} (i : Nat) : Keeps cfg A (fun s => i ∈ forcedOf s.ev) := by
  intro lab s t st ha inv hr
  exact mem_forced.mpr (keeps_event (A := A) _ _ _ _ st ha inv (mem_forced.mp hr))

theorem keeps_converged {A : Lab → Prop} (h1 : ∀ b, ¬ A (.ev (.checked b))) (h2 : ¬ A .mark) :
    Keeps cfg A (fun s => s.converged = true) := by
  intro lab s t st ha inv hr
  cases st with
  | verdict _ b => exact absurd ha (h1 b)
  | setConverged => exact absurd ha h2
  | _ => exact hr

theorem side_stop {R : State → Prop} (i : Nat) (h : Keeps cfg Lab.side R)
    (hs : ∀ s, R s → i ∈ s.victims ∨ i ∈ forcedOf s.ev ∨ s.converged = true ∧ s.alive i = true) :
    Walk cfg Lab.side R (emit (.stop i)) (fun _ => R) E1 :=
  Walk.modify (fun s _ p => ⟨_, .stop s i (hs s p), trivial⟩) fun s inv p _ =>
    h _ _ _ (.stop s i (hs s p)) trivial inv p

theorem side_putEnd {R : State → Prop} (i : Nat) (why : String) (hreg : ∀ s, Inv cfg s → R s → i ∈ added s.ops)
    (h : Keeps cfg Lab.isQuiet R) : Walk cfg Lab.side R (putEnd i why) (fun _ => R) E1 := by
  have hj : ∀ s, Inv cfg s → R s → ∀ k v j, (∃ k' v', Op.putMeta i k v = .putMeta j k' v') ∨ (∃ m, Op.putMeta i k v = .putMsg j m) →
      j ∈ added s.ops := fun s inv hr k v j hj => by
    rcases hj with ⟨k, v, e⟩ | ⟨m, e⟩ <;> cases e
    exact hreg s inv hr
  exact Walk.bind (side_note (fun _ _ => .inl ⟨_, _, _, rfl⟩) (by simp) (fun s inv hr => hj s inv hr _ _) h) fun _ =>
    side_note (fun _ _ => .inl ⟨_, _, _, rfl⟩) (by simp) (fun s inv hr => hj s inv hr _ _) h

/-! ### Signals -/

theorem quiet_noGrave : ∀ l, Lab.isQuiet l → l.noGrave := by
  intro l h; cases l <;> first | exact trivial | exact absurd h id

theorem died_noGrave : ∀ l, Lab.died l → l.noGrave := by
  intro l h; cases l with
  | ev x => cases x <;> first | exact trivial | exact absurd h id
  | _ => exact absurd h id

/-- `i` may be counted as finished. -/
def MayFinish (i : Nat) (s : State) : Prop :=
  i ∈ s.packs.map (·.1) ∧ (i ∉ s.graveyard ∨ ckptFree s.ev = false)

theorem keeps_or {A : Lab → Prop} {R S : State → Prop} (h : Keeps cfg A R) (h' : Keeps cfg A S) :
    Keeps cfg A (fun s => R s ∨ S s) := fun lab s t st ha i hr =>
  hr.elim (fun x => .inl (h lab s t st ha i x)) fun x => .inr (h' lab s t st ha i x)

theorem keeps_mayFinish {A : Lab → Prop} (hA : ∀ l, A l → l.noGrave) (hA' : ∀ l, A l → l.side) (i : Nat) :
    Keeps cfg A (MayFinish i) :=
  Keeps.and ((side_key i).mono hA') (keeps_or (keeps_notGrave i hA) (keeps_ckpting fun b h => hA' _ h))

theorem walk_finish (i : Nat) (msg : String) : Walk cfg Lab.side (MayFinish i) (finish i msg) (fun _ _ => True) E1 := by
  refine Walk.bind (Q := fun _ => MayFinish i) (Walk.modify (fun s _ _ => ⟨_, .plain s (.said i msg) rfl, trivial⟩) fun s _ h _ =>
    ⟨h.1, h.2.imp id fun h => by rw [ckptFree_snoc]; exact h⟩) fun _ => ?_
  refine Walk.bind (side_putEnd i msg (fun s inv p => inv.keys i p.1) (keeps_mayFinish quiet_noGrave quiet_side i)) fun _ => ?_
  exact Walk.modify (fun s _ h => ⟨_, .finish s i h.1 h.2, trivial⟩) fun _ _ _ _ => trivial

theorem walk_checkSignals (i : Nat) : Walk cfg Lab.side (fun s => i ∈ s.packs.map (·.1)) (checkSignals i)
    (fun _ _ => True) E1 := by
  unfold checkSignals
  refine Walk.bind (Q := fun a s => a = s ∧ i ∈ s.packs.map (·.1)) (Walk.get fun s _ h => ⟨rfl, h⟩) fun a => ?_
  refine Walk.ite (fun _ => Walk.pure fun _ _ _ => trivial) fun hg => ?_
  refine Walk.bind (Q := fun _ => MayFinish i)
    ((side_askSig (keeps_mayFinish died_noGrave died_side i)).pre fun s _ h => ⟨h.2, .inl (h.1 ▸ hg)⟩) fun o => ?_
  match o with
  | none => exact Walk.pure fun _ _ _ => trivial
  | some .eof => exact Walk.pure fun _ _ _ => trivial
  | some (.done msg) =>
    exact Walk.bind (walk_finish i msg) fun _ => Walk.bind (side_draw Keeps.triv) fun _ => Walk.pure fun _ _ _ => trivial
  | some (.note msg tb) =>
    refine Walk.bind (side_putMsg i msg (fun s inv p => inv.keys i p.1) (keeps_mayFinish quiet_noGrave quiet_side i)) fun _ => ?_
    exact Walk.bind (Walk.modify (Q := fun _ _ => True) (fun s _ _ => ⟨_, .report s i tb, trivial⟩) fun _ _ _ _ => trivial) fun _ =>
      Walk.bind (side_draw Keeps.triv) fun _ => Walk.pure fun _ _ _ => trivial
  | some .paused => exact Walk.pure fun _ _ _ => trivial
  | some .unknown => exact Walk.pure fun _ _ _ => trivial

/-! ### Hunts -/

theorem walk_shutdown (v : Nat) (h : Option Nat) (why : String) :
    Walk cfg Lab.side (fun s => v ∈ s.packs.map (·.1) ∧ v ∉ s.graveyard ∧ inHand s.ev = none ∧
      ∀ h', h = some h' → 0 < h' ∧ s.log.best.optId = h' ∧ v ≠ h' ∧ s.log.hasIterHistory v = true)
    (shutdownJob v h why) (fun _ _ => True) E1 := by
  have hk : ∀ {A : Lab → Prop}, Keeps cfg A (fun s => v ∈ s.victims ∧ v ∈ added s.ops) := (keeps_victim v).and (keeps_added v)
  refine Walk.bind (Q := fun _ s => v ∈ s.victims ∧ v ∈ added s.ops) (Walk.modify (fun s _ p => ⟨_, .kill s v h p.1 p.2.1 p.2.2.1 p.2.2.2, trivial⟩)
    fun s inv p _ => ⟨?_, inv.keys v p.1⟩) fun _ => ?_
  · show v ∈ addTo s.victims v
    unfold addTo
    split
    · assumption
    · exact List.mem_append_right _ (List.mem_singleton.mpr rfl)
  refine Walk.bind (side_askUnit hk) fun _ => ?_
  refine Walk.bind (side_stop v hk fun s p => .inl p.1) fun _ => ?_
  exact Walk.bind (side_putEnd v (killText h why) (fun s _ p => p.2) hk) fun _ =>
    (side_draw Keeps.triv).pre fun _ _ _ => trivial

def Leading (h : Nat) (s : State) : Prop := 0 < h ∧ s.log.best.optId = h ∧ inHand s.ev = none

theorem side_leading (h : Nat) : Keeps cfg Lab.side (Leading h) := Keeps.and Keeps.const ((side_best (fun b => b.optId = h)).and (side_inHand none))

theorem walk_huntLoop (h : Nat) (ids : List Nat) : ∀ vs, Walk cfg Lab.side
    (fun s => Leading h s ∧ ∀ v ∈ ids, v ∈ s.packs.map (·.1)) (huntLoop h ids vs) (fun _ _ => True) E1 := by
  induction ids with
  | nil => intro vs; exact Walk.pure fun _ _ _ => trivial
  | cons v t ih =>
    intro vs
    simp only [huntLoop]
    have hK : Keeps cfg Lab.side (fun s => Leading h s ∧ ∀ v' ∈ v :: t, v' ∈ s.packs.map (·.1)) :=
      (side_leading h).and (side_keys _)
    have ih' : ∀ vs, Walk cfg Lab.side (fun s => Leading h s ∧ ∀ v' ∈ v :: t, v' ∈ s.packs.map (·.1)) (huntLoop h t vs)
      (fun _ _ => True) E1 := fun vs => (ih vs).pre fun s _ p => ⟨p.1, fun v' hv => p.2 v' (List.mem_cons_of_mem _ hv)⟩
    refine Walk.bind (Q := fun a s => a = s ∧ Leading h s ∧ ∀ v' ∈ v :: t, v' ∈ s.packs.map (·.1))
      (Walk.get fun s _ p => ⟨rfl, p⟩) fun a => ?_
    refine Walk.ite (fun hc => ?_) fun _ => (ih' vs).pre fun s _ p => p.2
    have hD : Keeps cfg Lab.died (fun s => (Leading h s ∧ ∀ v' ∈ v :: t, v' ∈ s.packs.map (·.1)) ∧
        s.log.hasIterHistory v = true) := (hK.mono died_side).and (keeps_died fun _ _ _ h => h)
    refine Walk.bind ((side_askBool hD).pre fun s _ p => ⟨p.2, p.1 ▸ hc.2.1⟩) fun b => ?_
    refine Walk.bind (Q := fun a s => a = s ∧ (Leading h s ∧ ∀ v' ∈ v :: t, v' ∈ s.packs.map (·.1)) ∧
        s.log.hasIterHistory v = true) (Walk.get fun s _ p => ⟨rfl, p⟩) fun a => ?_
    refine Walk.ite (fun hc' => ?_) fun _ => (ih' vs).pre fun s _ p => p.2.1
    refine Walk.bind (Q := fun _ s => Leading h s ∧ ∀ v' ∈ v :: t, v' ∈ s.packs.map (·.1)) ?_ fun _ => ih' _
    refine ((walk_shutdown v (some h) "hunt").frame hK).conseq (fun s _ p => ⟨⟨?_, ?_, p.2.1.1.2.2, ?_⟩, p.2.1⟩)
      (fun _ s _ p => p.2) fun x s _ p => p.1
    · exact p.2.1.2 v List.mem_cons_self
    · rw [← p.1]; exact hc'.2
    · intro h' e; cases e
      exact ⟨p.2.1.1.1, p.2.1.1.2.1, hc.2.2, p.2.2⟩

theorem walk_startHunt (h : Nat) (hh : cfg.hunting = true) : Walk cfg Lab.side
    (fun s => Leading h s ∧ (s.fCounter : Int) - s.lastHunt ≥ cfg.huntFrequency) (startHunt h) (fun _ _ => True) E1 := by
  refine Walk.bind (Q := fun _ => Leading h) (Walk.modify (fun s _ p => ⟨_, .hunt s h p.1.1 p.1.2.1 hh p.2, trivial⟩)
    fun s inv p _ => side_leading h _ _ _ (.hunt s h p.1.1 p.1.2.1 hh p.2) trivial inv p.1) fun _ => ?_
  refine Walk.bind (Q := fun a s => a = s ∧ Leading h s) (Walk.get fun s _ p => ⟨rfl, p⟩) fun a => ?_
  exact (walk_huntLoop h _ _).pre fun s _ p => ⟨p.2, fun v hv => p.1 ▸ hv⟩

/-! ### The result -/

/-- While the incumbent is being shared. -/
def Sharing (cfg : Cfg) (b : BestIter) (s : State) : Prop :=
  s.log.best = b ∧ (cfg.sharing = true ∧ shouldShare s.result.fx b.fx = true) ∧ UpToDate s.ev = false

theorem side_sharing (b : BestIter) : Keeps cfg Lab.side (Sharing cfg b) :=
  (side_best (fun x => x = b)).and ((side_result fun r => cfg.sharing = true ∧ shouldShare r.fx b.fx = true).and
    side_notUpToDate)

theorem walk_shareLoop (b : BestIter) (ids : List Nat) : Walk cfg Lab.side (Sharing cfg b) (shareLoop b ids)
    (fun _ => Sharing cfg b) E1 := by
  induction ids with
  | nil => exact Walk.pure fun _ _ h => h
  | cons i t ih =>
    simp only [shareLoop]
    refine Walk.ite (fun hi => ?_) fun _ => ih
    refine Walk.bind (side_isAlive ((side_sharing b).mono died_side) i) fun al => ?_
    refine Walk.ite (fun ha => ?_) fun _ => ih.pre fun s _ p => p.1
    refine Walk.bind ?_ fun _ => ih
    have key : ∀ s, Sharing cfg b s ∧ al = s.alive i → Step cfg (.ev (.share i b.x b.fx)) s
        { s with ev := s.ev ++ [.share i b.x b.fx] } := by
      rintro s ⟨⟨h1, h2, h3⟩, h4⟩
      have := Step.share (cfg := cfg) s i h2.1 (h4 ▸ ha) (h1 ▸ hi) (h1 ▸ h2.2) h3
      rw [h1] at this; exact this
    exact Walk.modify (fun s _ p => ⟨_, key s p, trivial⟩) fun s inv p _ => side_sharing b _ _ _ (key s p) trivial inv p.1

theorem walk_updateBest : Walk cfg Lab.tell (fun s => UpToDate s.ev = false) (updateBestResult cfg)
    (fun _ s => UpToDate s.ev = true ∧ s.result.origin.map (·.1) = some s.log.best.optId) E1 := by
  unfold updateBestResult
  refine Walk.bind (Q := fun a s => a = s ∧ UpToDate s.ev = false) (Walk.get fun s _ p => ⟨rfl, p⟩) fun a => ?_
  dsimp only
  have hmod : Walk cfg Lab.tell (fun s => s.log.best = a.log.best ∧ UpToDate s.ev = false)
      (M.modify fun s => { s with
        result :=
          { x := some a.log.best.x, fx := some a.log.best.fx, origin := some (a.log.best.optId, a.log.best.type)
            fEvals := s.fCounter, optsStarted := s.oCounter, optsKilled := s.victims.length
            optsConv := s.convCounter }
        ev := s.ev ++ [.updated a.log.best.x a.log.best.fx a.log.best.optId] })
      (fun _ s => UpToDate s.ev = true ∧ s.result.origin.map (·.1) = some s.log.best.optId) E1 := by
    refine Walk.modify (fun s _ p => ⟨.ev (.updated a.log.best.x a.log.best.fx a.log.best.optId), ?_, trivial⟩)
      fun s _ p _ => ?_
    · have := Step.update (cfg := cfg) s
      rw [p.1] at this; exact this
    · refine ⟨by simp [UpToDate_snoc], ?_⟩
      show some a.log.best.optId = some s.log.best.optId
      rw [p.1]
  by_cases hc : cfg.sharing = true ∧ shouldShare a.result.fx a.log.best.fx = true
  · rw [if_pos hc]
    refine Walk.bind (Q := fun _ s => s.log.best = a.log.best ∧ UpToDate s.ev = false) ?_ fun _ => hmod
    refine ((walk_shareLoop a.log.best _).mono side_tell).conseq (fun s _ p => ⟨?_, ?_, p.2⟩) (fun _ s _ p => ⟨p.1, p.2.2⟩)
      fun _ _ _ h => h
    · rw [p.1]
    · rw [← p.1]; exact hc
  · rw [if_neg hc]
    exact hmod.pre fun s _ p => ⟨by rw [p.1], p.2⟩

theorem walk_huntIfDue : Walk cfg Lab.tell (fun s => UpToDate s.ev = false ∧ inHand s.ev = none) (huntIfDue cfg)
    (fun _ s => Settled s) E1 := by
  refine Walk.bind ((walk_updateBest.frame (tell_inHand none)).exc fun _ _ _ p => p.1) fun _ => ?_
  refine Walk.bind (Q := fun a s => a = s ∧ (UpToDate s.ev = true ∧ s.result.origin.map (·.1) = some s.log.best.optId) ∧
    inHand s.ev = none) (Walk.get fun s _ p => ⟨rfl, p⟩) fun a => ?_
  cases ho : a.result.origin with
  | none => exact Walk.pure fun s _ p => ⟨p.2.1.1, p.2.2⟩
  | some q =>
    obtain ⟨best, c⟩ := q
    refine Walk.ite (fun hc => ?_) fun _ => Walk.pure fun s _ p => ⟨p.2.1.1, p.2.2⟩
    refine (((walk_startHunt best hc.2.1).frame side_settled).mono side_tell).conseq (fun s _ p => ?_)
      (fun _ s _ p => p.2) fun _ s _ p => p.1
    obtain ⟨rfl, ⟨h2, h3⟩, h4⟩ := p
    rw [ho] at h3
    exact ⟨⟨⟨hc.1, by simpa using h3.symm, h4⟩, hc.2.2⟩, h2, h4⟩

/-! ### Results -/

theorem walk_extraNames {R : State → Prop} (r : IterRes) (h : Keeps cfg Lab.died R)
    (hn : ∀ s l, R s → R { s with ev := s.ev ++ [.named r.optId l] }) :
    Walk cfg Lab.side R (extraNames r)
      (fun l s => R s ∧ (s.log.hasIterHistory r.optId = false → Headed s.ev r l)) E1 := by
  refine Walk.bind (Q := fun a s => a = s ∧ R s) (Walk.get fun s _ p => ⟨rfl, p⟩) fun a => ?_
  refine Walk.ite (fun hc => ?_) fun hc => Walk.pure fun s _ p => ⟨p.2, fun hh => ⟨fun _ => rfl, fun he => ?_⟩⟩
  · refine Walk.bind ((side_askNames h).pre fun s _ p => p.2) fun l => ?_
    refine Walk.bind (Q := fun _ s => R s ∧ Ev.named r.optId l ∈ s.ev)
      (Walk.modify (fun s _ p => ⟨_, .plain s (.named r.optId l) rfl, trivial⟩) fun s inv p _ => ⟨hn s l p, by simp⟩) fun _ => ?_
    exact Walk.pure fun s _ p => ⟨p.1, fun _ => ⟨fun he => absurd he hc.2, fun _ => p.2⟩⟩
  · obtain ⟨rfl, -⟩ := p
    exact absurd ⟨hh, he⟩ hc

theorem put_old (i : Inv cfg s) (r : IterRes) (h : s.log.hasIterHistory r.optId = true) :
    ∃ l, s.log.step (.put r) = (l, none) := by
  obtain ⟨-, -, st, hst⟩ := Logger.hasIterHistory_opened i.store h
  have := Logger.put_ok s.first.traj i.wf (r := r) (st := st) (by rw [← i.log]; exact hst)
  rw [← i.log] at this
  exact ⟨_, Prod.ext rfl this⟩

theorem put_new (i : Inv cfg s) (r : IterRes) (names : List String) (h : s.log.hasIterHistory r.optId = false)
    (ha : (s.log.step (.addHist r.optId names)).2 = none) :
    ∃ l, (s.log.step (.addHist r.optId names)).1.step (.put r) = (l, none) := by
  obtain ⟨st, hst⟩ := Logger.addHist_ok ha
  obtain ⟨h1, h2⟩ := Logger.not_opened_of_noHistory i.store h hst
  have hw := wellFormed_snoc i.wf (op := .addHist r.optId names) ⟨h1, h2⟩
  have e : (s.log.step (.addHist r.optId names)).1 = (Logger.init s.first.traj).run (s.ops ++ [.addHist r.optId names]) := by
    rw [Logger.run_snoc, ← i.log]
  have e2 : ∃ st', dictGet (s.log.step (.addHist r.optId names)).1.storage r.optId = some st' := by
    simp only [Logger.step, Logger.addIterHistory, hst]
    exact ⟨_, dictGet_set_self _ _ _⟩
  obtain ⟨st', hst'⟩ := e2
  rw [e] at hst' ⊢
  exact ⟨_, Prod.ext rfl (Logger.put_ok s.first.traj hw hst')⟩

theorem accept_after {n k : Nat} {s t : State} {r : IterRes} (hc : Cnt k s) (hr : Room (n + 1) s)
    (e1 : t.ev = s.ev ++ [.accepted r]) (e2 : t.converged = s.converged) :
    (UpToDate t.ev = false ∧ inHand t.ev = none) ∧ Cnt (k + 1) t ∧ Room n t := by
  rw [e1]
  refine ⟨⟨by simp [UpToDate_snoc], by simp [inHand_snoc]⟩, fun h => ?_, fun h => ?_⟩
  · rw [e1] at h ⊢
    have := hc (free_snoc h)
    rw [e2]
    refine ⟨this.1, ?_⟩
    rw [sinceCheck_snoc]; exact Nat.succ_le_succ this.2
  · rw [e1] at h ⊢
    have := hr (free_snoc h)
    rw [e2]
    refine ⟨this.1, fun c hch => ?_⟩
    have := this.2 c (chunks_snoc hch)
    rw [sinceCheck_snoc]
    show sinceCheck s.ev + 1 + n ≤ 9 + c
    omega

theorem walk_record (r : IterRes) (names : List String) (n k : Nat) :
    Walk cfg Lab.proc (fun s => (r.optId ∉ s.victims ∧ UpToDate s.ev = true ∧ inHand s.ev = some r ∧ Cnt k s ∧
      Room (n + 1) s) ∧ (s.log.hasIterHistory r.optId = false → Headed s.ev r names)) (record r names)
      (fun _ s => (UpToDate s.ev = false ∧ inHand s.ev = none) ∧ Cnt (k + 1) s ∧ Room n s) E1 := by
  intro s e i p
  obtain ⟨⟨p1, p2, p3, p4, p5⟩, p7⟩ := p
  have p6 : Room 1 s := fun h => ⟨(p5 h).1, fun c hc => by have := (p5 h).2 c hc; omega⟩
  unfold record
  cases hh : s.log.hasIterHistory r.optId with
  | true =>
    obtain ⟨l, hl⟩ := put_old i r hh
    have hs := Step.acceptOld (cfg := cfg) s r hh p1 p2 p3 p6
    simp only [hl, ↓reduceIte] at hs ⊢
    refine ⟨?_, fun _ _ => accept_after (t := { s with fCounter := _, log := _, ops := _, ev := _ }) p4 p5 rfl rfl, fun x hx => by (cases hx), uses_ok⟩
    rw [List.append_nil]
    exact .one hs trivial
  | false =>
    cases ha : (s.log.step (.addHist r.optId names)).2 with
    | some x =>
      simp only [ha, Bool.false_eq_true, ↓reduceIte]
      refine ⟨.refl _, fun a h => by (cases h), fun y hy => ?_, uses_refl (by simp)⟩
      cases hy
      refine ⟨by simp, ⟨by simp, by simp⟩, fun _ => ?_, by simp⟩
      have hn : dictGet s.log.storage r.optId = none := by
        simp only [Logger.step, Logger.addIterHistory] at ha
        split at ha
        · assumption
        · cases ha
      by_cases hm : r.optId ∈ (startedOf s.ev).map (·.1)
      · exact .inl (i.gone (i.startedReg _ ((i.startedP _).mpr hm)) hn)
      · exact .inr ⟨r, p3, hm⟩
    | none =>
      obtain ⟨l, hl⟩ := put_new i r names hh ha
      have hs := Step.acceptNew (cfg := cfg) s r names hh ha p1 p2 p3 p6 (p7 hh)
      simp only [ha, hl, Bool.false_eq_true, ↓reduceIte] at hs ⊢
      exact ⟨.one hs trivial, fun _ _ => accept_after (t := { s with fCounter := _, log := _, ops := _, ev := _ }) p4 p5 rfl rfl, fun x hx => by (cases hx), uses_ok⟩

/-- Between two messages of a chunk. -/
def Between (n k : Nat) (s : State) : Prop := Settled s ∧ Cnt k s ∧ Room n s

theorem side_between (n k : Nat) : Keeps cfg Lab.side (Between n k) :=
  side_settled.and (((tell_cnt k).mono side_tell).and ((tell_room n).mono side_tell))

theorem Between.less {n k : Nat} {s : State} (h : Between (n + 1) k s) : Between n k s :=
  ⟨h.1, h.2.1, fun hh => ⟨(h.2.2 hh).1, fun c hc => by have := (h.2.2 hh).2 c hc; omega⟩⟩

theorem walk_chunkLoop (ms : List Msg) : ∀ t, Walk cfg Lab.proc (Between ms.length t.accepted)
    (chunkLoop cfg ms t) (fun t' s => Settled s ∧ Cnt t'.accepted s) E1 := by
  induction ms with
  | nil => intro t; exact Walk.pure fun _ _ h => ⟨h.1, h.2.1⟩
  | cons m ms ih =>
    intro t
    simp only [chunkLoop]
    have got : ∀ (s : State), Between (ms.length + 1) t.accepted s → ∀ x, (∀ r, x ≠ Ev.accepted r) →
        (∀ r, x ≠ Ev.checked r) → (∀ c n, x ≠ Ev.resumed c n) → Cnt t.accepted { s with ev := s.ev ++ [x] } ∧
        Room (ms.length + 1) { s with ev := s.ev ++ [x] } := by
      intro s p x hx hx' hx''
      have e : sinceCheck (s.ev ++ [x]) = sinceCheck s.ev := by
        rw [sinceCheck_snoc]; cases x <;> simp_all
      refine ⟨fun h => ?_, fun h => ?_⟩
      · have := p.2.1 (free_snoc h hx' hx'')
        exact ⟨this.1, by show sinceCheck (s.ev ++ [x]) ≤ _; rw [e]; exact this.2⟩
      · have := p.2.2 (free_snoc h hx' hx'')
        refine ⟨this.1, fun c hc => ?_⟩
        show sinceCheck (s.ev ++ [x]) + _ ≤ _
        rw [e]; exact this.2 c (chunks_snoc hc)
    cases m with
    | fin i =>
      refine Walk.bind (Q := fun _ s => Between ms.length t.accepted s ∧ Ev.received (.fin i) ∈ s.ev)
        (Walk.modify (fun s _ p => ⟨_, .receive s _ p.1.1 p.1.2, trivial⟩) fun s inv p _ => ?_) fun _ => ?_
      · obtain ⟨g1, g2⟩ := got s p (.received (.fin i)) (by simp) (by simp) (by simp)
        refine ⟨Between.less ⟨⟨?_, ?_⟩, g1, g2⟩, by simp⟩
        · show UpToDate (s.ev ++ [_]) = true
          rw [UpToDate_snoc]; exact p.1.1
        · show inHand (s.ev ++ [_]) = none
          rw [inHand_snoc]; exact p.1.2
      refine Walk.bind (Q := fun a s => (Between ms.length t.accepted s ∧ Ev.received (.fin i) ∈ s.ev) ∧
        s.result.origin = a.result.origin) (Walk.get fun s _ p => ⟨p, rfl⟩) fun a => ?_
      cases a.result.origin with
      | none => exact (ih t).pre fun _ _ h => h.1.1
      | some q =>
        obtain ⟨best, c⟩ := q
        refine Walk.ite (fun hb => ?_) fun _ => (ih t).pre fun _ _ h => h.1.1
        have hkeep : Keeps cfg Lab.isQuiet fun s => (Between ms.length t.accepted s ∧ Ev.received (.fin i) ∈ s.ev) ∧
            s.result.origin = some (best, c) :=
          (((side_between _ _).mono quiet_side).and (keeps_received _)).and
            (keeps_result (fun r => r.origin = some (best, c)) fun _ _ _ h => h)
        refine Walk.bind ((side_note (fun _ h => .inr (.inr ⟨_, rfl, h.1.2, h.1.1.1.1, best, c, h.2, hb⟩))
          (by simp) (fun _ _ _ j hj => by rcases hj with ⟨k, v, e⟩ | ⟨m, e⟩ <;> cases e) hkeep).mono side_proc) fun _ => ?_
        exact Walk.bind (((side_emit (x := .released i) rfl trivial (side_between _ _)).pre fun _ _ h => h.1.1).mono side_proc) fun _ =>
          ih { t with closed := t.closed ++ [i] }
    | res r =>
      let P : State → Prop := fun s => UpToDate s.ev = true ∧ inHand s.ev = some r ∧ Cnt t.accepted s ∧
        Room (ms.length + 1) s
      refine Walk.bind (Q := fun _ s => P s)
        (Walk.modify (fun s _ p => ⟨_, .receive s _ p.1.1 p.1.2, trivial⟩) fun s inv p _ => ?_) fun _ => ?_
      · obtain ⟨g1, g2⟩ := got s p (.received (.res r)) (by simp) (by simp) (by simp)
        refine ⟨?_, ?_, g1, g2⟩
        · show UpToDate (s.ev ++ [_]) = true
          rw [UpToDate_snoc]; exact p.1.1
        · show inHand (s.ev ++ [_]) = some r
          rw [inHand_snoc]
      refine Walk.bind (Q := fun a s => a = s ∧ P s) (Walk.get fun s _ p => ⟨rfl, p⟩) fun a => ?_
      refine Walk.ite (fun hv => ?_) fun hv => ?_
      · refine Walk.bind (Q := fun _ s => Between ms.length t.accepted s)
          (Walk.modify (fun s _ p => ⟨_, .ignore s r (p.1 ▸ hv) p.2.2.1, trivial⟩) fun s inv p _ => ?_) fun _ => ih t
        have hk : Cnt t.accepted { s with ev := s.ev ++ [.ignored r] } ∧
            Room (ms.length + 1) { s with ev := s.ev ++ [.ignored r] } := by
          have e : sinceCheck (s.ev ++ [.ignored r]) = sinceCheck s.ev := by rw [sinceCheck_snoc]
          refine ⟨fun h => ?_, fun h => ?_⟩
          · have := p.2.2.2.1 (free_snoc h)
            exact ⟨this.1, by show sinceCheck (s.ev ++ [_]) ≤ _; rw [e]; exact this.2⟩
          · have := p.2.2.2.2 (free_snoc h)
            refine ⟨this.1, fun c hc => ?_⟩
            show sinceCheck (s.ev ++ [_]) + _ ≤ _
            rw [e]; exact this.2 c (chunks_snoc hc)
        refine Between.less ⟨⟨?_, ?_⟩, hk.1, hk.2⟩
        · show UpToDate (s.ev ++ [_]) = true
          rw [UpToDate_snoc]; exact p.2.1
        · show inHand (s.ev ++ [_]) = none
          rw [inHand_snoc]
      · have hk : Keeps cfg Lab.died (fun s => r.optId ∉ s.victims ∧ P s) :=
          (keeps_died fun _ _ _ h => h).and (((side_upToDate.and ((side_inHand _).and (((tell_cnt _).mono side_tell).and
            ((tell_room _).mono side_tell)))).mono died_side))
        have hnm : ∀ (s : State) l, (r.optId ∉ s.victims ∧ P s) →
            (r.optId ∉ s.victims ∧ P { s with ev := s.ev ++ [.named r.optId l] }) := by
          rintro s l ⟨h1, h2, h3, h4, h5⟩
          have e : sinceCheck (s.ev ++ [.named r.optId l]) = sinceCheck s.ev := by rw [sinceCheck_snoc]
          refine ⟨h1, ?_, ?_, fun h => ?_, fun h => ?_⟩
          · show UpToDate (s.ev ++ [_]) = true
            rw [UpToDate_snoc]; exact h2
          · show inHand (s.ev ++ [_]) = some r
            rw [inHand_snoc]; exact h3
          · have := h4 (free_snoc h)
            exact ⟨this.1, by show sinceCheck (s.ev ++ [_]) ≤ _; rw [e]; exact this.2⟩
          · have := h5 (free_snoc h)
            refine ⟨this.1, fun c hc => ?_⟩
            show sinceCheck (s.ev ++ [_]) + _ ≤ _
            rw [e]; exact this.2 c (chunks_snoc hc)
        refine Walk.bind (((walk_extraNames r hk hnm).mono side_proc).pre fun s _ p => ⟨p.1 ▸ hv, p.2⟩) fun names => ?_
        refine Walk.bind (walk_record r names ms.length t.accepted) fun _ => ?_
        refine Walk.bind ((side_draw ((side_notUpToDate.and (side_inHand _)).mono died_side |>.and
          ((((tell_cnt _).mono side_tell).and ((tell_room _).mono side_tell)).mono died_side))).mono side_proc) fun _ => ?_
        refine Walk.bind (((walk_huntIfDue.frame ((tell_cnt _).and (tell_room _))).mono tell_proc).exc
          fun _ _ _ p => p.1) fun vs => ih { t with accepted := t.accepted + 1, victims := t.victims ++ vs }

theorem keeps_afterCkpt {A : Lab → Prop} {p : Prop} (hA : ∀ b, ¬ A (.ev (.checked b))) :
    Keeps cfg A (fun s => p ∨ ckptFree s.ev = false) :=
  keeps_or Keeps.const (keeps_ckpting hA)

theorem walk_resultsLoop (k : Option Nat) (n : Nat) : ∀ t, Walk cfg Lab.proc
    (fun s => (Settled s ∧ Cnt t.accepted s) ∧ (k = some 10 ∨ ckptFree s.ev = false))
    (resultsLoop cfg k n t) (fun _ s => Settled s) E1 := by
  induction n with
  | zero => intro t; exact Walk.pend
  | succ n ih =>
    intro t
    simp only [resultsLoop]
    have hU : Keeps cfg Lab.died (fun s => (Settled s ∧ Cnt t.accepted s) ∧ (k = some 10 ∨ ckptFree s.ev = false)) :=
      ((side_settled.and ((tell_cnt _).mono side_tell)).mono died_side).and (keeps_afterCkpt fun _ h => h)
    have body : (∀ k', k = some k' → t.accepted < k') → Walk cfg Lab.proc
        (fun s => (Settled s ∧ Cnt t.accepted s) ∧ (k = some 10 ∨ ckptFree s.ev = false))
        (do match ← askChunk with
            | none => pure t
            | some c =>
              emit (.took c.length)
              let t' ← chunkLoop cfg c t
              resultsLoop cfg k n t') (fun _ s => Settled s) E1 := by
      intro hlt
      refine Walk.bind ((side_askChunk hU).mono side_proc) fun o => ?_
      cases o with
      | none => exact Walk.pure fun _ _ h => h.1.1
      | some c =>
        refine Walk.bind (Q := fun _ s => Between c.length t.accepted s ∧ (k = some 10 ∨ ckptFree s.ev = false))
          (Walk.modify (fun s _ p => ⟨_, .plain s (.took c.length) rfl, trivial⟩) fun s inv p _ => ?_) fun _ => ?_
        · have e : sinceCheck (s.ev ++ [.took c.length]) = sinceCheck s.ev := by rw [sinceCheck_snoc]
          refine ⟨⟨⟨?_, ?_⟩, fun h => ?_, fun h => ?_⟩, p.2.imp id fun h => by rw [ckptFree_snoc]; exact h⟩
          · show UpToDate (s.ev ++ [_]) = true
            rw [UpToDate_snoc]; exact p.1.1.1
          · show inHand (s.ev ++ [_]) = none
            rw [inHand_snoc]; exact p.1.1.2
          · have := p.1.2 (free_snoc h)
            exact ⟨this.1, by show sinceCheck (s.ev ++ [_]) ≤ _; rw [e]; exact this.2⟩
          · have hh : ckptFree s.ev = true := free_snoc h
            have := p.1.2 hh
            refine ⟨this.1, fun c' hc => ?_⟩
            have hc := hc c.length (by simp)
            have := hlt 10 (p.2.resolve_right (by simp [hh]))
            show sinceCheck (s.ev ++ [_]) + _ ≤ _
            rw [e]; omega
        · refine Walk.bind (((walk_chunkLoop c t).frame (keeps_afterCkpt fun _ h => h)).exc fun _ _ _ p => p.1) fun t' => ih t'
    cases k with
    | some k =>
      refine Walk.bind (Q := fun more s => ((Settled s ∧ Cnt t.accepted s) ∧ (some k = some 10 ∨ ckptFree s.ev = false)) ∧
        more = decide (t.accepted < k)) (Walk.pure fun _ _ h => ⟨h, rfl⟩) fun more => ?_
      refine Walk.ite (fun hm => ?_) fun _ => Walk.pure fun _ _ h => h.1.1.1
      subst hm
      by_cases hlt : t.accepted < k
      · exact (body fun k' e => by cases e; exact hlt).pre fun s _ p => p.1
      · intro s e i p
        exact absurd p.2 (by simp [hlt])
    | none =>
      refine Walk.bind ((side_askBool hU).mono side_proc) fun _ => ?_
      refine Walk.bind (Q := fun _ s => (Settled s ∧ Cnt t.accepted s) ∧ ((none : Option Nat) = some 10 ∨ ckptFree s.ev = false))
        (Walk.pure fun _ _ h => h) fun more => ?_
      exact Walk.ite (fun _ => body fun k' e => by cases e) fun _ => Walk.pure fun _ _ h => h.1.1

theorem walk_processResults (fuel : Nat) : Walk cfg Lab.proc (fun s => Settled s ∧ Cnt 0 s)
    (processResults cfg fuel (some 10)) (fun _ s => Settled s) E1 :=
  (walk_resultsLoop _ _ _).pre fun _ _ p => ⟨p, .inl (by simp)⟩

theorem walk_processResults' (fuel : Nat) (k : Option Nat) : Walk cfg Lab.proc
    (fun s => Settled s ∧ ckptFree s.ev = false) (processResults cfg fuel k) (fun _ s => Settled s) E1 :=
  (walk_resultsLoop _ _ _).pre fun _ _ p => ⟨⟨p.1, fun h => by rw [p.2] at h; cases h⟩, .inr p.2⟩

/-! ### Stop files -/

theorem mem_of_dictGet {l : List (Nat × Int)} {i : Nat} (h : ¬ (dictGet l i).isNone = true) : i ∈ l.map (·.1) := by
  induction l with
  | nil => simp [dictGet] at h
  | cons p t ih =>
    simp only [dictGet] at h
    split at h
    · rename_i e; simp [e]
    · exact List.mem_cons_of_mem _ (ih h)

theorem walk_stopFile (f : Option Nat) : Walk cfg Lab.side (fun s => inHand s.ev = none) (stopFile f)
    (fun _ _ => True) E1 := by
  cases f with
  | none => exact Walk.pure fun _ _ _ => trivial
  | some i =>
    refine Walk.bind (Q := fun a s => a = s ∧ inHand s.ev = none) (Walk.get fun s _ p => ⟨rfl, p⟩) fun a => ?_
    refine Walk.ite (fun _ => Walk.pure fun _ _ _ => trivial) fun hc => ?_
    simp only [not_or] at hc
    refine Walk.tryCatch (E' := E1) ?_ (fun x k hx => ?_) fun x _ s _ h => h
    · have hk : Keeps cfg Lab.died (fun s => (i ∈ s.packs.map (·.1) ∧ i ∉ s.graveyard) ∧ inHand s.ev = none) :=
        (keeps_died fun _ _ _ h => h).and ((side_inHand none).mono died_side)
      refine Walk.bind ((side_askUnit hk).pre fun s _ p => ?_) fun _ => ?_
      · obtain ⟨rfl, p⟩ := p; exact ⟨⟨mem_of_dictGet hc.1, hc.2⟩, p⟩
      · exact (walk_shutdown i none _).pre fun s _ p => ⟨p.1.1, p.1.2, p.2, fun h' e => by cases e⟩
    · split at hx
      · cases hx; exact Walk.pure fun _ _ _ => trivial
      · cases hx

theorem walk_manualShutdowns : Walk cfg Lab.side (fun s => inHand s.ev = none) manualShutdowns (fun _ _ => True) E1 :=
  Walk.bind (side_askFiles ((side_inHand none).mono died_side)) fun _ =>
    (Walk.forEach fun f _ => ((walk_stopFile f).frame (side_inHand none)).conseq (fun _ _ p => ⟨p, p⟩)
      (fun _ _ _ p => p.2) fun _ _ _ p => p.1).post fun _ _ _ _ => trivial

end Glompo.Manager
