import Verif.Spec.Manager
import Verif.Lemmas.Logger
import Verif.Lemmas.LoggerHist

/-!
# The atomic changes of the manager's state, and the invariant they keep
-/

namespace Glompo.Manager

open Glompo.Spec
open Glompo.Logger (Op)

section snoc
variable (ev : List Ev) (x : Ev)

theorem acceptedOf_snoc : acceptedOf (ev ++ [x]) = acceptedOf ev ++ (match x with | .accepted r => [r] | _ => []) := by
  cases x <;> simp [acceptedOf]
theorem killedOf_snoc : killedOf (ev ++ [x]) = killedOf ev ++ (match x with | .killed r _ => [r] | _ => []) := by
  cases x <;> simp [killedOf]
theorem finishedOf_snoc : finishedOf (ev ++ [x]) = finishedOf ev ++ (match x with | .finished r => [r] | _ => []) := by
  cases x <;> simp [finishedOf]
theorem failedOf_snoc : failedOf (ev ++ [x]) = failedOf ev ++ (match x with | .failed r => [r] | _ => []) := by
  cases x <;> simp [failedOf]
theorem forcedOf_snoc : forcedOf (ev ++ [x]) = forcedOf ev ++ (match x with | .forced r => [r] | _ => []) := by
  cases x <;> simp [forcedOf]
theorem newIdsOf_snoc : newIdsOf (ev ++ [x]) = newIdsOf ev ++ (match x with | .newId r => [r] | _ => []) := by
  cases x <;> simp [newIdsOf]
theorem session_snoc : session (ev ++ [x]) = (match x with | .resumed _ _ => [] | y => session ev ++ [y]) := by
  cases x <;> simp [session]
theorem startedOf_snoc : startedOf (ev ++ [x]) =
    (match x with
    | .started r w => startedOf ev ++ [(r, w)]
    | .restarted r w => startedOf ev ++ [(r, w)]
    | .resumed _ _ => []
    | _ => startedOf ev) := by
  rw [startedOf, session_snoc]; cases x <;> simp [startedOf]
theorem diedOf_snoc : diedOf (ev ++ [x]) =
    (match x with | .died r => diedOf ev ++ [r] | .resumed _ _ => [] | _ => diedOf ev) := by
  rw [diedOf, session_snoc]; cases x <;> simp [diedOf]
theorem launchedOf_snoc : launchedOf (ev ++ [x]) = launchedOf ev ++ (match x with | .started r _ => [r] | _ => []) := by
  cases x <;> simp [launchedOf]
theorem loggedOf_snoc : loggedOf (ev ++ [x]) =
    (match x with | .accepted r => loggedOf ev ++ [r] | .resumed _ n => (loggedOf ev).take n | _ => loggedOf ev) := by
  cases x <;> simp [loggedOf]
theorem settings_snoc (c₀ : Cfg) : settings c₀ (ev ++ [x]) = (match x with | .resumed c _ => c | _ => settings c₀ ev) := by
  cases x <;> simp [settings]
theorem ckptFree_snoc : ckptFree (ev ++ [x]) =
    (match x with | .ckptBegin => false | .checked _ => true | .resumed _ _ => true | _ => ckptFree ev) := by
  cases x <;> simp [ckptFree]
theorem sinceHunt_snoc : sinceHunt (ev ++ [x]) =
    (match x with | .hunt _ => 0 | .accepted _ => sinceHunt ev + 1 | _ => sinceHunt ev) := by
  cases x <;> simp [sinceHunt]
theorem UpToDate_snoc : UpToDate (ev ++ [x]) =
    (match x with | .accepted _ => false | .updated _ _ _ => true | _ => UpToDate ev) := by
  cases x <;> simp [UpToDate]
theorem lastResult_snoc : lastResult (ev ++ [x]) =
    (match x with | .updated v f i => some (v, f, i) | _ => lastResult ev) := by
  cases x <;> simp [lastResult]
theorem inHand_snoc : inHand (ev ++ [x]) =
    (match x with | .received (.res r) => some r | .accepted _ => none | .ignored _ => none | _ => inHand ev) := by
  rw [inHand, List.foldl_append]; rfl
theorem sinceCheck_snoc : sinceCheck (ev ++ [x]) =
    (match x with | .checked _ => 0 | .resumed _ _ => 0 | .accepted _ => sinceCheck ev + 1 | _ => sinceCheck ev) := by
  cases x <;> simp [sinceCheck]
theorem lastCheck_snoc : lastCheck (ev ++ [x]) =
    (match x with | .checked b => some b | .resumed _ _ => none | _ => lastCheck ev) := by
  cases x <;> simp [lastCheck]
theorem sinceCrash_snoc : sinceCrash (ev ++ [x]) =
    (match x with
    | .crashReport _ true => some ((sinceCrash ev).getD 0)
    | .accepted _ => (sinceCrash ev).map fun _ => 0
    | .newId _ => (sinceCrash ev).map (· + 1)
    | .resumed _ _ => none
    | _ => sinceCrash ev) := by
  rw [sinceCrash, List.foldl_append]; rfl
theorem huntsOf_snoc : huntsOf (ev ++ [x]) = huntsOf ev ++ (match x with | .hunt h => [h] | _ => []) := by
  cases x <;> simp [huntsOf]

end snoc

/-- Induction along the record. -/
theorem snoc_induction {P : List Ev → Prop} (h0 : P []) (h : ∀ l x, P l → P (l ++ [x])) (l : List Ev) : P l := by
  have : ∀ l : List Ev, P l.reverse := by
    intro l
    induction l with
    | nil => exact h0
    | cons x t ih => rw [List.reverse_cons]; exact h _ _ ih
  simpa using this l.reverse

def atUpdateAux (ev : List Ev) : List Ev × List Ev :=
  ev.foldl (fun (p : List Ev × List Ev) x => match x with
    | .updated v f i => (p.1 ++ [.updated v f i], p.1 ++ [.updated v f i])
    | x => (p.1 ++ [x], p.2)) ([], [])

theorem atUpdateAux_snoc (ev : List Ev) (x : Ev) : atUpdateAux (ev ++ [x]) =
    (match x with
    | .updated v f i => ((atUpdateAux ev).1 ++ [.updated v f i], (atUpdateAux ev).1 ++ [.updated v f i])
    | x => ((atUpdateAux ev).1 ++ [x], (atUpdateAux ev).2)) := by
  rw [atUpdateAux, List.foldl_append]; rfl

theorem atUpdateAux_fst : ∀ ev, (atUpdateAux ev).1 = ev := by
  refine snoc_induction rfl fun l x ih => ?_
  rw [atUpdateAux_snoc]
  cases x <;> simp [ih]

theorem atUpdate_snoc (ev : List Ev) (x : Ev) : atUpdate (ev ++ [x]) =
    (match x with | .updated _ _ _ => ev ++ [x] | _ => atUpdate ev) := by
  show (atUpdateAux (ev ++ [x])).2 = _
  rw [atUpdateAux_snoc, atUpdateAux_fst]
  cases x <;> rfl

theorem afterEach_nil (G : List Ev → Ev → Prop) : AfterEach G [] := by
  intro pre x post h; simp at h

theorem afterEach_snoc {G : List Ev → Ev → Prop} {ev : List Ev} {x : Ev} :
    AfterEach G (ev ++ [x]) ↔ AfterEach G ev ∧ G ev x := by
  constructor
  · intro h
    exact ⟨fun pre y post e => h pre y (post ++ [x]) (by simp [e]), h ev x [] rfl⟩
  · rintro ⟨h1, h2⟩ pre y post e
    rcases List.eq_nil_or_concat post with rfl | ⟨post', z, rfl⟩
    · have := List.append_inj' (s₁ := ev) (t₁ := [x]) (s₂ := pre) (t₂ := [y]) (by simpa using e) rfl
      obtain ⟨rfl, h⟩ := this
      cases h; exact h2
    · have e' : ev ++ [x] = (pre ++ y :: post') ++ [z] := by simpa using e
      obtain ⟨h, h'⟩ := List.append_inj' e' rfl
      cases h'
      exact h1 pre y post' h

theorem AfterEach.mono {G H : List Ev → Ev → Prop} {ev : List Ev} (h : AfterEach G ev) (hh : ∀ p x, G p x → H p x) :
    AfterEach H ev := fun pre x post e => hh _ _ (h pre x post e)

/-- The convergence criterion has not been asked since it became quiet. -/
def Unasked (ev : List Ev) : Prop :=
  ∀ p q, ev = p ++ q → (∀ c n, Ev.resumed c n ∉ q) → (∀ i w, Ev.restarted i w ∉ q) → Quiet p → ∀ b, Ev.checked b ∉ q

/-- What holds of an event given those before it. -/
def Good (cfg : Cfg) (pre : List Ev) : Ev → Prop
  | .died i => Running pre i
  | .asked slots _ => (∀ k, Ev.asked k .stop ∉ pre) ∧ (SelectorFits pre → load pre + slots ≤ cfg.maxJobs)
  | .newId i => i = (newIdsOf pre).length + 1 ∧ (∀ k, Ev.asked k .stop ∉ pre) ∧
      (0 ≤ cfg.maxJobs → SelectorPos pre → ∀ n, sinceCrash pre = some n → (n : Int) < 2 * cfg.maxJobs + 5)
  | .started i w => i = (newIdsOf pre).length ∧ i ∈ newIdsOf pre ∧ i ∉ (startedOf pre).map (·.1) ∧
      i ∉ launchedOf pre ∧ (∃ k c, Ev.asked k (.chosen w c) ∈ pre) ∧
      (SelectorFits pre → load pre + w ≤ cfg.maxJobs) ∧ ∀ k, Ev.asked k .stop ∉ pre
  | .accepted r => r.optId ∈ newIdsOf pre ∧ r.optId ∉ killedOf pre ∧ UpToDate pre = true ∧ inHand pre = some r ∧
      (ckptFree pre = true → lastCheck pre ≠ some true ∧ ∀ c, ChunksAtMost c pre → sinceCheck pre < 9 + c)
  | .ignored r => r.optId ∈ killedOf pre ∧ inHand pre = some r
  | .received _ => UpToDate pre = true ∧ inHand pre = none
  | .hunt h => cfg.hunting = true ∧ Leads (loggedOf pre) h ∧ cfg.huntFrequency ≤ sinceHunt pre
  | .killed v h => v ∈ newIdsOf pre ∧ v ∉ killedOf pre ∧ v ∉ finishedOf pre ∧ v ∉ failedOf pre ∧ v ∉ forcedOf pre ∧
      inHand pre = none ∧
      ∀ h', h = some h' → Leads (loggedOf pre) h' ∧ v ≠ h' ∧ ∃ r ∈ loggedOf pre, r.optId = v
  | .finished i => i ∈ newIdsOf pre ∧ (ckptFree pre = true → i ∉ finishedOf pre ∧ i ∉ killedOf pre)
  | .forced i => cfg.forced = true ∧ cfg.procs = true ∧ i ∈ newIdsOf pre ∧ i ∉ killedOf pre
  | .share i x fx => cfg.sharing = true ∧ Running pre i ∧ ∃ b, IsBest x fx b (loggedOf pre) ∧ i ≠ b ∧
      shouldShare ((lastResult pre).map (·.2.1)) fx = true ∧ UpToDate pre = false
  | .updated x fx i => IsBest x fx i (loggedOf pre)
  | .loopEnd => lastCheck pre = some true ∨ ((∀ i, ¬ Running pre i) ∧ ∃ k, Ev.asked k .stop ∈ pre)
  | .restarted i w => i ∈ newIdsOf pre ∧ i ∉ (startedOf pre).map (·.1) ∧
      (SelectorFits pre → load pre + w ≤ cfg.maxJobs) ∧ ((∃ k c, Ev.asked k (.chosen w c) ∈ pre) ∨ 1 ≤ w)
  | .checked _ => Unasked pre
  | .pauseReq i => Running pre i
  | .save i => SeenRunning pre i
  | .pass i => Running pre i
  | .resume i => Running pre i
  | .ckptEnd => ∀ i, Running pre i → Ev.resume i ∈ sinceCkpt pre ∧ (lastCheck pre = some true → Ev.stop i ∈ sinceCkpt pre)
  | .resumed _ n => UpToDate pre = true ∧ inHand pre = none ∧
      ∃ a b, pre = a ++ .ckptBegin :: b ∧ Ev.ckptBegin ∉ b ∧ (loggedOf pre).take n = loggedOf a ∧
        n = (loggedOf a).length
  | _ => True

/-- The statistics of the result are those of the last renewal. -/
def StatsOk (s : State) : Prop :=
  s.result.fEvals = (acceptedOf (atUpdate s.ev)).length ∧ s.result.optsStarted = (newIdsOf (atUpdate s.ev)).length ∧
  s.result.optsKilled = (killedOf (atUpdate s.ev)).length ∧ s.result.optsConv = (finishedOf (atUpdate s.ev)).length

/-- What holds of an event of a history which began with the settings `c₀`. -/
def Fine (c₀ : Cfg) (pre : List Ev) (x : Ev) : Prop := Good (settings c₀ pre) pre x

/-- The operation adds to the history of optimizer `i`. -/
def Concerns (op : Op) (i : Nat) : Prop := (∃ r, op = .put r ∧ r.optId = i) ∨ ∃ hs, op = .addHist i hs

/-- The classes in the log and in the result are those the selector named. -/
def ClassOk (s : State) : Prop :=
  (∀ i c, Op.add i c ∈ s.ops → ChosenAs s.ev i c) ∧
  (∀ i c, s.result.origin = some (i, c) → (i = 0 ∧ c = "") ∨ ChosenAs s.ev i c) ∧
  ∀ i v, Op.putMeta i "opt_type" v ∉ s.ops

structure Inv (cfg : Cfg) (s : State) : Prop where
  log : s.log = (Logger.init s.first.traj).run s.ops
  wf : WellFormed s.ops
  evs : evals s.ops = loggedOf s.ev
  cnt : s.fCounter = (acceptedOf s.ev).length
  ids : newIdsOf s.ev = List.range' 1 s.oCounter
  regs : ∀ i ∈ added s.ops, 1 ≤ i ∧ i ≤ s.oCounter
  keys : ∀ i ∈ s.packs.map (·.1), i ∈ added s.ops
  nodup : (s.packs.map (·.1)).Nodup
  startedP : ∀ i, i ∈ s.startedP ↔ i ∈ (startedOf s.ev).map (·.1)
  startedReg : ∀ i ∈ s.startedP, i ∈ added s.ops
  dead : ∀ i, i ∈ s.dead ↔ i ∈ diedOf s.ev
  deadStarted : ∀ i ∈ s.dead, i ∈ s.startedP
  slots : ∀ p ∈ startedOf s.ev, (∃ k c, Ev.asked k (.chosen p.2 c) ∈ s.ev) ∨ 1 ≤ p.2
  chosen : ∀ p ∈ s.slotsOf, ∃ k c, Ev.asked k (.chosen p.2 c) ∈ s.ev
  launched : ∀ i ∈ launchedOf s.ev, i ∈ newIdsOf s.ev
  living : (s.packs.filter fun p => s.alive p.1) = (startedOf s.ev).filter fun p => decide (p.1 ∉ diedOf s.ev)
  vict : s.victims = killedOf s.ev
  vnodup : s.victims.Nodup
  vgrave : ∀ i ∈ s.victims, i ∈ s.graveyard
  vids : ∀ i ∈ s.victims, i ∈ newIdsOf s.ev
  conv : s.convCounter = (finishedOf s.ev).length
  fgrave : ∀ i, i ∈ finishedOf s.ev ∨ i ∈ failedOf s.ev ∨ i ∈ forcedOf s.ev → i ∈ s.graveyard
  opened : ∀ i ∈ opened s.ops, ∃ r ∈ loggedOf s.ev, r.optId = i
  hunt : s.lastHunt + sinceHunt s.ev = s.fCounter
  spawn : s.spawning = true ↔ ∀ k, Ev.asked k .stop ∉ s.ev
  res : s.result.x = (lastResult s.ev).map (·.1) ∧ s.result.fx = (lastResult s.ev).map (·.2.1) ∧
    s.result.origin.map (·.1) = (lastResult s.ev).map (·.2.2)
  chk : lastCheck s.ev = some true → s.converged = true
  why : s.converged = true → lastCheck s.ev = some true ∨ ((∀ i, ¬ Running s.ev i) ∧ ∃ k, Ev.asked k .stop ∈ s.ev)
  marks : s.lastSpawn.1 ≤ s.fCounter ∧ s.lastSpawn.2 ≤ s.oCounter
  since : s.crashed = true ↔ (sinceCrash s.ev).isSome = true
  hunts : s.huntCounter = (huntsOf s.ev).length
  stats : StatsOk s
  set : settings s.first s.ev = cfg
  good : AfterEach (Fine s.first) s.ev
  rel : ∀ o, Op.clear o ∈ s.ops → ∃ i, o = some i ∧ Ev.received (.fin i) ∈ s.ev
  late : ∀ pre op post, s.ops = pre ++ op :: post → ∀ i, Concerns op i → Op.clear (some i) ∈ pre → LateEval i s.ev
  heads : ∀ pre i hs post, s.ops = pre ++ .addHist i hs :: post →
    ∃ r post', post = .put r :: post' ∧ r.optId = i ∧ Headed s.ev r hs
  kept : Lossless s.ev → Ev.received (.fin 0) ∉ s.ev → ∀ h, Leads (loggedOf s.ev) h → s.log.hasIterHistory h = true
  cls : ClassOk s

/-- Ids given since the last evaluation, before `_fill_optimizer_slots`. -/
def SpawnOk (cfg : Cfg) (s : State) : Prop :=
  0 ≤ cfg.maxJobs → SelectorPos s.ev → ∀ n, sinceCrash s.ev = some n →
    (s.lastSpawn.1 = s.fCounter → (n : Int) ≤ cfg.maxJobs + (s.oCounter - s.lastSpawn.2 : Int)) ∧
    (s.lastSpawn.1 ≠ s.fCounter → n = 0)

/-- A manager about to be started: set up afresh, or loaded from a checkpoint. -/
structure Start (cfg : Cfg) (s : State) : Prop where
  inv : Inv cfg s
  none_started : s.startedP = []
  upToDate : UpToDate s.ev = true
  hand : inHand s.ev = none
  check : lastCheck s.ev = none
  since : ckptFree s.ev = true → sinceCheck s.ev = 0
  crash : SpawnOk cfg s
  conv : s.converged = false
  again : s.restart = true ∨ s.packs = []
  slots : ∀ p ∈ s.packs, (∃ k c, Ev.asked k (.chosen p.2 c) ∈ s.ev) ∨ 1 ≤ p.2
  fits : s.packs ≠ [] → SelectorFits s.ev → (s.packs.map (·.2)).sum ≤ cfg.maxJobs

/-- Whoever loads the checkpoint gets a manager which may be started. -/
def Resumable (k : Saved) : Prop :=
  ∀ cfg found saved s, (found.map (·.1)).Perm k.files → loadCheckpoint cfg k found saved = .ok s → Start cfg s

/-- Events which touch nothing. -/
def Plain : Ev → Bool
  | .released _ => true
  | .ckptBegin => true
  | .took _ => true
  | .named _ _ => true
  | .said _ _ => true
  | .exited _ _ => true
  | .overdue _ _ => true
  | _ => false

/-- Label of a step: its event, or one of the changes without event. -/
inductive Lab where
  | ev (x : Ev)
  | quiet
  | mark
  | pack
  | bury
  | purge
  | store
  | farewell
  deriving DecidableEq

/-- `n` more evaluations may be accepted before the convergence criterion is asked again. -/
def Room (n : Nat) (s : State) : Prop :=
  ckptFree s.ev = true → s.converged = false ∧ ∀ c, ChunksAtMost c s.ev → sinceCheck s.ev + n ≤ 9 + c

/-- Optimizers may still be started. -/
def Open (s : State) : Prop := s.spawning = true ∧ s.converged = false

/-- The atomic changes. -/
inductive Step (cfg : Cfg) : Lab → State → State → Prop where
  | die (s) (i : Nat) (h : s.alive i = true) :
      Step cfg (.ev (.died i)) s { s with dead := i :: s.dead, ev := s.ev ++ [.died i] }
  | askStop (s) (k : Int) (h : Open s) (hl : SelectorFits s.ev → load s.ev + k ≤ cfg.maxJobs) :
      Step cfg (.ev (.asked k .stop)) s { s with spawning := false, ev := s.ev ++ [.asked k .stop] }
  | ask (s) (k : Int) (a : SelAns) (ha : a ≠ .stop) (h : Open s)
      (hl : SelectorFits s.ev → load s.ev + k ≤ cfg.maxJobs) :
      Step cfg (.ev (.asked k a)) s { s with ev := s.ev ++ [.asked k a] }
  | newId (s) (h : Open s)
      (hc : 0 ≤ cfg.maxJobs → SelectorPos s.ev → ∀ n, sinceCrash s.ev = some n → (n : Int) < 2 * cfg.maxJobs + 5) :
      Step cfg (.ev (.newId (s.oCounter + 1))) s
      { s with oCounter := s.oCounter + 1, ev := s.ev ++ [.newId (s.oCounter + 1)] }
  | register (s) (cls : String) (w : Int) (h0 : s.oCounter ≠ 0) (h : s.oCounter ∉ added s.ops)
      (hw : ∃ k c, Ev.asked k (.chosen w c) ∈ s.ev) (hc : ChosenAs s.ev s.oCounter cls) :
      Step cfg .pack s { s with
        slotsOf := dictSet s.slotsOf s.oCounter w, log := s.log.addOptimizer s.oCounter cls, ops := s.ops ++ [.add s.oCounter cls] }
  | addPack (s) (i : Nat) (w : Int) (h : i ∈ added s.ops) (h' : i ∉ s.packs.map (·.1)) (h'' : i ∉ s.startedP) :
      Step cfg .pack s { s with packs := dictSet s.packs i w }
  | start (s) (i : Nat) (w : Int) (h : s.packs.getLast? = some (i, w)) (h' : i ∉ s.startedP) (h'' : i ∉ s.dead)
      (hw : ∃ k c, Ev.asked k (.chosen w c) ∈ s.ev) (hl : SelectorFits s.ev → load s.ev + w ≤ cfg.maxJobs)
      (hs : Open s) (hi : i = s.oCounter) (hn : i ∉ launchedOf s.ev) :
      Step cfg (.ev (.started i w)) s { s with startedP := i :: s.startedP, ev := s.ev ++ [.started i w] }
  | restart (s) (a b : List (Nat × Int)) (i : Nat) (w : Int) (h : s.packs = a ++ (i, w) :: b) (h' : i ∉ s.startedP)
      (hb : ∀ p ∈ b, p.1 ∉ s.startedP) (hw : (∃ k c, Ev.asked k (.chosen w c) ∈ s.ev) ∨ 1 ≤ w)
      (hl : SelectorFits s.ev → load s.ev + w ≤ cfg.maxJobs) (hc : s.converged = false) :
      Step cfg (.ev (.restarted i w)) s { s with startedP := i :: s.startedP, ev := s.ev ++ [.restarted i w] }
  | store (s) (k : Saved) (hk : Resumable k) (hh : HandShake k.ev k.files) : Step cfg .store s { s with saved := s.saved ++ [k] }
  | mark (s) : Step cfg .mark s { s with
        lastSpawn := if s.lastSpawn.1 ≠ s.fCounter then (s.fCounter, s.oCounter) else s.lastSpawn }
  | note (s) (op : Op) (h : (∃ i k v, op = .putMeta i k v) ∨ (∃ i m, op = .putMsg i m) ∨
        ∃ i, op = .clear (some i) ∧ Ev.received (.fin i) ∈ s.ev ∧ UpToDate s.ev = true ∧
          ∃ b c, s.result.origin = some (b, c) ∧ b ≠ i) (ht : ∀ i v, op ≠ .putMeta i "opt_type" v) :
      Step cfg .quiet s { s with log := (s.log.step op).1, ops := s.ops ++ [op] }
  | finish (s) (i : Nat) (h : i ∈ s.packs.map (·.1)) (h' : i ∉ s.graveyard ∨ ckptFree s.ev = false) :
      Step cfg (.ev (.finished i)) s { s with
        graveyard := addTo s.graveyard i, convCounter := s.convCounter + 1, ev := s.ev ++ [.finished i] }
  | report (s) (i : Nat) (tb : Bool) :
      Step cfg (.ev (.crashReport i tb)) s { s with
        crashed := tb || s.crashed, ev := s.ev ++ [.crashReport i tb] }
  | kill (s) (v : Nat) (h : Option Nat) (hv : v ∈ s.packs.map (·.1)) (hg : v ∉ s.graveyard)
      (hi : inHand s.ev = none)
      (hh : ∀ h', h = some h' → 0 < h' ∧ s.log.best.optId = h' ∧ v ≠ h' ∧ s.log.hasIterHistory v = true) :
      Step cfg (.ev (.killed v h)) s { s with
        victims := addTo s.victims v, graveyard := addTo s.graveyard v, ev := s.ev ++ [.killed v h] }
  | hunt (s) (h : Nat) (h0 : 0 < h) (hb : s.log.best.optId = h) (hh : cfg.hunting = true)
      (hf : (s.fCounter : Int) - s.lastHunt ≥ cfg.huntFrequency) :
      Step cfg (.ev (.hunt h)) s { s with
        huntCounter := s.huntCounter + 1, lastHunt := s.fCounter, ev := s.ev ++ [.hunt h] }
  | share (s) (i : Nat) (hs : cfg.sharing = true) (ha : s.alive i = true) (hi : i ≠ s.log.best.optId)
      (hd : shouldShare s.result.fx s.log.best.fx = true) (hu : UpToDate s.ev = false) :
      Step cfg (.ev (.share i s.log.best.x s.log.best.fx)) s { s with
        ev := s.ev ++ [.share i s.log.best.x s.log.best.fx] }
  | update (s) : Step cfg (.ev (.updated s.log.best.x s.log.best.fx s.log.best.optId)) s { s with
        result :=
          { x := some s.log.best.x, fx := some s.log.best.fx, origin := some (s.log.best.optId, s.log.best.type)
            fEvals := s.fCounter, optsStarted := s.oCounter, optsKilled := s.victims.length
            optsConv := s.convCounter }
        ev := s.ev ++ [.updated s.log.best.x s.log.best.fx s.log.best.optId] }
  | receive (s) (m : Msg) (hu : UpToDate s.ev = true) (hi : inHand s.ev = none) :
      Step cfg (.ev (.received m)) s { s with ev := s.ev ++ [.received m] }
  | ignore (s) (r : IterRes) (h : r.optId ∈ s.victims) (hi : inHand s.ev = some r) :
      Step cfg (.ev (.ignored r)) s { s with ev := s.ev ++ [.ignored r] }
  | acceptOld (s) (r : IterRes) (h : s.log.hasIterHistory r.optId = true) (hv : r.optId ∉ s.victims)
      (hu : UpToDate s.ev = true) (hi : inHand s.ev = some r) (hc : Room 1 s) :
      Step cfg (.ev (.accepted r)) s { s with
        fCounter := s.fCounter + 1, log := (s.log.step (.put r)).1, ops := s.ops ++ [.put r]
        ev := s.ev ++ [.accepted r] }
  | acceptNew (s) (r : IterRes) (names : List String) (h : s.log.hasIterHistory r.optId = false)
      (ha : (s.log.step (.addHist r.optId names)).2 = none) (hv : r.optId ∉ s.victims) (hu : UpToDate s.ev = true)
      (hi : inHand s.ev = some r) (hc : Room 1 s) (hn : Headed s.ev r names) :
      Step cfg (.ev (.accepted r)) s { s with
        fCounter := s.fCounter + 1, log := ((s.log.step (.addHist r.optId names)).1.step (.put r)).1
        ops := s.ops ++ [.addHist r.optId names] ++ [.put r], ev := s.ev ++ [.accepted r] }
  | fail (s) (i : Nat) : Step cfg (.ev (.failed i)) s { s with
        graveyard := addTo s.graveyard i, ev := s.ev ++ [.failed i] }
  | force (s) (i : Nat) (h1 : cfg.forced = true) (h2 : cfg.procs = true) (h3 : i ∈ s.packs.map (·.1))
      (h4 : i ∉ s.victims) : Step cfg (.ev (.forced i)) s { s with
        graveyard := addTo s.graveyard i, ev := s.ev ++ [.forced i] }
  | bury (s) (i : Nat) : Step cfg .bury s { s with graveyard := addTo s.graveyard i }
  | purge (s) (i : Nat) (h : s.alive i = false) (h' : i ∈ s.graveyard) :
      Step cfg .purge s { s with packs := dictDel s.packs i }
  | verdict (s) (b c : Bool) (h0 : s.converged = false ∧ UpToDate s.ev = true) (hq : Unasked s.ev) (h1 : b = true → c = true)
      (h2 : c = true → b = true ∨ (s.livingSlots.length = 0 ∧ s.spawning = false)) : Step cfg (.ev (.checked b)) s { s with converged := c, ev := s.ev ++ [.checked b] }
  | setConverged (s) (h : lastCheck s.ev = none) : Step cfg .mark s { s with converged := false }
  | loopEnd (s) (h : s.converged = true) : Step cfg (.ev .loopEnd) s { s with ev := s.ev ++ [.loopEnd] }
  | stop (s) (i : Nat) (h : i ∈ s.victims ∨ i ∈ forcedOf s.ev ∨ s.converged = true ∧ s.alive i = true) :
      Step cfg (.ev (.stop i)) s { s with ev := s.ev ++ [.stop i] }
  | farewell (s) (i : Nat) : Step cfg .farewell s { s with ev := s.ev ++ [.stop i] }
  | pauseReq (s) (i : Nat) (h : s.alive i = true) : Step cfg (.ev (.pauseReq i)) s { s with ev := s.ev ++ [.pauseReq i] }
  | save (s) (i : Nat) (h : SeenRunning s.ev i) : Step cfg (.ev (.save i)) s { s with ev := s.ev ++ [.save i] }
  | pass (s) (i : Nat) (h : s.alive i = true) : Step cfg (.ev (.pass i)) s { s with ev := s.ev ++ [.pass i] }
  | resume (s) (i : Nat) (h : s.alive i = true) : Step cfg (.ev (.resume i)) s { s with ev := s.ev ++ [.resume i] }
  | ckptEnd (s) (h : ∀ i, s.alive i = true → Ev.resume i ∈ sinceCkpt s.ev ∧
      (s.converged = true → Ev.stop i ∈ sinceCkpt s.ev)) :
      Step cfg (.ev .ckptEnd) s { s with ev := s.ev ++ [.ckptEnd] }
  | plain (s) (x : Ev) (h : Plain x = true) : Step cfg (.ev x) s { s with ev := s.ev ++ [x] }

end Glompo.Manager
