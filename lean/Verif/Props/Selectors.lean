import Verif.Spec.Selectors
import Verif.Lemmas.Basic

/-!
# C08, C09, C10, C11: selectors and spawn control
-/

namespace Glompo.Props

open Glompo Glompo.Spec

/-- **C08.** After any history of requests, whatever a bundled selector proposes needs at most the offered slots and is
one of the configured optimizers. -/
theorem C08_slots_respected (opts : List AvailOpt) (allow : SelView → Bool) (ths : List PyF) (hist : List Req)
    (r : Req) (o : AvailOpt) :
    ((((Cycle.init opts allow).run hist).1.select r).2 = .chosen o → o.workers ≤ r.slots ∧ o ∈ opts) ∧
    (∀ c, Chain.init opts ths allow = some c → ((c.run hist).1.select r).2 = .chosen o →
      o.workers ≤ r.slots ∧ o ∈ opts) ∧
    (randomSelect opts allow r = .chosen o → o.workers ≤ r.slots ∧ o ∈ opts) := by
  have hcyc : ∀ (hist : List Req) (s : Cycle), (s.run hist).1.opts = s.opts := by
    intro hist
    induction hist with
    | nil => intro s; rfl
    | cons a t ih =>
      intro s
      simp only [Cycle.run, ih]
      simp only [Cycle.select]
      repeat' split
      all_goals rfl
  have hch : ∀ (hist : List Req) (s : Chain), (s.run hist).1.opts = s.opts := by
    intro hist
    induction hist with
    | nil => intro s; rfl
    | cons a t ih =>
      intro s
      simp only [Chain.run, ih]
      simp only [Chain.select]
      repeat' split
      all_goals rfl
  refine ⟨?_, ?_, ?_⟩
  · intro h
    have ho := hcyc hist (Cycle.init opts allow)
    generalize ((Cycle.init opts allow).run hist).1 = s at h ho
    simp only [Cycle.select] at h
    split at h
    · cases h
    · split at h
      · cases h
      · split at h
        · cases h
        · rename_i o' hget
          split at h
          · cases h
          · cases h
            have := List.mem_of_getElem? hget
            rw [ho] at this
            exact ⟨by omega, this⟩
  · intro c hc h
    have ho := hch hist c
    have hco : c.opts = opts := by
      simp only [Chain.init] at hc
      split at hc
      · cases hc; rfl
      · cases hc
    generalize (c.run hist).1 = s at h ho
    simp only [Chain.select] at h
    split at h
    · cases h
    · split at h
      · cases h
      · rename_i o' hget
        split at h
        · cases h
        · cases h
          have := List.mem_of_getElem? hget
          rw [show s.opts = opts from ho.trans hco] at this
          exact ⟨by omega, this⟩
  · intro h
    simp only [randomSelect] at h
    split at h
    · cases h
    · split at h
      · cases h
      · split at h
        · cases h
        · rename_i o' hget
          cases h
          have := List.mem_of_getElem? hget
          simp only [List.mem_filter, decide_eq_true_eq] at this
          exact ⟨this.2, this.1⟩

/-- Three optimizers of different sizes. -/
def sampleOpts : List AvailOpt := [⟨"A", 1⟩, ⟨"B", 4⟩, ⟨"C", 2⟩]
def sampleReq (f : Nat) (slots : Int) : Req := ⟨⟨f, 0⟩, slots, 7⟩

example : ((Cycle.init sampleOpts alwaysSpawn).run [sampleReq 0 2, sampleReq 5 2, sampleReq 6 4, sampleReq 7 2]).2 =
    [.chosen ⟨"A", 1⟩, .nothing, .chosen ⟨"B", 4⟩, .chosen ⟨"C", 2⟩] := by decide

/-- Parsing gives every configured optimizer a number of workers: the given one, or one. -/
theorem C08_parsed (args : List OptArg) (opts : List AvailOpt) (h : parseOpts args = .ok opts) :
    opts.length = args.length ∧
    ∀ (k : Nat) (c : String), (args[k]? = some (OptArg.plain c true) → opts[k]? = some (AvailOpt.mk c 1)) ∧
      (∀ ca, args[k]? = some (OptArg.triple c true .none ca) → opts[k]? = some (AvailOpt.mk c 1)) ∧
      (∀ w ca, args[k]? = some (OptArg.triple c true (.dict w) ca) → opts[k]? = some (AvailOpt.mk c (w.getD 1))) := by
  induction args generalizing opts with
  | nil => simp [parseOpts] at h; subst h; simp
  | cons a as ih =>
    simp only [parseOpts] at h
    split at h
    · cases h
    · rename_i o ho
      split at h
      · cases h
      · rename_i os hos
        cases h
        obtain ⟨h1, h2⟩ := ih os hos
        refine ⟨by simp [h1], fun k c => ?_⟩
        cases k with
        | succ k => simpa using h2 k c
        | zero =>
          simp only [List.getElem?_cons_zero, Option.some.injEq]
          refine ⟨?_, ?_, ?_⟩
          · rintro rfl; simp [parseOpt] at ho; exact ho.symm
          · rintro ca rfl
            simp only [parseOpt, if_true] at ho
            split at ho
            · cases ho
            · cases ho; rfl
          · rintro w ca rfl
            simp only [parseOpt, if_true] at ho
            split at ho
            · cases ho
            · cases ho; rfl

example : parseOpts [.plain "A" true, .triple "B" true (.dict (some 4)) .none] = .ok [⟨"A", 1⟩, ⟨"B", 4⟩] := by rfl

/-- Index of the cycle selector after `k` proposals. -/
def cycIdx (n k : Nat) : Int := if k = 0 then (-1 : Int) else (((k - 1) % n : Nat) : Int)

theorem proposals_skip {a : Sel} {l : List Sel} (h : ∀ o, a ≠ .chosen o) : proposals (a :: l) = proposals l := by
  cases a with
  | chosen o => exact absurd rfl (h o)
  | stop => rfl
  | nothing => rfl
  | raised e => rfl

theorem cycle_next (n : Nat) (_hn : 0 < n) (k : Nat) :
    (cycIdx n k + 1) % (n : Int) = ((k % n : Nat) : Int) := by
  unfold cycIdx
  by_cases hk : k = 0
  · subst hk; simp
  · simp only [hk, if_false]
    have : ((((k - 1) % n : Nat) : Int) + 1) = (((k - 1) % n + 1 : Nat) : Int) := by omega
    rw [this, ← Int.natCast_emod, Nat.mod_add_mod]
    congr 2
    omega

theorem cycle_step (n : Nat) (hn : 0 < n) (s : Cycle) (k : Nat) (r : Req) (hlen : s.opts.length = n)
    (hi : s.i = cycIdx n k) :
    ((s.select r).1 = s ∧ (∀ o, (s.select r).2 ≠ .chosen o)) ∨
      ((s.select r).1 = { s with i := ((k % n : Nat) : Int) } ∧ ∃ o, (s.select r).2 = .chosen o ∧
        s.opts[k % n]? = some o) := by
  have hnext : (s.i + 1) % (n : Int) = ((k % n : Nat) : Int) := by rw [hi]; exact cycle_next n hn k
  simp only [Cycle.select]
  split
  · left; exact ⟨rfl, by simp⟩
  · split
    · left; exact ⟨rfl, by simp⟩
    · rw [hlen, hnext]
      have hkn : k % n < s.opts.length := by rw [hlen]; exact Nat.mod_lt _ hn
      have hget : s.opts[k % n]? = some s.opts[k % n] := List.getElem?_eq_getElem hkn
      simp only [Int.toNat_natCast, hget]
      split
      · left; exact ⟨rfl, by simp⟩
      · right; exact ⟨rfl, _, rfl, rfl⟩

/-- Invariant behind C09: the index is the number of proposals so far minus one, modulo the number of optimizers. -/
theorem cycle_run (n : Nat) (hn : 0 < n) (reqs : List Req) : ∀ (s : Cycle) (k : Nat), s.opts.length = n →
    s.i = cycIdx n k →
    ∀ j o, (proposals (s.run reqs).2)[j]? = some o → s.opts[(k + j) % n]? = some o := by
  induction reqs with
  | nil => intro s k _ _ j o h; simp [Cycle.run, proposals] at h
  | cons r rs ih =>
    intro s k hlen hi j o h
    simp only [Cycle.run] at h
    have hsel := cycle_step n hn s k r hlen hi
    rcases hsel with ⟨h1, h2⟩ | ⟨h1, o1, h2, h3⟩
    · rw [h1] at h
      refine ih s k hlen hi j o ?_
      have : proposals ((s.select r).2 :: (s.run rs).2) = proposals (s.run rs).2 := by
        exact proposals_skip h2
      rw [this] at h; exact h
    · have hp : proposals ((s.select r).2 :: ((s.select r).1.run rs).2) = o1 :: proposals ((s.select r).1.run rs).2 := by
        simp [proposals, h2]
      rw [hp] at h
      cases j with
      | zero => simp at h; subst h; simpa using h3
      | succ j =>
        simp only [List.getElem?_cons_succ] at h
        rw [h1] at h
        have := ih { s with i := ((k % n : Nat) : Int) } (k + 1) hlen (by simp [cycIdx]) j o h
        simp only at this
        rw [← this]; congr 2; omega

/-- **C09.** The `k`-th proposal the cycle selector really makes is the configured optimizer number `k` modulo their
number, however many requests were refused in between. -/
theorem C09_round_robin (opts : List AvailOpt) (allow : SelView → Bool) (reqs : List Req) (k : Nat) (o : AvailOpt)
    (hne : opts ≠ []) (h : (proposals ((Cycle.init opts allow).run reqs).2)[k]? = some o) :
    opts[k % opts.length]? = some o := by
  have hn : 0 < opts.length := List.length_pos_iff.mpr hne
  have := cycle_run opts.length hn reqs (Cycle.init opts allow) 0 rfl rfl k o h
  simpa [Cycle.init] using this

example : (proposals ((Cycle.init sampleOpts alwaysSpawn).run
    [sampleReq 0 2, sampleReq 5 2, sampleReq 6 4, sampleReq 7 2, sampleReq 8 2]).2)[3]? = some ⟨"A", 1⟩ := by decide

/-- The cycle selector's index after any history. -/
theorem cycle_state (n : Nat) (hn : 0 < n) (reqs : List Req) : ∀ (s : Cycle) (k : Nat), s.opts.length = n →
    s.i = cycIdx n k →
    (s.run reqs).1 = { s with i := cycIdx n (k + (proposals (s.run reqs).2).length) } := by
  induction reqs with
  | nil => intro s k _ hi; cases s; simp only [Cycle.run] at hi ⊢; simp [proposals, hi]
  | cons r rs ih =>
    intro s k hlen hi
    have hsel := cycle_step n hn s k r hlen hi
    simp only [Cycle.run]
    rcases hsel with ⟨h1, h2⟩ | ⟨h1, o1, h2, h3⟩
    · rw [h1]
      have : proposals ((s.select r).2 :: (s.run rs).2) = proposals (s.run rs).2 := by
        exact proposals_skip h2
      rw [this]; exact ih s k hlen hi
    · have hp : proposals ((s.select r).2 :: ((s.select r).1.run rs).2) = o1 :: proposals ((s.select r).1.run rs).2 := by
        simp [proposals, h2]
      rw [hp]
      have := ih (s.select r).1 (k + 1) (by rw [h1]; exact hlen) (by rw [h1]; simp [cycIdx])
      rw [this, h1]
      simp only [List.length_cons]
      have e : k + 1 + (proposals (Cycle.run { s with i := ((k % n : Nat) : Int) } rs).2).length =
        k + ((proposals (Cycle.run { s with i := ((k % n : Nat) : Int) } rs).2).length + 1) := by omega
      rw [e]

/-- **C09.** The next request is answered with the next optimizer in turn; it is refused only when spawning is stopped
or that optimizer does not fit into the offered slots. -/
theorem C09_answer (opts : List AvailOpt) (allow : SelView → Bool) (hist : List Req) (r : Req) (hne : opts ≠ []) :
    let run := (Cycle.init opts allow).run hist
    ∃ o, opts[(proposals run.2).length % opts.length]? = some o ∧
      (run.1.select r).2 =
        if allow r.view = false then .stop else if o.workers > r.slots then .nothing else .chosen o := by
  have hn : 0 < opts.length := List.length_pos_iff.mpr hne
  intro run
  have h := cycle_state opts.length hn hist (Cycle.init opts allow) 0 rfl rfl
  simp only [Nat.zero_add] at h
  have hr : run = (Cycle.init opts allow).run hist := rfl
  rw [← hr] at h
  generalize (proposals run.2).length = k at h ⊢
  have hkn : k % opts.length < opts.length := Nat.mod_lt _ hn
  refine ⟨opts[k % opts.length], List.getElem?_eq_getElem hkn, ?_⟩
  have hnext : (run.1.i + 1) % (opts.length : Int) = ((k % opts.length : Nat) : Int) := by
    rw [h]; exact cycle_next opts.length hn k
  have ho : run.1.opts = opts := by rw [h]; rfl
  have ha : run.1.allow = allow := by rw [h]; rfl
  simp only [Cycle.select, ho, ha, hnext, Int.toNat_natCast, List.getElem?_eq_getElem hkn]
  split
  · rfl
  · rw [if_neg (by omega)]
    split <;> rfl

/-- **C08, second half.** A request the cycle selector answers with `None` or `False` leaves it exactly as it was, so
all its later answers are the same as without that request; the random selector keeps no state at all. -/
theorem C08_refusal_no_effect (opts : List AvailOpt) (allow : SelView → Bool) (hist later : List Req) (r : Req)
    (hne : opts ≠ []) (href : (((Cycle.init opts allow).run hist).1.select r).2 = .nothing ∨
      (((Cycle.init opts allow).run hist).1.select r).2 = .stop) :
    ((((Cycle.init opts allow).run hist).1.select r).1.run later).2 =
      (((Cycle.init opts allow).run hist).1.run later).2 := by
  have hn : 0 < opts.length := List.length_pos_iff.mpr hne
  have h := cycle_state opts.length hn hist (Cycle.init opts allow) 0 rfl rfl
  simp only [Nat.zero_add] at h
  generalize ((Cycle.init opts allow).run hist).1 = s at h href ⊢
  have := cycle_step opts.length hn s _ r (by rw [h]; rfl) (by rw [h])
  rcases this with ⟨h1, h2⟩ | ⟨h1, o1, h2, h3⟩
  · rw [h1]
  · rw [h2] at href; rcases href with h | h <;> cases h

example : (((Cycle.init sampleOpts alwaysSpawn).run [sampleReq 0 2]).1.select (sampleReq 5 2)).2 = .nothing := by decide

/-! ## C10 -/

theorem chain_fields (s : Chain) (reqs : List Req) : (s.run reqs).1.opts = s.opts ∧
    (s.run reqs).1.thresholds = s.thresholds ∧ (s.run reqs).1.allow = s.allow := by
  induction reqs generalizing s with
  | nil => exact ⟨rfl, rfl, rfl⟩
  | cons r rs ih =>
    have : (s.select r).1.opts = s.opts ∧ (s.select r).1.thresholds = s.thresholds ∧ (s.select r).1.allow = s.allow := by
      simp only [Chain.select]
      repeat' split
      all_goals exact ⟨rfl, rfl, rfl⟩
    simp only [Chain.run]
    obtain ⟨a, b, c⟩ := ih (s.select r).1
    exact ⟨a.trans this.1, b.trans this.2.1, c.trans this.2.2⟩

theorem chain_toggle (s : Chain) (r : Req) :
    (s.select r).1.toggle = if s.allow r.view = false then s.toggle else s.advance r.view.fCounter := by
  simp only [Chain.select]
  split
  · rfl
  · split
    · rfl
    · split <;> rfl

theorem reached_mono {ths : List PyF} {f g : Nat} (h : f ≤ g) : reached ths f ≤ reached ths g := by
  induction ths with
  | nil => simp [reached]
  | cons a t ih =>
    simp only [reached, List.filter_cons] at ih ⊢
    have : PyF.le a (.fin f) = true → PyF.le a (.fin g) = true := by
      cases a with
      | fin q =>
        simp only [PyF.le, decide_eq_true_eq]
        intro h'
        have : (f : Rat) ≤ (g : Rat) := by exact_mod_cast h
        grind
      | _ => simp [PyF.le]
    by_cases h1 : PyF.le a (.fin f) = true
    · simp [h1, this h1]; exact ih
    · simp [h1]
      split
      · simp; omega
      · exact ih

theorem reached_append (a b : List PyF) (f : Nat) : reached (a ++ b) f = reached a f + reached b f := by
  simp [reached]

/-- Every threshold before the current stage has been reached. -/
def ChainInv (s : Chain) (f : Nat) : Prop :=
  s.toggle ≤ s.thresholds.length ∧ ∀ th ∈ s.thresholds.take s.toggle, PyF.le th (.fin f) = true

theorem le_fin_mono {a : PyF} {f g : Nat} (h : f ≤ g) (ha : PyF.le a (.fin f) = true) : PyF.le a (.fin g) = true := by
  cases a with
  | fin q =>
    simp only [PyF.le, decide_eq_true_eq] at ha ⊢
    have : (f : Rat) ≤ (g : Rat) := by exact_mod_cast h
    grind
  | _ => simp_all [PyF.le]

theorem chainInv_step (s : Chain) (f : Nat) (r : Req) (hf : f ≤ r.view.fCounter) (h : ChainInv s f) :
    ChainInv (s.select r).1 r.view.fCounter := by
  obtain ⟨h1, h2⟩ := h
  have hths : (s.select r).1.thresholds = s.thresholds := (chain_fields s [r]).2.1
  have ht := chain_toggle s r
  refine ⟨?_, ?_⟩
  · rw [hths, ht]
    split
    · exact h1
    · simp only [Chain.advance]
      split
      · rename_i th hget
        have := (List.getElem?_eq_some_iff.mp hget).1
        split <;> omega
      · exact h1
  · rw [hths, ht]
    have hold : ∀ th ∈ s.thresholds.take s.toggle, PyF.le th (.fin r.view.fCounter) = true :=
      fun th hm => le_fin_mono hf (h2 th hm)
    split
    · exact hold
    · simp only [Chain.advance]
      split
      · rename_i th hget
        split
        · rename_i hle
          intro th' hm
          rw [List.take_add_one, hget] at hm
          simp only [Option.toList_some, List.mem_append, List.mem_singleton] at hm
          rcases hm with hm | rfl
          · exact hold th' hm
          · exact hle
        · exact hold
      · exact hold

theorem chainInv_reached (s : Chain) (f : Nat) (h : ChainInv s f) : s.toggle ≤ reached s.thresholds f := by
  have e : reached s.thresholds f =
      reached (s.thresholds.take s.toggle) f + reached (s.thresholds.drop s.toggle) f := by
    rw [← reached_append, List.take_append_drop]
  rw [e]
  have : reached (s.thresholds.take s.toggle) f = s.toggle := by
    rw [reached, List.filter_eq_self.mpr h.2, List.length_take]
    have := h.1
    omega
  omega

theorem chainInv_run (reqs : List Req) (s : Chain) (f : Nat) (h : ChainInv s f)
    (hm : MonotoneReqs reqs) (h0 : ∀ r ∈ reqs.head?, f ≤ r.view.fCounter) :
    ∀ g, (∀ r ∈ reqs.getLast?, r.view.fCounter ≤ g) → f ≤ g → ChainInv (s.run reqs).1 g := by
  induction reqs generalizing s f with
  | nil =>
    intro g _ hg
    exact ⟨h.1, fun th ht => le_fin_mono hg (h.2 th ht)⟩
  | cons r rs ih =>
    intro g hg hfg
    simp only [Chain.run]
    have hr := h0 r (by simp)
    cases rs with
    | nil =>
      have := chainInv_step s f r hr h
      have hlast := hg r (by simp)
      exact ⟨this.1, fun th ht => le_fin_mono hlast (this.2 th ht)⟩
    | cons r2 t =>
      obtain ⟨hm1, hm2⟩ := hm
      refine ih (s.select r).1 r.view.fCounter (chainInv_step s f r hr h) hm2 (by simpa using hm1) g ?_ ?_
      · intro q hq; apply hg; simpa using hq
      · -- the last evaluation count bounds the earlier ones
        have hle : ∀ (l : List Req) (a : Req), MonotoneReqs (a :: l) → ∀ q ∈ (a :: l).getLast?, a.view.fCounter ≤ q.view.fCounter := by
          intro l
          induction l with
          | nil => intro a _ q hq; simp at hq; subst hq; exact Nat.le_refl _
          | cons b l ihl =>
            intro a hab q hq
            exact Nat.le_trans hab.1 (ihl b hab.2 q (by simpa using hq))
        have hne : (r :: r2 :: t) ≠ [] := by simp
        have hl := List.getLast?_eq_some_getLast hne
        exact Nat.le_trans (hle (r2 :: t) r ⟨hm1, hm2⟩ _ hl) (hg _ hl)

theorem chain_advance (s : Chain) (f : Nat) (h : ChainInv s f)
    (hs : s.thresholds.Pairwise (fun a b => PyF.le a b = true)) :
    s.advance f = min (s.toggle + 1) (reached s.thresholds f) := by
  have e : reached s.thresholds f =
      reached (s.thresholds.take s.toggle) f + reached (s.thresholds.drop s.toggle) f := by
    rw [← reached_append, List.take_append_drop]
  have e1 : reached (s.thresholds.take s.toggle) f = s.toggle := by
    rw [reached, List.filter_eq_self.mpr h.2, List.length_take]
    have := h.1
    omega
  rw [e1] at e
  simp only [Chain.advance]
  split
  · rename_i th hget
    have hlt := (List.getElem?_eq_some_iff.mp hget).1
    have hth := (List.getElem?_eq_some_iff.mp hget).2
    have hd : s.thresholds.drop s.toggle = th :: s.thresholds.drop (s.toggle + 1) := by
      rw [← hth]; exact List.drop_eq_getElem_cons hlt
    split
    · rename_i hle
      rw [hd] at e
      simp only [reached, List.filter_cons, hle, if_true, List.length_cons] at e
      simp only [reached]
      omega
    · rename_i hle
      have : reached (s.thresholds.drop s.toggle) f = 0 := by
        simp only [reached, List.length_eq_zero_iff, List.filter_eq_nil_iff]
        intro b hb hbf
        rw [hd] at hb
        rcases List.mem_cons.mp hb with rfl | hb
        · exact hle hbf
        · have hp : (th :: s.thresholds.drop (s.toggle + 1)).Pairwise (fun a b => PyF.le a b = true) := by
            rw [← hd]; exact hs.sublist (List.drop_sublist _ _)
          exact hle (PyF.le_trans ((List.pairwise_cons.mp hp).1 b hb) hbf)
      omega
  · rename_i hget
    have := List.getElem?_eq_none_iff.mp hget
    have : s.thresholds.drop s.toggle = [] := List.drop_eq_nil_iff.mpr this
    rw [this] at e
    simp only [reached, List.filter_nil, List.length_nil] at e
    simp only [reached]
    omega

theorem chain_run_spec (reqs : List Req) (s : Chain) (f : Nat) (h : ChainInv s f)
    (hs : s.thresholds.Pairwise (fun a b => PyF.le a b = true))
    (hm : MonotoneReqs reqs) (h0 : ∀ r ∈ reqs.head?, f ≤ r.view.fCounter) :
    (s.run reqs).2 = List.zipWith (chainAnswer s.opts s.allow) reqs
      (chainStages s.thresholds s.allow s.toggle reqs) := by
  induction reqs generalizing s f with
  | nil => rfl
  | cons r rs ih =>
    have hr := h0 r (by simp)
    have hinv : ChainInv s r.view.fCounter := ⟨h.1, fun th ht => le_fin_mono hr (h.2 th ht)⟩
    have hadv := chain_advance s r.view.fCounter hinv hs
    obtain ⟨f1, f2, f3⟩ := chain_fields s [r]
    have ht := chain_toggle s r
    have hans : (s.select r).2 = chainAnswer s.opts s.allow r (s.select r).1.toggle := by
      rw [ht]
      simp only [Chain.select, chainAnswer]
      cases ha : s.allow r.view with
      | false => simp
      | true =>
        simp only [Bool.true_eq_false, if_false, if_true]
        cases hg : s.opts[s.advance r.view.fCounter]? with
        | none => rfl
        | some o =>
          simp only
          by_cases hw : o.workers ≤ r.slots
          · rw [if_pos hw, if_neg (by omega)]
          · rw [if_neg hw, if_pos (by omega)]
    have ht' : (s.select r).1.toggle =
        if s.allow r.view then min (s.toggle + 1) (reached s.thresholds r.view.fCounter) else s.toggle := by
      rw [ht, hadv]; cases s.allow r.view <;> rfl
    simp only [Chain.run, chainStages, List.zipWith_cons_cons]
    rw [hans, ← ht']
    congr 1
    have hm' : MonotoneReqs rs := by
      cases rs with
      | nil => trivial
      | cons b t => exact hm.2
    have h0' : ∀ q ∈ rs.head?, r.view.fCounter ≤ q.view.fCounter := by
      cases rs with
      | nil => simp
      | cons b t => simpa using hm.1
    have := ih (s.select r).1 r.view.fCounter (chainInv_step s f r hr h) (by rw [show (s.select r).1.thresholds = s.thresholds from f2]; exact hs) hm' h0'
    rw [this]
    rw [show (s.select r).1.thresholds = s.thresholds from f2, show (s.select r).1.opts = s.opts from f1,
      show (s.select r).1.allow = s.allow from f3]

/-- **C10.** With thresholds in increasing order and evaluation counts that never decrease, the answers of a chain
selector are exactly those of a chain which starts in stage 0 and at each permitted request moves on by one stage
unless its stage already is the number of thresholds reached. -/
theorem C10_chain_answers (opts : List AvailOpt) (ths : List PyF) (allow : SelView → Bool) (c : Chain)
    (hc : Chain.init opts ths allow = some c) (hs : ths.Pairwise (fun a b => PyF.le a b = true))
    (reqs : List Req) (hm : MonotoneReqs reqs) :
    (c.run reqs).2 = List.zipWith (chainAnswer opts allow) reqs (chainStages ths allow 0 reqs) := by
  simp only [Chain.init] at hc
  split at hc
  · cases hc
    exact chain_run_spec reqs _ 0 ⟨Nat.zero_le _, by simp⟩ hs hm (fun _ _ => Nat.zero_le _)
  · cases hc

theorem chainStages_length (ths : List PyF) (allow : SelView → Bool) (st : Nat) (reqs : List Req) :
    (chainStages ths allow st reqs).length = reqs.length := by
  induction reqs generalizing st with
  | nil => rfl
  | cons r rs ih => simp [chainStages, ih]

/-- **C10, the stages.** They never go back, move on by at most one per request, and are never ahead of the number of
thresholds reached. -/
theorem C10_stages (ths : List PyF) (allow : SelView → Bool) (reqs : List Req) (hm : MonotoneReqs reqs) :
    let st := chainStages ths allow 0 reqs
    (∀ k a b, st[k]? = some a → st[k + 1]? = some b → a ≤ b ∧ b ≤ a + 1) ∧
    (∀ (k a : Nat) (r : Req), st[k]? = some a → reqs[k]? = some r → a ≤ reached ths r.view.fCounter) := by
  have key : ∀ (reqs : List Req) (st f : Nat), MonotoneReqs reqs → (∀ r ∈ reqs.head?, f ≤ r.view.fCounter) →
      st ≤ reached ths f →
      (∀ a, (chainStages ths allow st reqs)[0]? = some a → st ≤ a ∧ a ≤ st + 1) ∧
      (∀ k a b, (chainStages ths allow st reqs)[k]? = some a → (chainStages ths allow st reqs)[k + 1]? = some b →
        a ≤ b ∧ b ≤ a + 1) ∧
      (∀ (k a : Nat) (r : Req), (chainStages ths allow st reqs)[k]? = some a → reqs[k]? = some r →
        a ≤ reached ths r.view.fCounter) := by
    intro reqs
    induction reqs with
    | nil => intro st f _ _ _; simp [chainStages]
    | cons r rs ih =>
      intro st f hm h0 hst
      have hr := h0 r (by simp)
      have hmono := reached_mono (ths := ths) hr
      have hm' : MonotoneReqs rs := by
        cases rs with
        | nil => trivial
        | cons b t => exact hm.2
      have h0' : ∀ q ∈ rs.head?, r.view.fCounter ≤ q.view.fCounter := by
        cases rs with
        | nil => simp
        | cons b t => simpa using hm.1
      simp only [chainStages]
      generalize hst' : (if allow r.view then min (st + 1) (reached ths r.view.fCounter) else st) = st'
      have b1 : st ≤ st' ∧ st' ≤ st + 1 ∧ st' ≤ reached ths r.view.fCounter := by
        rw [← hst']
        split <;> omega
      obtain ⟨i1, i2, i3⟩ := ih st' r.view.fCounter hm' h0' b1.2.2
      refine ⟨?_, ?_, ?_⟩
      · intro a ha; simp at ha; omega
      · intro k a b ha hb
        cases k with
        | zero =>
          simp at ha hb
          subst ha
          exact i1 b (by simpa using hb)
        | succ k => exact i2 k a b (by simpa using ha) (by simpa using hb)
      · intro k a q ha hq
        cases k with
        | zero => simp at ha hq; subst ha hq; exact b1.2.2
        | succ k => exact i3 k a q (by simpa using ha) (by simpa using hq)
  obtain ⟨_, h2, h3⟩ := key reqs 0 0 hm (fun _ _ => Nat.zero_le _) (Nat.zero_le _)
  exact ⟨h2, h3⟩

/-- **C10, settling.** Requests repeated at the same evaluation count bring the chain to the stage equal to the number
of thresholds reached: from any history, after as many permitted requests as there are thresholds reached. -/
theorem C10_settles (ths : List PyF) (allow : SelView → Bool) (hist : List Req) (r : Req) (m : Nat)
    (hall : allow r.view = true) (hm : MonotoneReqs hist) (hl : ∀ q ∈ hist.getLast?, q.view.fCounter ≤ r.view.fCounter)
    (hen : reached ths r.view.fCounter ≤ m + 1) :
    (chainStages ths allow 0 (hist ++ List.replicate (m + 1) r)).getLast? = some (reached ths r.view.fCounter) := by
  have rep : ∀ (m st : Nat), st ≤ reached ths r.view.fCounter →
      (chainStages ths allow st (List.replicate (m + 1) r)).getLast? =
        some (min (st + (m + 1)) (reached ths r.view.fCounter)) := by
    intro m
    induction m with
    | zero => intro st _; simp [chainStages, hall]
    | succ m ih =>
      intro st hst
      rw [List.replicate_succ]
      simp only [chainStages, hall, if_true]
      have := ih (min (st + 1) (reached ths r.view.fCounter)) (Nat.min_le_right _ _)
      rw [List.getLast?_cons, this]
      simp only [Option.getD_some, Option.some.injEq]
      omega
  have key : ∀ (hist : List Req) (st : Nat), MonotoneReqs hist →
      (∀ q ∈ hist.getLast?, q.view.fCounter ≤ r.view.fCounter) → st ≤ reached ths r.view.fCounter →
      ∃ st', st' ≤ reached ths r.view.fCounter ∧
        (chainStages ths allow st (hist ++ List.replicate (m + 1) r)).getLast? =
        (chainStages ths allow st' (List.replicate (m + 1) r)).getLast? := by
    intro hist
    induction hist with
    | nil => intro st _ _ h; exact ⟨st, h, rfl⟩
    | cons q t ih =>
      intro st hmq hlq hst
      have hle : ∀ (l : List Req) (a : Req), MonotoneReqs (a :: l) → ∀ q ∈ (a :: l).getLast?, a.view.fCounter ≤ q.view.fCounter := by
        intro l
        induction l with
        | nil => intro a _ q hq; simp at hq; subst hq; exact Nat.le_refl _
        | cons b l ihl =>
          intro a hab q hq
          exact Nat.le_trans hab.1 (ihl b hab.2 q (by simpa using hq))
      have hlast := List.getLast?_eq_some_getLast (l := q :: t) (by simp)
      have hq : q.view.fCounter ≤ r.view.fCounter := Nat.le_trans (hle t q hmq _ hlast) (hlq _ hlast)
      have hmono := reached_mono (ths := ths) hq
      have hm' : MonotoneReqs t := by
        cases t with
        | nil => trivial
        | cons b t => exact hmq.2
      have hl' : ∀ q ∈ t.getLast?, q.view.fCounter ≤ r.view.fCounter := by
        cases t with
        | nil => simp
        | cons b t => intro x hx; exact hlq x (by simpa using hx)
      obtain ⟨st', a, b⟩ := ih (if allow q.view then min (st + 1) (reached ths q.view.fCounter) else st) hm' hl'
        (by split <;> omega)
      refine ⟨st', a, ?_⟩
      rw [List.cons_append]
      simp only [chainStages]
      rw [← b, List.getLast?_cons]
      have hne : chainStages ths allow (if allow q.view then min (st + 1) (reached ths q.view.fCounter) else st)
          (t ++ List.replicate (m + 1) r) ≠ [] := by
        intro hnil
        have := congrArg List.length hnil
        rw [chainStages_length] at this
        simp at this
      rw [List.getLast?_eq_some_getLast hne]; rfl
  obtain ⟨st', h1, h2⟩ := key hist 0 hm hl (Nat.zero_le _)
  rw [h2, rep m st' h1]
  congr 1
  omega

example : chainStages [.fin 10, .fin 20] alwaysSpawn 0 [sampleReq 5 4, sampleReq 30 4, sampleReq 30 4, sampleReq 31 4] =
    [0, 1, 2, 2] := by decide
example : ([.fin 10, .fin 20] : List PyF).Pairwise (fun a b => PyF.le a b = true) := by decide
example : MonotoneReqs [sampleReq 5 4, sampleReq 30 4, sampleReq 30 4, sampleReq 31 4] := by
  simp [MonotoneReqs, sampleReq]

/-- **C10, the documented optional last threshold.** With as many thresholds as optimizers the documentation promises
that spawning stops; instead the request raises `IndexError` once the last threshold is passed. -/
theorem C10_last_threshold_refuted :
    ∃ c, Chain.init [⟨"A", 1⟩] [.fin 10] alwaysSpawn = some c ∧
      (c.run [sampleReq 5 4, sampleReq 30 4]).2 = [.chosen ⟨"A", 1⟩, .raised .indexError] :=
  ⟨_, rfl, by decide⟩

/-- With one threshold fewer than optimizers the chain never fails. -/
theorem C10_no_failure (opts : List AvailOpt) (ths : List PyF) (allow : SelView → Bool) (c : Chain)
    (hc : Chain.init opts ths allow = some c) (hlen : opts.length = ths.length + 1)
    (hs : ths.Pairwise (fun a b => PyF.le a b = true)) (reqs : List Req) (hm : MonotoneReqs reqs) (e : Err) :
    .raised e ∉ (c.run reqs).2 := by
  rw [C10_chain_answers opts ths allow c hc hs reqs hm]
  intro hmem
  obtain ⟨k, hk⟩ := List.mem_iff_getElem?.mp hmem
  rw [List.getElem?_zipWith] at hk
  split at hk
  · rename_i r st hr hst
    have hle := (C10_stages ths allow reqs hm).2 k st r hst hr
    have : reached ths r.view.fCounter ≤ ths.length := List.length_filter_le _ _
    simp only [Option.some.injEq, chainAnswer] at hk
    split at hk
    · rw [List.getElem?_eq_getElem (show st < opts.length by omega)] at hk
      simp only at hk
      split at hk <;> cases hk
    · cases hk
  · cases hk

/-! ## C11 -/

/-- **C11, selectors.** If spawn control forbids, every bundled selector answers `False`, and only then. -/
theorem C11_selectors_stop (cy : Cycle) (ch : Chain) (opts : List AvailOpt) (allow : SelView → Bool) (r : Req) :
    ((cy.select r).2 = .stop ↔ cy.allow r.view = false) ∧
    ((ch.select r).2 = .stop ↔ ch.allow r.view = false) ∧
    (randomSelect opts allow r = .stop ↔ allow r.view = false) := by
  refine ⟨?_, ?_, ?_⟩
  · simp only [Cycle.select]; grind
  · simp only [Chain.select]; grind
  · simp only [randomSelect]; grind

/-- **C11, stoppers.** The bundled stoppers allow spawning exactly below their limit; once they forbid they forbid at
every later moment. -/
theorem C11_stoppers (limit : Int) (m m' : SelView) :
    (iterSpawnStop limit m = true ↔ (m.fCounter : Int) < limit) ∧
    (nOptimizersSpawnStop limit m = true ↔ (m.oCounter : Int) < limit) ∧
    (m.fCounter ≤ m'.fCounter → iterSpawnStop limit m = false → iterSpawnStop limit m' = false) ∧
    (m.oCounter ≤ m'.oCounter → nOptimizersSpawnStop limit m = false → nOptimizersSpawnStop limit m' = false) := by
  simp only [iterSpawnStop, nOptimizersSpawnStop]
  refine ⟨?_, ?_, ?_, ?_⟩
  · split <;> simp <;> omega
  · split <;> simp <;> omega
  · intro h; split <;> split <;> simp <;> omega
  · intro h; split <;> split <;> simp <;> omega

example : iterSpawnStop 100 ⟨100, 3⟩ = false ∧ iterSpawnStop 100 ⟨99, 3⟩ = true := by decide

end Glompo.Props
