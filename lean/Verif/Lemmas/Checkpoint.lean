import Verif.Spec.Checkpoint
import Verif.Lemmas.Basic

/-!
# Lemmas on names and patterns
-/

namespace Glompo.Checkpoint

open Glompo.Spec

theorem replaceAll_skip {α : Type} [DecidableEq α] (key val : List α) (k : Nat) (s : List α) :
    replaceAll key val k s = replaceAll key val 0 (s.drop k) := by
  induction s generalizing k with
  | nil => cases k <;> simp [replaceAll]
  | cons c t ih =>
    cases k with
    | zero => simp
    | succ k => rw [replaceAll, ih, List.drop_succ_cons]

/-- One step of `str.replace`. -/
theorem replaceAll_cons {α : Type} [DecidableEq α] (key val : List α) (hk : key ≠ []) (c : α) (t : List α) :
    replaceAll key val 0 (c :: t) = if key <+: c :: t then val ++ replaceAll key val 0 ((c :: t).drop key.length)
      else c :: replaceAll key val 0 t := by
  rw [replaceAll]
  by_cases h : key <+: c :: t
  · rw [if_pos (List.isPrefixOf_iff_prefix.mpr h), if_pos h, replaceAll_skip]
    obtain ⟨a, k, rfl⟩ := List.exists_cons_of_ne_nil hk
    simp
  · rw [if_neg (fun e => h (List.isPrefixOf_iff_prefix.mp e)), if_neg h]

theorem mem_replaceAll {α : Type} [DecidableEq α] (key val : List α) (k : Nat) (s : List α) (c : α)
    (h : c ∈ replaceAll key val k s) : c ∈ s ∨ c ∈ val := by
  induction s generalizing k with
  | nil => cases k <;> simp [replaceAll] at h
  | cons a t ih =>
    cases k with
    | succ k => rw [replaceAll] at h; exact (ih _ h).imp (List.mem_cons_of_mem _) id
    | zero =>
      rw [replaceAll] at h
      split at h
      · rcases List.mem_append.mp h with h | h
        · exact .inr h
        · exact (ih _ h).imp (List.mem_cons_of_mem _) id
      · rcases List.mem_cons.mp h with rfl | h
        · exact .inl List.mem_cons_self
        · exact (ih _ h).imp (List.mem_cons_of_mem _) id

/-! ### Text against pattern -/

/-- `Rel R s p`: the text `s` is cut into the pieces of `p`, characters stand for themselves, other pieces for a text
they are related to. -/
inductive Rel (R : Item → List Char → Prop) : List Char → List Item → Prop
  | nil : Rel R [] []
  | ch (c s p) : Rel R s p → Rel R (c :: s) (.ch c :: p)
  | blk (i ds s p) : R i ds → Rel R s p → Rel R (ds ++ s) (i :: p)

theorem Rel.refl (R : Item → List Char → Prop) (s : List Char) : Rel R s (s.map .ch) := by
  induction s with
  | nil => exact .nil
  | cons c t ih => exact .ch _ _ _ ih

/-- Characters of the pattern are the characters of the text. -/
theorem Rel.drop {R : Item → List Char → Prop} (hR : ∀ c ds, ¬ R (.ch c) ds) {key : List Char} {s : List Char}
    {p : List Item} (h : Rel R s p) (hp : key.map .ch <+: p) :
    key <+: s ∧ Rel R (s.drop key.length) (p.drop key.length) := by
  induction key generalizing s p with
  | nil => simpa using h
  | cons k t ih =>
    cases h with
    | nil => simp at hp
    | ch c s p h =>
      rw [List.map_cons, List.cons_prefix_cons] at hp
      obtain ⟨he, hp⟩ := hp
      cases he
      obtain ⟨h1, h2⟩ := ih h hp
      exact ⟨List.cons_prefix_cons.mpr ⟨rfl, h1⟩, h2⟩
    | blk i ds s p hi h =>
      rw [List.map_cons, List.cons_prefix_cons] at hp
      exact absurd (hp.1 ▸ hi) (hR _ _)

/-- Replacing in the pattern only, by a piece standing for the key. -/
theorem Rel.replace_pattern {R : Item → List Char → Prop} (hR : ∀ c ds, ¬ R (.ch c) ds) {key : List Char}
    (hk : key ≠ []) {i : Item} (hi : R i key) : ∀ (n : Nat) (s : List Char) (p : List Item), p.length ≤ n → Rel R s p →
    Rel R s (replaceAll (key.map .ch) [i] 0 p) := by
  intro n
  induction n with
  | zero =>
    intro s p hn h
    have : p = [] := List.length_eq_zero_iff.mp (by omega)
    subst this; rw [replaceAll]; exact h
  | succ n ih =>
    intro s p hn h
    cases p with
    | nil => rw [replaceAll]; exact h
    | cons a t =>
      rw [replaceAll_cons _ _ (by simpa using hk)]
      split
      · rename_i hp
        obtain ⟨⟨s', rfl⟩, h2⟩ := h.drop hR hp
        rw [List.length_map]
        rw [List.drop_left] at h2
        refine .blk _ _ _ _ hi (ih _ _ ?_ h2)
        have : 0 < key.length := List.length_pos_iff.mpr hk
        rw [List.length_drop]
        omega
      · simp only [List.length_cons] at hn
        cases h with
        | ch c s p h => exact .ch _ _ _ (ih _ _ (by omega) h)
        | blk i ds s p hi h => exact .blk _ _ _ _ hi (ih _ _ (by omega) h)

/-- Replacing in text and pattern. -/
theorem Rel.replace_both {R : Item → List Char → Prop} (hR : ∀ c ds, ¬ R (.ch c) ds)
    (hd : ∀ i ds, R i ds → ds ≠ [] ∧ ∀ c ∈ ds, isDigit c = true) {key : List Char} (hk : key ≠ [])
    (hkd : ∀ c ∈ key, isDigit c = false) {i : Item} {val : List Char} (hi : R i val) :
    ∀ (n : Nat) (s : List Char) (p : List Item), p.length ≤ n → Rel R s p →
    Rel R (replaceAll key val 0 s) (replaceAll (key.map .ch) [i] 0 p) := by
  -- a key in the text is one in the pattern
  have pre : ∀ (key : List Char) (s : List Char) (p : List Item), (∀ c ∈ key, isDigit c = false) → Rel R s p →
      key <+: s → key.map .ch <+: p := by
    intro key
    induction key with
    | nil => intros; simp
    | cons k t ih =>
      intro s p hkd h hs
      cases h with
      | nil => simp at hs
      | ch c s p h =>
        rw [List.cons_prefix_cons] at hs
        rw [List.map_cons, List.cons_prefix_cons]
        exact ⟨by rw [hs.1], ih _ _ (fun c hc => hkd c (List.mem_cons_of_mem _ hc)) h hs.2⟩
      | blk i ds s p hi h =>
        obtain ⟨hne, hdig⟩ := hd _ _ hi
        obtain ⟨a, ds', rfl⟩ := List.exists_cons_of_ne_nil hne
        rw [List.cons_append, List.cons_prefix_cons] at hs
        have h1 := hdig a List.mem_cons_self
        rw [← hs.1, hkd k List.mem_cons_self] at h1
        cases h1
  -- digits are copied
  have copy : ∀ (ds s : List Char), (∀ c ∈ ds, isDigit c = true) →
      replaceAll key val 0 (ds ++ s) = ds ++ replaceAll key val 0 s := by
    intro ds
    induction ds with
    | nil => intros; simp
    | cons a t ih =>
      intro s hdig
      rw [List.cons_append, replaceAll_cons _ _ hk, if_neg, ih s fun c hc => hdig c (List.mem_cons_of_mem _ hc)]
      · rfl
      · intro hp
        obtain ⟨k, key', rfl⟩ := List.exists_cons_of_ne_nil hk
        rw [List.cons_prefix_cons] at hp
        have h1 := hdig a List.mem_cons_self
        rw [← hp.1, hkd k List.mem_cons_self] at h1
        cases h1
  intro n
  induction n with
  | zero =>
    intro s p hn h
    have : p = [] := List.length_eq_zero_iff.mp (by omega)
    subst this
    cases h
    rw [replaceAll, replaceAll]; exact .nil
  | succ n ih =>
    intro s p hn h
    cases h with
    | nil => rw [replaceAll, replaceAll]; exact .nil
    | ch c s p h =>
      simp only [List.length_cons] at hn
      rw [replaceAll_cons _ _ hk, replaceAll_cons _ _ (by simpa using hk)]
      by_cases hp : key <+: c :: s
      · have hp' := pre key _ _ hkd (.ch c s p h) hp
        rw [if_pos hp, if_pos hp', List.length_map]
        obtain ⟨-, h2⟩ := Rel.drop hR (.ch c s p h) hp'
        refine .blk _ _ _ _ hi (ih _ _ ?_ h2)
        have : 0 < key.length := List.length_pos_iff.mpr hk
        rw [List.length_drop, List.length_cons]
        omega
      · rw [if_neg hp, if_neg (fun hp' => hp (Rel.drop hR (.ch c s p h) hp').1)]
        exact .ch _ _ _ (ih _ _ (by omega) h)
    | blk i' ds s p hi' h =>
      simp only [List.length_cons] at hn
      rw [copy ds s (hd _ _ hi').2, replaceAll_cons _ _ (by simpa using hk), if_neg]
      · exact .blk _ _ _ _ hi' (ih _ _ (by omega) h)
      · intro hp
        obtain ⟨k, key', rfl⟩ := List.exists_cons_of_ne_nil hk
        rw [List.map_cons, List.cons_prefix_cons] at hp
        exact hR _ _ (hp.1 ▸ hi')

/-! ### Numbers -/

theorem isDigit_digitChar {n : Nat} (h : n < 10) : isDigit (digitChar n) = true := by
  have : n = 0 ∨ n = 1 ∨ n = 2 ∨ n = 3 ∨ n = 4 ∨ n = 5 ∨ n = 6 ∨ n = 7 ∨ n = 8 ∨ n = 9 := by omega
  rcases this with rfl | rfl | rfl | rfl | rfl | rfl | rfl | rfl | rfl | rfl <;> decide

theorem toNat_digitChar {n : Nat} (h : n < 10) : (digitChar n).toNat = 48 + n := by
  have : n = 0 ∨ n = 1 ∨ n = 2 ∨ n = 3 ∨ n = 4 ∨ n = 5 ∨ n = 6 ∨ n = 7 ∨ n = 8 ∨ n = 9 := by omega
  rcases this with rfl | rfl | rfl | rfl | rfl | rfl | rfl | rfl | rfl | rfl <;> decide

theorem decAux_spec (fuel : Nat) : ∀ n, n < fuel → (∀ c ∈ decAux fuel n, isDigit c = true) ∧ undec (decAux fuel n) = n ∧
    0 < (decAux fuel n).length ∧ ∀ w, 0 < w → n < 10 ^ w → (decAux fuel n).length ≤ w := by
  induction fuel with
  | zero => intro n hn; omega
  | succ fuel ih =>
    intro n hn
    rw [decAux]
    split
    · rename_i h
      refine ⟨fun c hc => ?_, ?_, by simp, fun w hw _ => by simpa using Nat.succ_le_of_lt hw⟩
      · rw [List.mem_singleton] at hc; subst hc; exact isDigit_digitChar h
      · simp [undec, toNat_digitChar h]
    · rename_i h
      obtain ⟨h1, h2, h3, h4⟩ := ih (n / 10) (by omega)
      refine ⟨fun c hc => ?_, ?_, by simp, fun w hw hlt => ?_⟩
      · rcases List.mem_append.mp hc with hc | hc
        · exact h1 c hc
        · rw [List.mem_singleton] at hc; subst hc; exact isDigit_digitChar (by omega)
      · unfold undec at h2 ⊢
        rw [List.foldl_append, h2]
        simp only [List.foldl_cons, List.foldl_nil]
        rw [toNat_digitChar (by omega)]
        omega
      · rw [List.length_append, List.length_singleton]
        cases w with
        | zero => omega
        | succ w =>
          cases w with
          | zero => simp at hlt; omega
          | succ w =>
            have : n / 10 < 10 ^ (w + 1) := by
              rw [Nat.pow_succ] at hlt
              omega
            have := h4 (w + 1) (by omega) this
            omega

theorem undec_zeros (k : Nat) (s : List Char) : undec (List.replicate k '0' ++ s) = undec s := by
  unfold undec
  rw [List.foldl_append]
  congr 1
  induction k with
  | zero => rfl
  | succ k ih =>
    rw [List.replicate_succ, List.foldl_cons]
    simpa using ih

theorem pad_spec (w n : Nat) : (∀ c ∈ pad w n, isDigit c = true) ∧ undec (pad w n) = n ∧
    (0 < w → n < 10 ^ w → (pad w n).length = w) := by
  obtain ⟨h1, h2, h3, h4⟩ := decAux_spec (n + 1) n (by omega)
  refine ⟨fun c hc => ?_, ?_, fun hw hn => ?_⟩
  · rcases List.mem_append.mp hc with hc | hc
    · rw [List.eq_of_mem_replicate hc]; decide
    · exact h1 c hc
  · unfold pad; rw [undec_zeros]; exact h2
  · unfold pad dec
    rw [List.length_append, List.length_replicate]
    have := h4 w hw hn
    omega

/-! ### Names and patterns of a format -/

/-- Pieces of the pattern and the digits they stand for, with the index `v`. -/
def Digs (v : Nat) (i : Item) (ds : List Char) : Prop :=
  (∀ c ∈ ds, isDigit c = true) ∧ ds ≠ [] ∧ match i with
    | .ch _ => False
    | .digits n => ds.length = n
    | .index => ds.length = 3 ∧ undec ds = v

theorem Digs.pad1 {v w n : Nat} (hw : 0 < w) (hn : n < 10 ^ w) : Digs v (.digits w) (pad w n) := by
  obtain ⟨h1, -, h3⟩ := pad_spec w n
  exact ⟨h1, List.ne_nil_of_length_pos (by rw [h3 hw hn]; exact hw), h3 hw hn⟩

theorem Digs.append {v a b : Nat} {s t : List Char} (h1 : Digs v (.digits a) s) (h2 : Digs v (.digits b) t) :
    Digs v (.digits (a + b)) (s ++ t) := by
  refine ⟨fun c hc => ?_, by simp [h1.2.1], by show (s ++ t).length = a + b; rw [List.length_append, h1.2.2, h2.2.2]⟩
  rcases List.mem_append.mp hc with h | h
  · exact h1.1 c h
  · exact h2.1 c h

/-- The name made from a format, cut into the pieces of the pattern of the format. -/
theorem name_rel {fmt : List Char} {now : Clock} (ht : IsTime now) {n : Nat} (hn : n < 1000) :
    Rel (Digs n) (replaceAll "%(count)".toList (pad 3 n) 0 ((codes now).foldl (fun s kv => replaceAll kv.1.toList kv.2 0 s) fmt))
      (formatRe fmt) := by
  obtain ⟨hy, hmo, hd, hh, hmi, hs⟩ := ht
  have step : ∀ (key val : List Char) (i : Item) (s : List Char) (p : List Item), key ≠ [] →
      (∀ c ∈ key, isDigit c = false) → Digs n i val → Rel (Digs n) s p →
      Rel (Digs n) (replaceAll key val 0 s) (replaceAll (key.map .ch) [i] 0 p) :=
    fun key val i s p hk hkd hi h => Rel.replace_both (R := Digs n) (fun c ds h => h.2.2)
      (fun i ds h => ⟨h.2.1, h.1⟩) hk hkd hi p.length s p (Nat.le_refl _) h
  unfold formatRe codes codeDigits
  simp only [List.foldl_cons, List.foldl_nil]
  have p2 : ∀ m, m < 100 → Digs n (.digits 2) (pad 2 m) := fun m hm => Digs.pad1 (by omega) hm
  have p4 : Digs n (.digits 4) (pad 4 now.year) := Digs.pad1 (by omega) hy
  have pc : Digs n .index (pad 3 n) := by
    obtain ⟨h1, h2, h3⟩ := pad_spec 3 n
    have := h3 (by omega) (by omega)
    exact ⟨h1, List.ne_nil_of_length_pos (by omega), this, h2⟩
  refine step _ _ _ _ _ (by decide) (by decide) pc ?_
  refine step _ _ _ _ _ (by decide) (by decide) (p2 _ hs) ?_
  refine step _ _ _ _ _ (by decide) (by decide) (p2 _ hmi) ?_
  refine step _ _ _ _ _ (by decide) (by decide) (p2 _ hh) ?_
  refine step _ _ _ _ _ (by decide) (by decide) (((p2 _ hh).append (p2 _ hmi)).append (p2 _ hs)) ?_
  refine step _ _ _ _ _ (by decide) (by decide) (p2 _ hd) ?_
  refine step _ _ _ _ _ (by decide) (by decide) (p2 _ hmo) ?_
  refine step _ _ _ _ _ (by decide) (by decide) (p2 _ (Nat.mod_lt _ (by omega))) ?_
  refine step _ _ _ _ _ (by decide) (by decide) p4 ?_
  refine step _ _ _ _ _ (by decide) (by decide) ((p4.append (p2 _ hmo)).append (p2 _ hd)) ?_
  exact Rel.refl _ _

/-- Pieces of the pattern and the keys they replace. -/
def Keys (i : Item) (k : List Char) : Prop :=
  match i with
  | .ch _ => False
  | .digits _ => True
  | .index => k = "%(count)".toList

theorem format_rel (fmt : List Char) : Rel Keys fmt (formatRe fmt) := by
  have step : ∀ (key : List Char) (i : Item) (s : List Char) (p : List Item), key ≠ [] → Keys i key → Rel Keys s p →
      Rel Keys s (replaceAll (key.map .ch) [i] 0 p) :=
    fun key i s p hk hi h => Rel.replace_pattern (R := Keys) (fun c ds h => h) hk hi p.length s p (Nat.le_refl _) h
  unfold formatRe codeDigits
  simp only [List.foldl_cons, List.foldl_nil]
  refine step _ _ _ _ (by decide) rfl ?_
  iterate 9 refine step _ _ _ _ (by decide) trivial ?_
  exact Rel.refl _ _

/-- Characters of the pattern are characters of the format. -/
theorem Rel.ch_mem {R : Item → List Char → Prop} (hR : ∀ c ds, ¬ R (.ch c) ds) {s : List Char} {p : List Item}
    (h : Rel R s p) {c : Char} (hc : .ch c ∈ p) : c ∈ s := by
  induction h with
  | nil => cases hc
  | ch a s p h ih =>
    rcases List.mem_cons.mp hc with he | hc
    · cases he; exact List.mem_cons_self
    · exact List.mem_cons_of_mem _ (ih hc)
  | blk i ds s p hi h ih =>
    rcases List.mem_cons.mp hc with he | hc
    · subst he; exact absurd hi (hR _ _)
    · exact List.mem_append_right _ (ih hc)

theorem Rel.index_once {s : List Char} {p : List Item} (h : Rel Keys s p)
    (hp : 0 < (p.filter fun i => decide (i = .index)).length) : Contains s "%(count)".toList := by
  induction h with
  | nil => simp at hp
  | ch c s p h ih =>
    obtain ⟨l, r, e⟩ := ih (by simpa using hp)
    exact ⟨c :: l, r, by rw [e]; simp⟩
  | blk i ds s p hi h ih =>
    cases i with
    | ch => exact hi.elim
    | digits n =>
      obtain ⟨l, r, e⟩ := ih (by simpa using hp)
      exact ⟨ds ++ l, r, by rw [e]; simp⟩
    | index => exact ⟨[], s, by rw [show ds = _ from hi]; simp⟩

theorem Rel.index_twice {s : List Char} {p : List Item} (h : Rel Keys s p)
    (hp : 1 < (p.filter fun i => decide (i = .index)).length) : ContainsTwice s "%(count)".toList := by
  induction h with
  | nil => simp at hp
  | ch c s p h ih =>
    obtain ⟨l, m, r, e⟩ := ih (by simpa using hp)
    exact ⟨c :: l, m, r, by rw [e]; simp⟩
  | blk i ds s p hi h ih =>
    cases i with
    | ch => exact hi.elim
    | digits n =>
      obtain ⟨l, m, r, e⟩ := ih (by simpa using hp)
      exact ⟨ds ++ l, m, r, by rw [e]; simp⟩
    | index =>
      obtain ⟨l, r, e⟩ := h.index_once (by rw [List.filter_cons_of_pos (by simp), List.length_cons] at hp; omega)
      exact ⟨[], l, r, by rw [e, show ds = _ from hi]; simp⟩

/-- The compiled form of a pattern without special characters. -/
def toRe : Item → Re
  | .ch c => .lit c false
  | .digits n => .digits n
  | .index => .index

theorem compileItems_plain (p : List Item) (h1 : .ch '?' ∉ p) (h2 : .ch '\\' ∉ p) :
    compileItems p = some (p.map toRe) := by
  induction p with
  | nil => rfl
  | cons i t ih =>
    have ih := ih (fun h => h1 (List.mem_cons_of_mem _ h)) (fun h => h2 (List.mem_cons_of_mem _ h))
    cases i with
    | digits n => rw [compileItems, ih]; rfl
    | index => rw [compileItems, ih]; rfl
    | ch c =>
      have hc1 : c ≠ '?' := fun e => h1 (by rw [e]; exact List.mem_cons_self)
      have hc2 : c ≠ '\\' := fun e => h2 (by rw [e]; exact List.mem_cons_self)
      cases t with
      | nil => simp [compileItems, hc1, hc2, toRe]
      | cons j t =>
        cases j with
        | digits n => rw [compileItems, if_neg (by simp [hc1, hc2]), ih]; rfl; intros; rename_i h; cases h
        | index => rw [compileItems, if_neg (by simp [hc1, hc2]), ih]; rfl; intros; rename_i h; cases h
        | ch d =>
          have hd : d ≠ '?' := fun e => h1 (by rw [e]; simp)
          rw [compileItems, if_neg (by simp [hc1, hc2]), if_neg hd, ih]; rfl

theorem matchRe_rel {n : Nat} {s : List Char} {p : List Item} (h : Rel (Digs n) s p) (rest : List Char) :
    ∃ r, matchRe (p.map toRe) (s ++ rest) = some r ∧ (.index ∈ p → r = some n) := by
  induction h with
  | nil => exact ⟨none, rfl, fun h => by cases h⟩
  | ch c s p h ih =>
    obtain ⟨r, h1, h2⟩ := ih
    refine ⟨r, ?_, fun h => h2 (by simpa using h)⟩
    simp only [List.map_cons, toRe, List.cons_append, matchRe, if_true, h1]
  | blk i ds s p hi h ih =>
    obtain ⟨r, h1, h2⟩ := ih
    obtain ⟨g1, g2, g3⟩ := hi
    cases i with
    | ch => exact g3.elim
    | digits k =>
      simp only at g3
      refine ⟨r, ?_, fun h => h2 (by simpa using h)⟩
      simp only [List.map_cons, toRe, matchRe]
      rw [if_pos, List.append_assoc, ← g3, List.drop_left, h1]
      refine ⟨by simp; omega, ?_⟩
      rw [List.append_assoc, ← g3, List.take_left]
      exact List.all_eq_true.mpr g1
    | index =>
      obtain ⟨g3, g4⟩ := g3
      refine ⟨some n, ?_, fun _ => rfl⟩
      simp only [List.map_cons, toRe, matchRe]
      rw [List.append_assoc, if_pos, ← g3, List.drop_left, List.take_left, h1, g4]
      · rfl
      · refine ⟨by simp; omega, ?_⟩
        rw [← g3, List.take_left]
        exact List.all_eq_true.mpr g1

/-- The compiled pattern of a format. -/
theorem compile_plain {fmt : List Char} (hp : PlainFormat fmt) (h2 : ¬ ContainsTwice fmt "%(count)".toList) :
    compile (formatRe fmt) = some ((formatRe fmt).map toRe) := by
  have hr := format_rel fmt
  rw [compile, if_neg (fun h => h2 (hr.index_twice h))]
  exact compileItems_plain _ (fun h => hp.1 (hr.ch_mem (fun c ds h => h) h))
    (fun h => hp.2 (hr.ch_mem (fun c ds h => h) h))

theorem nextCount_ge (re : List Re) (es : List Name) (e : Name) (he : e ∈ es) (i : Nat)
    (hm : matchRe re e = some (some i)) : i < nextCount re es := by
  have mono : ∀ (es : List Name) (m : Nat), m ≤ es.foldl (fun m e => match matchRe re e with
      | some (some i) => if m < i + 1 then i + 1 else m
      | _ => m) m := by
    intro es
    induction es with
    | nil => intro m; exact Nat.le_refl _
    | cons a t ih =>
      intro m
      rw [List.foldl_cons]
      refine Nat.le_trans ?_ (ih _)
      split
      · split
        · rename_i h; exact Nat.le_of_lt h
        · exact Nat.le_refl _
      · exact Nat.le_refl _
  unfold nextCount
  generalize 0 = m
  induction es generalizing m with
  | nil => cases he
  | cons a t ih =>
    rw [List.foldl_cons]
    rcases List.mem_cons.mp he with rfl | he
    · refine Nat.lt_of_lt_of_le ?_ (mono t _)
      rw [hm]
      show i < if m < i + 1 then i + 1 else m
      split <;> omega
    · exact ih he _

/-! ### An incrementing format keeps its counter -/

/-- Replacing another key does not break up an occurrence of `ctr`. -/
theorem replaceAll_contains {α : Type} [DecidableEq α] (h : α) (key' ctr' val : List α) (hk : h ∉ key') (hc : h ∉ ctr')
    (hd : ∀ b, ¬ h :: key' <+: h :: ctr' ++ b) : ∀ (n : Nat) (a b : List α), a.length ≤ n →
    ∃ a' b', replaceAll (h :: key') val 0 (a ++ h :: ctr' ++ b) = a' ++ h :: ctr' ++ b' := by
  have copy : ∀ (ds s : List α), h ∉ ds → replaceAll (h :: key') val 0 (ds ++ s) = ds ++ replaceAll (h :: key') val 0 s := by
    intro ds
    induction ds with
    | nil => intros; simp
    | cons x t ih =>
      intro s hx
      rw [List.cons_append, replaceAll_cons _ _ (by simp), if_neg, ih s fun hm => hx (List.mem_cons_of_mem _ hm)]
      · rfl
      · intro hp
        rw [List.cons_prefix_cons] at hp
        exact hx (by rw [hp.1]; exact List.mem_cons_self)
  intro n
  induction n with
  | zero =>
    intro a b hn
    have : a = [] := List.length_eq_zero_iff.mp (by omega)
    subst this
    refine ⟨[], replaceAll (h :: key') val 0 b, ?_⟩
    rw [List.nil_append, List.cons_append, replaceAll_cons _ _ (by simp), if_neg (by rw [← List.cons_append]; exact hd b),
      copy _ _ hc]
    rfl
  | succ n ih =>
    intro a b hn
    cases a with
    | nil => exact ih [] b (by simp)
    | cons x t =>
      simp only [List.length_cons] at hn
      rw [List.cons_append, List.cons_append, replaceAll_cons _ _ (by simp)]
      split
      · rename_i hp
        have hl : key'.length ≤ t.length := by
          refine Nat.le_of_not_lt fun hlt => ?_
          rw [List.cons_prefix_cons] at hp
          obtain ⟨r, hr⟩ := hp.2
          have h1 : key'[t.length]? = some h := by
            have h2 : (key' ++ r)[t.length]? = some h := by
              rw [hr, List.append_assoc, List.getElem?_append_right (Nat.le_refl _)]; simp
            rwa [List.getElem?_append_left hlt] at h2
          exact hk (List.mem_of_getElem? h1)
        obtain ⟨a', b', e⟩ := ih (t.drop key'.length) b (by rw [List.length_drop]; omega)
        refine ⟨val ++ a', b', ?_⟩
        rw [List.length_cons, List.drop_succ_cons, List.append_assoc, List.drop_append_of_le_length hl,
          ← List.append_assoc, e]
        simp
      · obtain ⟨a', b', e⟩ := ih t b (by omega)
        exact ⟨x :: a', b', by rw [e]; rfl⟩

theorem replaceAll_hit {α : Type} [DecidableEq α] (ctr : List α) (hc : ctr ≠ []) (i : α) : ∀ (n : Nat) (a b : List α),
    a.length ≤ n → i ∈ replaceAll ctr [i] 0 (a ++ ctr ++ b) := by
  intro n
  induction n with
  | zero =>
    intro a b hn
    have : a = [] := List.length_eq_zero_iff.mp (by omega)
    subst this
    obtain ⟨x, t, rfl⟩ := List.exists_cons_of_ne_nil hc
    rw [List.nil_append, List.cons_append, replaceAll_cons _ _ (by simp), if_pos ⟨b, by simp⟩]
    simp
  | succ n ih =>
    intro a b hn
    cases a with
    | nil => exact ih [] b (by simp)
    | cons x t =>
      simp only [List.length_cons] at hn
      rw [List.cons_append, List.cons_append, replaceAll_cons _ _ hc]
      split
      · simp
      · exact List.mem_cons_of_mem _ (ih t b (by omega))

theorem index_mem {fmt : List Char} (h : Contains fmt "%(count)".toList) : .index ∈ formatRe fmt := by
  obtain ⟨l, r, e⟩ := h
  have step : ∀ (key' : List Char) (i : Item) (p : List Item), '%' ∉ key' →
      (∀ b : List Item, ¬ (Item.ch '%' :: key'.map .ch) <+: .ch '%' :: "(count)".toList.map .ch ++ b) →
      (∃ a b, p = a ++ "%(count)".toList.map .ch ++ b) →
      ∃ a b, replaceAll (('%' :: key').map .ch) [i] 0 p = a ++ "%(count)".toList.map .ch ++ b := by
    rintro key' i p hk hd ⟨a, b, rfl⟩
    exact replaceAll_contains (Item.ch '%') (key'.map .ch) ("(count)".toList.map .ch) [i]
      (by intro hm; obtain ⟨c, hc, e⟩ := List.mem_map.mp hm; cases e; exact hk hc) (by decide) hd a.length a b (Nat.le_refl _)
  have main : ∃ a b, codeDigits.foldl (fun p kd => replaceAll (kd.1.toList.map Item.ch) [.digits kd.2] 0 p) (fmt.map Item.ch)
      = a ++ "%(count)".toList.map .ch ++ b := by
    unfold codeDigits
    simp only [List.foldl_cons, List.foldl_nil]
    refine step "(sec)".toList _ _ (by decide) (by simp) ?_
    refine step "(min)".toList _ _ (by decide) (by simp) ?_
    refine step "(hour)".toList _ _ (by decide) (by simp) ?_
    refine step "(time)".toList _ _ (by decide) (by simp) ?_
    refine step "(day)".toList _ _ (by decide) (by simp) ?_
    refine step "(month)".toList _ _ (by decide) (by simp) ?_
    refine step "(yr)".toList _ _ (by decide) (by simp) ?_
    refine step "(year)".toList _ _ (by decide) (by simp) ?_
    refine step "(date)".toList _ _ (by decide) (by simp) ?_
    exact ⟨l.map .ch, r.map .ch, by rw [e]; simp⟩
  obtain ⟨a, b, e⟩ := main
  unfold formatRe
  simp only [e]
  exact replaceAll_hit _ (by decide) _ a.length a b (Nat.le_refl _)

/-! ### Dots -/

theorem stem_nodot {name : Name} (h : '.' ∉ name) : stem name = name := by
  unfold stem
  have : name.reverse.dropWhile (· ≠ '.') = [] := by
    have h' : '.' ∉ name.reverse := fun hm => h (List.mem_reverse.mp hm)
    generalize name.reverse = l at h'
    induction l with
    | nil => rfl
    | cons a t ih =>
      rw [List.dropWhile_cons_of_pos (by simpa using fun e : a = '.' => h' (by rw [e]; exact List.mem_cons_self))]
      exact ih fun hm => h' (List.mem_cons_of_mem _ hm)
  simp only [this]

theorem nodot_name {fmt : List Char} {now : Clock} {n : Nat} (h : '.' ∉ fmt) :
    '.' ∉ replaceAll "%(count)".toList (pad 3 n) 0 ((codes now).foldl (fun s kv => replaceAll kv.1.toList kv.2 0 s) fmt) := by
  have hpad : ∀ w m, '.' ∉ pad w m := fun w m hm => by
    have := (pad_spec w m).1 _ hm
    revert this; decide
  intro hm
  rcases mem_replaceAll _ _ _ _ _ hm with hm | hm
  · have gen : ∀ (l : List (String × List Char)) (s : List Char), (∀ kv ∈ l, '.' ∉ kv.2) → '.' ∉ s →
        '.' ∉ l.foldl (fun s kv => replaceAll kv.1.toList kv.2 0 s) s := by
      intro l
      induction l with
      | nil => intro s _ hs; exact hs
      | cons kv t ih =>
        intro s hl hs
        rw [List.foldl_cons]
        refine ih _ (fun kv h => hl kv (List.mem_cons_of_mem _ h)) fun hm => ?_
        rcases mem_replaceAll _ _ _ _ _ hm with hm | hm
        · exact hs hm
        · exact hl _ List.mem_cons_self hm
    refine gen _ _ ?_ h hm
    intro kv hkv
    simp only [codes, List.mem_cons, List.not_mem_nil, or_false] at hkv
    rcases hkv with rfl | rfl | rfl | rfl | rfl | rfl | rfl | rfl | rfl <;> simp [hpad]
  · exact hpad _ _ hm

end Glompo.Checkpoint
