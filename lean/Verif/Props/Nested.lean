import Verif.Model.Nested
import Verif.Spec.Nested

/-! C90: formatting of conditions for the log and the summary. -/

namespace Glompo.Props
open Glompo.Nested Glompo.Spec.Nested

namespace NestedL

theorem splitLines_ne (s : Text) : splitLines s ≠ [] := by
  cases s with
  | nil => simp [splitLines]
  | cons c t =>
    simp only [splitLines]
    split
    · simp
    · split <;> simp

theorem splitLines_nl (s t : Text) : splitLines (s ++ '\n' :: t) = splitLines s ++ splitLines t := by
  induction s with
  | nil => simp [splitLines]
  | cons c s ih =>
    simp only [List.cons_append, splitLines, ih]
    split
    · simp
    · cases h : splitLines s with
      | nil => exact absurd h (splitLines_ne s)
      | cons l ls => simp

theorem splitLines_plain (s : Text) (h : '\n' ∉ s) : splitLines s = [s] := by
  induction s with
  | nil => simp [splitLines]
  | cons c s ih =>
    simp only [List.mem_cons, not_or] at h
    simp only [splitLines, ih h.2]
    rw [if_neg (fun e => h.1 e.symm)]

theorem atEnd_cons (suf l : Text) (ls : List Text) (h : ls ≠ []) :
    atEnd suf (l :: ls) = l :: atEnd suf ls := by
  cases ls with
  | nil => exact absurd rfl h
  | cons a t => simp [atEnd, List.dropLast, List.getLast?_cons_cons]

theorem atEnd_append (suf : Text) (a b : List Text) (h : b ≠ []) : atEnd suf (a ++ b) = a ++ atEnd suf b := by
  induction a with
  | nil => rfl
  | cons l t ih => rw [List.cons_append, atEnd_cons _ _ _ (by simp [h]), ih, List.cons_append]

theorem atEnd_nil (l : List Text) (h : l ≠ []) : atEnd [] l = l := by
  induction l with
  | nil => exact absurd rfl h
  | cons a t ih =>
    cases t with
    | nil => simp [atEnd]
    | cons b t => rw [atEnd_cons _ _ _ (by simp), ih (by simp)]

theorem splitLines_suffix (s suf : Text) (h : '\n' ∉ suf) :
    splitLines (s ++ suf) = atEnd suf (splitLines s) := by
  induction s with
  | nil => simp [splitLines, atEnd, splitLines_plain suf h]
  | cons c s ih =>
    simp only [List.cons_append, splitLines, ih]
    split
    · rw [atEnd_cons _ _ _ (splitLines_ne s)]
    · cases hs : splitLines s with
      | nil => exact absurd hs (splitLines_ne s)
      | cons l ls =>
        cases ls with
        | nil => simp [atEnd]
        | cons m ms =>
          have e1 := atEnd_cons suf l (m :: ms) (by simp)
          have e2 := atEnd_cons suf (c :: l) (m :: ms) (by simp)
          rw [e1, e2]

def expand (s : Text) : Text := breakClose (breakOpen s)

theorem expand_append (s t : Text) : expand (s ++ t) = expand s ++ expand t := by
  simp [expand, breakOpen, breakClose]

theorem expand_plain (s : Text) (h : '[' ∉ s) (h' : ']' ∉ s) : expand s = s := by
  induction s with
  | nil => rfl
  | cons c s ih =>
    simp only [List.mem_cons, not_or] at h h'
    have : expand (c :: s) = expand [c] ++ expand s := expand_append [c] s
    rw [this, ih h.2 h'.2]
    have h1 : ¬ c = '[' := fun e => h.1 e.symm
    have h2 : ¬ c = ']' := fun e => h'.1 e.symm
    simp [expand, breakOpen, breakClose, h1, h2]

/-- The text of a condition as characters. -/
def chars (text : Nat → Text) : Cond → Text
  | .leaf i => text i
  | .or _ a b => '[' :: (chars text a ++ " | \n".toList ++ chars text b ++ [']'])
  | .and _ a b => '[' :: (chars text a ++ " & \n".toList ++ chars text b ++ [']'])

theorem chars_eq (name : Nat → String) (c : Cond) :
    (condStr name c).toList = chars (fun i => (name i).toList) c := by
  induction c with
  | leaf i => rfl
  | or i a b iha ihb | and i a b iha ihb => simp [condStr, chars, ← iha, ← ihb, String.toList_append]

/-- The lines before indentation. -/
def raw (text : Nat → Text) (c : Cond) : List Text := splitLines (expand (chars text c))

theorem raw_ne (text : Nat → Text) (c : Cond) : raw text c ≠ [] := splitLines_ne _

theorem expand_body (A B op : Text) (h : '[' ∉ op) (h' : ']' ∉ op) :
    expand (A ++ (op ++ ['\n']) ++ B) = expand A ++ op ++ '\n' :: expand B := by
  rw [expand_append, expand_append, expand_plain (op ++ ['\n']) (by simp [h]) (by simp [h'])]
  simp

theorem split_body (A B op : Text) (h : '[' ∉ op) (h' : ']' ∉ op) (h'' : '\n' ∉ op) :
    splitLines (expand (A ++ (op ++ ['\n']) ++ B)) =
      atEnd op (splitLines (expand A)) ++ splitLines (expand B) := by
  rw [expand_body A B op h h', splitLines_nl, splitLines_suffix _ _ h'']

theorem split_combo (A B op : Text) (h : '[' ∉ op) (h' : ']' ∉ op) (h'' : '\n' ∉ op) :
    splitLines (expand ('[' :: (A ++ (op ++ ['\n']) ++ B ++ [']']))) =
      [['[']] ++ atEnd op (splitLines (expand A)) ++ splitLines (expand B) ++ [[']']] := by
  have e : '[' :: (A ++ (op ++ ['\n']) ++ B ++ [']']) = ['['] ++ (A ++ (op ++ ['\n']) ++ B) ++ [']'] := by simp
  have h1 : expand ['['] = ['['] ++ ['\n'] := by decide
  have h2 : expand [']'] = '\n' :: [']'] := by decide
  rw [e, expand_append, expand_append, h1, h2, splitLines_nl]
  rw [show (['['] ++ ['\n'] ++ expand (A ++ (op ++ ['\n']) ++ B)) =
    ['['] ++ '\n' :: expand (A ++ (op ++ ['\n']) ++ B) by simp, splitLines_nl, split_body A B op h h' h'']
  simp [splitLines]

/-- Indenting the lines of a condition, with something without brackets behind the last one. -/
theorem indent_raw (text : Nat → Text) (hp : ∀ i, Plain (text i)) (c : Cond) (n : Nat) (suf : Text)
    (rest : List Text) (h : '[' ∉ suf) (h' : ']' ∉ suf) :
    indent n (atEnd suf (raw text c) ++ rest) = atEnd suf (block text n c) ++ indent n rest := by
  induction c generalizing n suf rest with
  | leaf i =>
    obtain ⟨-, p1, p2, p3⟩ := hp i
    simp only [raw, chars, expand_plain _ p1 p2, splitLines_plain _ p3, block]
    simp only [atEnd, List.dropLast_singleton, List.getLast?_singleton, Option.getD_some, List.nil_append,
      List.singleton_append, indent]
    rw [if_neg (by simp [p1, h]), if_neg (by simp [p2, h'])]
    simp [pad, shifted]
  | or i a b iha ihb =>
    have hr : raw text (.or i a b) =
        [['[']] ++ atEnd " | ".toList (raw text a) ++ raw text b ++ [[']']] :=
      split_combo (chars text a) (chars text b) " | ".toList (by decide) (by decide) (by decide)
    rw [hr, atEnd_append _ _ _ (by simp), block, atEnd_append _ _ _ (by simp)]
    have hb := ihb (n + 1) [] (atEnd suf [[']']] ++ rest) (by simp) (by simp)
    have ha := iha (n + 1) " | ".toList (raw text b ++ (atEnd suf [[']']] ++ rest)) (by decide) (by decide)
    rw [atEnd_nil _ (raw_ne _ _)] at hb
    have e : [['[']] ++ atEnd " | ".toList (raw text a) ++ raw text b ++ atEnd suf [[']']] ++ rest =
      ['['] :: (atEnd " | ".toList (raw text a) ++ (raw text b ++ (atEnd suf [[']']] ++ rest))) := by simp
    have hbn : block text (n + 1) b ≠ [] := by cases b <;> simp [block]
    rw [atEnd_nil _ hbn] at hb
    rw [e, indent, if_pos (by simp)]
    rw [show ((n : Int) + 1) = ((n + 1 : Nat) : Int) by simp, ha, hb]
    simp only [atEnd, List.dropLast_singleton, List.getLast?_singleton, Option.getD_some, List.nil_append,
      List.singleton_append, List.cons_append, indent]
    rw [if_neg (by simp [h]), if_pos (by simp)]
    simp [pad, shifted]
  | and i a b iha ihb =>
    have hr : raw text (.and i a b) =
        [['[']] ++ atEnd " & ".toList (raw text a) ++ raw text b ++ [[']']] :=
      split_combo (chars text a) (chars text b) " & ".toList (by decide) (by decide) (by decide)
    rw [hr, atEnd_append _ _ _ (by simp), block, atEnd_append _ _ _ (by simp)]
    have hb := ihb (n + 1) [] (atEnd suf [[']']] ++ rest) (by simp) (by simp)
    have ha := iha (n + 1) " & ".toList (raw text b ++ (atEnd suf [[']']] ++ rest)) (by decide) (by decide)
    rw [atEnd_nil _ (raw_ne _ _)] at hb
    have e : [['[']] ++ atEnd " & ".toList (raw text a) ++ raw text b ++ atEnd suf [[']']] ++ rest =
      ['['] :: (atEnd " & ".toList (raw text a) ++ (raw text b ++ (atEnd suf [[']']] ++ rest))) := by simp
    have hbn : block text (n + 1) b ≠ [] := by cases b <;> simp [block]
    rw [atEnd_nil _ hbn] at hb
    rw [e, indent, if_pos (by simp)]
    rw [show ((n : Int) + 1) = ((n + 1 : Nat) : Int) by simp, ha, hb]
    simp only [atEnd, List.dropLast_singleton, List.getLast?_singleton, Option.getD_some, List.nil_append,
      List.singleton_append, List.cons_append, indent]
    rw [if_neg (by simp [h]), if_pos (by simp)]
    simp [pad, shifted]

theorem block_ne (text : Nat → Text) (n : Nat) (c : Cond) : block text n c ≠ [] := by cases c <;> simp [block]

theorem indent_raw_all (text : Nat → Text) (hp : ∀ i, Plain (text i)) (c : Cond) (n : Nat) :
    indent n (raw text c) = block text n c := by
  have := indent_raw text hp c n [] [] (by simp) (by simp)
  rw [atEnd_nil _ (raw_ne _ _), atEnd_nil _ (block_ne _ _ _)] at this
  simpa [indent] using this

theorem join_eq (l : List Text) : join l = lineSep l := by
  induction l with
  | nil => rfl
  | cons a t ih =>
    cases t with
    | nil => simp [join, lineSep, List.intercalate]
    | cons b t =>
      rw [join, ih]
      · simp [lineSep, List.intercalate]
      · simp

theorem strip_combo (body : Text) : strip ('[' :: (body ++ [']'])) = .ok body := by
  simp [strip, lastStep]

theorem strip_plain (s : Text) (h : Plain s) : strip s = .ok s := by
  obtain ⟨hn, h1, h2, -⟩ := h
  cases s with
  | nil => exact absurd rfl hn
  | cons c t =>
    have hc : ¬ c = '[' := fun e => h1 (by simp [e])
    simp only [strip, lastStep, if_neg hc]
    have hl : (c :: t).getLast? = some ((c :: t).getLast (by simp)) := List.getLast?_eq_some_getLast (by simp)
    rw [hl]
    have : ¬ (c :: t).getLast (by simp) = ']' := fun e => h2 (e ▸ List.getLast_mem _)
    simp [this]

theorem format_chars (text : Nat → Text) (hp : ∀ i, Plain (text i)) (c : Cond) :
    format (chars text c) = .ok (lineSep (layout text c)) := by
  cases c with
  | leaf i =>
    simp only [chars, format, strip_plain _ (hp i)]
    have := indent_raw_all text hp (.leaf i) 0
    simp only [raw, chars, expand] at this
    rw [← join_eq]
    exact congrArg (fun l => Except.ok (join l)) this
  | or i a b =>
    simp only [chars, format]
    rw [strip_combo]
    have e := split_body (chars text a) (chars text b) " | ".toList (by decide) (by decide) (by decide)
    have := indent_raw text hp a 0 " | ".toList (raw text b) (by decide) (by decide)
    rw [indent_raw_all text hp b 0] at this
    rw [← join_eq]
    exact congrArg (fun l => Except.ok (join l)) ((congrArg (indent 0) e).trans this)
  | and i a b =>
    simp only [chars, format]
    rw [strip_combo]
    have e := split_body (chars text a) (chars text b) " & ".toList (by decide) (by decide) (by decide)
    have := indent_raw text hp a 0 " & ".toList (raw text b) (by decide) (by decide)
    rw [indent_raw_all text hp b 0] at this
    rw [← join_eq]
    exact congrArg (fun l => Except.ok (join l)) ((congrArg (indent 0) e).trans this)

theorem inked_append (s t : Text) : inked (s ++ t) = inked s ++ inked t := by simp [inked]

theorem inked_expand (s : Text) : inked (expand s) = inked s := by
  induction s with
  | nil => rfl
  | cons c s ih =>
    have : expand (c :: s) = expand [c] ++ expand s := expand_append [c] s
    have e : inked (c :: s) = inked [c] ++ inked s := inked_append [c] s
    rw [this, inked_append, ih, e]
    congr 1
    by_cases h1 : c = '['
    · subst h1; decide
    · by_cases h2 : c = ']'
      · subst h2; decide
      · simp [expand, breakOpen, breakClose, h1, h2]

theorem inked_pad (n : Int) (s : Text) : inked (pad n s) = inked s := by
  simp only [pad, inked_append]
  have : inked (List.replicate n.toNat ' ') = [] := by
    rw [inked, List.filter_eq_nil_iff]
    intro c hc
    rw [List.eq_of_mem_replicate hc]
    decide
  rw [this, List.nil_append]

theorem inked_indent (n : Int) (l : List Text) : (indent n l).map inked = l.map inked := by
  induction l generalizing n with
  | nil => rfl
  | cons a t ih =>
    simp only [indent]
    split <;> simp [inked_pad, ih]

theorem inked_join (l : List Text) : inked (join l) = (l.map inked).flatten := by
  induction l with
  | nil => rfl
  | cons a t ih =>
    cases t with
    | nil => simp [join]
    | cons b t =>
      rw [join, inked_append]
      · have : inked ('\n' :: join (b :: t)) = inked (join (b :: t)) := by simp [inked]
        rw [this, ih]
        simp
      · simp

theorem join_split (s : Text) : join (splitLines s) = s := by
  induction s with
  | nil => rfl
  | cons c s ih =>
    simp only [splitLines]
    cases hs : splitLines s with
    | nil => exact absurd hs (splitLines_ne s)
    | cons l ls =>
      rw [hs] at ih
      split
      · rename_i hc
        rw [join, ih, hc]
        · rfl
        · simp
      · cases ls with
        | nil => simp only [join] at ih ⊢; rw [ih]
        | cons m ms =>
          rw [join] at ih ⊢
          · rw [← ih]; rfl
          · simp
          · simp

end NestedL
open NestedL

/-- **C90** (conditions). The text of a condition of any shape is laid out line by line: every basic condition is on its own line,
behind as many blanks as brackets are open around it (the outermost pair, which is left out, not counted), the operator follows the
first part, and every closing bracket stands below its opening one. -/
theorem C90_layout (name : Nat → String) (hp : ∀ i, Plain (name i).toList) (c : Cond) :
    format (condStr name c).toList = .ok (lineSep (layout (fun i => (name i).toList) c)) := by
  rw [chars_eq, format_chars _ hp]

/-- **C90** (results). The same with the result of each basic condition behind its name. -/
theorem C90_layout_results (name : Nat → String) (hp : ∀ i, Plain (name i).toList) (c : Cond) (last : Cond.Last) :
    format (c.strWithResult name last).toList =
      .ok (lineSep (layout (fun i => (name i ++ " = " ++ Cond.pyBool (last i)).toList) c)) := by
  have e : c.strWithResult name last = condStr (fun i => name i ++ " = " ++ Cond.pyBool (last i)) c := by
    induction c with
    | leaf i => rfl
    | or i a b iha ihb | and i a b iha ihb => simp only [Cond.strWithResult, condStr, iha, ihb]
  rw [e]
  refine C90_layout _ (fun i => ?_) c
  obtain ⟨h1, h2, h3, h4⟩ := hp i
  have : ∀ o : Option Bool, '[' ∉ (" = " ++ Cond.pyBool o).toList ∧ ']' ∉ (" = " ++ Cond.pyBool o).toList ∧
      '\n' ∉ (" = " ++ Cond.pyBool o).toList := by
    intro o; rcases o with _ | b
    · decide
    · cases b <;> decide
  obtain ⟨g1, g2, g3⟩ := this (last i)
  rw [show name i ++ " = " ++ Cond.pyBool (last i) = name i ++ (" = " ++ Cond.pyBool (last i)) by
    simp [String.append_assoc]]
  rw [String.toList_append]
  refine ⟨?_, ?_, ?_, ?_⟩
  · intro h; exact h1 (List.append_eq_nil_iff.mp h).1
  · rw [List.mem_append]; exact fun h => h.elim h2 g1
  · rw [List.mem_append]; exact fun h => h.elim h3 g2
  · rw [List.mem_append]; exact fun h => h.elim h4 g3

/-- The documented kind of example: brackets below each other, one blank per level. -/
example : format (condStr (fun i => if i = 0 then "A()" else if i = 1 then "B()" else "C()")
      (.or 9 (.leaf 0) (.and 8 (.leaf 1) (.leaf 2)))).toList =
    .ok "A() | \n[\n B() & \n C()\n]".toList := by rfl

example : Plain "MaxFuncCalls(fmax=100)".toList := by unfold Plain; decide

/-- **C90** (nothing is lost). For any text at all: what is returned has the same characters in the same order, except for blanks, line
ends, a bracket opening the text and a bracket closing it. -/
theorem C90_characters_kept (s out : List Char) (h : format s = .ok out) :
    ∃ body front back, (front = [] ∨ front = ['[']) ∧ (back = [] ∨ back = [']']) ∧ s = front ++ body ++ back ∧
      inked out = inked body := by
  simp only [format] at h
  cases hs : strip s with
  | error e => rw [hs] at h; cases h
  | ok b =>
    rw [hs] at h
    cases h
    have hk : inked (join (indent 0 (splitLines (breakClose (breakOpen b))))) = inked b := by
      rw [inked_join, inked_indent, ← inked_join, join_split]
      exact inked_expand b
    refine ⟨b, ?_⟩
    cases s with
    | nil => simp [strip] at hs
    | cons c t =>
      simp only [strip] at hs
      have key : ∀ u : Text, lastStep u = .ok b → ∃ back, (back = [] ∨ back = [']']) ∧ u = b ++ back := by
        intro u hu
        simp only [lastStep] at hu
        cases hl : u.getLast? with
        | none => rw [hl] at hu; cases hu
        | some d =>
          rw [hl] at hu
          simp only at hu
          split at hu
          · rename_i hd
            cases hu
            refine ⟨[']'], Or.inr rfl, ?_⟩
            obtain ⟨ys, rfl⟩ := List.getLast?_eq_some_iff.mp hl
            simp [hd]
          · cases hu; exact ⟨[], Or.inl rfl, by simp⟩
      by_cases hc : c = '['
      · rw [if_pos hc] at hs
        obtain ⟨back, hb, e⟩ := key _ hs
        exact ⟨['['], back, Or.inr rfl, hb, by simp [hc, e], hk⟩
      · rw [if_neg hc] at hs
        obtain ⟨back, hb, e⟩ := key _ hs
        exact ⟨[], back, Or.inl rfl, hb, by simp [e], hk⟩

/-- **C90** (errors). Only the empty text and a single opening bracket cannot be formatted (IndexError). -/
theorem C90_errors (s : List Char) : (∀ out, format s ≠ .ok out) ↔ s = [] ∨ s = ['['] := by
  constructor
  · intro h
    cases s with
    | nil => exact Or.inl rfl
    | cons c t =>
      right
      by_cases hc : c = '['
      · cases t with
        | nil => rw [hc]
        | cons d u =>
          exfalso
          have hl : (d :: u).getLast? = some ((d :: u).getLast (by simp)) := List.getLast?_eq_some_getLast (by simp)
          simp only [format, strip, lastStep, if_pos hc, hl] at h
          exact h _ rfl
      · exfalso
        have hl : (c :: t).getLast? = some ((c :: t).getLast (by simp)) := List.getLast?_eq_some_getLast (by simp)
        simp only [format, strip, lastStep, if_neg hc, hl] at h
        exact h _ rfl
  · rintro (rfl | rfl) out <;> simp [format, strip, lastStep]

/-- Brackets are dropped one by one, not in pairs: a text which only ends with a bracket loses it, so formatting a formatted text again
removes a closing bracket, and the lines drift to the right. -/
theorem C90_pairs_refuted :
    format "A | \n[\n B\n]".toList = .ok "A | \n[\n \n  B\n ".toList := by rfl

/-- A bracket inside the text of a basic condition (a parameter which is a list) is taken for a level: the lines of the condition are
broken, and two brackets in one line shift everything behind them. -/
theorem C90_brackets_refuted :
    format "X(a=[1]) | \nY()".toList = .ok "X(a=[\n 1\n]) | \nY()".toList ∧
    format "X(a=[1][2]) | \nY()".toList = .ok "X(a=[\n 1\n ][\n  2\n ]) | \n Y()".toList := by
  constructor <;> rfl

end Glompo.Props
