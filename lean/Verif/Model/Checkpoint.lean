import Verif.Model.Logger

/-!
# Checkpoint names and files

`/repo/glompo/core/checkpointing.py` and the file handling of `GloMPOManager.checkpoint`
(`/repo/glompo/core/manager.py:1098-1200`). Names are lists of characters.
-/

namespace Glompo.Checkpoint

/-- Belongs to the model of `checkpointing.py:148-152`. -/
abbrev Name := List Char

/-- `str.replace(key, val)`: replaces the non-overlapping occurrences of `key` from the left. Also used for the pattern,
whose "characters" are `Item`s. `skip` characters are left out first: the rest of the occurrence just replaced. Only
called with non-empty keys. Belongs to the model of `checkpointing.py:111-122`. -/
def replaceAll {α : Type} [DecidableEq α] (key val : List α) : (skip : Nat) → List α → List α
  | _, [] => []
  | k + 1, _ :: t => replaceAll key val k t
  | 0, c :: t =>
    if key.isPrefixOf (c :: t) then val ++ replaceAll key val (key.length - 1) t
    else c :: replaceAll key val 0 t

/-- The decimal digit `n < 10`. Belongs to the model of `checkpointing.py:133-141`. -/
def digitChar (n : Nat) : Char := Char.ofNat (48 + n)

/-- Decimal notation of `n`, at most `fuel` digits. Belongs to the model of `checkpointing.py:133-141`. -/
def decAux : Nat → Nat → List Char
  | 0, _ => []
  | fuel + 1, n => if n < 10 then [digitChar n] else decAux fuel (n / 10) ++ [digitChar (n % 10)]

/-- Decimal notation (`str(n)`). Belongs to the model of `checkpointing.py:133-141`. -/
def dec (n : Nat) : List Char := decAux (n + 1) n

/-- Decimal notation with leading zeros to `w` digits (`f'{n:0w}'`, `strftime`). Belongs to the model of `checkpointing.py:133-141`. -/
def pad (w n : Nat) : List Char := List.replicate (w - (dec n).length) '0' ++ dec n

/-- `[0-9]`. Belongs to the model of `checkpointing.py:161-163`. -/
def isDigit (c : Char) : Bool := decide (48 ≤ c.toNat ∧ c.toNat ≤ 57)

/-- `int(text)` of decimal digits. Belongs to the model of `checkpointing.py:161-163`. -/
def undec (s : List Char) : Nat := s.foldl (fun a c => 10 * a + (c.toNat - 48)) 0

/-- `datetime.now()`. Belongs to the model of `checkpointing.py:133-141`. -/
structure Clock where
  year : Nat
  month : Nat
  day : Nat
  hour : Nat
  minute : Nat
  second : Nat
deriving Repr, DecidableEq

/-- checkpointing.py:133-141: the special keys with what `strftime` makes of them, in the order of the dictionary. -/
def codes (t : Clock) : List (String × List Char) :=
  [("%(date)", pad 4 t.year ++ pad 2 t.month ++ pad 2 t.day),
   ("%(year)", pad 4 t.year),
   ("%(yr)", pad 2 (t.year % 100)),
   ("%(month)", pad 2 t.month),
   ("%(day)", pad 2 t.day),
   ("%(time)", pad 2 t.hour ++ pad 2 t.minute ++ pad 2 t.second),
   ("%(hour)", pad 2 t.hour),
   ("%(min)", pad 2 t.minute),
   ("%(sec)", pad 2 t.second)]

/-- checkpointing.py:107-109: the same keys with their numbers of digits, in the order of the dictionary. The keys are
written there in the escaped form they have in the pattern. -/
def codeDigits : List (String × Nat) :=
  [("%(date)", 8), ("%(year)", 4), ("%(yr)", 2), ("%(month)", 2), ("%(day)", 2), ("%(time)", 6), ("%(hour)", 2),
   ("%(min)", 2), ("%(sec)", 2)]

/-- A piece of the pattern under construction: a character of the format (escaped, unless it is `?` or a backslash),
`[0-9]{n}`, or `(?P<index>[0-9]{3})`. Belongs to the model of `checkpointing.py:111-122`. -/
inductive Item where
  | ch (c : Char)
  | digits (n : Nat)
  | index
deriving Repr, DecidableEq

/-- checkpointing.py:111-122: the pattern of a format. The code works on the text; a key of the text is a sequence of
escaped characters and cannot begin or end inside a replaced piece, so working on pieces is the same. -/
def formatRe (fmt : List Char) : List Item :=
  let p := codeDigits.foldl (fun p kd => replaceAll (kd.1.toList.map Item.ch) [.digits kd.2] 0 p) (fmt.map Item.ch)
  replaceAll ("%(count)".toList.map Item.ch) [.index] 0 p

/-- Pieces of the compiled pattern; a literal may be optional. Belongs to the model of `checkpointing.py:113-117`. -/
inductive Re where
  | lit (c : Char) (optional : Bool)
  | digits (n : Nat)
  | index
deriving Repr, DecidableEq

/-- `re.compile`. `none`: does not compile, or outside the model. The characters `{(+*|.$)}^[]` are escaped
(checkpointing.py:113-117) and stand for themselves, a `?` after a literal makes it optional. Outside the model: `?` after
anything else and backslashes. -/
def compileItems : List Item → Option (List Re)
  | [] => some []
  | .digits n :: t => (compileItems t).map (.digits n :: ·)
  | .index :: t => (compileItems t).map (.index :: ·)
  | .ch c :: .ch d :: t =>
    if c = '?' ∨ c = '\\' then none
    else if d = '?' then (compileItems t).map (.lit c true :: ·)
    else (compileItems (.ch d :: t)).map (.lit c false :: ·)
  | .ch c :: t => if c = '?' ∨ c = '\\' then none else (compileItems t).map (.lit c false :: ·)

/-- `re.compile` also rejects a group name used twice. Belongs to the model of `checkpointing.py:161-163`. -/
def compile (p : List Item) : Option (List Re) :=
  if 1 < (p.filter fun i => decide (i = .index)).length then none else compileItems p

/-- `re.match`: matches a beginning of the text. `none`: no match; `some none`: match without the group `index`;
`some (some n)`: the group matched the number `n`. Belongs to the model of `checkpointing.py:161-163`. -/
def matchRe : List Re → List Char → Option (Option Nat)
  | [], _ => some none
  | .lit c opt :: t, s =>
    match (match s with | a :: s' => if a = c then matchRe t s' else none | [] => none) with
    | some r => some r
    | none => if opt then matchRe t s else none
  | .digits n :: t, s =>
    if n ≤ s.length ∧ (s.take n).all isDigit = true then matchRe t (s.drop n) else none
  | .index :: t, s =>
    if 3 ≤ s.length ∧ (s.take 3).all isDigit = true then (matchRe t (s.drop 3)).map fun _ => some (undec (s.take 3))
    else none

/-- checkpointing.py:161-163: `matches_naming_format`. -/
def matchesFormat (fmt name : List Char) : Except Err Bool :=
  match compile (formatRe fmt) with
  | none => .error .other
  | some re => .ok (matchRe re name).isSome

/-- checkpointing.py:148-152: the largest index among the entries, plus one (`max_index` starts at -1). -/
def nextCount (re : List Re) (entries : List Name) : Nat :=
  entries.foldl (fun m e => match matchRe re e with
    | some (some i) => if m < i + 1 then i + 1 else m
    | _ => m) 0

/-- checkpointing.py:128-159: `get_name`, with the names of the entries of the directory (`none`: there is no such
directory). Returns the name and the number used for it. -/
def getName (fmt : List Char) (now : Clock) (dir : Option (List Name)) : Except Err (Name × Nat) :=
  let name := (codes now).foldl (fun s kv => replaceAll kv.1.toList kv.2 0 s) fmt
  let count : Except Err Nat := match dir with
    | none => .ok 0
    | some [] => .ok 0
    | some es => match compile (formatRe fmt) with
      | none => .error .other
      | some re => .ok (nextCount re es)
  match count with
  | .error e => .error e
  | .ok n => .ok (replaceAll "%(count)".toList (pad 3 n) 0 name, n)

/-- The part of a name before its last dot; all of it if there is no dot, or only at the beginning or the end
(`pathlib.Path.stem`). Belongs to the model of `manager.py:1139`. -/
def stem (name : Name) : Name :=
  let r := name.reverse
  let suf := r.takeWhile (· ≠ '.')
  let rest := r.dropWhile (· ≠ '.')
  match rest with
  | [] => name
  | _ :: b => if suf = [] ∨ b = [] then name else b.reverse

/-- `path.with_suffix('.tar.gz')` (manager.py:1139, 1154). -/
def tarName (name : Name) : Name := stem name ++ ".tar.gz".toList

/-- manager.py:1125. -/
def ovwName : Name := "_overwriting_chkpt.tar.gz".toList

/-- What a directory entry is. `broken` is what a failed compression leaves. Belongs to the model of `manager.py:1175-1182`. -/
inductive Node where
  | file (content : Nat)
  | broken
  | dir
deriving Repr, DecidableEq

/-- Belongs to the model of `manager.py:1175-1182`. -/
abbrev Dir := List (Name × Node)

/-- Everything that can go wrong during `checkpoint`. Belongs to the model of `manager.py:1128-1182`. -/
structure Faults where
  /-- raised while the log, the optimizers, the manager, the task and the scope are saved (manager.py:1129-1149); the
  flag says that it happens before the name is put into the history (manager.py:1130-1138) -/
  build : Option (Err × Bool)
  /-- raised by the compression (manager.py:1164-1166), and whether the file had been created -/
  tar : Option (Err × Bool)
  /-- `unlink` raises after so many deletions (manager.py:1182) -/
  unlink : Option Nat
  /-- `rmtree` fails silently (manager.py:1194) -/
  rmtree : Bool
deriving Repr, DecidableEq

/-- manager.py:1175-1182: deletes old checkpoints, in descending order, until one deletion fails. -/
def unlinkLoop : List Name → Option Nat → Dir → Dir × Except Err Unit
  | [], _, d => (d, .ok ())
  | o :: t, f, d =>
    match dictGet d o with
    | some .dir => unlinkLoop t f d
    | none => unlinkLoop t f d
    | some _ => match f with
      | some 0 => (d, .error .osError)
      | some (n + 1) => unlinkLoop t (some n) (dictDel d o)
      | none => unlinkLoop t none (dictDel d o)

/-- `a ≤ b` for the order of Python strings: by code points. Belongs to the model of `manager.py:1175-1178`. -/
def nameLe : Name → Name → Bool
  | [], _ => true
  | _ :: _, [] => false
  | a :: s, b :: t => decide (a.toNat < b.toNat) || (decide (a.toNat = b.toNat) && nameLe s t)

/-- Insertion into a descending list. Belongs to the model of `manager.py:1175-1178`. -/
def insertDesc (a : Name) : List Name → List Name
  | [] => [a]
  | b :: t => if nameLe b a then a :: b :: t else b :: insertDesc a t

/-- `sorted(names, reverse=True)`. Belongs to the model of `manager.py:1175-1178`. -/
def sortDesc : List Name → List Name
  | [] => []
  | a :: t => insertDesc a (sortDesc t)

/-- manager.py:1175-1178: names in the directory which match the format, in descending order, without the first
`keep_past + 2`. -/
def toDelete (re : List Re) (keepPast : Nat) (d : Dir) : List Name :=
  (sortDesc ((d.map (·.1)).filter fun n => (matchRe re n).isSome)).drop (keepPast + 2)

/-- manager.py:1172-1182: retention. -/
def retention (fmt : List Char) (keepPast : Int) (f : Option Nat) (d : Dir) : Dir × Except Err Unit :=
  if keepPast > -1 then
    match compile (formatRe fmt) with
    | none => (d, .error .other)
    | some re => unlinkLoop (toDelete re keepPast.toNat d) f d
  else (d, .ok ())

/-- manager.py:1154-1160: an existing archive is moved away. -/
def setAside (tar : Name) (d : Dir) : Dir :=
  match dictGet d tar with
  | some n => dictSet (dictDel d tar) ovwName n
  | none => d

/-- manager.py:1151-1170: compression of the directory to the archive. Simplification: moving and writing the archive
itself succeeds unless the fault says otherwise. -/
def compress (name : Name) (content : Nat) (f : Option (Err × Bool)) (d : Dir) : Dir × Except Err Unit :=
  let tar := tarName name
  let d1 := setAside tar d
  match f with
  | none => (dictSet d1 tar (.file content), .ok ())
  | some (e, created) =>
    let d2 := if created then dictSet d1 tar .broken else d1
    if e = .tarError then
      match dictGet d tar with
      | some n => (dictSet (dictDel d2 ovwName) tar n, .error .checkpointingError)  -- restored
      | none => (d2, .error .checkpointingError)
    else (d2, .error e)

/-- manager.py:1128-1182: the `try` block; directory and history. -/
def tryBlock (fmt : List Char) (keepPast : Int) (name : Name) (content : Nat) (f : Faults) (d : Dir)
    (hist : List Name) : Dir × List Name × Except Err Unit :=
  match f.build with
  | some (e, true) => (d, hist, .error e)
  | some (e, false) => (d, if tarName name ∈ hist then hist else hist ++ [tarName name], .error e)
  | none =>
    let hist := if tarName name ∈ hist then hist else hist ++ [tarName name]
    match compress name content f.tar d with
    | (d, .error e) => (d, hist, .error e)
    | (d, .ok _) =>
      match retention fmt keepPast f.unlink d with
      | (d, r) => (d, hist, r)

/-- manager.py:1120-1197: the directory of checkpoints, the history and the exception raised, if any. The signals sent to
the optimizers are in `Model/Manager`. Simplification: the archive and `_overwriting_chkpt.tar.gz` are not directories. -/
def checkpointFiles (fmt : List Char) (keepPast : Int) (raiseFail : Bool) (name : Name) (content : Nat) (f : Faults)
    (d : Dir) (hist : List Name) : Dir × List Name × Except Err Unit :=
  match dictGet d name with
  | some (.file _) => (d, hist, .error .fileExists)
  | some .broken => (d, hist, .error .fileExists)
  | _ =>
    let d := dictSet d name .dir
    let (d, hist, r) := tryBlock fmt keepPast name content f d hist
    -- except CheckpointingError
    let (hist, r) : List Name × Except Err Unit := match r with
      | .error .checkpointingError =>
        if tarName name ∈ hist then
          (hist.erase (tarName name), if raiseFail then .error .checkpointingError else .ok ())
        else (hist, .error .keyError)
      | r => (hist, r)
    -- finally
    let d := if f.rmtree then d else dictDel d name
    (dictDel d ovwName, hist, r)

end Glompo.Checkpoint
