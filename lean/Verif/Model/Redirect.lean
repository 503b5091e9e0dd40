import Verif.Model.Logger

/-!
# Print redirection of threads

Models `ThreadPrintRedirect` and `CustomThread` of `glompo/core/_backends.py`. Every call is made by some thread; `write` takes two steps, because
another thread may run between the test and the writing.
-/

namespace Glompo.Redirect

/-- Belongs to the model of `_backends.py:72-73`. -/
abbrev Tid := Nat

/-- `printstream_{opt_id:04}.{ext}` (_backends.py:78): a file name per optimizer and extension. Simplification: the pair itself, the formatting
being injective (`C134_distinct`). -/
abbrev Path := Nat × String

/-- A text file opened with mode `w+` (_backends.py:79): where it writes next, what it holds back, and whether it is closed. Simplification:
text is a list of characters; encoding is ignored. -/
structure Handle where
  path : Path
  pos : Nat := 0
  buf : List Char := []
  closed : Bool := false
deriving DecidableEq, Repr

/-- The attributes of the object (_backends.py:72-73), the files on disk, the text passed on to the intercepted stream, the calls of `write`
between their two steps (whether the file was chosen, and the message), and the exceptions raised so far. -/
structure State where
  threads : List (Tid × Handle) := []
  disk : Path → List Char := fun _ => []
  stream : List Char := []
  pend : Tid → Option (Bool × List Char) := fun _ => none
  raised : List Err := []

/-- The operations, interleaved arbitrarily. `flush t`: the file of thread `t` hands its buffer to the operating system, as it does whenever the
buffer is full. Belongs to the model of `_backends.py:72-73`, `_backends.py:78`, `_backends.py:75-79`, `_backends.py:85-87`. -/
inductive Op where
  | register (t : Tid) (p : Path)
  | look (t : Tid) (m : List Char)
  | put (t : Tid)
  | close (t : Option Tid)
  | flush (t : Tid)
deriving DecidableEq, Repr

/-- Bytes `b` written at position `pos` of a file with content `d`. Belongs to the model of `_backends.py:92-98`. -/
def place (d : List Char) (pos : Nat) (b : List Char) : List Char :=
  d.take pos ++ List.replicate (pos - d.length) (Char.ofNat 0) ++ b ++ d.drop (pos + b.length)

/-- Belongs to the model of `_backends.py:75-79`. -/
def setDisk (disk : Path → List Char) (p : Path) (c : List Char) : Path → List Char := fun q => if q = p then c else disk q

/-- The buffer of a file goes to disk. Belongs to the model of `_backends.py:92-98`. -/
def flushed (h : Handle) : Handle := { h with pos := h.pos + h.buf.length, buf := [] }

/-- Belongs to the model of `_backends.py:92-98`. -/
def flushDisk (disk : Path → List Char) (h : Handle) : Path → List Char :=
  if h.buf = [] then disk else setDisk disk h.path (place (disk h.path) h.pos h.buf)

/-- `file.close()` of the file registered for `t`. Belongs to the model of `_backends.py:92-98`. -/
def closeOne (σ : State) (t : Tid) : State :=
  match dictGet σ.threads t with
  | none => σ
  | some h => { σ with threads := dictSet σ.threads t { flushed h with closed := true }, disk := flushDisk σ.disk h }

/-- What becomes of the file object which a registration replaces in the dictionary: nobody refers to it any more, so it is flushed and closed. Belongs to the model of `_backends.py:75-79`. -/
def collect (disk : Path → List Char) : Option Handle → Path → List Char
  | none => disk
  | some h => flushDisk disk h

/-- `register` (_backends.py:75-79). -/
def register (σ : State) (t : Tid) (p : Path) : State :=
  { σ with disk := collect (setDisk σ.disk p []) (dictGet σ.threads t), threads := dictSet σ.threads t { path := p } }

/-- The test in `write` (_backends.py:83-84). -/
def chosen (σ : State) (t : Tid) : Bool :=
  match dictGet σ.threads t with
  | some h => !h.closed
  | none => false

/-- Belongs to the model of `_backends.py:85-87`. -/
def setPend (σ : State) (t : Tid) (v : Option (Bool × List Char)) : State := { σ with pend := fun u => if u = t then v else σ.pend u }

/-- The rest of `write` (_backends.py:85-87). -/
def put (σ : State) (t : Tid) : State :=
  match σ.pend t with
  | none => σ
  | some (false, m) => { setPend σ t none with stream := σ.stream ++ m }
  | some (true, m) =>
    match dictGet σ.threads t with
    | none => { setPend σ t none with raised := .keyError :: σ.raised }
    | some h =>
      if h.closed then { setPend σ t none with raised := .valueError :: σ.raised }
      else { setPend σ t none with threads := dictSet σ.threads t { h with buf := h.buf ++ m } }

/-- Belongs to the model of `_backends.py:92-98`. -/
def closeAll (σ : State) : State := (σ.threads.map (·.1)).foldl closeOne σ

/-- `close` (_backends.py:92-98): thread number 0 counts as no thread. -/
def close (σ : State) : Option Tid → State
  | none => closeAll σ
  | some t =>
    if t = 0 then closeAll σ
    else if (dictGet σ.threads t).isSome then closeOne σ t
    else { σ with raised := .keyError :: σ.raised }

/-- Belongs to the model of `_backends.py:72-73`, `_backends.py:92-98`. -/
def flushOf (σ : State) (t : Tid) : State :=
  match dictGet σ.threads t with
  | none => σ
  | some h => { σ with threads := dictSet σ.threads t (flushed h), disk := flushDisk σ.disk h }

/-- Belongs to the model of `_backends.py:72-73`, `_backends.py:75-79`, `_backends.py:83-84`, `_backends.py:85-87`. -/
def step (σ : State) : Op → State
  | .register t p => register σ t p
  | .look t m => setPend σ t (some (chosen σ t, m))
  | .put t => put σ t
  | .close t => close σ t
  | .flush t => flushOf σ t

/-- The state after a history, the most recent operation first; `disk` are the files there before. Belongs to the model of `_backends.py:78`, `_backends.py:72-73`. -/
def after (disk : Path → List Char) : List Op → State
  | [] => { disk := disk }
  | o :: h => step (after disk h) o

/-! ## `CustomThread` -/

/-- How `register` of a stream ends: there is a redirect object, there is none (`AttributeError`), or it raises another exception (the directory
is missing, or the name of the thread is not a number). Belongs to the model of `_backends.py:29-36`. -/
inductive Reg where
  | done | absent | fails
deriving DecidableEq, Repr

/-- How the target of a thread ends; `exits`: an exception which is not an `Exception`, such as `SystemExit`. Belongs to the model of `_backends.py:37-41`. -/
inductive Ends where
  | returns | raises | exits
deriving DecidableEq, Repr

/-- What is left of a thread: its exit code, whether its body was run, whether the error was written, which of the two files were opened and
which closed again, and whether a warning was given. Belongs to the model of `_backends.py:37-41`. -/
structure Left where
  code : Int := 0
  ran : Bool := false
  traced : Bool := false
  openedOut : Bool := false
  openedErr : Bool := false
  closedOut : Bool := false
  closedErr : Bool := false
  warned : Bool := false
deriving DecidableEq, Repr

/-- `super().run()` and the clause `except Exception` (_backends.py:37-41). -/
def body (l : Left) : Ends → Left
  | .returns => { l with ran := true }
  | .raises => { l with ran := true, traced := true, code := -1 }
  | .exits => { l with ran := true }

/-- The attempt to redirect (_backends.py:29-36), then the body; `isNum`: the name is `Opt` and a number. -/
def attempt (redirect isNum : Bool) (out err : Reg) (e : Ends) : Left :=
  if redirect then
    if isNum then
      match out, err with
      | .done, .done => body { openedOut := true, openedErr := true } e
      | .done, .absent => body { openedOut := true, warned := true } e
      | .done, .fails => { openedOut := true, traced := true, code := -1 }
      | .absent, _ => body { warned := true } e
      | .fails, _ => { traced := true, code := -1 }
    else { traced := true, code := -1 }
  else body {} e

/-- `CustomThread.run` (_backends.py:27-48): closing the first file fails if it was never registered, and then the second is not closed. -/
def runThread (redirect isNum : Bool) (out err : Reg) (e : Ends) : Left :=
  if redirect then
    if (attempt redirect isNum out err e).openedOut then
      if (attempt redirect isNum out err e).openedErr then
        { attempt redirect isNum out err e with closedOut := true, closedErr := true }
      else { attempt redirect isNum out err e with closedOut := true, warned := true }
    else { attempt redirect isNum out err e with warned := true }
  else attempt redirect isNum out err e

end Glompo.Redirect
