import Verif.Model.Basic
import Mathlib.Logic.Function.Basic

/-!
# Downloading archives
(/repo/src/irspack/dataset/mind.py:62-151, /repo/src/irspack/dataset/downloader.py)

A file system with directory entries and inodes, shared by any number of processes.  Each process constructs
one data manager.  Processes interleave arbitrarily, can be killed at any point, and new ones can be started
at any time.  One step is one system call as seen by other processes.

Not modelled: power failure (a killed process loses nothing it has written), and the format of the archives:
opening a file as an archive gives a handle on its inode.
-/

namespace Irspack.Download

variable {B : Type}

/-- Directory entries.  `archive k` is the `k`-th archive path; `temp n` is the `n`-th name drawn by
`NamedTemporaryFile` (mind.py:128-130).  Simplification: a drawn name is never the path of an archive, and no
name is drawn twice (they have eight random characters). -/
inductive Name where
  | archive (k : Nat)
  | temp (n : Nat)
  deriving DecidableEq

/-- the file system: directory, contents of the inodes, the next inode and the next temporary name -/
structure FS (B : Type) where
  dir : Name → Option Nat
  data : Nat → List B
  nextIno : Nat
  nextTemp : Nat

/-- Where the constructor of a process is.  `ks` are the archives it needs (`train` and `dev`). -/
inductive Proc (B : Type) where
  /-- not started -/
  | idle
  /-- computing `missing` (mind.py:81): the archives still to look at, those found missing -/
  | checking (ks rest missing : List Nat)
  /-- in the loop over the missing archives (mind.py:95-110) -/
  | fetching (ks missing : List Nat)
  /-- in `copyfileobj` (mind.py:132): temporary name and inode, the part of the response not yet written -/
  | copying (ks : List Nat) (k n i : Nat) (body : List B) (missing : List Nat)
  /-- the temporary file is closed; before `replace` (mind.py:133) -/
  | copied (ks : List Nat) (k n i : Nat) (missing : List Nat)
  /-- in `finally` after success (mind.py:149-151) -/
  | tidying (ks : List Nat) (n : Nat) (missing : List Nat)
  /-- in `finally` after an exception -/
  | unwinding (n : Nat)
  /-- opening the archives (mind.py:114) -/
  | opening (ks rest : List Nat) (handles : List (Nat × Nat))
  /-- constructed: archives with the inodes they are read from -/
  | ready (handles : List (Nat × Nat))
  /-- ended by an exception -/
  | failed
  /-- killed -/
  | dead

/-- the whole system -/
structure Sys (B : Type) where
  fs : FS B
  procs : Nat → Proc B

/-- One step of a process with the file system.  `Response k body` says that a connection for archive `k` can
deliver `body` and then end without an exception. -/
inductive ProcStep (Response : Nat → List B → Prop) : FS B → Proc B → FS B → Proc B → Prop
  /-- `path.exists()` for the next archive (mind.py:81) -/
  | check (fs ks k rest missing) :
      ProcStep Response fs (.checking ks (k :: rest) missing) fs
        (.checking ks rest (if fs.dir (.archive k) = none then missing ++ [k] else missing))
  /-- all checked; download is allowed or not needed (mind.py:82-94) -/
  | checked (fs ks missing) : ProcStep Response fs (.checking ks [] missing) fs (.fetching ks missing)
  /-- the user refuses (mind.py:93-94): `RuntimeError` -/
  | refused (fs ks missing) : missing ≠ [] → ProcStep Response fs (.checking ks [] missing) fs .failed
  /-- `urlopen` or the creation of the temporary file raises (mind.py:127-130) -/
  | unreachable (fs ks k missing) : ProcStep Response fs (.fetching ks (k :: missing)) fs .failed
  /-- the response arrives and the temporary file is created exclusively (mind.py:127-131) -/
  | create (fs ks k missing body) : Response k body →
      ProcStep Response fs (.fetching ks (k :: missing))
        ⟨Function.update fs.dir (.temp fs.nextTemp) (some fs.nextIno), Function.update fs.data fs.nextIno [],
          fs.nextIno + 1, fs.nextTemp + 1⟩
        (.copying ks k fs.nextTemp fs.nextIno body missing)
  /-- a piece of the response of any length reaches the file (mind.py:132) -/
  | write (fs ks k n i piece rest missing) :
      ProcStep Response fs (.copying ks k n i (piece ++ rest) missing)
        { fs with data := Function.update fs.data i (fs.data i ++ piece) } (.copying ks k n i rest missing)
  /-- the connection is lost with an exception, or the disk is full -/
  | broken (fs ks k n i body missing) :
      ProcStep Response fs (.copying ks k n i body missing) fs (.unwinding n)
  /-- the response has ended and the file is closed (mind.py:132) -/
  | close (fs ks k n i missing) :
      ProcStep Response fs (.copying ks k n i [] missing) fs (.copied ks k n i missing)
  /-- `temporary_path.replace(path)` (mind.py:133), atomic: whatever inode has the temporary name -/
  | replace (fs ks k n i j missing) : fs.dir (.temp n) = some j →
      ProcStep Response fs (.copied ks k n i missing)
        { fs with dir := Function.update (Function.update fs.dir (.archive k) (some j)) (.temp n) none }
        (.tidying ks n missing)
  /-- `replace` raises -/
  | notReplaced (fs ks k n i missing) :
      ProcStep Response fs (.copied ks k n i missing) fs (.unwinding n)
  /-- `temporary_path.unlink(missing_ok=True)` (mind.py:151) -/
  | tidy (fs ks n missing) :
      ProcStep Response fs (.tidying ks n missing) { fs with dir := Function.update fs.dir (.temp n) none }
        (.fetching ks missing)
  /-- the same when an exception is on its way -/
  | unwind (fs n) :
      ProcStep Response fs (.unwinding n) { fs with dir := Function.update fs.dir (.temp n) none } .failed
  /-- all downloaded -/
  | fetched (fs ks) : ProcStep Response fs (.fetching ks []) fs (.opening ks ks [])
  /-- `ZipFile(path)` (mind.py:114) -/
  | openFile (fs ks k rest handles i) : fs.dir (.archive k) = some i →
      ProcStep Response fs (.opening ks (k :: rest) handles) fs (.opening ks rest (handles ++ [(k, i)]))
  /-- the file has disappeared -/
  | notFound (fs ks k rest handles) : fs.dir (.archive k) = none →
      ProcStep Response fs (.opening ks (k :: rest) handles) fs .failed
  /-- all opened -/
  | done (fs ks handles) : ProcStep Response fs (.opening ks [] handles) fs (.ready handles)

/-- One step of the system without a process being killed. -/
inductive LiveStep (Response : Nat → List B → Prop) : Sys B → Sys B → Prop
  /-- a process is started: it needs the archives `ks` -/
  | start (s : Sys B) (p : Nat) (ks : List Nat) : s.procs p = .idle →
      LiveStep Response s ⟨s.fs, Function.update s.procs p (.checking ks ks [])⟩
  /-- a process makes a step -/
  | proc (s : Sys B) (p : Nat) (fs' : FS B) (q : Proc B) : ProcStep Response s.fs (s.procs p) fs' q →
      LiveStep Response s ⟨fs', Function.update s.procs p q⟩
  /-- somebody removes an archive -/
  | remove (s : Sys B) (k : Nat) :
      LiveStep Response s ⟨{ s.fs with dir := Function.update s.fs.dir (.archive k) none }, s.procs⟩

/-- One step of the system. -/
inductive Step (Response : Nat → List B → Prop) : Sys B → Sys B → Prop
  | live {s t : Sys B} : LiveStep Response s t → Step Response s t
  /-- a process is killed, at any point -/
  | kill (s : Sys B) (p : Nat) : Step Response s ⟨s.fs, Function.update s.procs p .dead⟩

/-- Any number of steps of some kind. -/
inductive Many (R : Sys B → Sys B → Prop) : Sys B → Sys B → Prop
  | refl (s) : Many R s s
  | tail {s t u} : Many R s t → R t u → Many R s u

/-- Before any process is started: archives that are there already, no temporary files, inodes not in use
are numbered from `nextIno`. -/
structure Initial (s : Sys B) : Prop where
  idle : ∀ p, s.procs p = .idle
  ino : ∀ name i, s.fs.dir name = some i → i < s.fs.nextIno
  temps : ∀ n, s.fs.dir (.temp n) = none

/-! ## The generic downloader (downloader.py:16-62) -/

/-- Where the constructor of a `SingleZipDownloader` is. -/
inductive Single (B : Type) where
  | idle
  /-- before `zippath.exists()` (downloader.py:32) -/
  | checking (k : Nat)
  /-- before `urlretrieve` opens the path for writing (downloader.py:62) -/
  | fetching (k : Nat)
  /-- in `urlretrieve`, which writes to the path itself -/
  | copying (k i : Nat) (body : List B)
  /-- before `ZipFile(zippath)` (downloader.py:51) -/
  | opening (k : Nat)
  | ready (k i : Nat)
  | failed
  | dead

/-- One step of the generic downloader. -/
inductive SingleStep (Response : Nat → List B → Prop) : FS B → Single B → FS B → Single B → Prop
  | exists (fs k i) : fs.dir (.archive k) = some i → SingleStep Response fs (.checking k) fs (.opening k)
  | missing (fs k) : fs.dir (.archive k) = none → SingleStep Response fs (.checking k) fs (.fetching k)
  | refused (fs k) : fs.dir (.archive k) = none → SingleStep Response fs (.checking k) fs .failed
  /-- `open(filename, 'wb')` in `urlretrieve` when there is no file: a new one is created -/
  | create (fs k body) : Response k body → fs.dir (.archive k) = none →
      SingleStep Response fs (.fetching k)
        ⟨Function.update fs.dir (.archive k) (some fs.nextIno), Function.update fs.data fs.nextIno [],
          fs.nextIno + 1, fs.nextTemp⟩
        (.copying k fs.nextIno body)
  /-- the same when somebody has created the file in the meantime: it is truncated -/
  | truncate (fs k body i) : Response k body → fs.dir (.archive k) = some i →
      SingleStep Response fs (.fetching k) { fs with data := Function.update fs.data i [] } (.copying k i body)
  | write (fs k i piece rest) :
      SingleStep Response fs (.copying k i (piece ++ rest))
        { fs with data := Function.update fs.data i (fs.data i ++ piece) } (.copying k i rest)
  /-- the connection is lost, or the content is shorter than announced: the file stays -/
  | broken (fs k i body) : SingleStep Response fs (.copying k i body) fs .failed
  | close (fs k i) : SingleStep Response fs (.copying k i []) fs (.opening k)
  | openFile (fs k i) : fs.dir (.archive k) = some i → SingleStep Response fs (.opening k) fs (.ready k i)
  | notFound (fs k) : fs.dir (.archive k) = none → SingleStep Response fs (.opening k) fs .failed

/-- the system of generic downloaders -/
inductive SingleSys (Response : Nat → List B → Prop) : FS B × (Nat → Single B) → FS B × (Nat → Single B) → Prop
  | refl (s) : SingleSys Response s s
  | start {s} (fs procs) (p k : Nat) : SingleSys Response s (fs, procs) → procs p = .idle →
      SingleSys Response s (fs, Function.update procs p (.checking k))
  | proc {s} (fs procs) (p : Nat) (fs' q) : SingleSys Response s (fs, procs) →
      SingleStep Response fs (procs p) fs' q → SingleSys Response s (fs', Function.update procs p q)
  | kill {s} (fs procs) (p : Nat) : SingleSys Response s (fs, procs) →
      SingleSys Response s (fs, Function.update procs p .dead)

/-! ## Decisions -/

/-- What the constructor of the MIND manager checks before it looks at files (mind.py:71-74) -/
def checkArguments (size source : String) : Except Err Unit :=
  if size ≠ "small" ∧ size ≠ "large" then .error .valueError
  else if source ≠ "huggingface" ∧ source ≠ "azure" then .error .valueError
  else .ok ()

/-- Python's `a or b` for optional strings: `None` and `""` are false -/
def orElse (a b : Option String) : Option String :=
  match a with
  | some s => if s = "" then b else some s
  | none => b

/-- the token (mind.py:118-122); it is sent unless it is empty (mind.py:123).  With the source `azure` the
argument is not passed on (mind.py:109) -/
def authorization (source : String) (hfToken hfEnv hubEnv : Option String) : Option String :=
  let given := if source = "huggingface" then hfToken else none
  match orElse (orElse given hfEnv) hubEnv with
  | some s => if s = "" then none else some s
  | none => none

/-- the exception for an HTTP error (mind.py:134-148): `RuntimeError` with an explanation, or the
`HTTPError` itself, which is an `OSError` -/
def httpError (code : Nat) : Err :=
  if code = 401 ∨ code = 403 then .runtimeError else if code = 409 then .runtimeError else .osError

end Irspack.Download
