import Verif.Model.Session
import Verif.Model.Locks

/-!
# Threads which change, save and reload shared dictionaries

The critical sections of the library: `confirm_candidate`, `purge_candidate` and the lookups (dictionary/mod.rs:92-130, 172, 297), and the rounds of
`save_dictionary` and `reload_dictionary` (lib.rs:731-765). Each takes the lock of one dictionary, and a save holds it from the rename of the old file to the last
byte written (user_dictionary.rs:67-116). The steps of a save on the disk are steps of their own here, so that other threads run between them, and so that
the execution can end (a crash) between any two of them.

Simplifications: a file is read at once by `reload`; a panic under a lock is left out (`Model/Locks.lean` has it); data written to a file are named by the path.
-/

namespace Cskk.Disk
open DictFile Session Locks

/-- What is done with one dictionary while its lock is held. -/
inductive Job where
  /-- a lookup or completion (dictionary/mod.rs:172, 297) -/
  | look
  /-- dictionary/mod.rs:92-107 -/
  | confirm (c : Candidate)
  /-- dictionary/mod.rs:112-130 -/
  | purge (k : CompositeKey) (c : Candidate)
  /-- lib.rs:735-739 -/
  | save
  /-- lib.rs:753-757 -/
  | reload

/-- A thread: what it will do, one job after the other (each with the number of its dictionary), and how far it is. -/
inductive Thread where
  /-- no lock is held -/
  | at (jobs : List (Nat × Job))
  /-- the lock of `d` is held, nothing is done yet -/
  | holds (d : Nat) (j : Job) (rest : List (Nat × Job))
  /-- a save: the old file is renamed (user_dictionary.rs:69) -/
  | renamed (d : Nat) (rest : List (Nat × Job))
  /-- a save: the file is created (user_dictionary.rs:70), and the first `n` bytes are written -/
  | writing (d : Nat) (bs : Bytes) (n : Nat) (rest : List (Nat × Job))

/-- The answer of the operating system to the next call: it fails, or it succeeds; a write passes on `n + 1` bytes at most. -/
inductive Answer where
  | bad
  | good (n : Nat)

/-- A process: dictionaries, files, owners of the locks, threads, and (only for reference) the jobs which were done, with their threads. -/
structure Proc where
  dicts : Nat → CskkDict
  fs : FS
  owner : Nat → Option Nat
  threads : Nat → Thread
  log : List (Nat × Nat × Job)

namespace Proc

/-- The start: all locks are free. -/
def start (ds : Nat → CskkDict) (fs : FS) (ts : Nat → List (Nat × Job)) : Proc := ⟨ds, fs, fun _ => none, fun i => .at (ts i), []⟩

/-- The end of a job: the guard of the lock is dropped. -/
def done (m : Proc) (i d : Nat) (j : Job) (rest : List (Nat × Job)) (x : CskkDict) (fs : FS) : Proc :=
  ⟨upd m.dicts d x, fs, upd m.owner d none, upd m.threads i (.at rest), m.log ++ [(i, d, j)]⟩

/-- One step of thread `i`; `none` if it has finished or must wait. -/
def fire (S : Nat → Source) (m : Proc) (i : Nat) (a : Answer) : Option Proc :=
  match m.threads i with
  | .at [] => none
  -- `Mutex::lock`
  | .at ((d, j) :: rest) =>
    if m.owner d = none then some { m with owner := upd m.owner d (some i), threads := upd m.threads i (.holds d j rest) } else none
  | .holds d .look rest => some (m.done i d .look rest (m.dicts d) m.fs)
  | .holds d (.confirm c) rest => some (m.done i d (.confirm c) rest ((m.dicts d).confirm c) m.fs)
  | .holds d (.purge k c) rest => some (m.done i d (.purge k c) rest ((m.dicts d).purge k c) m.fs)
  | .holds d .reload rest => some (m.done i d .reload rest (reloadDict m.fs (S d) (m.dicts d)) m.fs)
  -- user_dictionary.rs:68-69
  | .holds d .save rest =>
    match (m.dicts d).kind, a, (FsOp.rename (S d).path (bak (S d).path)).run m.fs with
    | .user _ true, .good _, some fs => some { m with fs := fs, threads := upd m.threads i (.renamed d rest) }
    | _, _, _ => some (m.done i d .save rest (m.dicts d) m.fs)
  -- user_dictionary.rs:70-85
  | .renamed d rest =>
    match (m.dicts d).kind, a, (FsOp.create (S d).path).run m.fs with
    | .user mp _, .good _, some fs =>
      match saveBytes (S d).cd mp with
      | some bs => some { m with fs := fs, threads := upd m.threads i (.writing d bs 0 rest) }
      | none => some (m.done i d .save rest (m.dicts d) fs)
    | _, _, _ => some (m.done i d .save rest (m.dicts d) m.fs)
  -- user_dictionary.rs:87-112
  | .writing d bs n rest =>
    match (m.dicts d).kind, a with
    | .user mp _, .good k =>
      if n < bs.length then
        match (FsOp.append (S d).path ((bs.drop n).take (k + 1))).run m.fs with
        | some fs => some { m with fs := fs, threads := upd m.threads i (.writing d bs (n + (k + 1)) rest) }
        | none => some (m.done i d .save rest (m.dicts d) m.fs)
      else some (m.done i d .save rest { m.dicts d with kind := .user mp false } m.fs)
    | _, _ => some (m.done i d .save rest (m.dicts d) m.fs)

/-- Execution under a schedule: which thread makes the next step, and how the operating system answers. -/
def run (S : Nat → Source) (m : Proc) : List (Nat × Answer) → Option Proc
  | [] => some m
  | (i, a) :: s => (m.fire S i a).bind fun m' => m'.run S s

end Proc
end Cskk.Disk
