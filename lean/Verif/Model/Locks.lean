import Verif.Model.Dictionary

/-!
# Dictionaries used from several threads

Every `CskkDictionary` keeps its content behind a `std::sync::Mutex` (dictionary/mod.rs:39-42), so contexts living in different
threads may share dictionaries. Here the functions of dictionary/mod.rs are modelled as programs which take and release those locks, and
the programs of any number of threads are executed step by step under an arbitrary schedule: taking a lock is one step, the work under
the lock and its release another one; between two steps any other thread may run.

A panic under a lock poisons it, and every later `lock().unwrap()` of it panics.

Not modelled here: saving and reloading (lib.rs:732-765), which lock the dictionaries in the same way but also touch files.
-/

namespace Cskk.Locks
open Cskk.Dicts

/-- What is done to a dictionary under its lock by `confirm_candidate` (dictionary/mod.rs:95-107) and `purge_candidate`
(dictionary/mod.rs:112-130). -/
inductive Write where
  | confirm (c : Candidate)
  | purge (k : CompositeKey) (c : Candidate)

/-- The change itself. -/
def Write.apply (d : CskkDict) : Write → CskkDict
  | .confirm c => d.confirm c
  | .purge k c => d.purge k c

/-- A program of one thread. Dictionaries are numbered (the number stands for the `Arc`).
* `ret a`: finished with result `a`.
* `panic p`: ended by a panic while holding no lock.
* `look d bad next`: lock `d`, read it, release it; `bad` is the panic which happens under the lock, if any; `next` goes on
  with what was read.
* `write d w next`: lock `d`, change it, release it. -/
inductive Prog (α : Type) where
  | ret (a : α)
  | panic (p : Panic)
  | look (d : Nat) (bad : CskkDict → Option Panic) (next : CskkDict → Prog α)
  | write (d : Nat) (w : Write) (next : Prog α)

namespace Prog

/-- Sequence. -/
def bind {α β} : Prog α → (α → Prog β) → Prog β
  | ret a, f => f a
  | panic p, _ => panic p
  | look d bad next, f => look d bad fun x => (next x).bind f
  | write d w next, f => write d w (next.bind f)

/-- A computation without dictionaries. -/
def ofR {α} : R α → Prog α
  | .ok a => ret a
  | .error p => panic p

/-- The panic of a computation. -/
def panicOf {α} : R α → Option Panic
  | .ok _ => none
  | .error p => some p

/-- Lock `d`, compute `f` from its content, release the lock, go on with the result. -/
def reading {α β} (d : Nat) (f : CskkDict → R β) (next : β → Prog α) : Prog α :=
  look d (fun x => panicOf (f x)) fun x => match f x with
    | .ok b => next b
    | .error p => panic p

/-- All results of a list of programs, one program after the other. -/
def all {α β} (f : α → Prog β) : List α → Prog (List β)
  | [] => ret []
  | a :: l => (f a).bind fun b => (all f l).bind fun bs => ret (b :: bs)

end Prog

open Prog

/-- dictionary/mod.rs:290-320 `get_candidates_in_order`: the lock of a dictionary is held while its entry is copied, one dictionary
at a time. -/
def inOrderP (k : CompositeKey) : List Nat → Prog (List DictCand)
  | [] => ret []
  | a :: ids => reading a (·.lookup k) fun e => (inOrderP k ids).bind fun rest => ret (candsOf e k ++ rest)

/-- dictionary/mod.rs:209-216: the exact matches. -/
def exactP (ids : List Nat) (k : CompositeKey) : Prog (List Candidate) :=
  (inOrderP k ids).bind fun cs => ofR ((dedup candLt (·.kouho) cs).mapM (Candidate.fromDictionaryCandidate k))

/-- dictionary/mod.rs:444-461: the lookup of `#4`. -/
def relookupP (ids : List Nat) (number : Str) : Prog (List Str) :=
  (exactP ids ⟨number, none⟩).bind fun cs => ret (cs.map (·.kouho))

/-- dictionary/mod.rs:403-490: the texts one marker can stand for; only `#4` uses dictionaries. -/
def markerTextsP (ids : List Nat) (d : Char) (num : Str) : Prog (List Str) :=
  if d = '4' then relookupP ids num else ofR (Numeric.markerTexts (fun _ => []) d num)

/-- dictionary/mod.rs:400-493. The lookup of `#4` happens before the loop over the texts (mod.rs:446), so also when there are none. -/
def replaceLoopP (ids : List Nat) : List Char → List Str → List Str → Prog (List Str)
  | d :: ds, num :: nums, texts =>
    if texts.isEmpty then
      if d = '4' then (relookupP ids num).bind fun _ => replaceLoopP ids ds nums [] else replaceLoopP ids ds nums []
    else
      (markerTextsP ids d num).bind fun reps =>
        replaceLoopP ids ds nums (texts.flatMap fun t => reps.map fun r => replaceFirst ['#', d] r t)
  | _, _, texts => ret texts

/-- dictionary/mod.rs:374-389 `replace_numeric_match`. -/
def replaceNumericMatchP (ids : List Nat) (numbers : List Str) (c : Candidate) : Prog (List Candidate) :=
  (replaceLoopP ids (Numeric.markers c.kouho) numbers [c.kouho]).bind fun outs => ret (outs.map fun o => { c with output := o })

/-- dictionary/mod.rs:133-138, 202-241 `get_all_candidates`. -/
def getAllP (ids : List Nat) (k : CompositeKey) : Prog (List Candidate) :=
  (exactP ids k).bind fun ex =>
    let nk := Numeric.numericKey k.toComposite
    if (⟨nk.1, k.okuri⟩ : CompositeKey) = k then ret ex
    else
      (exactP ids ⟨nk.1, k.okuri⟩).bind fun num =>
        (all (replaceNumericMatchP ids nk.2) num).bind fun parts => ret (ex ++ parts.flatten)

/-- dictionary/mod.rs:164-196 `get_all_complete_inner`; `is_completable` (the parameter `comp`) lies outside the lock and never
changes. -/
def completeInnerP (comp : Nat → Bool) (k : CompositeKey) : List Nat → Prog (List CompletionCand)
  | [] => ret []
  | a :: ids =>
    if comp a then reading a (·.complete k) fun es => (completeInnerP comp k ids).bind fun rest => ret (completionsOf es k ++ rest)
    else completeInnerP comp k ids

/-- dictionary/mod.rs:145-156 `get_all_complete`. -/
def getAllCompleteP (comp : Nat → Bool) (ids : List Nat) (k : CompositeKey) : Prog (List Candidate) :=
  (completeInnerP comp k ids).bind fun cs => ret ((dedup completionLt (·.kouho) cs).map fromCompletion)

/-- lib.rs:494-496 and 516-518: the loops which confirm or purge a candidate in all dictionaries of a context. -/
def writeAllP (w : Write) : List Nat → Prog Unit
  | [] => ret ()
  | a :: ids => write a w (writeAllP w ids)

/-! ## Threads -/

/-- A thread: at a point where it holds no lock, or holding the lock of a dictionary. -/
inductive Thread (α : Type) where
  | at (p : Prog α)
  | reads (d : Nat) (bad : CskkDict → Option Panic) (next : CskkDict → Prog α)
  | writes (d : Nat) (w : Write) (next : Prog α)

/-- A process: the dictionaries, the state of their locks, the threads, and (only for reference) the changes made so far with
the thread which made them. -/
structure Proc (α : Type) where
  store : Nat → CskkDict
  owner : Nat → Option Nat
  poisoned : Nat → Bool
  threads : Nat → Thread α
  log : List (Nat × Nat × Write)

/-- Replace the value of a function at one point. -/
def upd {β} (f : Nat → β) (i : Nat) (b : β) : Nat → β := fun j => if j = i then b else f j

namespace Proc

/-- The start: all locks free. -/
def start {α} (store : Nat → CskkDict) (progs : Nat → Prog α) : Proc α :=
  ⟨store, fun _ => none, fun _ => false, fun i => .at (progs i), []⟩

/-- Take the lock of `d` and continue as `t` (`Mutex::lock`, then `unwrap`): blocked while the lock is taken, a panic if it is
poisoned. -/
def take {α} (m : Proc α) (i d : Nat) (t : Thread α) : Option (Proc α) :=
  match m.owner d with
  | some _ => none
  | none =>
    if m.poisoned d then some { m with threads := upd m.threads i (.at (.panic .unwrap)) }
    else some { m with owner := upd m.owner d (some i), threads := upd m.threads i t }

/-- One step of thread `i`; `none` if it has finished or must wait. -/
def fire {α} (m : Proc α) (i : Nat) : Option (Proc α) :=
  match m.threads i with
  | .at (.ret _) => none
  | .at (.panic _) => none
  | .at (.look d bad next) => m.take i d (.reads d bad next)
  | .at (.write d w next) => m.take i d (.writes d w next)
  | .reads d bad next =>
    match bad (m.store d) with
    | none => some { m with owner := upd m.owner d none, threads := upd m.threads i (.at (next (m.store d))) }
    | some p => some { m with owner := upd m.owner d none, poisoned := upd m.poisoned d true,
                              threads := upd m.threads i (.at (.panic p)) }
  | .writes d w next =>
    some { m with store := upd m.store d (w.apply (m.store d)), owner := upd m.owner d none,
                  threads := upd m.threads i (.at next), log := m.log ++ [(i, d, w)] }

/-- Execution under a schedule (which thread makes the next step); `none` if a thread cannot make the step. -/
def run {α} (m : Proc α) : List Nat → Option (Proc α)
  | [] => some m
  | i :: s => (m.fire i).bind fun m' => m'.run s

end Proc
end Cskk.Locks
