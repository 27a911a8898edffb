import Verif.Model.Locks

/-!
# What threads sharing dictionaries may expect
-/

namespace Cskk.Spec.Locks
open Cskk.Locks

/-- The program executed alone: its result and the dictionaries afterwards. -/
def alone {α} (s : Nat → CskkDict) : Prog α → R α × (Nat → CskkDict)
  | .ret a => (.ok a, s)
  | .panic p => (.error p, s)
  | .look d bad next =>
    match bad (s d) with
    | none => alone s (next (s d))
    | some p => (.error p, s)
  | .write d w next => alone (fun e => if e = d then w.apply (s d) else s e) next

/-- The thread has ended. -/
def Finished {α} : Thread α → Prop
  | .at (.ret _) => True
  | .at (.panic _) => True
  | _ => False

/-- The thread holds the lock of dictionary `e`. -/
def Holds {α} (e : Nat) : Thread α → Prop
  | .at _ => False
  | .reads d _ _ => e = d
  | .writes d _ _ => e = d

/-- The program may lock dictionary `e`. -/
inductive Uses {α} (e : Nat) : Prog α → Prop
  | look (bad next) : Uses e (.look e bad next)
  | lookNext (d bad next x) : Uses e (next x) → Uses e (.look d bad next)
  | write (w next) : Uses e (.write e w next)
  | writeNext (d w next) : Uses e next → Uses e (.write d w next)

/-- The program may change dictionary `e`. -/
inductive Changes {α} (e : Nat) : Prog α → Prop
  | lookNext (d bad next x) : Changes e (next x) → Changes e (.look d bad next)
  | write (w next) : Changes e (.write e w next)
  | writeNext (d w next) : Changes e next → Changes e (.write d w next)

/-- The program never panics while it holds a lock. -/
def Calm {α} : Prog α → Prop
  | .ret _ => True
  | .panic _ => True
  | .look _ bad next => ∀ x, bad x = none ∧ Calm (next x)
  | .write _ _ next => Calm next

/-- Dictionary `d` after the changes of `log`, in that order. -/
def content (s : Nat → CskkDict) (log : List (Nat × Nat × Write)) (d : Nat) : CskkDict :=
  ((log.filter fun x => decide (x.2.1 = d)).map (·.2.2)).foldl Write.apply (s d)

/-- The changes of thread `i`. -/
def byThread (i : Nat) (log : List (Nat × Nat × Write)) : List (Nat × Write) :=
  (log.filter fun x => decide (x.1 = i)).map (·.2)

/-- `Path p ws q`: the program `p` has become `q`, after the changes `ws` in that order and some reads. -/
inductive Path {α} : Prog α → List (Nat × Write) → Prog α → Prop
  | here (p) : Path p [] p
  | look (d bad next x ws q) : Path (next x) ws q → Path (.look d bad next) ws q
  | write (d w next ws q) : Path next ws q → Path (.write d w next) ((d, w) :: ws) q

/-- `Timed s log i t p t' q`: between the times `t` and `t'` (a time is a position in `log`) thread `i` went from `p` to `q`, where each
of its reads saw the dictionary as all changes logged until then had left it, and its own changes are in the log at the time it made
them. -/
inductive Timed {α} (s : Nat → CskkDict) (log : List (Nat × Nat × Write)) (i : Nat) : Nat → Prog α → Nat → Prog α → Prop
  | here (t p) : Timed s log i t p t p
  | look (t t' t'' d bad next q) : t ≤ t' → t' ≤ log.length → Timed s log i t' (next (content s (log.take t') d)) t'' q →
      Timed s log i t (.look d bad next) t'' q
  | write (t t' t'' d w next q) : t ≤ t' → log[t']? = some (i, d, w) → Timed s log i (t' + 1) next t'' q →
      Timed s log i t (.write d w next) t'' q

end Cskk.Spec.Locks
