import Verif.Props.MachineUse
import Verif.Spec.Session

/-!
# A user's life with the engine

Chapter after chapter a program opens the user's dictionaries, is used, saves and ends. The machine of `Spec/Machine.lean` knows nothing of programs
that end and of files: at the beginning of each chapter it has the words it had at the end of the chapter before.
-/

namespace Cskk.Spec.Life
open Cskk Cskk.Spec.Machine Cskk.Spec.Session Cskk.DictFile
open Cskk.Props.Machine (shipped names start fresh call answered seen)

/-- What happens while a program runs. -/
inductive Event where
  /-- it uses the engine -/
  | act (x : Machine.Act)
  /-- it saves the dictionaries; the disk may fail -/
  | save (os : Nat → Outcome)
  /-- it saves the dictionaries, which succeeds, and reads them again -/
  | refresh

/-- A program from its start to its end: with which rule, configuration and input mode it begins, and what happens before it saves and ends. -/
structure Chapter where
  azik : Bool
  config : Config
  mode : InputMode
  events : List Event

/-! ## The machine's life -/

/-- The words of the user dictionaries are such as a dictionary file can hold. -/
def Writable (ds : List CskkDict) : Prop := ∀ d ∈ ds, kindOf d = .user → Spec.Persist.PlainDict (Props.UserDict.maps d)

/-- The dictionaries are not exchanged for others. -/
def Keeps : Machine.Act → Prop
  | .setDictionaries _ => False
  | _ => True

/-- What the machine says about the events of a chapter: it makes nothing of saving and reading, as long as files can hold its words and no file is lost
(between moving it to its backup and creating it again). -/
inductive Told (pr : Bool) : Seat → List Event → Seat → List (Answer × View) → Prop where
  | done (Z : Seat) : Told pr Z [] Z []
  | act {Z Z' Z'' : Seat} {x : Machine.Act} {ans : Answer} {l : List Event} {got : List (Answer × View)} : Keeps x → Z.act (shipped pr) x = some (Z', ans) →
      Told pr Z' l Z'' got → Told pr Z (.act x :: l) Z'' ((ans, Z'.desk.view (shipped pr Z'.azik Z'.config) (names pr)) :: got)
  | save {Z Z' : Seat} {os : Nat → Outcome} {l : List Event} {got : List (Answer × View)} : (∀ i, os i ≠ .createFails) →
      Told pr Z l Z' got → Told pr Z (.save os :: l) Z' got
  | refresh {Z Z' : Seat} {l : List Event} {got : List (Answer × View)} : Writable Z.desk.dicts → Told pr Z l Z' got → Told pr Z (.refresh :: l) Z' got

/-- What the machine says about a life: the words are never forgotten. -/
inductive Lived (pr : Bool) : List CskkDict → List Chapter → List CskkDict → List (List (Answer × View)) → Prop where
  | done (ds : List CskkDict) : Lived pr ds [] ds []
  | chapter {ds ds' : List CskkDict} {x : Chapter} {Z : Seat} {l : List Chapter} {got : List (Answer × View)} {gots : List (List (Answer × View))} :
      Told pr (start x.azik x.config x.mode ds) x.events Z got → Writable Z.desk.dicts → Lived pr Z.desk.dicts l ds' gots → Lived pr ds (x :: l) ds' (got :: gots)

/-! ## The engine's life -/

/-- What the application gets and sees of the engine, with the files. -/
def happens (e : Env) (ss : List Source) : Ctx × FS → List Event → R ((Ctx × FS) × List (Answer × View))
  | s, [] => .ok (s, [])
  | s, .act x :: l => do
    let ans ← answered e s.1 x
    let c ← s.1.step e (call x)
    let (s', rest) ← happens e ss (c, s.2) l
    return (s', (ans, seen e c) :: rest)
  | s, .save os :: l => do
    let s ← Cskk.Session.act e ss s (.save os)
    happens e ss s l
  | s, .refresh :: l => do
    let s ← Cskk.Session.actAll e ss s [.save fun _ => .completes, .reload]
    happens e ss s l

/-- Every program opens the files, is used, saves, which succeeds, and ends. -/
def lives (e : Env) (ss : List Source) (fs : FS) : List Chapter → Option (FS × List (List (Answer × View)))
  | [] => some (fs, [])
  | x :: l => do
    let ds ← Cskk.Session.openAll fs ss
    let (s, got) ← (happens e ss (fresh x.azik x.config x.mode ds, fs) (x.events ++ [.save fun _ => .completes])).toOption
    let (fs, gots) ← lives e ss s.2 l
    return (fs, got :: gots)

end Cskk.Spec.Life
