import Verif.Model.WorldFiles
import Verif.Props.Office
import Verif.Spec.Life
import Verif.Spec.SameWords

/-!
# Years at the office

Day after day a program opens the dictionaries, several applications use them together, save at any time, and the program ends after everything was saved. The machines of
`Spec/Office.lean` know nothing of files: in the morning the words on the shelf are those of the evening before.
-/

namespace Cskk.Spec.Years
open Cskk Cskk.Spec.Machine Cskk.Spec.Office Cskk.Spec.Session Cskk.DictFile Cskk.Session
open Cskk.Props.Machine (shipped names seen)
open Cskk.Props.Office (opening world told replied)

/-- What happens. -/
inductive Event where
  | turn (x : Turn)
  /-- application `i` saves its dictionaries; the disk may fail -/
  | save (i : Nat) (os : Nat → Outcome)
  /-- application `i` saves its dictionaries, which succeeds, and reads them again -/
  | refresh (i : Nat)

/-- A day: how the applications begin, which dictionaries they use, what happens, and who saves in the evening. -/
structure Day where
  azik : Nat → Bool
  config : Nat → Config
  mode : Nat → InputMode
  uses : Nat → List Nat
  events : List Event
  closers : List Nat

/-! ## The machines' years -/

/-- What the machines say about events: they make nothing of saving and reading, as long as files can hold the words which are read and no file is lost. -/
inductive Spent (pr : Bool) : Office → List Event → Office → List (Answer × (Nat → View)) → Prop where
  | done (O : Office) : Spent pr O [] O []
  | turn {O O' O'' : Office} {x : Turn} {ans : Answer} {l : List Event} {got : List (Answer × (Nat → View))} : O.turn (shipped pr) x = some (O', ans) →
      Spent pr O' l O'' got → Spent pr O (.turn x :: l) O'' ((ans, O'.view (shipped pr) (names pr)) :: got)
  | save {O O' : Office} {i : Nat} {os : Nat → Outcome} {l : List Event} {got : List (Answer × (Nat → View))} : (∀ j, os j ≠ .createFails) →
      Spent pr O l O' got → Spent pr O (.save i os :: l) O' got
  | refresh {O O' : Office} {i : Nat} {l : List Event} {got : List (Answer × (Nat → View))} : Life.Writable ((O.uses i).map O.shelf) →
      Spent pr O l O' got → Spent pr O (.refresh i :: l) O' got

/-- What the machines say about the days: in the evening every dictionary of the user is saved by an application which uses it, and the words are never forgotten. -/
inductive Passed (pr : Bool) : (Nat → CskkDict) → List Day → (Nat → CskkDict) → List (List (Answer × (Nat → View))) → Prop where
  | done (shelf : Nat → CskkDict) : Passed pr shelf [] shelf []
  | day {shelf shelf' : Nat → CskkDict} {x : Day} {O : Office} {l : List Day} {got : List (Answer × (Nat → View))} {gots : List (List (Answer × (Nat → View)))} :
      (∀ i, (x.uses i).Nodup) → Spent pr (opening x.azik x.config x.mode x.uses shelf) x.events O got →
      (∀ d, kindOf (O.shelf d) = .user → Persist.PlainDict (Props.UserDict.maps (O.shelf d)) ∧ ∃ i ∈ x.closers, d ∈ O.uses i) →
      Passed pr O.shelf l shelf' gots → Passed pr shelf (x :: l) shelf' (got :: gots)

/-! ## The engine's years -/

/-- What the applications get and what is seen of all contexts, with the files. -/
def spends (e : Env) (ss : List Source) : World × FS → List Event → R ((World × FS) × List (Answer × (Nat → View)))
  | s, [] => .ok (s, [])
  | s, .turn x :: l => do
    let ans ← replied e s.1 x
    let s ← World.act e ss s (.op (told x))
    let (s', rest) ← spends e ss s l
    return (s', (ans, fun i => seen e (s.1.clients i).ctx) :: rest)
  | s, .save i os :: l => do
    let s ← World.act e ss s (.save i os)
    spends e ss s l
  | s, .refresh i :: l => do
    let s ← World.act e ss s (.save i fun _ => .completes)
    let s ← World.act e ss s (.reload i)
    spends e ss s l

/-- Every day the dictionaries are opened, used and saved, and the program ends. -/
def years (e : Env) (ss : List Source) (fs : FS) : List Day → Option (FS × List (List (Answer × (Nat → View))))
  | [] => some (fs, [])
  | x :: l => do
    let ds ← openAll fs ss
    let (s, got) ← (spends e ss (world x.azik x.config x.mode x.uses (World.shelfOf ds), fs) (x.events ++ x.closers.map fun i => .save i fun _ => .completes)).toOption
    let (fs, gots) ← years e ss s.2 l
    return (fs, got :: gots)

end Cskk.Spec.Years
