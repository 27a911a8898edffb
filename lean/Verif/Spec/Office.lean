import Verif.Spec.Machine

/-!
# Several SKK machines on one shelf of dictionaries

Each application has a machine (`Spec/Machine.lean`) of its own; the dictionaries stand on a shelf, and each machine uses some of them, in its order. What one
machine learns is there for the next key of every other machine which uses the dictionary, and nothing else passes between them.
-/

namespace Cskk.Spec.Office
open Machine

/-- The machines, which dictionaries each of them uses, and the shelf. (The field `dicts` of a machine is not used.) -/
structure Office where
  seats : Nat → Seat
  uses : Nat → List Nat
  shelf : Nat → CskkDict

/-- What happens. -/
inductive Turn where
  /-- application `i` does something -/
  | act (i : Nat) (x : Act)
  /-- application `i` uses other dictionaries -/
  | use (i : Nat) (ids : List Nat)

/-- Machine `i` with its dictionaries in hand. -/
def Office.seat (O : Office) (i : Nat) : Seat :=
  { O.seats i with desk := { (O.seats i).desk with dicts := (O.uses i).map O.shelf } }

/-- The dictionaries are put back. -/
def putBack (shelf : Nat → CskkDict) (ids : List Nat) (ds : List CskkDict) (d : Nat) : CskkDict := ((ids.zip ds).lookup d).getD (shelf d)

/-- One turn, and what the application gets. No dictionary is listed two times, and dictionaries come from the shelf only. -/
def Office.turn (rules : Bool → Config → Setup) (O : Office) : Turn → Option (Office × Answer)
  | .act _ (.setDictionaries _) => none
  | .act i x =>
    ((O.seat i).act rules x).map fun r =>
      (⟨fun j => if j = i then r.1 else O.seats j, O.uses, putBack O.shelf (O.uses i) r.1.desk.dicts⟩, r.2)
  | .use i ids => if ids.Nodup then some ({ O with uses := fun j => if j = i then ids else O.uses j }, .nothing) else none

/-- What is seen on the screen of application `i`. -/
def Office.view (rules : Bool → Config → Setup) (names : List Keysym → Str) (O : Office) (i : Nat) : View :=
  (O.seats i).desk.view (rules (O.seats i).azik (O.seats i).config) names

/-- What the applications get, and what is then seen on all screens. -/
def Office.day (rules : Bool → Config → Setup) (names : List Keysym → Str) (O : Office) : List Turn → Option (Office × List (Answer × (Nat → View)))
  | [] => some (O, [])
  | x :: l => (O.turn rules x).bind fun r => (r.1.day rules names l).map fun q => (q.1, (r.2, r.1.view rules names) :: q.2)

end Cskk.Spec.Office
