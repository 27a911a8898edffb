import Verif.Spec.Years
import Verif.Spec.Careful

/-!
# Careful users at the office

The users of `Spec/Years.lean`, when they mind at every application what `Spec/Careful.lean` says.
-/

namespace Cskk.Spec.CarefulYears
open Cskk Cskk.Spec.Machine Cskk.Spec.Office Cskk.Spec.Session Cskk.Spec.Years Cskk.Spec.Careful
open Cskk.Props.Machine (shipped names)
open Cskk.Props.Office (opening)

/-- The user is careful at every application, and no file is lost. -/
def Prudent (pr : Bool) : Office → List Event → Prop
  | _, [] => True
  | O, .turn x :: l => (∀ i a, x = .act i a → Careful (O.seat i).desk a) ∧ ∀ r, O.turn (shipped pr) x = some r → Prudent pr r.1 l
  | O, .save _ os :: l => (∀ j, os j ≠ .createFails) ∧ Prudent pr O l
  | O, .refresh _ :: l => Prudent pr O l

/-- What the machines, to which files mean nothing, say about events. -/
def tells (pr : Bool) (O : Office) : List Event → Option (Office × List (Answer × (Nat → View)))
  | [] => some (O, [])
  | .turn x :: l => (O.turn (shipped pr) x).bind fun r => (tells pr r.1 l).map fun q => (q.1, (r.2, r.1.view (shipped pr) (names pr)) :: q.2)
  | .save _ _ :: l => tells pr O l
  | .refresh _ :: l => tells pr O l

/-- The morning of a day. -/
def morning (shelf : Nat → CskkDict) (x : Day) : Office := opening x.azik x.config x.mode x.uses shelf

/-- What they say about the days. -/
def tellsYears (pr : Bool) (shelf : Nat → CskkDict) : List Day → Option ((Nat → CskkDict) × List (List (Answer × (Nat → View))))
  | [] => some (shelf, [])
  | x :: l => (tells pr (morning shelf x) x.events).bind fun r => (tellsYears pr r.1.shelf l).map fun q => (q.1, r.2 :: q.2)

/-- The user is careful all the years, no application lists a dictionary two times, and in the evening every dictionary of the user is saved by an application which uses it. -/
def PrudentYears (pr : Bool) (shelf : Nat → CskkDict) : List Day → Prop
  | [] => True
  | x :: l => (∀ i, (x.uses i).Nodup) ∧ Prudent pr (morning shelf x) x.events ∧ ∀ r, tells pr (morning shelf x) x.events = some r →
      (∀ d, kindOf (r.1.shelf d) = .user → ∃ i ∈ x.closers, d ∈ r.1.uses i) ∧ PrudentYears pr r.1.shelf l

end Cskk.Spec.CarefulYears
