import Verif.Model.Handles

/-!
# What a C program may do with dictionaries, contexts and key events

The caller's view: which pointers it has been given and not yet given back, and which dictionaries it put into which context. No reference counts.
-/

namespace Cskk.Spec.Handles
open Cskk.Handles

/-- The pointers which the caller has: handles with the dictionary they stand for (named by its first handle), contexts with the dictionaries they were
given, key events. -/
structure Held where
  handle : Nat → Option Nat
  context : Nat → Option (List Nat)
  event : Nat → Bool

/-- Nothing. -/
def Held.nothing : Held := ⟨fun _ => none, fun _ => none, fun _ => false⟩

/-- The dictionaries which an array of handles passes to a context: all of them; but none if the first is NULL. -/
def passed (s : Held) (as : List Nat) : List Nat :=
  if as.head? = some 0 then [] else as.filterMap s.handle

/-- The arrays which may be passed: handles which the caller has; anything if the first is NULL. -/
def ArrayOk (s : Held) (as : List Nat) : Prop := as.head? = some 0 ∨ ∀ a ∈ as, (s.handle a).isSome

/-- The rules for callers: use only what you have. NULL may be released. -/
def Allowed (s : Held) : Call → Prop
  | .newDict _ => True
  | .newContext _ as => ArrayOk s as
  | .newContextFallback _ as => ArrayOk s as
  | .setDictionaries c as => (s.context c).isSome ∧ ArrayOk s as
  | .useContext c => (s.context c).isSome
  | .freeContext c => c = 0 ∨ (s.context c).isSome
  | .freeDict a => a = 0 ∨ (s.handle a).isSome
  | .newEvent => True
  | .processEvent c ev => (s.context c).isSome ∧ s.event ev = true

/-- What the caller has after a call which returned the pointer `r`. -/
def after (s : Held) (r : Nat) : Call → Held
  | .newDict _ => if r = 0 then s else { s with handle := fun a => if a = r then some r else s.handle a }
  | .newContext _ as => if r = 0 then s else { s with context := fun a => if a = r then some (passed s as) else s.context a }
  | .newContextFallback _ as => if r = 0 then s else { s with context := fun a => if a = r then some (passed s as) else s.context a }
  | .setDictionaries c as => { s with context := fun a => if a = c then some (passed s as) else s.context a }
  | .useContext _ => s
  | .freeContext c => { s with context := fun a => if a = c then none else s.context a }
  | .freeDict h => { s with handle := fun a => if a = h then none else s.handle a }
  | .newEvent => { s with event := fun a => if a = r then true else s.event a }
  | .processEvent _ ev => { s with event := fun a => if a = ev then false else s.event a }

/-- `Runs s m calls s' m'`: the program makes these calls, one after the other, keeping the rules, and none of them fails. -/
inductive Runs : Held → Mem → List Call → Held → Mem → Prop
  | nil (s m) : Runs s m [] s m
  | cons {s m call m₁ r calls s' m'} : Allowed s call → step m call = .ok (m₁, r) → Runs (after s r call) m₁ calls s' m' →
      Runs s m (call :: calls) s' m'

/-- A dictionary is in use by someone: there is a handle for it, or a context it was given to. -/
def InUse (s : Held) (d : Nat) : Prop := (∃ a, s.handle a = some d) ∨ ∃ c ds, s.context c = some ds ∧ d ∈ ds

end Cskk.Spec.Handles
