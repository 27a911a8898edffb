import Verif.Model.World
import Verif.Spec.History
import Verif.Props.UserDict

/-!
# Histories of several contexts
-/

namespace Cskk.Spec
open Cskk.Props.UserDict

/-- Executes the calls in the order given. -/
def runAll (e : Env) : World → List WOp → R World
  | w, [] => .ok w
  | w, o :: os => do
    let w' ← w.step e o
    runAll e w' os

/-- The context on which a call is made. -/
def WOp.who : WOp → Nat
  | .call i _ => i
  | .use i _ => i

/-- The calls made on context `i`. -/
def callsOf (i : Nat) : List WOp → List Op
  | [] => []
  | .call j op :: os => if j = i then op :: callsOf i os else callsOf i os
  | .use _ _ :: os => callsOf i os

/-- The call keeps the list of dictionaries of its context. -/
def KeepsList : WOp → Prop
  | .call _ (.setDictionaries _) => False
  | .call _ _ => True
  | .use _ _ => False

/-- The call of a context other than `i` gives nobody a dictionary which `i` uses and which can be written, and the calls of `i`
keep its list of dictionaries. -/
def Apart (w : World) (i : Nat) : WOp → Prop
  | .call _ (.setDictionaries _) => False
  | .call _ _ => True
  | .use j ids => j ≠ i ∧ ∀ d ∈ ids, d ∈ (w.clients i).ids → ReadOnly (w.store d)

/-- The edits which reach dictionary `d`: those of the calls of the contexts which use it, in the order of the calls. -/
def editsOf (w : World) (d : Nat) (ws : List (WOp × List Edit)) : List Edit :=
  ws.flatMap fun o => if d ∈ (w.clients (WOp.who o.1)).ids then o.2 else []

end Cskk.Spec
