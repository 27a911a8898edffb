import Verif.Spec.History
import Verif.Spec.Numeric

/-!
# When a list of words is offered
-/

namespace Cskk.Spec

/-- The modes in which a list of words is offered: a word is shown (`▼`), or a completion (`■`). -/
def Offering (m : CompositionMode) : Prop := m = .compositionSelection ∨ m = .completion

instance (m : CompositionMode) : Decidable (Offering m) := by unfold Offering; infer_instance

/-- What is known of the list after an instruction, if `gone` says that it is empty before. -/
def goneAfter (gone : Bool) : Instruction → Bool
  | .confirmComposition | .confirmAs _ | .clearUnconfirmedInputs | .purge => true
  | .tryNextCandidate | .tryNextCompletion | .confirmDirect | .abort => false
  | _ => gone

/-- The instructions leave the modes in which a list is offered only when the list is gone. -/
def tidy (gone : Bool) : List Instruction → Bool
  | [] => true
  | i :: is =>
    (match i with
      | .changeCompositionMode m => gone || decide (Offering m)
      | _ => true) && tidy (goneAfter gone i) is

/-- A rule all of whose commands do so. -/
def TidyRule (r : CommandRule) : Prop := ∀ cm im, ∀ k ∈ r cm im, tidy (decide (¬ Offering cm)) k.2 = true

/-- The word being registered asks for the word of a number (`#4`), and there is a number in the reading it is registered for. -/
def AsksNumberWord (c : Ctx) : Prop :=
  c%"#4" <:+: c.top.confirmed ∧ ∃ s, c.below.head? = some s ∧ s.cands.toComposite.toComposite.any isNd = true

/-- The word being registered asks for the word of a number which has none: nothing would be offered for it. -/
def RegistersNothing (c : Ctx) : Prop :=
  AsksNumberWord c ∧ ∃ s, c.below.head? = some s ∧ Ctx.registered c.dicts s c.top.confirmed = .ok []

/-- The instruction registers no such word. -/
def Plainly (c : Ctx) (i : Instruction) : Prop := i = .confirmDirect → ¬ RegistersNothing c

/-- Calls as programs make them: the composition mode is not set by hand, rules are tidy, and no registered word asks for the word of a number in its reading which has none. -/
def Ordinary (e : Env) (c : Ctx) : Op → Prop
  | .key ev => c.KeyAdmissible e Plainly ev
  | .setCompositionMode _ => False
  | .setRule r _ => TidyRule r
  | _ => True

end Cskk.Spec
