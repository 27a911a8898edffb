import Verif.Spec.Select
import Verif.Model.Context

/-!
# A registration, from its beginning to its end
-/

namespace Cskk.Spec

/-- No command of the rule goes on after it has given something up: `Abort` stands last in a command. -/
def AbortLast (r : CommandRule) : Prop :=
  ∀ m im k is, (k, is) ∈ r m im → Instruction.abort ∉ is.dropLast

/-- The calls with which a user works inside a registration: keys, and the calls of a frontend which choose a mode or a
candidate. -/
def Working : Op → Prop
  | .key _ | .setInputMode _ | .setCompositionMode _ | .selectAt _ | .confirmAt _ => True
  | _ => False

/-- `ops` lead from `c` to `c'`, and at least `n` levels are waiting all the time. -/
inductive Inside (e : Env) (n : Nat) : Ctx → List Op → Ctx → Prop
  | nil (c : Ctx) : n ≤ c.below.length → Inside e n c [] c
  | cons (c c₁ c' : Ctx) (op : Op) (ops : List Op) : n ≤ c.below.length → Working op → c.step e op = .ok c₁ →
      Inside e n c₁ ops c' → Inside e n c (op :: ops) c'

/-- A level to which the user comes back without a word: it is as it was before the registration, in the mode `m` it was in.
If it was taking okurigana, the okurigana is now the end of the reading. -/
def resumed (s : State) (m : CompositionMode) : State :=
  if m = .preCompositionOkurigana then
    { s with mode := .preComposition, kana := s.kana ++ s.okuri, raw := s.raw ++ s.okuri, okuri := [], useOkuri := false }
  else { s with mode := m }

end Cskk.Spec
