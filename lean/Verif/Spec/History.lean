import Verif.Model.Context

/-!
# Histories of API calls
-/

namespace Cskk

/-- The instructions of a command are all admissible when they are executed. -/
def Ctx.Admissible (e : Env) (A : Ctx → Instruction → Prop) (cm : CompositionMode) (im : InputMode) :
    Ctx → List Instruction → Prop
  | _, [] => True
  | c, i :: is => A c i ∧ ∀ c', c.instruction e i cm im = .ok (c', none) → Admissible e A cm im c' is

/-- The instructions executed for a key event are admissible. -/
def Ctx.KeyAdmissible (e : Env) (A : Ctx → Instruction → Prop) (c : Ctx) (ev : KeyEvent) : Prop :=
  ∀ is, c.cmds.getInstruction e.prof ev c.top.inputMode c.top.mode = .ok (some is) →
    c.Admissible e A c.top.mode c.top.inputMode is

/-- Contexts reachable from `c₀` by API calls each of which satisfies `G` in the state where it is made. -/
inductive Reach (e : Env) (G : Ctx → Op → Prop) (c₀ : Ctx) : Ctx → Prop where
  | init : Reach e G c₀ c₀
  | step {c c' : Ctx} {op : Op} : Reach e G c₀ c → G c op → c.step e op = .ok c' → Reach e G c₀ c'


namespace Spec

/-- Every call of the list satisfies `K` in the context where it is made. -/
def Along (e : Env) (K : Ctx → Op → Prop) : Ctx → List Op → Prop
  | _, [] => True
  | c, op :: ops => K c op ∧ ∀ c', c.step e op = .ok c' → Along e K c' ops

/-- Executes the calls. -/
def run (e : Env) : Ctx → List Op → R Ctx
  | c, [] => .ok c
  | c, op :: ops => do
    let c' ← c.step e op
    run e c' ops

/-- Executes the calls and concatenates the texts which the polls among them return. -/
def deliver (e : Env) : Ctx → List Op → R (Ctx × Str)
  | c, [] => .ok (c, [])
  | c, .poll :: ops => do
    let r ← deliver e c.pollOutput.1 ops
    return (r.1, c.pollOutput.2.getD [] ++ r.2)
  | c, op :: ops => do
    let c' ← c.step e op
    deliver e c' ops

/-- The calls without the polls. -/
def withoutPolls : List Op → List Op
  | [] => []
  | .poll :: ops => withoutPolls ops
  | op :: ops => op :: withoutPolls ops

/-- The text which is committed and not yet delivered: the committed text of the outermost level. -/
def pendingOutput (c : Ctx) : Str := (c.states.head?.map (·.confirmed)).getD []

/-- The instruction does not erase undelivered output. -/
def Keeps (c : Ctx) (i : Instruction) : Prop :=
  i ≠ .clearKanaConvertedInputs ∧
  (c.below = [] → i ≠ .purge ∧ (i = .delete → c.top.mode = .direct → c.top.pre = [] → c.top.confirmed ≠ []))

/-- Calls which do not erase undelivered output. -/
def KeepsOp (e : Env) (c : Ctx) : Op → Prop
  | .key ev => c.KeyAdmissible e Keeps ev
  | .reset => False
  | _ => True


/-- No command of the rule switches to the mode Register (true of the rules which come with the library). -/
def NoRegisterCommand (r : CommandRule) : Prop :=
  ∀ cm im, ∀ k ∈ r cm im, Instruction.changeCompositionMode .register ∉ k.2

/-- Calls which a sensible program makes: the mode Register is set neither by hand nor by a command of the rule in
use, and there is no reset during a registration. -/
def Sensible (c : Ctx) : Op → Prop
  | .key _ => NoRegisterCommand c.cmds
  | .setCompositionMode m => m ≠ .register
  | .reset => c.depth = 1
  | _ => True

end Spec
end Cskk
