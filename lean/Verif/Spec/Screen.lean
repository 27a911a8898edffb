import Verif.Spec.History
import Verif.Spec.Keys

/-!
# What is on the screen

A program which uses the library: it has a text of its own, to which it appends what it polls; a key which is handed back goes to the program, after
it took what there was to poll.
-/

namespace Cskk.Spec

/-- The context and the text of the program. -/
structure Screen where
  ctx : Ctx
  text : Str

/-- The committed text as the user has it: the text of the program and what was not polled yet. -/
def Screen.all (s : Screen) : Str := s.text ++ pendingOutput s.ctx

/-- The program polls. -/
def Screen.polled (s : Screen) : Screen := ⟨s.ctx.pollOutput.1, s.text ++ s.ctx.pollOutput.2.getD []⟩

/-- A call. `f` is what the program does with a key which is handed back. -/
def Screen.act (e : Env) (f : KeyEvent → Str → Str) (s : Screen) : Op → R Screen
  | .poll => .ok s.polled
  | .key ev => do
    let r ← s.ctx.processKeyEvent e ev
    if r.2 then return ⟨r.1, s.text⟩
    else
      let t := (⟨r.1, s.text⟩ : Screen).polled
      return ⟨t.ctx, f ev t.text⟩
  | op => do
    let c ← s.ctx.step e op
    return ⟨c, s.text⟩

/-- Many calls. -/
def Screen.acts (e : Env) (f : KeyEvent → Str → Str) : Screen → List Op → R Screen
  | s, [] => .ok s
  | s, op :: ops => do
    let s' ← s.act e f op
    s'.acts e f ops

/-- The calls of which the theorem speaks: no reset, no change of the rule, and no key which the rule binds to the erasure of a word of the dictionary. -/
def Gentle (r : CommandRule) : Op → Prop
  | .key ev => ∀ cm im, ∀ k ∈ r cm im, KeyMatches k.1 ev → Instruction.purge ∉ k.2 ∧ Instruction.clearKanaConvertedInputs ∉ k.2
  | .reset | .setRule _ _ => False
  | _ => True

/-- Keys which are commands for the deletion of a character delete one in the program, too, when they are handed back. -/
def Deletes (r : CommandRule) (f : KeyEvent → Str → Str) : Prop :=
  ∀ ev cm im, ∀ k ∈ r cm im, KeyMatches k.1 ev → Instruction.delete ∈ k.2 → f ev = List.dropLast

end Cskk.Spec
