import Verif.Model.KeyEvent
import Verif.Model.Modes

/-!
# Commands (`src/command_handler/instruction.rs`, `configurable_command_handler.rs`, `src/rule.rs`)
-/

namespace Cskk

/-- `Instruction` (instruction.rs:8-45). -/
inductive Instruction where
  | abort
  | changeInputMode (m : InputMode)
  | forceKanaConvert (m : InputMode)
  | clearUnconvertedInputs
  | clearKanaConvertedInputs
  | clearUnconfirmedInputs
  | changeCompositionMode (m : CompositionMode)
  | finishKeyEvent
  | passthroughKeyEvent
  | tryNextCandidate
  | tryPreviousCandidate
  | nextCandidatePointer
  | previousCandidatePointer
  | confirmComposition
  | confirmAs (m : InputMode)
  | confirmDirect
  | purge
  | delete
  | tryNextCompletion
  | tryPreviousCompletion
  deriving Repr, DecidableEq

/-- `CskkCommandRule` (rule.rs:31-44) with its inner maps (rule.rs:78-91): a `HashMap` from key events to
instruction lists for each composition mode and input mode. A `HashMap` is an association list looked up from the
front. The table for `register` does not exist and is never read. -/
abbrev CommandRule := CompositionMode → InputMode → List (KeyEvent × List Instruction)

namespace CommandRule

/-- rule.rs:47-56 `new_empty`. -/
def newEmpty : CommandRule := fun _ _ => []

/-- configurable_command_handler.rs:31-36: `is_upper` keys are looked up without SHIFT. -/
def matchingKey (ev : KeyEvent) : KeyEvent :=
  if ev.isUpper then { ev with modifiers := ev.modifiers &&& ~~~Modifier.SHIFT } else ev

/-- configurable_command_handler.rs:25-44 `get_instruction` and rule.rs:58-75 `get_inner_ruleset`, whose
`debug_assert!(false)` fires in `Register` mode. -/
def getInstruction (r : CommandRule) (p : Profile) (ev : KeyEvent) (im : InputMode) (cm : CompositionMode) :
    R (Option (List Instruction)) :=
  if cm = .register then (if p.checked then .error .debugAssert else .ok none)
  else .ok (((r cm im).find? fun e => decide (e.1 = matchingKey ev)).map (·.2))

end CommandRule
end Cskk
