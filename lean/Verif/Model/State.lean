import Verif.Model.CandidateList
import Verif.Model.Dictionary
import Verif.Model.Romaji

/-!
# One editing level (`src/cskkstate.rs`)
-/

namespace Cskk

/-- The parts of the process which do not change while a context is used: build profile, libxkbcommon
(`keysymName` is `keysym_get_name`) and the two form changers, which are fields of the context that no method
replaces (src/lib.rs:69-70). -/
structure Env where
  prof : Profile
  xkb : Xkb
  keysymName : Keysym → Str
  kanaForm : KanaFormChanger
  asciiForm : AsciiFormChanger

/-- `CskkState` (src/cskkstate.rs:22-51). The history is oldest first. -/
structure State where
  inputMode : InputMode
  mode : CompositionMode
  defaultMode : CompositionMode
  history : List CompositionMode
  pre : List Keysym
  raw : Str
  kana : Str
  okuri : Str
  cands : CandidateList CompositeKey Candidate
  compositedOkuri : Str
  confirmed : Str
  capital : Bool
  useOkuri : Bool
  deriving Repr, DecidableEq

/-- cskkstate.rs:15 `COMPOSITION_MODE_HISTORY_MAX`. -/
def HISTORY_MAX : Nat := 20

/-- `CskkStateInfo` and its data structs (cskkstate.rs:57-135). -/
inductive StateInfo where
  | direct (confirmed : Str) (unconverted : Option Str)
  | preComposition (confirmed kana : Str) (okuri unconverted : Option Str)
  | preCompositionOkurigana (confirmed kana : Str) (okuri unconverted : Option Str)
  | compositionSelection (confirmed composited : Str) (okuri annotation : Option Str)
  | register (confirmed kana : Str) (okuri postfx : Option Str)
  | complete (confirmed origin midashi completed : Str) (okuri annotation : Option Str)
  deriving Repr, DecidableEq

namespace State

/-- cskkstate.rs:138-154 `new`. -/
def new (im : InputMode) (cm : CompositionMode) : State :=
  { inputMode := im, mode := cm, defaultMode := cm, history := [], pre := [], raw := [], kana := [], okuri := [],
    cands := CandidateList.new CompositeKey.empty, compositedOkuri := [], confirmed := [], capital := false,
    useOkuri := false }

/-- cskkstate.rs:172-175 `clear_preconverted_kanainputs`. -/
def clearPre (s : State) : State := { s with pre := [], capital := false }

/-- cskkstate.rs:178-184 `clear_kanas`. -/
def clearKanas (s : State) : State := { s.clearPre with kana := [], okuri := [], useOkuri := false }

/-- cskkstate.rs:562-565 `clear_candidate_list`. -/
def clearCandidateList (s : State) : State :=
  { s with cands := s.cands.clear CompositeKey.empty, compositedOkuri := [] }

/-- cskkstate.rs:187-191 `clear_unconfirmed`. -/
def clearUnconfirmed (s : State) : State := ({ s with raw := [] } : State).clearCandidateList.clearKanas

/-- cskkstate.rs:194-198 `clear_all`. -/
def clearAll (s : State) : State :=
  { ({ s with confirmed := [] } : State).clearUnconfirmed with history := [] }

/-- cskkstate.rs:201-203 `flush_confirmed_string`. -/
def flushConfirmed (s : State) : State := { s with confirmed := [] }

/-- cskkstate.rs:208-253 `delete`: `Vec::pop` and `String::pop` drop the last element; `is_some` says whether there
was one. -/
def delete (s : State) : State × Bool :=
  match s.mode with
  | .direct =>
    if s.pre ≠ [] then ({ s with pre := s.pre.dropLast }, true)
    else ({ s with confirmed := s.confirmed.dropLast }, !s.confirmed.isEmpty)
  | .preComposition | .abbreviation =>
    if s.pre ≠ [] then ({ s with pre := s.pre.dropLast }, true)
    else if s.kana ≠ [] then ({ s with kana := s.kana.dropLast, raw := s.raw.dropLast }, true)
    else ({ s with raw := s.raw.dropLast, mode := .direct }, true)
  | .preCompositionOkurigana =>
    let (s, deleted) : State × Bool :=
      if s.pre ≠ [] then ({ s with pre := s.pre.dropLast }, true)
      else ({ s with okuri := s.okuri.dropLast, raw := s.raw.dropLast }, !s.okuri.isEmpty)
    (if s.pre.isEmpty && s.okuri.isEmpty then { s with mode := .preComposition } else s, deleted)
  | _ => (s, false)

/-- cskkstate.rs:262-294 `push_string_for_composition_mode`. -/
def pushFor (s : State) (w : Str) : CompositionMode → State
  | .direct => { s with confirmed := s.confirmed ++ w }
  | .preComposition => { s with kana := s.kana ++ w, raw := s.raw ++ w }
  | .preCompositionOkurigana => { s with okuri := s.okuri ++ w, useOkuri := true }
  | .abbreviation => { s with kana := s.kana ++ w, raw := s.raw ++ w }
  | .compositionSelection => { s with confirmed := s.confirmed ++ w }
  | .completion => { s with confirmed := s.confirmed ++ w }
  | .register => s

/-- cskkstate.rs:257-259 `push_string`. -/
def push (s : State) (w : Str) : State := s.pushFor w s.mode

/-- cskkstate.rs:299-307 `consolidate_converted_to_to_composite`. -/
def consolidate (s : State) : State :=
  { s with kana := s.kana ++ s.okuri, raw := s.raw ++ s.okuri, okuri := [], useOkuri := false }

/-- cskkstate.rs:310-313 `set_converted_to_postfix`. -/
def setPostfix (s : State) (w : Str) : State := { s with okuri := w, useOkuri := false }

/-- cskkstate.rs:470-479 `get_composite_key`. -/
def compositeKey (s : State) : CompositeKey :=
  if s.useOkuri && !s.okuri.isEmpty then ⟨s.raw, some s.okuri⟩ else ⟨s.raw, none⟩

/-- cskkstate.rs:509-516 `change_composition_mode`, 520-531 `change_composition_mode_from_old_mode`. -/
def changeModeFrom (s : State) (new old : CompositionMode) : State :=
  let h := s.history ++ [old]
  { s with history := if h.length > HISTORY_MAX then h.drop 1 else h, mode := new }

/-- cskkstate.rs:509-516 `change_composition_mode`. -/
def changeMode (s : State) (new : CompositionMode) : State := s.changeModeFrom new s.mode

/-- cskkstate.rs:489-500 `abort_to_previous_mode`. -/
def abortToPrevious (s : State) : State :=
  match s.history.getLast? with
  | some prev =>
    let s := { s with history := s.history.dropLast }
    if prev = .preCompositionOkurigana then { s.consolidate with mode := .preComposition }
    else { s with mode := prev }
  | none => { s with mode := s.defaultMode }

/-- cskkstate.rs:504-507 `reset_to_default_composition_mode`. -/
def resetToDefault (s : State) : State := { s with history := [], mode := s.defaultMode }

/-- cskkstate.rs:539-541 `forward_candidate`. -/
def forward (p : Profile) (s : State) : R State := do
  let r ← s.cands.forward p
  return { s with cands := r.1 }

/-- cskkstate.rs:543-545 `backward_candidate`. -/
def backward (s : State) : State := { s with cands := s.cands.backward.1 }

/-- cskkstate.rs:548-550 `set_candidate_pointer_index`. -/
def setPointer (s : State) (i : Nat) : State × Bool :=
  ({ s with cands := (s.cands.setSelectionPointer i).1 }, (s.cands.setSelectionPointer i).2)

/-- cskkstate.rs:554-560 `add_new_candidates_for_existing_string_to_composite`. -/
def addCandidates (s : State) (cs : List Candidate) : State :=
  { s with cands := s.cands.addNew cs, compositedOkuri := s.okuri }

/-- cskkstate.rs:568-572 `set_new_candidate_list`. -/
def setCandidates (s : State) (cs : List Candidate) : State :=
  { s with cands := s.cands.set s.compositeKey cs, compositedOkuri := s.okuri }

/-- cskkstate.rs:378-388: the pending keys by name. -/
def unconverted (e : Env) (s : State) : Option Str :=
  if s.pre.isEmpty then none else some (s.pre.map e.keysymName).flatten

/-- cskkstate.rs:373-467 `preedit_detail`. -/
def preeditDetail (e : Env) (s : State) (im : InputMode) : StateInfo :=
  let unconverted := s.unconverted e
  let okuri := if s.okuri.isEmpty then none else some (e.kanaForm.adjust im s.okuri)
  match s.mode with
  | .direct => .direct s.confirmed unconverted
  | .preComposition | .abbreviation => .preComposition s.confirmed (e.kanaForm.adjust im s.kana) okuri unconverted
  | .preCompositionOkurigana => .preCompositionOkurigana s.confirmed (e.kanaForm.adjust im s.kana) okuri unconverted
  | .register =>
    .register s.confirmed (e.kanaForm.adjust im s.kana) (if s.useOkuri then okuri else none)
      (if s.useOkuri then none else okuri)
  | .compositionSelection =>
    let c := s.cands.current.getD Candidate.default
    .compositionSelection s.confirmed c.output okuri c.annotation
  | .completion =>
    let c := s.cands.current.getD Candidate.default
    .complete s.confirmed s.kana c.midashi c.output okuri c.annotation

/-- cskkstate.rs:317-368 `preedit_string`. -/
def preeditString (e : Env) (s : State) (im : InputMode) : Str :=
  match s.preeditDetail e im with
  | .direct confirmed unconverted => confirmed ++ unconverted.getD []
  | .preComposition confirmed kana _ unconverted => confirmed ++ c%"▽" ++ kana ++ unconverted.getD []
  | .preCompositionOkurigana confirmed kana okuri unconverted =>
    confirmed ++ c%"▽" ++ kana ++ c%"*" ++ okuri.getD [] ++ unconverted.getD []
  | .compositionSelection confirmed composited okuri _ => confirmed ++ c%"▼" ++ composited ++ okuri.getD []
  | .register _ kana okuri postfx =>
    if okuri.isSome then c%"▼" ++ kana ++ c%"*" ++ okuri.getD [] ++ postfx.getD []
    else c%"▼" ++ kana ++ postfx.getD []
  | .complete confirmed _ _ completed okuri _ => confirmed ++ c%"■" ++ completed ++ okuri.getD []

end State
end Cskk
