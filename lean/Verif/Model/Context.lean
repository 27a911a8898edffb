import Verif.Model.State
import Verif.Model.Command

/-!
# The context (`src/lib.rs`)

The state stack (`state_stack: Vec<CskkState>`, lib.rs:66) is split into its last element `top` and the levels below
it, nearest first.  It starts with one state (lib.rs:1499, 1540, 1568) and every `pop` is guarded by
`state_stack.len() > 1` (lib.rs:574, 584, 596), so it is never empty and the three `expect`s on it cannot fail.

Each dictionary is an `Arc<Mutex<_>>`; the model keeps the dictionaries by value, i.e. it assumes that the same
dictionary is not listed twice and is not used by another context during the history considered.
Logging is not modelled.
-/

namespace Cskk

/-- `CskkConfig` (config.rs:3-8). -/
structure Config where
  keywords : List Str
  period : PeriodStyle
  comma : CommaStyle
  deriving Repr, DecidableEq

/-- config.rs:11-22 `CskkConfig::default`. -/
def Config.default : Config := ⟨[c%"。", c%"、", c%"」", c%"』"], .ja, .ja⟩

/-- `CskkContext` (lib.rs:65-74); the form changers are in `Env`. -/
structure Ctx where
  below : List State
  top : State
  cmds : CommandRule
  kanaConv : KanaBuilder
  dicts : List CskkDict
  config : Config

/-- lib.rs:55 `REGISTER_MODE_STACK_MAX`. -/
def STACK_MAX : Nat := 10

namespace Ctx

/-- `state_stack.len()`. -/
def depth (c : Ctx) : Nat := c.below.length + 1

/-- The stack from the outermost level to the current one. -/
def states (c : Ctx) : List State := c.below.reverse ++ [c.top]

/-- lib.rs:1489-1510 `new`, 1533-1551 `new_empty`, 1555-1577 `new_from_specified_paths`; loading the rule files is
not modelled, `cmds` and `kana` are the loaded rule. -/
def new (cmds : CommandRule) (kana : KanaBuilder) (im : InputMode) (cm : CompositionMode) (ds : List CskkDict) : Ctx :=
  { below := [], top := State.new im cm, cmds := cmds, kanaConv := kana, dicts := ds, config := Config.default }

/-- A method of the current state (lib.rs:1410-1412 `current_state`). -/
def mapTop (c : Ctx) (f : State → State) : Ctx := { c with top := f c.top }

/-- lib.rs:437-442 `append_converted`. -/
def appendConverted (e : Env) (c : Ctx) (w : Str) : Ctx :=
  c.mapTop fun s => s.push (e.kanaForm.adjust s.inputMode w)

/-- lib.rs:444-447 `set_unconverted`. -/
def setUnconverted (c : Ctx) (l : List Keysym) : Ctx := c.mapTop fun s => { s with pre := l }

/-- lib.rs:455-461 `set_carry_over`. -/
def setCarryOver (c : Ctx) (l : List Keysym) : Ctx :=
  c.mapTop fun s => { s with pre := l, capital := if l.isEmpty then false else s.capital }

/-- lib.rs:466-470 `update_candidate_list`. -/
def updateCandidateList (c : Ctx) : R Ctx := do
  let cs ← Dicts.getAll c.dicts c.top.compositeKey
  return c.mapTop (·.setCandidates cs)

/-- lib.rs:475-479 `update_completion_list`. -/
def updateCompletionList (c : Ctx) : R Ctx := do
  let cs ← Dicts.getAllComplete c.dicts c.top.compositeKey
  return c.mapTop (·.setCandidates cs)

/-- lib.rs:482-504 `purge_current_composition_candidate`. -/
def purgeCurrent (c : Ctx) : Ctx :=
  let c :=
    match c.top.cands.current with
    | some cand => { c with dicts := c.dicts.map fun (d : CskkDict) => d.purge c.top.cands.toComposite cand }
    | none => c
  c.mapTop State.clearAll

/-- lib.rs:508-535 `confirm_current_composition_candidate`. -/
def confirmCurrent (e : Env) (c : Ctx) : Ctx :=
  match c.top.cands.current with
  | some cand =>
    let c := { c with dicts := c.dicts.map fun (d : CskkDict) => d.confirm cand }
    let okuri := e.kanaForm.adjust c.top.inputMode c.top.okuri
    c.mapTop fun s => (s.push (cand.output ++ okuri)).clearUnconfirmed.resetToDefault
  | none => c

/-- lib.rs:537-550 `confirm_current_kana_to_composite`. -/
def confirmKana (e : Env) (c : Ctx) (im : InputMode) : Ctx :=
  let adjusted := if im = .zenkaku then e.asciiForm.adjustString c.top.kana else e.kanaForm.adjust im c.top.kana
  c.mapTop fun s => (s.pushFor adjusted .direct).clearUnconfirmed

/-- lib.rs:554-557 `set_composition_mode`. -/
def setCompositionMode (c : Ctx) (m : CompositionMode) : Ctx := c.mapTop (·.changeMode m)

/-- lib.rs:562-571 `enter_register_mode`. -/
def enterRegister (c : Ctx) (prev : CompositionMode) : Ctx :=
  if c.depth < STACK_MAX then
    { c with below := c.top.changeModeFrom .register prev :: c.below, top := State.new .hiragana .direct }
  else c

/-- lib.rs:573-578 `reset_state_stack`: pops all levels but the outermost one. -/
def reset (c : Ctx) : Ctx :=
  let bottom := c.below.getLast?.getD c.top
  { c with below := [], top := bottom.clearAll }

/-- lib.rs:583-591 `abort_register_mode` (its result is not used). -/
def abortRegister (c : Ctx) : Ctx :=
  match c.below with
  | s :: rest => { c with below := rest, top := s }
  | [] => c

/-- lib.rs:605-636, 637-651: the candidates which `exit_register_mode` adds to the level `s` which asked for the
registration of `word`. -/
def registered (ds : List CskkDict) (s : State) (word : Str) : R (List Candidate) := do
  let key := s.cands.toComposite
  let n := Numeric.numericEntryCount word
  if n ≠ 0 ∧ n = Numeric.numericStringCount key.toComposite then do
    let (dictKey, numbers) := Numeric.numericKey key.toComposite
    let outs ← Numeric.replaceNumericString (Dicts.relookup ds) word numbers
    return outs.map fun o => ⟨dictKey, key.okuri, !s.okuri.isEmpty, word, none, o⟩
  else
    return [⟨key.toComposite, key.okuri, !s.okuri.isEmpty, word, none, word⟩]

/-- lib.rs:594-657 `exit_register_mode`. -/
def exitRegister (e : Env) (c : Ctx) (word : Str) : R Ctx :=
  match c.below with
  | [] => .ok c
  | s :: rest =>
    let c := { c with below := rest, top := s }
    if word.isEmpty then .ok (c.mapTop State.abortToPrevious)
    else do
      let c := c.mapTop fun s => { s with mode := .direct }
      let cs ← registered c.dicts c.top word
      let c := c.mapTop (·.addCandidates cs)
      return c.confirmCurrent e

/-- lib.rs:659-662 `set_input_mode`. -/
def setInputMode (c : Ctx) (im : InputMode) : Ctx := c.mapTop fun s => { s with inputMode := im }

/-- lib.rs:671-716 `output_converted_kana_if_any` (its result is not used). -/
def outputConverted (e : Env) (c : Ctx) (im : InputMode) (cm : CompositionMode) : Ctx :=
  match c.kanaConv.convertGreedy c.top.pre with
  | some (kana, carry) =>
    match cm with
    | .direct => (c.mapTop fun s => (s.pushFor (e.kanaForm.adjust im kana) .direct).clearPre).setCarryOver carry
    | .preComposition => (c.mapTop fun s => (s.pushFor kana .preComposition).clearPre).setCarryOver carry
    | .preCompositionOkurigana =>
      (c.mapTop fun s => (s.pushFor kana .preCompositionOkurigana).clearPre).setCarryOver carry
    | _ => c
  | none => c

/-- lib.rs:1290-1313 `try_next_candidate`. -/
def tryNextCandidate (e : Env) (c : Ctx) (cm : CompositionMode) (im : InputMode) : R Ctx :=
  if cm ≠ .compositionSelection then do
    let c ← (c.outputConverted e im cm).updateCandidateList
    if !c.top.kana.isEmpty && c.top.cands.cands.isEmpty then return c.enterRegister cm
    else if !c.top.cands.cands.isEmpty then return c.setCompositionMode .compositionSelection
    else return c
  else do
    let n ← c.top.cands.hasNext e.prof
    if !n then return c.enterRegister cm
    else do
      let s ← c.top.forward e.prof
      return { c with top := s }

/-- lib.rs:1316-1340 `try_next_completion`. -/
def tryNextCompletion (e : Env) (c : Ctx) (cm : CompositionMode) (im : InputMode) : R Ctx :=
  if cm ≠ .completion then do
    let c ← (c.outputConverted e im cm).updateCompletionList
    if !c.top.kana.isEmpty && c.top.cands.cands.isEmpty then return c
    else if !c.top.cands.cands.isEmpty then return c.setCompositionMode .completion
    else return c
  else do
    let n ← c.top.cands.hasNext e.prof
    if !n then return c
    else do
      let s ← c.top.forward e.prof
      return ({ c with top := s } : Ctx).setCompositionMode .completion

/-- `str::ends_with`. -/
def endsWith (s suffix : Str) : Bool := suffix.isSuffixOf s

/-- `for _ in 0..n { self.current_state().delete(); }` (lib.rs:1361-1363). -/
def deleteN (s : State) : Nat → State
  | 0 => s
  | n + 1 => deleteN s.delete.1 n

/-- lib.rs:1344-1376 `auto_start_henkan`: `raw_to_composite` is read once, before the loop; the first matching keyword
is used. -/
def autoStartHenkan (e : Env) (c : Ctx) : R Ctx :=
  if c.top.mode ≠ .preComposition then .error .assertFailed
  else
    let raw := c.top.compositeKey.toComposite
    match c.config.keywords.find? fun suffix => !decide (raw = suffix) && endsWith raw suffix with
    | some suffix =>
      let c := c.mapTop fun s => (deleteN s suffix.length).setPostfix suffix
      c.tryNextCandidate e .preComposition c.top.inputMode
    | none => .ok c

/-- lib.rs:775-805 `transition_composition_mode_by_capital_letter`. -/
def transitionByCapital (c : Ctx) (ev : KeyEvent) (initial : CompositionMode) (done : Bool) : Ctx × Bool :=
  if ev.isUpper && !done && initial = .direct then
    ((c.setCompositionMode .preComposition).mapTop fun s => { s with capital := true }, true)
  else if ev.isUpper && !c.top.kana.isEmpty && !done && initial = .preComposition then
    ((c.setCompositionMode .preCompositionOkurigana).mapTop fun s => { s with capital := true }, true)
  else (c, false)

/-- lib.rs:844-859: the last part of the okurigana branch of `input_converted_kana`. -/
def startOkuriHenkan (c : Ctx) (carry : List Keysym) : R Ctx :=
  if carry.isEmpty && !c.top.kana.isEmpty then do
    let c ← c.updateCandidateList
    if c.top.cands.cands.isEmpty then return c.enterRegister c.top.mode
    else return c.setCompositionMode .compositionSelection
  else .ok c

/-- lib.rs:810-865 `input_converted_kana`. -/
def inputConvertedKana (e : Env) (c : Ctx) (kana : Str) (carry : List Keysym) (didChange : Bool)
    (initialPre : List Keysym) : R Ctx :=
  match c.top.mode with
  | .direct => .ok ((c.appendConverted e kana).setCarryOver carry)
  | .preComposition => ((c.mapTop (·.push kana)).setCarryOver carry).autoStartHenkan e
  | .preCompositionOkurigana =>
    let c :=
      if didChange && !initialPre.isEmpty && !carry.isEmpty then c.mapTop (·.pushFor kana .preComposition)
      else c.mapTop (·.push kana)
    (c.setCarryOver carry).startOkuriHenkan carry
  | _ => .ok c

/-- lib.rs:1380-1404 `input_as_continuous_kana` (its result is not used). -/
def inputAsContinuous (c : Ctx) (ev : KeyEvent) : Ctx :=
  match c.top.mode with
  | .direct | .preComposition | .preCompositionOkurigana =>
    c.setUnconverted (c.kanaConv.nextUnprocessedState ev c.top.pre)
  | _ => c

/-- lib.rs:1583-1598 `abort`. -/
def abort (c : Ctx) : Ctx :=
  let c := c.mapTop fun s => s.clearPre.consolidate.clearCandidateList
  let before := c.top.mode
  let c := if before = .direct then c.abortRegister else c
  let c := c.mapTop State.abortToPrevious
  if before = .preCompositionOkurigana ∧ c.top.mode = .preComposition then c.mapTop State.abortToPrevious else c

/-- One iteration of the loop of `process_instructions` (lib.rs:1188-1286); `some b` is `return b`. -/
def instruction (e : Env) (c : Ctx) (i : Instruction) (cm : CompositionMode) (im : InputMode) : R (Ctx × Option Bool) :=
  match i with
  | .changeCompositionMode m => .ok (c.setCompositionMode m, none)
  | .changeInputMode m => .ok (c.setInputMode m, none)
  | .forceKanaConvert m => .ok (c.outputConverted e m cm, none)
  | .clearUnconvertedInputs => .ok (c.mapTop State.clearPre, none)
  | .clearKanaConvertedInputs => .ok (c.mapTop State.clearKanas, none)
  | .clearUnconfirmedInputs => .ok (c.mapTop State.clearUnconfirmed, none)
  | .abort => .ok (c.abort, none)
  | .confirmComposition => .ok (c.confirmCurrent e, none)
  | .passthroughKeyEvent => .ok (c, some false)
  | .confirmAs m => .ok (c.confirmKana e m, none)
  | .confirmDirect =>
    if c.depth > 1 then do
      let c ← c.exitRegister e c.top.confirmed
      return (c, some true)
    else .ok (c, some false)
  | .purge => .ok (c.purgeCurrent, none)
  | .nextCandidatePointer => do
    let s ← c.top.forward e.prof
    return ({ c with top := s }, none)
  | .previousCandidatePointer => .ok (c.mapTop State.backward, none)
  | .delete => .ok ({ c with top := c.top.delete.1 }, some c.top.delete.2)
  | .tryNextCandidate => do
    let c ← c.tryNextCandidate e cm im
    return (c, none)
  | .tryPreviousCandidate =>
    if c.top.mode ≠ .compositionSelection then .ok (c, none)
    else if !c.top.cands.hasPrevious then
      .ok ((c.mapTop fun s => s.consolidate.clearCandidateList).setCompositionMode .preComposition, none)
    else .ok (c.mapTop State.backward, none)
  | .tryNextCompletion => do
    let c ← c.tryNextCompletion e cm im
    return (c, none)
  | .tryPreviousCompletion =>
    if c.top.mode ≠ .completion then .ok (c, none)
    else if c.top.cands.hasPrevious then .ok (c.mapTop State.backward, none)
    else .ok (c, none)
  | .finishKeyEvent => .ok (c, none)

/-- The loop of lib.rs:1188-1286 `process_instructions`; the last line returns `!instructions.is_empty()`. -/
def runInstructions (e : Env) (cm : CompositionMode) (im : InputMode) (nonEmpty : Bool) :
    Ctx → List Instruction → R (Ctx × Bool)
  | c, [] => .ok (c, nonEmpty)
  | c, i :: is => do
    let (c, r) ← c.instruction e i cm im
    match r with
    | some b => return (c, b)
    | none => runInstructions e cm im nonEmpty c is

/-- lib.rs:1188-1286 `process_instructions`. -/
def processInstructions (e : Env) (c : Ctx) (is : List Instruction) (cm : CompositionMode) (im : InputMode) :
    R (Ctx × Bool) :=
  runInstructions e cm im (!is.isEmpty) c is

/-- lib.rs:1140-1143: the end of the key-symbol branch. -/
def finishSymbol (e : Env) (c : Ctx) : R (Ctx × Bool) :=
  if c.top.mode = .preComposition then do
    let c ← c.autoStartHenkan e
    return (c, true)
  else .ok (c, true)

/-- lib.rs:995-1138: a key with a character which made no conversion together with the pending keys `pre`;
`initial` is the composition mode. -/
def symbolInput (e : Env) (c : Ctx) (ev : KeyEvent) (ch : Char) (pre : List Keysym) : R (Ctx × Bool) :=
  let initial := c.top.mode
  let im := c.top.inputMode
  match KanaBuilder.convertPeriods ch c.config.period c.config.comma with
  | some w =>
    let c := (c.outputConverted e im initial).mapTop State.clearPre
    match c.top.mode with
    | .direct => (c.appendConverted e w).finishSymbol e
    | .preComposition | .preCompositionOkurigana => (c.mapTop fun s => (s.push w).clearPre).finishSymbol e
    | _ => .ok (c, false)
  | none =>
    if c.kanaConv.canContinue ev pre then (c.inputAsContinuous ev).finishSymbol e
    else if ev.isUpper && c.kanaConv.canContinueLower ev pre then
      ((c.transitionByCapital ev initial c.top.capital).1.inputAsContinuous ev.toLower).finishSymbol e
    else
      match c.kanaConv.convertNonPartial (KanaBuilder.combineRaw ev []) with
      | some (kana, carry) => do
        let c ← c.inputConvertedKana e kana carry false pre
        return (c, true)
      | none =>
        match c.kanaConv.convertNonPartial (KanaBuilder.combineLower ev []) with
        | some (kana, carry) =>
          if ev.isUpper then do
            let (c, did) := c.transitionByCapital ev initial false
            let c ← c.inputConvertedKana e kana carry did pre
            return (c, true)
          else c.finishSymbol e
        | none =>
          if c.kanaConv.canContinue ev [] then
            (((c.outputConverted e im initial).mapTop State.clearPre).inputAsContinuous ev).finishSymbol e
          else if c.kanaConv.canContinueLower ev [] then
            let c := (c.transitionByCapital ev initial c.top.capital).1
            (((c.outputConverted e im initial).mapTop State.clearPre).inputAsContinuous ev.toLower).finishSymbol e
          else if ev.isAsciiInputtable then
            let c := (c.outputConverted e im initial).mapTop State.clearPre
            match c.top.mode with
            | .direct | .preComposition | .preCompositionOkurigana => (c.mapTop (·.push [ch])).finishSymbol e
            | _ => .ok (c, false)
          else .ok (c, false)

/-- lib.rs:944-1144: input in a mode with romaji conversion; `pre` are the keys pending before the event. -/
def romInput (e : Env) (c : Ctx) (ev : KeyEvent) (pre : List Keysym) : R (Ctx × Bool) :=
  match c.kanaConv.convertNonPartial (KanaBuilder.combineRaw ev pre) with
  | some (kana, carry) => do
    let c ← c.inputConvertedKana e kana carry false pre
    return (c, true)
  | none =>
    match if ev.isUpper then c.kanaConv.convertNonPartial (KanaBuilder.combineLower ev pre) else none with
    | some (kana, carry) => do
      let (c, did) := c.transitionByCapital ev c.top.mode c.top.capital
      let c ← c.inputConvertedKana e kana carry did pre
      return (c, true)
    | none =>
      match ev.symbolChar e.xkb with
      | some ch => c.symbolInput e ev ch pre
      | none => .ok (c, false)

/-- lib.rs:1145-1183: ascii input in a mode without romaji conversion. -/
def plainInput (e : Env) (c : Ctx) (ev : KeyEvent) : Ctx × Bool :=
  match c.top.mode with
  | .direct =>
    match ev.symbolChar e.xkb with
    | some ch =>
      match c.top.inputMode with
      | .ascii => (c.mapTop (·.push [ch]), true)
      | .zenkaku => (c.appendConverted e (e.asciiForm.adjustChar ch), true)
      | _ => (c, false)
    | none => (c, false)
  | .abbreviation =>
    match ev.symbolChar e.xkb with
    | some ch => (c.mapTop (·.push [ch]), true)
    | none => (c, false)
  | _ => (c, false)

/-- lib.rs:918-930 `will_be_processed`. -/
def willBeProcessed (c : Ctx) (ev : KeyEvent) (pre : List Keysym) : Bool :=
  (ev.isModifierlessInput && (hasRom2kanaConversion c.top.inputMode c.top.mode &&
      (c.kanaConv.canContinue ev pre || c.kanaConv.canContinue ev []))) ||
    (!hasRom2kanaConversion c.top.inputMode c.top.mode && ev.isAsciiInputtable)

/-- lib.rs:910-1184: a key which is not a command. -/
def charInput (e : Env) (c : Ctx) (ev : KeyEvent) : R (Ctx × Bool) :=
  if !ev.isModifierlessInput then .ok (c, false)
  else
    let pre := c.top.pre
    let c :=
      if (c.top.mode = .compositionSelection ∨ c.top.mode = .completion) ∧ c.willBeProcessed ev pre then
        c.confirmCurrent e
      else c
    if hasRom2kanaConversion c.top.inputMode c.top.mode then c.romInput e ev pre
    else if ev.isAsciiInputtable then .ok (c.plainInput e ev)
    else .ok (c, false)

/-- lib.rs:879-893 `skip_command`. -/
def skipCommand (c : Ctx) (ev : KeyEvent) : Bool :=
  ev.isModifierlessInput && (hasRom2kanaConversion c.top.inputMode c.top.mode &&
    ((c.kanaConv.convertNonPartial (KanaBuilder.combineLower ev c.top.pre)).isSome ||
      (c.kanaConv.convertNonPartial (KanaBuilder.combineRaw ev c.top.pre)).isSome))

/-- lib.rs:873-1184 `process_key_event_inner_v2`. -/
def processInner (e : Env) (c : Ctx) (ev : KeyEvent) : R (Ctx × Bool) :=
  if c.skipCommand ev then c.charInput e ev
  else do
    match ← c.cmds.getInstruction e.prof ev c.top.inputMode c.top.mode with
    | some is => c.processInstructions e is c.top.mode c.top.inputMode
    | none => c.charInput e ev

/-- lib.rs:722-729 `process_key_event`. -/
def processKeyEvent (e : Env) (c : Ctx) (ev : KeyEvent) : R (Ctx × Bool) :=
  if Modifier.contains ev.modifiers Modifier.RELEASE then .ok (c, false) else c.processInner e ev

/-- lib.rs:1418-1437 `will_process`. -/
def willProcess (e : Env) (c : Ctx) (ev : KeyEvent) : R Bool := do
  let cmd ← c.cmds.getInstruction e.prof ev c.top.inputMode c.top.mode
  let rom := hasRom2kanaConversion c.top.inputMode c.top.mode
  return cmd.isSome || (ev.isModifierlessInput &&
    ((rom && (c.kanaConv.canContinue ev c.top.pre || c.kanaConv.canContinue ev [])) ||
      (!rom && ev.isAsciiInputtable)))

/-- lib.rs:1449-1458 `process_key_events`: the results of the single events are ignored. -/
def processKeyEvents (e : Env) (c : Ctx) : List KeyEvent → R Ctx
  | [] => .ok c
  | ev :: evs => do
    let (c, _) ← c.processKeyEvent e ev
    c.processKeyEvents e evs

/-- `state_stack.get_mut(0)`: the outermost level. -/
def bottom (c : Ctx) : State := c.below.getLast?.getD c.top

/-- Replaces the outermost level. -/
def mapBottom (c : Ctx) (f : State → State) : Ctx :=
  match c.below with
  | [] => { c with top := f c.top }
  | s :: rest => { c with below := (s :: rest).dropLast ++ [f ((s :: rest).getLast (by simp))] }

/-- lib.rs:412-426 `retrieve_output`. -/
def retrieveOutput (c : Ctx) (polling : Bool) : Ctx × Option Str :=
  if c.bottom.confirmed.isEmpty then (c, none)
  else (if polling then c.mapBottom State.flushConfirmed else c, some c.bottom.confirmed)

/-- lib.rs:353-355 `poll_output`. -/
def pollOutput (c : Ctx) : Ctx × Option Str := c.retrieveOutput true

/-- lib.rs:364-378 `get_preedit`: the loop over the states and the closing brackets. -/
def preedit (e : Env) (c : Ctx) : Str :=
  let r := c.states.foldl (fun (acc : Str × Nat) s =>
    let result := acc.1 ++ s.preeditString e s.inputMode
    if s.mode = .register then (result ++ c%"【", acc.2 + 1) else (result, acc.2)) ([], 0)
  r.1 ++ List.replicate r.2 '】'

/-- lib.rs:385-392 `get_preedit_detail`. -/
def preeditDetail (e : Env) (c : Ctx) : List StateInfo := c.states.map fun s => s.preeditDetail e s.inputMode

/-- lib.rs:219-221 `skk_context_get_current_candidate_count_rs`. -/
def candidateCount (c : Ctx) : Nat := c.top.cands.cands.length

/-- lib.rs:231-236 `skk_context_get_current_candidates_rs`. -/
def candidates (c : Ctx) : List Candidate := c.top.cands.cands

/-- lib.rs:246-259 `skk_context_get_current_candidate_cursor_position_rs`; `none` is the error. -/
def cursorPosition (c : Ctx) : Option Nat := if c.top.cands.cands.isEmpty then none else some c.top.cands.cursor

/-- lib.rs:269-294 `skk_context_select_candidate_at_rs`; `i` is an `i32`, `len as i32` is modelled as exact. -/
def selectCandidateAt (c : Ctx) (i : Int) : Ctx × Bool :=
  let len := c.top.cands.cands.length
  if len = 0 then (c, false)
  else if i < 0 then
    ((c.mapTop fun s => s.consolidate.clearCandidateList).setCompositionMode .preComposition, true)
  else if i ≥ len then
    ((c.mapTop fun s => (s.setPointer (len - 1)).1).enterRegister .compositionSelection, true)
  else (c.mapTop fun s => (s.setPointer i.toNat).1, true)

/-- lib.rs:304-310 `skk_context_confirm_candidate_at_rs`. -/
def confirmCandidateAt (e : Env) (c : Ctx) (i : Nat) : Ctx × Bool :=
  let (s, ok) := c.top.setPointer i
  let c := { c with top := s }
  if ok then (c.confirmCurrent e, true) else (c, false)

end Ctx

/-- The state-changing calls of the API of a context. -/
inductive Op where
  /-- lib.rs:722 `process_key_event` -/
  | key (ev : KeyEvent)
  /-- lib.rs:353 `poll_output` -/
  | poll
  /-- lib.rs:136 `skk_context_reset_rs` -/
  | reset
  /-- lib.rs:150 `skk_context_set_input_mode_rs` -/
  | setInputMode (m : InputMode)
  /-- lib.rs:142 `skk_context_set_composition_mode` -/
  | setCompositionMode (m : CompositionMode)
  /-- lib.rs:269 `skk_context_select_candidate_at_rs` -/
  | selectAt (i : Int)
  /-- lib.rs:304 `skk_context_confirm_candidate_at_rs` -/
  | confirmAt (i : Nat)
  /-- lib.rs:312 `skk_context_set_auto_start_henkan_keywords_rs` -/
  | setKeywords (l : List Str)
  /-- lib.rs:319 `skk_context_set_period_style_rs` -/
  | setPeriod (p : PeriodStyle)
  /-- lib.rs:323 `skk_context_set_comma_style_rs` -/
  | setComma (p : CommaStyle)
  /-- lib.rs:1480 `set_rule_inner` -/
  | setRule (cmds : CommandRule) (kana : KanaBuilder)
  /-- lib.rs:767 `set_dictionaries` -/
  | setDictionaries (ds : List CskkDict)

/-- The effect of one call. -/
def Ctx.step (e : Env) (c : Ctx) : Op → R Ctx
  | .key ev => do
    let r ← c.processKeyEvent e ev
    return r.1
  | .poll => .ok c.pollOutput.1
  | .reset => .ok c.reset
  | .setInputMode m => .ok (c.setInputMode m)
  | .setCompositionMode m => .ok (c.setCompositionMode m)
  | .selectAt i => .ok (c.selectCandidateAt i).1
  | .confirmAt i => .ok (c.confirmCandidateAt e i).1
  | .setKeywords l => .ok { c with config := { c.config with keywords := l } }
  | .setPeriod p => .ok { c with config := { c.config with period := p } }
  | .setComma p => .ok { c with config := { c.config with comma := p } }
  | .setRule cmds kana => .ok { c with cmds := cmds, kanaConv := kana }
  | .setDictionaries ds => .ok { c with dicts := ds }

end Cskk
