import Verif.Model.RuleLoad

/-!
# What a rule file says (`src/rule.rs`, `src/command_handler/instruction.rs`, `src/skk_modes.rs`)

The file after TOML parsing (crate `toml`): the table `conversion`, and the other tables of tables. TOML forbids two equal keys in
one table. The deserialization made by `serde` from the annotations of rule.rs:9-91 is modelled by hand: a missing section or input mode is
empty (`#[serde(default)]`), unknown ones are ignored, keys and instructions are read with `FromStr` (`DeserializeFromStr`), and
each entry is inserted into the `HashMap` in the order of the file.
-/

namespace Cskk

/-- skk_modes.rs:26-36 `InputMode::from_str`. -/
def InputMode.fromStr (s : Str) : Option InputMode :=
  if s = c%"Hiragana" then some .hiragana
  else if s = c%"Katakana" then some .katakana
  else if s = c%"HankakuKatakana" then some .hankakuKatakana
  else if s = c%"Zenkaku" then some .zenkaku
  else if s = c%"Ascii" then some .ascii
  else none

/-- skk_modes.rs:66-77 `CompositionMode::from_str`. -/
def CompositionMode.fromStr (s : Str) : Option CompositionMode :=
  if s = c%"Direct" then some .direct
  else if s = c%"PreComposition" then some .preComposition
  else if s = c%"PreCompositionOkurigana" then some .preCompositionOkurigana
  else if s = c%"CompositionSelection" then some .compositionSelection
  else if s = c%"Abbreviation" then some .abbreviation
  else if s = c%"Register" then some .register
  else if s = c%"Completion" then some .completion
  else none

namespace Instruction

/-- instruction.rs:51-79: the names without an argument. -/
def simple (s : Str) : Option Instruction :=
  if s = c%"Abort" then some .abort
  else if s = c%"ClearUnconvertedInputs" then some .clearUnconvertedInputs
  else if s = c%"ClearKanaConvertedInputs" then some .clearKanaConvertedInputs
  else if s = c%"ClearUnconfirmedInputs" then some .clearUnconfirmedInputs
  else if s = c%"FinishKeyEvent" then some .finishKeyEvent
  else if s = c%"NextCandidatePointer" then some .nextCandidatePointer
  else if s = c%"PreviousCandidatePointer" then some .previousCandidatePointer
  else if s = c%"ConfirmComposition" then some .confirmComposition
  else if s = c%"ConfirmDirect" then some .confirmDirect
  else if s = c%"Purge" then some .purge
  else if s = c%"Delete" then some .delete
  else if s = c%"TryNextCandidate" then some .tryNextCandidate
  else if s = c%"TryPreviousCandidate" then some .tryPreviousCandidate
  else if s = c%"PassthroughKeyEvent" then some .passthroughKeyEvent
  else if s = c%"TryNextCompletion" then some .tryNextCompletion
  else if s = c%"TryPreviousCompletion" then some .tryPreviousCompletion
  else if s = c%"ConfirmAsHiragana" then some (.confirmAs .hiragana)
  else if s = c%"ConfirmAsKatakana" then some (.confirmAs .katakana)
  else if s = c%"ConfirmAsJISX0201" then some (.confirmAs .hankakuKatakana)
  else if s = c%"FlushPreviousCarryOver" then some .clearUnconvertedInputs
  else if s = c%"FlushConvertedKana" then some .clearKanaConvertedInputs
  else if s = c%"DeleteDirect" then some .delete
  else if s = c%"DeletePrecomposition" then some .delete
  else none

/-- The alternatives of the regular expression of instruction.rs:81-85. -/
def inputModeNames : List Str := [c%"Hiragana", c%"Katakana", c%"HankakuKatakana", c%"Zenkaku", c%"Ascii"]

/-- The alternatives of the regular expression of instruction.rs:101-105. -/
def compositionModeNames : List Str :=
  [c%"Direct", c%"PreComposition", c%"PreCompositionOkurigana", c%"CompositionSelection", c%"Abbreviation", c%"Register",
    c%"Completion"]

/-- `\((A|B|…)\)` at the beginning of the text: the alternative which matches. (No alternative followed by `)` is the beginning of
another one followed by `)`, so the order does not matter.) -/
def bracketed (names : List Str) (s : Str) : Option Str := names.find? fun n => ('(' :: n ++ [')']).isPrefixOf s

/-- `(.*)\((A|B|…)\)` from the beginning of a line: `.*` is greedy, so the last possible place in the line counts. -/
def captureLine (names : List Str) : Str → Option (Str × Str)
  | [] => none
  | c :: cs =>
    match captureLine names cs with
    | some (p, n) => some (c :: p, n)
    | none => (bracketed names (c :: cs)).map fun n => ([], n)

/-- `Regex::captures` for the unanchored `(.*)\((A|B|…)\)`: the leftmost match, and `.` does not match a line feed; so the first line
which has a match counts, from its beginning. -/
def captures (names : List Str) (s : Str) : Option (Str × Str) := (splitOn '\n' s).findSome? (captureLine names)

/-- instruction.rs:87-99: the instructions with an input mode. The `expect` cannot fail, the regular expression lists the names
which `InputMode::from_str` knows (`Props/RuleText.lean`). -/
def withInputMode (s : Str) : Option Instruction := do
  let (name, mode) ← captures inputModeNames s
  let m ← InputMode.fromStr mode
  if name = c%"ChangeInputMode" then some (.changeInputMode m)
  else if name = c%"ForceKanaConvert" then some (.forceKanaConvert m)
  else if name = c%"ConfirmAs" then some (.confirmAs m)
  else if name = c%"OutputNNIfAny" then some (.forceKanaConvert m)
  else none

/-- instruction.rs:106-117: the instruction with a composition mode. -/
def withCompositionMode (s : Str) : Option Instruction := do
  let (name, mode) ← captures compositionModeNames s
  let m ← CompositionMode.fromStr mode
  if name = c%"ChangeCompositionMode" then some (.changeCompositionMode m) else none

/-- instruction.rs:50-120 `Instruction::from_str`; `none` is the error. -/
def fromStr (s : Str) : Option Instruction :=
  match simple s with
  | some i => some i
  | none =>
    match withInputMode s with
    | some i => some i
    | none => withCompositionMode s

end Instruction

namespace RuleText

/-- A rule file after TOML parsing: rule.rs:9-14. -/
structure Toml where
  /-- `[conversion]`: key text, carry-over text, converted text -/
  conversion : Option (List (Str × Str × Str))
  /-- `[section.inputmode]` with lines `"key" = ["instruction", …]` -/
  sections : List (Str × List (Str × List (Str × List Str)))

/-- rule.rs:30-44: the fields of `CskkCommandRule` (the misspelling is the code's). -/
def sectionMode (s : Str) : Option CompositionMode :=
  if s = c%"direct" then some .direct
  else if s = c%"pre_composition" then some .preComposition
  else if s = c%"pre_compisition_okurigana" then some .preCompositionOkurigana
  else if s = c%"composition_selection" then some .compositionSelection
  else if s = c%"abbreviation" then some .abbreviation
  else if s = c%"completion" then some .completion
  else none

/-- rule.rs:78-91: the fields of `CskkCommandRuleInner`. -/
def tableMode (s : Str) : Option InputMode :=
  if s = c%"hiragana" then some .hiragana
  else if s = c%"katakana" then some .katakana
  else if s = c%"hankakukatakana" then some .hankakuKatakana
  else if s = c%"zenkaku" then some .zenkaku
  else if s = c%"ascii" then some .ascii
  else none

/-- `Vec<Instruction>` from the list of texts. -/
def instructions : List Str → Option (List Instruction)
  | [] => some []
  | s :: ss => do
    let i ← Instruction.fromStr s
    let is ← instructions ss
    return i :: is

/-- `HashMap::insert`, on an association list. -/
def insert {κ α : Type} [DecidableEq κ] (m : List (κ × α)) (k : κ) (a : α) : List (κ × α) :=
  match m with
  | [] => [(k, a)]
  | (k', a') :: m => if k' = k then (k, a) :: m else (k', a') :: insert m k a

/-- `HashMap<CskkKeyEvent, Vec<Instruction>>` from a table, entry by entry; `.ok none` is the error. -/
def table (x : Xkb) (m : List (KeyEvent × List Instruction)) :
    List (Str × List Str) → R (Option (List (KeyEvent × List Instruction)))
  | [] => .ok (some m)
  | (k, is) :: rest => do
    match ← KeyEvent.fromStr x k with
    | none => return none
    | some ev =>
      match instructions is with
      | none => return none
      | some is => table x (insert m ev is) rest

/-- rule.rs:80-91 `CskkCommandRuleInner`: the tables with a known name. -/
def inner (x : Xkb) (cm : CompositionMode) : List (Str × List (Str × List Str)) →
    R (Option (List ((CompositionMode × InputMode) × List (KeyEvent × List Instruction))))
  | [] => .ok (some [])
  | (name, entries) :: rest =>
    match tableMode name with
    | none => inner x cm rest
    | some im => do
      match ← table x [] entries with
      | none => return none
      | some t =>
        match ← inner x cm rest with
        | none => return none
        | some ts => return some (((cm, im), t) :: ts)

/-- rule.rs:31-44 `CskkCommandRule`: the sections with a known name. -/
def commands (x : Xkb) : List (Str × List (Str × List (Str × List Str))) →
    R (Option (List ((CompositionMode × InputMode) × List (KeyEvent × List Instruction))))
  | [] => .ok (some [])
  | (name, tables) :: rest =>
    match sectionMode name with
    | none => commands x rest
    | some cm => do
      match ← inner x cm tables with
      | none => return none
      | some ts =>
        match ← commands x rest with
        | none => return none
        | some us => return some (ts ++ us)

/-- rule.rs:58-75 `get_inner_ruleset`, 104-116 `get_command_map`: the table for the modes. -/
def rule (ts : List ((CompositionMode × InputMode) × List (KeyEvent × List Instruction))) : CommandRule :=
  fun cm im => ((ts.find? fun t => decide (t.1 = (cm, im))).map (·.2)).getD []

/-- rule.rs:125-131 `load_rule_file` after TOML parsing, with lib.rs:1480-1486 `set_rule_inner`: `KanaBuilder::new` and
`ConfigurableCommandHandler::new`. `.ok none` is the error. -/
def load (x : Xkb) (t : Toml) : R (Option RuleLoad.Rule) := do
  match ← commands x t.sections with
  | none => return none
  | some ts =>
    match t.conversion with
    | none => return none
    | some conv => return some ⟨rule ts, KanaBuilder.fromRule x conv⟩

end RuleText
end Cskk
