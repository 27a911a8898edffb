import Verif.Model.RuleText

/-!
# The language of rule files: what an instruction text, and a table of commands, should mean
-/

namespace Cskk.Spec.RuleText

/-- The names of the input modes. -/
def inputModeName : InputMode → Str
  | .hiragana => c%"Hiragana"
  | .katakana => c%"Katakana"
  | .hankakuKatakana => c%"HankakuKatakana"
  | .zenkaku => c%"Zenkaku"
  | .ascii => c%"Ascii"

/-- The names of the composition modes. -/
def compositionModeName : CompositionMode → Str
  | .direct => c%"Direct"
  | .preComposition => c%"PreComposition"
  | .preCompositionOkurigana => c%"PreCompositionOkurigana"
  | .compositionSelection => c%"CompositionSelection"
  | .abbreviation => c%"Abbreviation"
  | .register => c%"Register"
  | .completion => c%"Completion"

/-- `name(argument)` -/
def call (name arg : Str) : Str := name ++ '(' :: (arg ++ [')'])

/-- The documented spelling of an instruction (/repo/assets/rules/default/rule.toml:281-308). -/
def spelling : Instruction → Str
  | .abort => c%"Abort"
  | .changeInputMode m => call c%"ChangeInputMode" (inputModeName m)
  | .forceKanaConvert m => call c%"ForceKanaConvert" (inputModeName m)
  | .clearUnconvertedInputs => c%"ClearUnconvertedInputs"
  | .clearKanaConvertedInputs => c%"ClearKanaConvertedInputs"
  | .clearUnconfirmedInputs => c%"ClearUnconfirmedInputs"
  | .changeCompositionMode m => call c%"ChangeCompositionMode" (compositionModeName m)
  | .finishKeyEvent => c%"FinishKeyEvent"
  | .passthroughKeyEvent => c%"PassthroughKeyEvent"
  | .tryNextCandidate => c%"TryNextCandidate"
  | .tryPreviousCandidate => c%"TryPreviousCandidate"
  | .nextCandidatePointer => c%"NextCandidatePointer"
  | .previousCandidatePointer => c%"PreviousCandidatePointer"
  | .confirmComposition => c%"ConfirmComposition"
  | .confirmAs m => call c%"ConfirmAs" (inputModeName m)
  | .confirmDirect => c%"ConfirmDirect"
  | .purge => c%"Purge"
  | .delete => c%"Delete"
  | .tryNextCompletion => c%"TryNextCompletion"
  | .tryPreviousCompletion => c%"TryPreviousCompletion"

/-- The instructions which take no mode. -/
def NoArgument : Instruction → Prop
  | .changeInputMode _ | .forceKanaConvert _ | .changeCompositionMode _ | .confirmAs _ => False
  | _ => True

/-- Spellings of older versions, which are still understood. -/
def older : List (Str × Instruction) :=
  [(c%"ConfirmAsHiragana", .confirmAs .hiragana), (c%"ConfirmAsKatakana", .confirmAs .katakana),
   (c%"ConfirmAsJISX0201", .confirmAs .hankakuKatakana), (c%"FlushPreviousCarryOver", .clearUnconvertedInputs),
   (c%"FlushConvertedKana", .clearKanaConvertedInputs), (c%"DeleteDirect", .delete), (c%"DeletePrecomposition", .delete)]

/-- The text contains none of the names in brackets. -/
def NoCall (names : List Str) (s : Str) : Prop := ∀ n ∈ names, ¬ ('(' :: (n ++ [')'])) <:+: s

/-- The text says `name(mode)`, with more around it than one would expect: `name` begins a line, before it there may be lines
in which no mode of this kind is in brackets, and behind it there may be anything in which none is, on the same line, and
anything at all on later lines. -/
def SaysCall (names : List Str) (s name mode : Str) : Prop :=
  ∃ before tail after, s = before ++ (name ++ '(' :: (mode ++ ')' :: tail)) ++ after ∧
    (before = [] ∨ before.getLast? = some '\n') ∧ (after = [] ∨ after.head? = some '\n') ∧
    '\n' ∉ name ∧ '\n' ∉ tail ∧ mode ∈ names ∧ NoCall names before ∧ NoCall names tail

def inputModeNames : List Str := [.hiragana, .katakana, .hankakuKatakana, .zenkaku, .ascii].map inputModeName

def compositionModeNames : List Str :=
  [.direct, .preComposition, .preCompositionOkurigana, .compositionSelection, .abbreviation, .register, .completion].map
    compositionModeName

/-- The instructions with an input mode, under the name they are written with. -/
def inputCalls : List (Str × (InputMode → Instruction)) :=
  [(c%"ChangeInputMode", .changeInputMode), (c%"ForceKanaConvert", .forceKanaConvert), (c%"ConfirmAs", .confirmAs),
   (c%"OutputNNIfAny", .forceKanaConvert)]

/-- The text says the instruction `f m`. -/
def SaysInput (s : Str) (i : Instruction) : Prop :=
  ∃ name f m, (name, f) ∈ inputCalls ∧ i = f m ∧ SaysCall inputModeNames s name (inputModeName m)

/-- The instruction which a text means: a documented spelling or an older one, exactly, or a `name(mode)` in the sense above; an
input mode comes before a composition mode. -/
def Means (s : Str) (i : Instruction) : Prop :=
  (NoArgument i ∧ s = spelling i) ∨ (s, i) ∈ older ∨ SaysInput s i ∨
    ((∃ m, i = .changeCompositionMode m ∧ SaysCall compositionModeNames s c%"ChangeCompositionMode" (compositionModeName m)) ∧
      ¬ ∃ j, SaysInput s j)

/-- The texts mean the instructions, one by one. -/
inductive MeanAll : List Str → List Instruction → Prop
  | nil : MeanAll [] []
  | cons (s : Str) (i : Instruction) (ss : List Str) (is : List Instruction) : Means s i → MeanAll ss is → MeanAll (s :: ss) (i :: is)

/-- The section of a rule file for a composition mode (the misspelling is the code's and that of the shipped files). There are
no commands while a word is registered one level above. -/
def sectionName : CompositionMode → Option Str
  | .direct => some c%"direct"
  | .preComposition => some c%"pre_composition"
  | .preCompositionOkurigana => some c%"pre_compisition_okurigana"
  | .compositionSelection => some c%"composition_selection"
  | .abbreviation => some c%"abbreviation"
  | .completion => some c%"completion"
  | .register => none

/-- The table of a section for an input mode. -/
def tableName : InputMode → Str
  | .hiragana => c%"hiragana"
  | .katakana => c%"katakana"
  | .hankakuKatakana => c%"hankakukatakana"
  | .zenkaku => c%"zenkaku"
  | .ascii => c%"ascii"

/-- `entries` are the lines of the table for these modes. -/
def HasTable (t : Cskk.RuleText.Toml) (m : CompositionMode) (im : InputMode) (entries : List (Str × List Str)) : Prop :=
  ∃ sect tables, sectionName m = some sect ∧ (sect, tables) ∈ t.sections ∧ (tableName im, entries) ∈ tables

/-- TOML: no name occurs twice in a table. -/
structure Proper (t : Cskk.RuleText.Toml) : Prop where
  sections : (t.sections.map (·.1)).Nodup
  tables : ∀ s ∈ t.sections, (s.2.map (·.1)).Nodup

/-- The text of a key is that key. -/
def IsKey (x : Xkb) (k : Str) (ev : KeyEvent) : Prop := KeyEvent.fromStr x k = .ok (some ev)

/-- The last line of the table for this key lists these instructions. -/
def Lists (x : Xkb) (entries : List (Str × List Str)) (ev : KeyEvent) (is : List Instruction) : Prop :=
  ∃ l₁ k ts l₂, entries = l₁ ++ (k, ts) :: l₂ ∧ IsKey x k ev ∧ MeanAll ts is ∧ ∀ e ∈ l₂, ¬ IsKey x e.1 ev

/-- Every line of every table which is used can be read. -/
def Readable (x : Xkb) (t : Cskk.RuleText.Toml) : Prop :=
  ∀ m im entries, HasTable t m im entries → ∀ e ∈ entries, (∃ ev, IsKey x e.1 ev) ∧ ∃ is, MeanAll e.2 is

end Cskk.Spec.RuleText
