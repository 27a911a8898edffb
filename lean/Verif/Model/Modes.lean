import Verif.Model.Basic

/-! # Modes (`src/skk_modes.rs`) -/

namespace Cskk

/-- src/skk_modes.rs:8-21 -/
inductive InputMode where
  | hiragana | katakana | hankakuKatakana | zenkaku | ascii
  deriving Repr, DecidableEq

/-- src/skk_modes.rs:42-61 -/
inductive CompositionMode where
  | direct | preComposition | preCompositionOkurigana | compositionSelection | abbreviation | register | completion
  deriving Repr, DecidableEq

/-- src/skk_modes.rs:80-90 `has_rom2kana_conversion`. -/
def hasRom2kanaConversion (im : InputMode) (cm : CompositionMode) : Bool :=
  match cm with
  | .direct | .preComposition | .preCompositionOkurigana =>
    match im with
    | .hiragana | .katakana | .hankakuKatakana => true
    | _ => false
  | _ => false

/-- src/skk_modes.rs:94-100 `PeriodStyle`, `CommaStyle`. -/
inductive PeriodStyle where | ja | en
  deriving Repr, DecidableEq
inductive CommaStyle where | ja | en
  deriving Repr, DecidableEq

end Cskk
