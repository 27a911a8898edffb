import Verif.Spec.History
import Verif.Spec.Keys

/-!
# Keys which are taken, and levels on which typing cannot go on
-/

namespace Cskk.Spec.Taken

/-- The kana input modes. -/
def Kana (m : InputMode) : Prop := m = .hiragana ∨ m = .katakana ∨ m = .hankakuKatakana

instance (m : InputMode) : Decidable (Kana m) := inferInstanceAs (Decidable (_ ∨ _ ∨ _))

/-- A list of words is shown. -/
def ListShown (m : CompositionMode) : Prop := m = .compositionSelection ∨ m = .completion

instance (m : CompositionMode) : Decidable (ListShown m) := inferInstanceAs (Decidable (_ ∨ _))

/-- Typing cannot go on: a registration without a level for its text, a list of words without a word, or a reading while the input mode is none for
kana. -/
def Lost (c : Ctx) : Prop :=
  c.top.mode = .register ∨ (ListShown c.top.mode ∧ c.top.cands.current = none) ∨
    ((c.top.mode = .preComposition ∨ c.top.mode = .preCompositionOkurigana) ∧ ¬ Kana c.top.inputMode)

instance (c : Ctx) : Decidable (Lost c) := inferInstanceAs (Decidable (_ ∨ (_ ∧ _) ∨ (_ ∧ _)))

/-- The key of a printable character. -/
def Character (ev : KeyEvent) : Prop := ∃ ch : Char, ev = ⟨ch.toNat, 0⟩ ∧ 0x20 ≤ ch.toNat ∧ ch.toNat ≤ 0x7e

/-- The calls of a session: keys which the rule binds to no cancellation, polls, a click on a word of the list which is shown, settings; an input
mode is chosen by a call only for kana or while nothing is composed, and a reset is made only on the outermost level while no list is shown. -/
def Uncancelled (c : Ctx) : Op → Prop
  | .key ev => ∀ cm im, ∀ k ∈ c.cmds cm im, KeyMatches k.1 ev → Instruction.abort ∉ k.2
  | .poll | .setKeywords _ | .setPeriod _ | .setComma _ | .setDictionaries _ => True
  | .selectAt _ | .confirmAt _ => ListShown c.top.mode
  | .setInputMode m => c.top.mode = .direct ∨ Kana m
  | .reset => c.below = [] ∧ ¬ ListShown c.top.mode
  | .setCompositionMode _ | .setRule _ _ => False

end Cskk.Spec.Taken
