import Verif.Props.KeyEvent
import Verif.Props.RuleFile
import Verif.Model.RuleTexts
import Verif.Model.DefaultRule

/-!
# C60: the shipped rule files
-/

namespace Cskk.Props.RuleFiles
open Cskk.Spec.RuleText RuleFile

/-- C60: the default rule of the other theorems is what the shipped file says. -/
theorem default_text : Cskk.RuleText.load Assets.xkb Assets.defaultText = .ok (some ⟨Assets.defaultCommands, Assets.defaultKana⟩) :=
  load_computed (by decide +kernel) (fun m im => by cases m <;> cases im <;> decide +kernel) rfl (by decide +kernel)

/-- C60: the same for the AZIK rule. -/
theorem azik_text : Cskk.RuleText.load Assets.xkb Assets.azikText = .ok (some ⟨Assets.azikCommands, Assets.azikKana⟩) :=
  load_computed (by decide +kernel) (fun m im => by cases m <;> cases im <;> decide +kernel) rfl (by decide +kernel)

/-- C60: the shipped files have no name twice. -/
theorem shipped_proper : Proper Assets.defaultText ∧ Proper Assets.azikText :=
  ⟨⟨by decide +kernel, by decide +kernel⟩, by decide +kernel, by decide +kernel⟩

/-- C60, a finding: a rule file in which a key is written with a Japanese character first is not rejected: reading it panics. -/
theorem kana_key_panics (x : Xkb) (conv : Option (List (Str × Str × Str))) (rest : Str) (h : KeyEvents.Trimmed ('あ' :: rest))
    (is : List Str) (es : List (Str × List Str)) :
    Cskk.RuleText.load x ⟨conv, [(c%"direct", [(c%"hiragana", ('あ' :: rest, is) :: es)])]⟩ = .error .index := by
  have hk := KeyEvents.key_description_panics x rest h
  unfold Cskk.RuleText.load Cskk.RuleText.commands
  have h1 : Cskk.RuleText.sectionMode c%"direct" = some .direct := by decide +kernel
  have h2 : Cskk.RuleText.tableMode c%"hiragana" = some .hiragana := by decide +kernel
  simp only [h1, Cskk.RuleText.inner, h2, Cskk.RuleText.table, hk, bind, Except.bind]

/-- Two spellings of one key (the last counts), an older spelling, surplus text, and a section and a table which do not count. -/
def sample : Cskk.RuleText.Toml :=
  ⟨some [(c%"a", [], c%"あ")],
   [(c%"direct", [(c%"hiragana", [(c%"C-g", [c%"Abort"]), (c%"(control g)", [c%"DeleteDirect", c%"ChangeInputMode(Ascii), really"])]),
                  (c%"romaji", [(c%"no such key", [c%"no such instruction"])])]),
    (c%"pre_composition_okurigana", [(c%"hiragana", [(c%"?", [])])])]⟩

/-- The hypotheses of `commands_in_effect` are met by it; what is in effect. -/
example : Proper sample ∧ (Cskk.RuleText.commands Assets.xkb sample.sections).toOption.bind id =
    some [((.direct, .hiragana), [(⟨0x67, 4⟩, [.delete, .changeInputMode .ascii])])] :=
  ⟨⟨by decide +kernel, by decide +kernel⟩, by decide +kernel⟩

/-- Texts which are not instructions: misspelt, with a space, with the mode twice. -/
example : [c%"abort", c%" Abort", c%"Abort()", c%"ChangeInputMode", c%"ChangeInputMode(Roman)", c%"ChangeInputMode(Ascii)(Ascii)",
    c%"ChangeCompositionMode(Ascii)"].all (fun s => (Instruction.fromStr s).isNone) = true := by decide +kernel

end Cskk.Props.RuleFiles
