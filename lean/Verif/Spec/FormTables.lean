import Verif.Model.Basic

/-!
# The written forms which the shipped tables produce (C23, C24)

Given by the order of the characters in Unicode, not by tables.
-/

namespace Cskk.Spec.FormTables

/-- The full-width form of a character: the characters from `!` to `~` are repeated, in order, from U+FF01 on. Six characters have another form. -/
def wide (c : Char) : Char :=
  if c = ' ' then '　' else if c = '"' then '”' else if c = '\'' then '‘' else if c = '-' then '−' else if c = '~' then '〜'
  else if c = '`' then c
  else if 0x21 ≤ c.toNat ∧ c.toNat ≤ 0x7e then Char.ofNat (c.toNat + 0xfee0) else c

/-- The katakana of a character: the hiragana (from `ぁ` to `ゖ`, and `ゝ` and `ゞ`) are repeated, in order, 96 code points further. -/
def katakana (c : Char) : Char :=
  if (0x3041 ≤ c.toNat ∧ c.toNat ≤ 0x3096) ∨ c = 'ゝ' ∨ c = 'ゞ' then Char.ofNat (c.toNat + 0x60) else c

/-- The katakana of a text: that of its characters, but `う` with a separate voice mark becomes one character. -/
def katakanas : Str → Str
  | 'う' :: '゛' :: rest => 'ヴ' :: katakanas rest
  | c :: rest => katakana c :: katakanas rest
  | [] => []

/-- The half-width forms in the order of Unicode, from U+FF61 to U+FF9F. -/
def halfOrder : Str := c%"。「」、・をぁぃぅぇぉゃゅょっーあいうえおかきくけこさしすせそたちつてとなにぬねのはひふへほまみむめもやゆよらりるれろわん゛゜"

/-- The characters with a voice mark, which follow in Unicode the ones without. -/
def voiced : Str := c%"がぎぐげござじずぜぞだぢづでどばびぶべぼ"

/-- The characters with the other mark. -/
def halfVoiced : Str := c%"ぱぴぷぺぽ"

/-- The half-width form of a character which has one of its own. -/
def half₁ (c : Char) : Str :=
  match halfOrder.idxOf? c with
  | some i => [Char.ofNat (0xff61 + i)]
  | none => [c]

/-- The half-width form of a character. -/
def half (c : Char) : Str :=
  if c ∈ voiced then half₁ (Char.ofNat (c.toNat - 1)) ++ half₁ '゛'
  else if c ∈ halfVoiced then half₁ (Char.ofNat (c.toNat - 2)) ++ half₁ '゜'
  else if c = 'ゔ' then half₁ 'う' ++ half₁ '゛'
  else if c = 'ゐ' then half₁ 'い' else if c = 'ゑ' then half₁ 'え' else if c = 'ゎ' then half₁ 'わ'
  else if c = 'ゕ' then half₁ 'か' else if c = 'ゖ' then half₁ 'け'
  else if c = '．' then c%"." else if c = '，' then c%","
  else half₁ c

end Cskk.Spec.FormTables
