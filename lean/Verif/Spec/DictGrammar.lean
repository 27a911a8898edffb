import Verif.Spec.DictText

/-!
# The format of a line of an SKK dictionary

A line is a reading, blanks, a slash, and items: words, with or without annotation, and groups of words for one okurigana, each
followed by a slash.
-/

namespace Cskk.Spec.DictGrammar
open Cskk.Spec.DictText

/-- A word (with its annotation) as it stands in a line. -/
def wordText (c : DictCand) : Str :=
  match c.annotation with
  | some a => c.kouho ++ ';' :: a
  | none => c.kouho

/-- A word which may stand in a line: not empty, without the characters `/;[]`; the annotation is not empty and without `/;`. -/
structure ProperWord (c : DictCand) : Prop where
  word : c.kouho ≠ [] ∧ '/' ∉ c.kouho ∧ ';' ∉ c.kouho ∧ '[' ∉ c.kouho ∧ ']' ∉ c.kouho
  note : ∀ a, c.annotation = some a → a ≠ [] ∧ '/' ∉ a ∧ ';' ∉ a

/-- The words `a`, `b`, … as `a/b/…/` -/
def words (cs : List DictCand) : Str := cs.flatMap fun c => wordText c ++ ['/']

/-- The words `a`, `b`, … as `/a/b…` -/
def wordsBefore (cs : List DictCand) : Str := cs.flatMap fun c => '/' :: wordText c

/-- What stands between the slashes of a line. -/
inductive Item where
  | word (c : DictCand)
  | group (okuri : Str) (cs : List DictCand)

/-- The text of an item, with the slash behind it: `word/`, or `[okuri/word/…/]/` -/
def Item.text : Item → Str
  | .word c => wordText c ++ ['/']
  | .group okuri cs => '[' :: (okuri ++ '/' :: (words cs ++ [']', '/']))

/-- An item which may stand in a line. The label of a group is in kana. -/
def Item.Proper : Item → Prop
  | .word c => ProperWord c
  | .group okuri cs => okuri ≠ [] ∧ (∀ x ∈ okuri, OkuriKana x) ∧ cs ≠ [] ∧ ∀ c ∈ cs, ProperWord c

/-- A bare word in kana directly before a group is read as that group's label (`Props.DictFile.kana_word_before_group_misread`):
this does not occur. -/
def NoKanaBeforeGroup (items : List Item) : Prop :=
  ∀ c okuri cs, [Item.word c, .group okuri cs] <:+: items → ¬ (c.annotation = none ∧ ∀ x ∈ c.kouho, OkuriKana x)

/-- The whole line. -/
def lineText (reading : Str) (blanks : Nat) (items : List Item) : Str :=
  reading ++ (List.replicate blanks ' ' ++ '/' :: items.flatMap Item.text)

/-- The words which the items list for the okurigana `g` (`""`: for any), in their order. -/
def Item.wordsFor (g : Str) : Item → List DictCand
  | .word c => if g = [] then [c] else []
  | .group okuri cs => if okuri = g then cs else []

/-- The text after the blanks of a line without brackets, and the words which are read from it. The first form is the
documented one when `bs` is empty. Two slashes in a row, or a missing first slash with one more at the end, are tolerated. -/
def Spells (s : Str) (ws : List DictCand) : Prop :=
  ∃ as bs, ws = as ++ bs ∧ ws ≠ [] ∧ (∀ c ∈ ws, ProperWord c) ∧
    (s = '/' :: (words as ++ wordsBefore bs) ∨ (as ≠ [] ∧ s = words as ++ wordsBefore bs ++ ['/']))

end Cskk.Spec.DictGrammar
