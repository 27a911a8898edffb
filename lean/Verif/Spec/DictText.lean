import Verif.Model.DictEntry

/-!
# Specification vocabulary for dictionary files

Which words, and which entries, the file format of cskk can represent. Stated on the texts alone, without the
escaping, printing and parsing functions.
-/

namespace Cskk.Spec.DictText

/-- `/` and `;` are the two characters the writer escapes. -/
def Special (c : Char) : Prop := c = '/' ∨ c = ';'

instance : DecidablePred Special := fun c => inferInstanceAs (Decidable (c = '/' ∨ c = ';'))

/-- A word that survives escaping. If it has a special character it must have no backslash and no line break, and two
special characters may not be adjacent; otherwise it must not itself look like an escaped word. -/
structure Representable (w : Str) : Prop where
  escaped : (∃ c ∈ w, Special c) → '\\' ∉ w ∧ '\n' ∉ w ∧ ∀ a b, [a, b] <:+: w → ¬ (Special a ∧ Special b)
  verbatim : (∀ c ∈ w, ¬ Special c) → ¬ c%"(concat " <:+: w

/-- The kana a strict-okurigana group may be labelled with. -/
def OkuriKana (c : Char) : Prop := 0x3041 ≤ c.toNat ∧ c.toNat ≤ 0x3095

instance : DecidablePred OkuriKana := fun c => inferInstanceAs (Decidable (_ ∧ _))

/-- A candidate that one line can carry. -/
structure CandOk (c : DictCand) : Prop where
  word : c.kouho ≠ [] ∧ Representable c.kouho ∧ '[' ∉ c.kouho ∧ ']' ∉ c.kouho ∧ '\n' ∉ c.kouho
  note : ∀ a, c.annotation = some a → a ≠ [] ∧ Representable a ∧ '\n' ∉ a

/-- An entry that one line can carry. -/
structure EntryOk (e : DictEntry) : Prop where
  /-- the reading is plain text without blanks -/
  reading : e.midashi ≠ [] ∧ ' ' ∉ e.midashi ∧ '\n' ∉ e.midashi ∧ '/' ∉ e.midashi ∧ ';' ∉ e.midashi
  /-- the groups are those of a `BTreeMap`: ascending keys -/
  sorted : e.cands.Pairwise fun a b => strLt a.1 b.1 = true
  some : e.cands ≠ []
  groups : ∀ g ∈ e.cands, g.2 ≠ [] ∧ (∀ c ∈ g.2, CandOk c) ∧ ∀ x ∈ g.1, OkuriKana x
  /-- nom's `permutation` reads a pure-kana word directly before a strict group as that group's label -/
  unambiguous : ∀ cs gs, e.cands = ([], cs) :: gs → gs ≠ [] →
    ∀ c, cs.getLast? = Option.some c → c.annotation = none → ¬ ∀ x ∈ c.kouho, OkuriKana x

end Cskk.Spec.DictText
