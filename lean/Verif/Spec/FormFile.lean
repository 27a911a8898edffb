import Verif.Spec.TomlText

/-!
# What the texts of the form files say
-/

namespace Cskk.Spec.FormFile
open Cskk.TomlText (Doc Value)

/-- The array of texts with this name; if there is none, it counts as empty. -/
def HasArray (d : Doc) (name : Str) (l : List Str) : Prop := (name, Value.list l) ∈ d.root ∨ (l = [] ∧ ∀ e ∈ d.root, e.1 ≠ name)

/-- The table with this name has these entries, all texts; if there is none, it counts as empty. -/
def HasTable (d : Doc) (name : Str) (ps : List (Str × Str)) : Prop :=
  ([name], ps.map fun e => (e.1, Value.text e.2)) ∈ d.tables ∨ (ps = [] ∧ ∀ t ∈ d.tables, t.1 ≠ [name])

/-- What is written for an ASCII character: the text in the second array at the place where the character stands for the last time in the first; the character
itself if it does not stand there or if the arrays are not equally long. -/
def Written (hankaku zenkaku : List Str) (c : Char) (out : Str) : Prop :=
  (hankaku.length = zenkaku.length ∧ ∃ i : Nat, hankaku[i]? = some [c] ∧ zenkaku[i]? = some out ∧ ∀ j : Nat, i < j → hankaku[j]? ≠ some [c]) ∨
  ((hankaku.length ≠ zenkaku.length ∨ [c] ∉ hankaku) ∧ out = [c])

end Cskk.Spec.FormFile
