import Verif.Model.Dictionary

/-! # The merged list of the words of several dictionaries -/

namespace Cskk.Spec.Merge

/-- The list without repetitions: of each element the first occurrence. -/
def firsts : List DictCand → List DictCand
  | [] => []
  | c :: l => c :: (firsts l).filter fun d => decide (d ≠ c)

/-- The first note is smaller: missing, or smaller in the (lexicographic) order of the character codes. -/
def NoteLess : Option Str → Option Str → Prop
  | _, none => False
  | none, some _ => True
  | some a, some b => a.map Char.toNat < b.map Char.toNat

instance : (a b : Option Str) → Decidable (NoteLess a b)
  | none, none | some _, none => isFalse id
  | none, some _ => isTrue trivial
  | some a, some b => inferInstanceAs (Decidable (a.map Char.toNat < b.map Char.toNat))

/-- No entry for the same word has a greater annotation. -/
def Greatest (l : List DictCand) (d : DictCand) : Prop := ∀ x ∈ l, x.kouho = d.kouho → ¬ NoteLess d.annotation x.annotation

instance (l : List DictCand) (d : DictCand) : Decidable (Greatest l d) := by unfold Greatest; infer_instance

/-- The words in their order, each once, with the greatest annotation which is listed for it, where that entry stands first. -/
def merge (l : List DictCand) : List DictCand := (firsts l).filter fun d => decide (Greatest l d)

end Cskk.Spec.Merge
