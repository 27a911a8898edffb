import Verif.Model.CApi

/-!
# What a C program reads: single texts, and the description of the levels
-/

namespace Cskk.Spec

/-- A heap as the allocator leaves it: all strings in use have different addresses below `next`, NULL is not one. -/
def HeapOk (h : CHeap) : Prop :=
  0 < h.next ∧ (∀ p ∈ h.live, 0 < p.1 ∧ p.1 < h.next) ∧ (h.live.map (·.1)).Nodup

/-- A text which a C string can hold. -/
def NoNul (s : Str) : Prop := '\x00' ∉ s

instance (s : Str) : Decidable (NoNul s) := inferInstanceAs (Decidable (_ ∉ _))

/-- A pointer to a C string with the text `s`. -/
def Points (h : CHeap) (a : Nat) (s : Str) : Prop := h.read a = some s

/-- NULL for no text, else a pointer to it. -/
def PointsOpt (h : CHeap) (a : Nat) : Option Str → Prop
  | none => a = 0
  | some s => a ≠ 0 ∧ h.read a = some s

/-- The C description of a level says the same as the Rust one; the okurigana of a completion is not passed on. -/
def Describes (h : CHeap) : StateInfo → CApi.StateInfoFfi → Prop
  | .direct c u, .direct pc pu => Points h pc c ∧ PointsOpt h pu u
  | .preComposition c k o u, .preComposition pc pk po pu =>
    Points h pc c ∧ Points h pk k ∧ PointsOpt h po o ∧ PointsOpt h pu u
  | .preCompositionOkurigana c k o u, .preCompositionOkurigana pc pk po pu =>
    Points h pc c ∧ Points h pk k ∧ PointsOpt h po o ∧ PointsOpt h pu u
  | .compositionSelection c x o a, .compositionSelection pc px po pa =>
    Points h pc c ∧ Points h px x ∧ PointsOpt h po o ∧ PointsOpt h pa a
  | .register c k o x, .register pc pk po px => Points h pc c ∧ Points h pk k ∧ PointsOpt h po o ∧ PointsOpt h px x
  | .complete c o m d _ a, .complete pc po poo pm pd pk pa =>
    Points h pc c ∧ Points h po o ∧ poo = 0 ∧ Points h pm m ∧ Points h pd d ∧ pk = 0 ∧ PointsOpt h pa a
  | _, _ => False

/-- The texts of a level. -/
def textsOf : StateInfo → List Str
  | .direct c u => c :: u.toList
  | .preComposition c k o u => [c, k] ++ o.toList ++ u.toList
  | .preCompositionOkurigana c k o u => [c, k] ++ o.toList ++ u.toList
  | .compositionSelection c x o a => [c, x] ++ o.toList ++ a.toList
  | .register c k o x => [c, k] ++ o.toList ++ x.toList
  | .complete c o m d k a => [c, o, m, d] ++ k.toList ++ a.toList

/-- Element by element. -/
inductive All2 {α β} (r : α → β → Prop) : List α → List β → Prop
  | nil : All2 r [] []
  | cons {a b as bs} : r a b → All2 r as bs → All2 r (a :: as) (b :: bs)

end Cskk.Spec
