import Verif.Model.Basic

/-!
# Specification of a finite map with a recency order

A recency map is just the list of its entries, most recently used first.
-/

namespace Cskk.Spec

abbrev Recency (V : Type) := List (Str × V)

namespace Recency
variable {V : Type}

def erase (l : Recency V) (k : Str) : Recency V := l.filter fun e => e.1 ≠ k
def find (l : Recency V) (k : Str) : Option V := (List.find? (fun e => e.1 = k) l).map (·.2)

/-- Insert or replace: the entry becomes the most recent one. -/
def push (l : Recency V) (k : Str) (v : V) : Recency V := (k, v) :: erase l k

/-- Access with update: a present entry becomes the most recent one. -/
def touch (l : Recency V) (k : Str) (f : V → V) : Recency V :=
  match find l k with
  | none => l
  | some v => (k, f v) :: erase l k

/-- Operations of the container. -/
inductive Op (V : Type) where
  | push (k : Str) (v : V)
  | getMut (k : Str) (f : V → V)
  | remove (k : Str)

def step (l : Recency V) : Op V → Recency V
  | .push k v => l.push k v
  | .getMut k f => l.touch k f
  | .remove k => l.erase k

/-- `s` is the ascending view of `l`: the same entries, with strictly increasing keys. -/
def IsSortedView (l : Recency V) (s : List (Str × V)) : Prop :=
  s.Perm l ∧ s.Pairwise (fun a b => strLt a.1 b.1 = true)

end Recency
end Cskk.Spec
