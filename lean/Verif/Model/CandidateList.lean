import Verif.Model.Basic

/-!
# Model of `src/candidate_list.rs`

The candidate type is a parameter `α`, the composite key type is a parameter `κ`.
-/

namespace Cskk

/-- `src/candidate_list.rs:6-13` `struct CandidateList`. -/
structure CandidateList (κ α : Type) where
  toComposite : κ
  cursor : Nat
  cands : List α
  deriving Repr, DecidableEq

namespace CandidateList
variable {κ α : Type}

/-- `src/candidate_list.rs:16-22` `new`; `emptyKey` is `CompositeKey::new("", None)`. -/
def new (emptyKey : κ) : CandidateList κ α := ⟨emptyKey, 0, []⟩

/-- `src/candidate_list.rs:24-28` `set`. -/
def set (_l : CandidateList κ α) (k : κ) (cs : List α) : CandidateList κ α := ⟨k, 0, cs⟩

/-- `src/candidate_list.rs:36-43` `set_selection_pointer`. -/
def setSelectionPointer (l : CandidateList κ α) (i : Nat) : CandidateList κ α × Bool :=
  match l.cands[i]? with
  | some _ => ({ l with cursor := i }, true)
  | none => (l, false)

/-- `src/candidate_list.rs:53-63` `get_current_candidate` (the error message is dropped). -/
def current (l : CandidateList κ α) : Option α := l.cands[l.cursor]?

/-- `src/candidate_list.rs:65-71` `add_new_candidates`. The subtraction cannot underflow. -/
def addNew (l : CandidateList κ α) (cs : List α) : CandidateList κ α :=
  let all := l.cands ++ cs
  { l with cands := all, cursor := all.length - cs.length }

/-- `src/candidate_list.rs:81-83` `has_previous`. -/
def hasPrevious (l : CandidateList κ α) : Bool := l.cursor != 0

/-- `src/candidate_list.rs:85-87` `has_next`; `len() - 1` underflows on the empty list. -/
def hasNext (p : Profile) (l : CandidateList κ α) : R Bool := do
  let m ← usizeSub p l.cands.length 1
  return l.cursor != m

/-- `src/candidate_list.rs:89-97` `forward_candidate`; `len() - 1` underflows on the empty list. -/
def forward (p : Profile) (l : CandidateList κ α) : R (CandidateList κ α × Bool) := do
  let m ← usizeSub p l.cands.length 1
  if l.cursor < m then return ({ l with cursor := l.cursor + 1 }, true)
  else return (l, false)

/-- `src/candidate_list.rs:99-107` `backward_candidate`. -/
def backward (l : CandidateList κ α) : CandidateList κ α × Bool :=
  if l.cursor > 0 then ({ l with cursor := l.cursor - 1 }, true) else (l, false)

/-- `src/candidate_list.rs:109-113` `clear`; `to_composite.clear()` gives the empty key
(`src/dictionary/composite_key.rs:50-53`). -/
def clear (_l : CandidateList κ α) (emptyKey : κ) : CandidateList κ α := ⟨emptyKey, 0, []⟩

end CandidateList
end Cskk
