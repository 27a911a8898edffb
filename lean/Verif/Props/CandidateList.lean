import Verif.Model.CandidateList

/-!
# C06 — the candidate cursor (list level)
-/

namespace Cskk.Props.CandList
open Cskk CandidateList
variable {κ α : Type}

/-- Operations on the candidate list. -/
inductive Op (κ α : Type) where
  | set (k : κ) (cs : List α)
  | select (i : Nat)
  | add (cs : List α)
  | forward
  | backward
  | clear (k : κ)

/-- One operation, possibly panicking. -/
def step (p : Profile) (l : CandidateList κ α) : Op κ α → R (CandidateList κ α)
  | .set k cs => .ok (l.set k cs)
  | .select i => .ok (l.setSelectionPointer i).1
  | .add cs => .ok (l.addNew cs)
  | .forward => (fun r => r.1) <$> l.forward p
  | .backward => .ok l.backward.1
  | .clear k => .ok (l.clear k)

def run (p : Profile) (l : CandidateList κ α) : List (Op κ α) → R (CandidateList κ α)
  | [] => .ok l
  | o :: os => do let l' ← step p l o; run p l' os

/-- What a user relies on: if anything is offered, the cursor denotes an offered candidate. -/
def CursorOk (l : CandidateList κ α) : Prop := l.cands ≠ [] → l.cursor < l.cands.length

/-- Strengthened to be inductive: on the empty list the cursor is 0. -/
def Inv (l : CandidateList κ α) : Prop := l.cursor < l.cands.length ∨ (l.cands = [] ∧ l.cursor = 0)

/-- Every `add` adds something (the real precondition; see `add_nothing_breaks_cursor`). -/
def AddsSomething : Op κ α → Prop
  | .add cs => cs ≠ []
  | _ => True

theorem inv_cursorOk {l : CandidateList κ α} (h : Inv l) : CursorOk l := by
  intro hne; rcases h with h | h
  · exact h
  · exact absurd h.1 hne

theorem step_inv (p : Profile) (l l' : CandidateList κ α) (o : Op κ α) (hi : Inv l) (ha : AddsSomething o)
    (hf : p.checked = true ∨ l.cands ≠ []) (h : step p l o = .ok l') : Inv l' := by
  unfold Inv at hi
  cases o with
  | set k cs =>
    simp only [step, CandidateList.set, Except.ok.injEq] at h; subst h
    cases cs <;> simp [Inv]
  | select i =>
    simp only [step, setSelectionPointer, Except.ok.injEq] at h; subst h
    split
    · rename_i heq
      left
      have := (List.getElem?_eq_some_iff.mp heq).1
      simpa using this
    · exact hi
  | add cs =>
    simp only [step, addNew, Except.ok.injEq] at h; subst h
    left
    have : 0 < cs.length := List.length_pos_iff.mpr ha
    simp; omega
  | forward =>
    simp only [step, forward, usizeSub] at h
    rcases hf with hf | hf
    · simp only [hf, if_true] at h
      by_cases h1 : 1 ≤ l.cands.length
      · simp only [h1, if_true] at h
        simp only [bind, Except.bind] at h
        split at h <;> simp [Functor.map, Except.map, pure, Except.pure] at h <;> subst h
        · left; simp; omega
        · exact hi
      · simp [h1, bind, Except.bind, Functor.map, Except.map] at h
    · have h1 : 1 ≤ l.cands.length := List.length_pos_iff.mpr hf
      simp only [h1, if_true] at h
      simp only [bind, Except.bind] at h
      split at h <;> simp [Functor.map, Except.map, pure, Except.pure] at h <;> subst h
      · left; simp; omega
      · exact hi
  | backward =>
    simp only [step, backward, Except.ok.injEq] at h; subst h
    split
    · rcases hi with hi | hi
      · left; simp; omega
      · omega
    · exact hi
  | clear k =>
    simp only [step, CandidateList.clear, Except.ok.injEq] at h; subst h
    right; exact ⟨rfl, rfl⟩

theorem run_inv (p : Profile) (hp : p.checked = true) (l l' : CandidateList κ α) (os : List (Op κ α))
    (hi : Inv l) (ha : ∀ o ∈ os, AddsSomething o) (h : run p l os = .ok l') : Inv l' := by
  induction os generalizing l with
  | nil => simp [run] at h; subst h; exact hi
  | cons o os ih =>
    simp only [run, bind, Except.bind] at h
    split at h
    · cases h
    · rename_i l1 h1
      exact ih l1 (step_inv p l l1 o hi (ha o (by simp)) (Or.inl hp) h1) (fun o ho => ha o (by simp [ho])) h

/-- **C06 (list level, debug profile).** Along every sequence of list operations in which every `add` adds at
least one candidate, the cursor always denotes an offered candidate (or the run stopped with a panic). -/
theorem cursor_in_range_checked (os : List (Op κ α)) (k : κ) (l : CandidateList κ α)
    (ha : ∀ o ∈ os, AddsSomething o) (h : run ⟨true⟩ (new k) os = .ok l) : CursorOk l :=
  inv_cursorOk (run_inv ⟨true⟩ rfl _ l os (Or.inr ⟨rfl, rfl⟩) ha h)

/-- `forward` is only called while something is offered. -/
def Guarded (p : Profile) (l : CandidateList κ α) : List (Op κ α) → Prop
  | [] => True
  | o :: os => ((match o with | .forward => l.cands ≠ [] | _ => True) ∧ AddsSomething o) ∧
      ∀ l', step p l o = .ok l' → Guarded p l' os

/-- **C06 (list level, every profile).** As above, for release builds as well, when `forward` is only called
on a non-empty list. Such a run never panics. -/
theorem cursor_in_range_guarded (p : Profile) (os : List (Op κ α)) (l : CandidateList κ α)
    (hi : Inv l) (hg : Guarded p l os) : ∃ l', run p l os = .ok l' ∧ CursorOk l' := by
  induction os generalizing l with
  | nil => exact ⟨l, rfl, inv_cursorOk hi⟩
  | cons o os ih =>
    obtain ⟨⟨hf, ha⟩, hrest⟩ := hg
    have hs : ∃ l1, step p l o = .ok l1 := by
      cases o <;> simp only [step] <;> try exact ⟨_, rfl⟩
      have h1 : 1 ≤ l.cands.length := List.length_pos_iff.mpr hf
      simp only [forward, usizeSub, h1, if_true, bind, Except.bind]
      split <;> exact ⟨_, rfl⟩
    obtain ⟨l1, h1⟩ := hs
    have hi1 : Inv l1 := by
      cases o with
      | forward => exact step_inv p l l1 _ hi ha (Or.inr hf) h1
      | set k cs => exact step_inv ⟨true⟩ l l1 (.set k cs) hi ha (Or.inl rfl) h1
      | select i => exact step_inv ⟨true⟩ l l1 (.select i) hi ha (Or.inl rfl) h1
      | add cs => exact step_inv ⟨true⟩ l l1 (.add cs) hi ha (Or.inl rfl) h1
      | backward => exact step_inv ⟨true⟩ l l1 .backward hi ha (Or.inl rfl) h1
      | clear k => exact step_inv ⟨true⟩ l l1 (.clear k) hi ha (Or.inl rfl) h1
    obtain ⟨l2, h2, h3⟩ := ih l1 hi1 (hrest l1 h1)
    exact ⟨l2, by simp [run, h1, bind, Except.bind, h2], h3⟩

/-- Non-vacuity: a run with several candidates which really moves the cursor. -/
example : run (κ := Nat) ⟨false⟩ (new 0) [.set 1 ['a', 'b', 'c'], .forward, .forward, .forward, .backward, .add ['d']]
    = .ok ⟨1, 3, ['a', 'b', 'c', 'd']⟩ := by decide
example : Guarded (κ := Nat) (α := Char) ⟨false⟩ (new 0) [.set 1 ['a', 'b'], .forward] := by
  refine ⟨⟨trivial, trivial⟩, ?_⟩
  intro l' h
  simp only [step, Except.ok.injEq] at h; subst h
  exact ⟨⟨by simp [CandidateList.set], trivial⟩, fun _ _ => trivial⟩

/-- Moving forward from the last candidate or backward from the first leaves the cursor in place and reports it. -/
theorem forward_at_end (p : Profile) (l : CandidateList κ α) (h : l.cursor + 1 = l.cands.length) :
    l.forward p = .ok (l, false) := by
  have h1 : 1 ≤ l.cands.length := by omega
  simp only [forward, usizeSub, h1, if_true, bind, Except.bind]
  rw [if_neg (by omega)]; rfl

theorem forward_moves (p : Profile) (l : CandidateList κ α) (h : l.cursor + 1 < l.cands.length) :
    l.forward p = .ok ({ l with cursor := l.cursor + 1 }, true) := by
  have h1 : 1 ≤ l.cands.length := by omega
  simp only [forward, usizeSub, h1, if_true, bind, Except.bind]
  rw [if_pos (by omega)]; rfl

/-- forward then backward returns to the same candidate. -/
theorem backward_forward (p : Profile) (l : CandidateList κ α) (h : l.cursor + 1 < l.cands.length) :
    ∃ l1, l.forward p = .ok (l1, true) ∧ l1.backward = (l, true) :=
  ⟨_, forward_moves p l h, by simp [backward]⟩

/-- `has_next` tells exactly whether `forward` will move, for an in-range cursor. -/
theorem hasNext_iff_forward (p : Profile) (l : CandidateList κ α) (h : l.cursor < l.cands.length) :
    ∃ b l', l.hasNext p = .ok b ∧ l.forward p = .ok (l', b) := by
  have h1 : 1 ≤ l.cands.length := by omega
  simp only [hasNext, forward, usizeSub, h1, if_true, bind, Except.bind, pure, Except.pure]
  split
  · exact ⟨true, _, by simp; omega, rfl⟩
  · exact ⟨false, _, by simp; omega, rfl⟩

/-- **Violation.** On the empty list `forward` panics in a debug build and, in a release build, moves the cursor
outside of the (empty) list. -/
theorem forward_empty_panics (k : κ) : (new k : CandidateList κ α).forward ⟨true⟩ = .error .overflow := by
  rfl
theorem forward_empty_wraps (k : κ) :
    (new k : CandidateList κ α).forward ⟨false⟩ = .ok (⟨k, 1, []⟩, true) := by
  rfl

/-- **Violation.** Adding an empty list of candidates to a non-empty list puts the cursor one past the end. -/
theorem add_nothing_breaks_cursor (l : CandidateList κ α) (h : l.cands ≠ []) : ¬ CursorOk (l.addNew []) := by
  intro hc
  have := hc (by simpa [addNew] using h)
  simp [addNew] at this
example : (⟨0, 0, ['a']⟩ : CandidateList Nat Char).cands ≠ [] := by decide

end Cskk.Props.CandList
