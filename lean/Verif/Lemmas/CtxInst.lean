import Verif.Lemmas.CtxInv

/-!
# Instances of the invariant principle
-/

namespace Cskk

/-- The reading used for lookups is not longer than the reading which is shown. -/
def RawLe (s : State) : Prop := s.raw.length ≤ s.kana.length

/-- No `ClearKanaConvertedInputs`. -/
def NoClearKana (_ : State) (i : Instruction) : Prop := i ≠ .clearKanaConvertedInputs

theorem RawLe.abort {s : State} (h : RawLe s) : RawLe s.abortToPrevious := by
  unfold State.abortToPrevious
  cases s.history.getLast? with
  | none => exact h
  | some m =>
    dsimp only
    split
    · simp only [RawLe, State.consolidate, List.length_append] at h ⊢; omega
    · exact h

theorem RawLe.delete {s : State} (h : RawLe s) : RawLe s.delete.1 := by
  unfold State.delete
  have hk : s.raw.length - 1 ≤ s.kana.length - 1 := by unfold RawLe at h; omega
  have hd : s.raw.length - 1 ≤ s.kana.length := by unfold RawLe at h; omega
  cases hm : s.mode <;> dsimp only
  case direct => split <;> exact h
  case preComposition =>
    split
    · exact h
    · split
      · simpa [RawLe, List.length_dropLast] using hk
      · simpa [RawLe, List.length_dropLast] using hd
  case abbreviation =>
    split
    · exact h
    · split
      · simpa [RawLe, List.length_dropLast] using hk
      · simpa [RawLe, List.length_dropLast] using hd
  case preCompositionOkurigana =>
    by_cases hp : s.pre = []
    · simp only [hp, ne_eq, not_true_eq_false, if_false]
      split <;> simpa [RawLe, List.length_dropLast] using hd
    · simp only [hp, ne_eq, not_false_eq_true, if_true]
      split <;> exact h
  all_goals exact h

theorem RawLe.inv : Inv RawLe RawLe (fun _ => True) NoClearKana where
  new := Nat.le_refl 0
  pushFor := by
    intro s w m h
    cases m <;> simp only [RawLe, State.pushFor, List.length_append] at h ⊢ <;> omega
  setPre := fun _ _ _ h => h
  setCandidates := fun _ _ h => h
  clearUnconfirmed := fun _ _ => Nat.le_refl 0
  clearKanas := fun _ _ h => absurd rfl h
  clearCandidateList := fun _ h => h
  clearAll := fun _ _ => Nat.le_refl 0
  consolidate := by
    intro s h
    simp only [RawLe, State.consolidate, List.length_append] at h ⊢; omega
  setPostfix := fun _ _ h => h
  changeMode := fun _ _ h _ => h
  abortToPrevious := fun _ h => h.abort
  resetToDefault := fun _ h => h
  cursor := fun _ _ h _ => h
  inputMode := fun _ _ h => h
  flush := fun _ h => h
  flushQ := fun _ h => h
  deleteAuto := fun _ h _ => h.delete
  delete := fun _ h _ => h.delete
  enter := fun _ _ h _ => h
  leave := fun _ h => h.abort
  exit := fun _ _ _ _ h _ _ _ _ => h
  mode := fun _ _ => trivial
  instr := fun _ _ _ _ => trivial
  mPre := trivial
  mOkuri := trivial
  mSel := trivial
  mComp := trivial

/-! ## Registration levels -/

/-- No registration mode in the history or as default. -/
def NoReg (s : State) : Prop := .register ∉ s.history ∧ s.defaultMode ≠ .register

/-- A level which is edited. -/
def Edited (s : State) : Prop := s.mode ≠ .register ∧ NoReg s

/-- A level which waits for a registration. -/
def Waiting (s : State) : Prop := s.mode = .register ∧ NoReg s

/-- No command sets the mode Register. -/
def NoRegCommand (_ : State) (i : Instruction) : Prop := i ≠ .changeCompositionMode .register

theorem NoReg.push {s : State} (h : NoReg s) {m : CompositionMode} (hm : m ≠ .register) :
    CompositionMode.register ∉ (if (s.history ++ [m]).length > HISTORY_MAX then (s.history ++ [m]).drop 1
      else s.history ++ [m]) := by
  have h1 : CompositionMode.register ∉ s.history ++ [m] := by
    intro hx
    rcases List.mem_append.mp hx with hx | hx
    · exact h.1 hx
    · rw [List.mem_singleton] at hx; exact hm hx.symm
  split
  · exact fun hx => h1 (List.mem_of_mem_drop hx)
  · exact h1

theorem NoReg.abort {s : State} (h : NoReg s) : Edited s.abortToPrevious := by
  unfold State.abortToPrevious
  cases hl : s.history.getLast? with
  | none => exact ⟨h.2, h⟩
  | some m =>
    dsimp only
    have hm : m ≠ .register := by
      intro hm; subst hm
      exact h.1 (List.mem_of_getLast? hl)
    have hd : CompositionMode.register ∉ s.history.dropLast := fun hx => h.1 (List.dropLast_subset _ hx)
    split
    · exact ⟨by simp, hd, h.2⟩
    · exact ⟨hm, hd, h.2⟩

theorem Edited.delete {s : State} (h : Edited s) : Edited s.delete.1 := by
  unfold State.delete
  cases hm : s.mode <;> dsimp only
  case direct => split <;> exact ⟨by simp, h.2⟩
  case preComposition =>
    split
    · exact ⟨by simp, h.2⟩
    · split <;> exact ⟨by simp, h.2⟩
  case abbreviation =>
    split
    · exact ⟨by simp, h.2⟩
    · split <;> exact ⟨by simp, h.2⟩
  case preCompositionOkurigana =>
    by_cases hp : s.pre = []
    · simp only [hp, ne_eq, not_true_eq_false, if_false]
      split <;> exact ⟨by simp, h.2⟩
    · simp only [hp, ne_eq, not_false_eq_true, if_true]
      split <;> exact ⟨by simp, h.2⟩
  all_goals exact h

theorem Edited.inv : Inv Edited Waiting (· ≠ .register) NoRegCommand where
  new := ⟨by simp [State.new], by simp [State.new], by simp [State.new]⟩
  pushFor := by intro s w m h; cases m <;> exact h
  setPre := fun _ _ _ h => h
  setCandidates := fun _ _ h => h
  clearUnconfirmed := fun _ h => h
  clearKanas := fun _ h _ => h
  clearCandidateList := fun _ h => h
  clearAll := fun _ h => ⟨h.1, by simp [State.clearAll], h.2.2⟩
  consolidate := fun _ h => h
  setPostfix := fun _ _ h => h
  changeMode := fun _ _ h hm => ⟨hm, h.2.push h.1, h.2.2⟩
  abortToPrevious := fun _ h => h.2.abort
  resetToDefault := fun _ h => ⟨h.2.2, by simp [State.resetToDefault], h.2.2⟩
  cursor := fun _ _ h _ => h
  inputMode := fun _ _ h => h
  flush := fun _ h => h
  flushQ := fun _ h => h
  deleteAuto := fun _ h _ => h.delete
  delete := fun _ h _ => h.delete
  enter := fun _ _ h hm => ⟨rfl, h.2.push hm, h.2.2⟩
  leave := fun _ h => h.2.abort
  exit := fun _ _ _ _ h _ _ _ _ => ⟨by simp [State.addCandidates], h.2⟩
  mode := fun _ h => h.1
  instr := fun _ m _ ha hm => ha (by rw [hm])
  mPre := by decide
  mOkuri := by decide
  mSel := by decide
  mComp := by decide

/-! ## Length of the history -/

/-- At most twenty remembered modes. -/
def Hist20 (s : State) : Prop := s.history.length ≤ 20

theorem Hist20.push {s : State} (h : Hist20 s) (m : CompositionMode) :
    (if (s.history ++ [m]).length > HISTORY_MAX then (s.history ++ [m]).drop 1 else s.history ++ [m]).length ≤ 20 := by
  unfold Hist20 at h
  unfold HISTORY_MAX
  split
  · rw [List.length_drop, List.length_append]; simp; omega
  · omega

theorem Hist20.abort {s : State} (h : Hist20 s) : Hist20 s.abortToPrevious := by
  unfold Hist20 at h
  unfold State.abortToPrevious
  cases s.history.getLast? with
  | none => exact h
  | some m =>
    have hd : s.history.dropLast.length ≤ 20 := by rw [List.length_dropLast]; omega
    dsimp only
    split <;> exact hd

theorem Hist20.delete {s : State} (h : Hist20 s) : Hist20 s.delete.1 := by
  unfold State.delete
  cases hm : s.mode <;> dsimp only
  case direct => split <;> exact h
  case preComposition =>
    split
    · exact h
    · split <;> exact h
  case abbreviation =>
    split
    · exact h
    · split <;> exact h
  case preCompositionOkurigana =>
    by_cases hp : s.pre = []
    · simp only [hp, ne_eq, not_true_eq_false, if_false]
      split <;> exact h
    · simp only [hp, ne_eq, not_false_eq_true, if_true]
      split <;> exact h
  all_goals exact h

theorem Hist20.inv : Inv Hist20 Hist20 (fun _ => True) (fun _ _ => True) where
  new := Nat.zero_le 20
  pushFor := by intro s w m h; cases m <;> exact h
  setPre := fun _ _ _ h => h
  setCandidates := fun _ _ h => h
  clearUnconfirmed := fun _ h => h
  clearKanas := fun _ h _ => h
  clearCandidateList := fun _ h => h
  clearAll := fun _ _ => Nat.zero_le 20
  consolidate := fun _ h => h
  setPostfix := fun _ _ h => h
  changeMode := fun _ _ h _ => h.push _
  abortToPrevious := fun _ h => h.abort
  resetToDefault := fun _ _ => Nat.zero_le 20
  cursor := fun _ _ h _ => h
  inputMode := fun _ _ h => h
  flush := fun _ h => h
  flushQ := fun _ h => h
  deleteAuto := fun _ h _ => h.delete
  delete := fun _ h _ => h.delete
  enter := fun _ _ h _ => h.push _
  leave := fun _ h => h.abort
  exit := fun _ _ _ _ h _ _ _ _ => h
  mode := fun _ _ => trivial
  instr := fun _ _ _ _ => trivial
  mPre := trivial
  mOkuri := trivial
  mSel := trivial
  mComp := trivial

end Cskk
