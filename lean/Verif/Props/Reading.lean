import Verif.Props.Cursor
import Verif.Props.Romaji

/-!
# C37, C38: the reading which is composed, and deleting from it
-/

namespace Cskk.Spec

/-- The instruction keeps the shown reading and the reading used for lookups together: okurigana which is already
converted is not deleted by Delete, and ClearKanaConvertedInputs (which no shipped rule uses) is not executed. -/
def KeepsReading (c : Ctx) (i : Instruction) : Prop :=
  i ≠ .clearKanaConvertedInputs ∧ (i = .delete → c.top.mode = .preCompositionOkurigana → c.top.pre ≠ [])

/-- Calls which only execute such instructions. -/
def KeepsReadingOp (e : Env) (c : Ctx) : Op → Prop
  | .key ev => c.KeyAdmissible e KeepsReading ev
  | _ => True

end Cskk.Spec

namespace Cskk.Props.Reading
open Spec

/-! ## C37 -/

/-- Both readings are the same. -/
def Same (s : State) : Prop := s.raw = s.kana

/-- The guard, on the current level. -/
def Guard (s : State) (i : Instruction) : Prop :=
  i ≠ .clearKanaConvertedInputs ∧ (i = .delete → s.mode = .preCompositionOkurigana → s.pre ≠ [])

theorem Same.abort {s : State} (h : Same s) : Same s.abortToPrevious := by
  unfold State.abortToPrevious
  cases s.history.getLast? with
  | none => exact h
  | some m =>
    dsimp only
    split
    · show s.raw ++ s.okuri = s.kana ++ s.okuri
      rw [show s.raw = s.kana from h]
    · exact h

theorem Same.delete {s : State} (h : Same s) (hg : s.mode = .preCompositionOkurigana → s.pre ≠ []) :
    Same s.delete.1 := by
  have hr : s.raw = s.kana := h
  unfold State.delete
  cases hm : s.mode <;> dsimp only
  case direct => split <;> exact h
  case preComposition =>
    split
    · exact h
    · split
      · simp [Same, hr]
      · rename_i hk
        simp only [ne_eq, Decidable.not_not] at hk
        simp [Same, hr, hk]
  case abbreviation =>
    split
    · exact h
    · split
      · simp [Same, hr]
      · rename_i hk
        simp only [ne_eq, Decidable.not_not] at hk
        simp [Same, hr, hk]
  case preCompositionOkurigana =>
    have hp := hg hm
    simp only [hp, ne_eq, not_false_eq_true, if_true]
    split <;> exact h
  all_goals exact h

theorem Same.inv : Inv Same Same (fun _ => True) Guard where
  new := rfl
  pushFor := by
    intro s w m h
    have hr : s.raw = s.kana := h
    cases m <;> simp [Same, State.pushFor, hr]
  setPre := fun _ _ _ h => h
  setCandidates := fun _ _ h => h
  clearUnconfirmed := fun _ _ => rfl
  clearKanas := fun _ _ h => absurd rfl h.1
  clearCandidateList := fun _ h => h
  clearAll := fun _ _ => rfl
  consolidate := by
    intro s h
    show s.raw ++ s.okuri = s.kana ++ s.okuri
    rw [show s.raw = s.kana from h]
  setPostfix := fun _ _ h => h
  changeMode := fun _ _ h _ => h
  abortToPrevious := fun _ h => h.abort
  resetToDefault := fun _ h => h
  cursor := fun _ _ h _ => h
  inputMode := fun _ _ h => h
  flush := fun _ h => h
  flushQ := fun _ h => h
  deleteAuto := fun _ h hm => h.delete fun h => absurd h hm
  delete := fun _ h hg => h.delete (hg.2 rfl)
  enter := fun _ _ h _ => h
  leave := fun _ h => h.abort
  exit := fun _ _ _ _ h _ _ _ _ => h
  mode := fun _ _ => trivial
  instr := fun _ _ _ _ => trivial
  mPre := trivial
  mOkuri := trivial
  mSel := trivial
  mComp := trivial

theorem readings_agree (e : Env) (r : CommandRule) (k : KanaBuilder) (im : InputMode) (cm : CompositionMode)
    (ds : List CskkDict) (c : Ctx) (h : Reach e (KeepsReadingOp e) (Ctx.new r k im cm ds) c) :
    ∀ s ∈ c.states, s.raw = s.kana := by
  have hg : c.Good Same Same := by
    refine Same.inv.reach (e := e) (r := True) (fun _ s _ => rfl)
      (c₀ := Ctx.new r k im cm ds) ⟨rfl, by intro s hs; cases hs⟩ ?_
    induction h with
    | init => exact .init
    | @step c c' op _ hg hs ih =>
      refine .step ih ?_ hs
      cases op <;> first | trivial | exact hg | exact Or.inr trivial
  intro s hs
  unfold Ctx.states at hs
  rcases List.mem_append.mp hs with h | h
  · exact hg.2 s (List.mem_reverse.mp h)
  · rw [List.mem_singleton] at h; subst h; exact hg.1

/-- **C37.** After any such calls, when a reading `shown` is composed and no key is pending, the conversion command
looks up, with the okurigana typed so far if any, the reading whose form in the current kana mode is shown; if there are
words, exactly these are offered, otherwise a registration is opened (unless ten levels are open). -/
theorem lookup_uses_shown_reading (e : Env) (r : CommandRule) (k : KanaBuilder) (im : InputMode) (cm : CompositionMode)
    (ds : List CskkDict) (c : Ctx) (h : Reach e (KeepsReadingOp e) (Ctx.new r k im cm ds) c)
    (hm : c.top.mode = .preComposition ∨ c.top.mode = .preCompositionOkurigana ∨ c.top.mode = .abbreviation)
    (hp : c.kanaConv.convertGreedy c.top.pre = none)
    (c' : Ctx) (res : Option Bool)
    (hc : c.instruction e .tryNextCandidate c.top.mode c.top.inputMode = .ok (c', res)) :
    ∃ reading okuri cs,
      (match c.top.preeditDetail e c.top.inputMode with
        | .preComposition _ shown _ _ => shown = e.kanaForm.adjust c.top.inputMode reading
        | .preCompositionOkurigana _ shown shownOkuri _ => shown = e.kanaForm.adjust c.top.inputMode reading ∧
            ∀ o, okuri = some o → shownOkuri = some (e.kanaForm.adjust c.top.inputMode o)
        | _ => False) ∧
      Dicts.getAll c.dicts ⟨reading, okuri⟩ = .ok cs ∧
      (cs ≠ [] → c'.candidates = cs ∧ c'.cursorPosition = some 0 ∧ c'.top.mode = .compositionSelection ∧
        c'.depth = c.depth) ∧
      (cs = [] → reading ≠ [] → c.depth < 10 → c'.depth = c.depth + 1 ∧ c'.top = State.new .hiragana .direct) := by
  have hraw : c.top.raw = c.top.kana := readings_agree e r k im cm ds c h c.top (by simp [Ctx.states])
  refine ⟨c.top.kana, c.top.compositeKey.okuri, ?_⟩
  have hkey : c.top.compositeKey = ⟨c.top.kana, c.top.compositeKey.okuri⟩ := by
    unfold State.compositeKey
    split <;> rw [hraw]
  have ho : c.outputConverted e c.top.inputMode c.top.mode = c := by
    unfold Ctx.outputConverted; rw [hp]
  have hne : c.top.mode ≠ .compositionSelection := by rcases hm with h | h | h <;> rw [h] <;> simp
  simp only [Ctx.instruction, Ctx.tryNextCandidate, if_pos hne, ho, Ctx.updateCandidateList] at hc
  rw [← hkey]
  cases hg : Dicts.getAll c.dicts c.top.compositeKey with
  | error p => rw [hg] at hc; cases hc
  | ok cs =>
    rw [hg] at hc
    refine ⟨cs, ?_, rfl, ?_, ?_⟩
    · unfold State.preeditDetail
      rcases hm with h | h | h <;> simp only [h]
      refine ⟨trivial, ?_⟩
      intro o hoo
      unfold State.compositeKey at hoo
      split at hoo
      · rename_i hu
        cases hoo
        simp only [Bool.and_eq_true, Bool.not_eq_true'] at hu
        rw [hu.2]; rfl
      · cases hoo
    · intro hcs
      have he : cs.isEmpty = false := by
        cases cs with
        | nil => exact absurd rfl hcs
        | cons a l => rfl
      simp only [bind, Except.bind, pure, Except.pure, Ctx.mapTop, State.setCandidates, CandidateList.set, he,
        Bool.and_false, Bool.false_eq_true, if_false, Bool.not_false, if_true] at hc
      cases hc
      refine ⟨rfl, ?_, rfl, rfl⟩
      simp [Ctx.cursorPosition, Ctx.setCompositionMode, Ctx.mapTop, State.changeMode, State.changeModeFrom, hcs]
    · intro hcs hk hd
      have hke : c.top.kana.isEmpty = false := by
        cases hh : c.top.kana with
        | nil => exact absurd hh hk
        | cons a l => rfl
      subst hcs
      have hdd : ∀ s : State, Ctx.depth { c with top := s } < STACK_MAX := fun _ => hd
      simp only [bind, Except.bind, pure, Except.pure, Ctx.mapTop, State.setCandidates, CandidateList.set, hke,
        List.isEmpty_nil, Bool.and_true, Bool.not_false, if_true, Ctx.enterRegister, if_pos (hdd _)] at hc
      cases hc
      exact ⟨rfl, rfl⟩

/-- Words for the readings of the examples. -/
def okuDict : CskkDict :=
  ⟨true, .static ⟨[(c%"おくt", ⟨c%"おくt", true, [([], [⟨c%"送", none⟩])]⟩)],
    [(c%"お", ⟨c%"お", false, [([], [⟨c%"尾", none⟩])]⟩), (c%"おく", ⟨c%"おく", false, [([], [⟨c%"奥", none⟩])]⟩)]⟩⟩

/-- A context with that dictionary. -/
def okuCtx : Ctx := Ctx.new Assets.defaultCommands Assets.defaultKana .hiragana .direct [okuDict]

/-- The usual case: `▽おく` is looked up as shown. -/
example : ((okuCtx.processKeyEvents (Assets.env ⟨true⟩) (typed c%"Oku ")).toOption.map
    fun c => c.preedit (Assets.env ⟨true⟩)) = some c%"▼奥" := by decide +kernel

/-- **Exception to C37.** Typing `OkuTt` shows `▽おく*っt`; two BackSpaces take `t` and `っ` away again and show
`▽おく`, but the reading used for lookups has lost its last kana: the word for `お` is offered. -/
theorem deleting_okurigana_changes_lookup (p : Bool) :
    let keys := typed c%"OkuTt" ++ [⟨0xff08, 0⟩, ⟨0xff08, 0⟩]
    ((okuCtx.processKeyEvents (Assets.env ⟨p⟩) keys).toOption.map fun c => c.preedit (Assets.env ⟨p⟩)) = some c%"▽おく" ∧
    ((okuCtx.processKeyEvents (Assets.env ⟨p⟩) (keys ++ typed c%" ")).toOption.map
      fun c => c.preedit (Assets.env ⟨p⟩)) = some c%"▼尾" := by
  cases p <;> decide +kernel

end Cskk.Props.Reading
