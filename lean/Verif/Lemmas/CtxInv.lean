import Verif.Spec.History

/-!
# A generic invariant principle for contexts

`Inv e P Q M A` lists what has to be checked of a property `P` of the current editing level and a property `Q` of the
levels which wait for a registration, so that every API call keeps them.  `M` restricts the modes which are entered
explicitly, `A s i` says that instruction `i` may be executed when the current level is `s`.
-/

namespace Cskk

/-- Every result of a computation which does not panic satisfies `P`. -/
structure Always {α} (P : α → Prop) (r : R α) : Prop where
  out : ∀ a, r = .ok a → P a

namespace Always
variable {α β : Type} {P : α → Prop} {Q : β → Prop}

theorem ok {a : α} (h : P a) : Always P (.ok a) := ⟨by intro b hb; cases hb; exact h⟩

theorem error {p : Panic} : Always P (.error p) := ⟨by intro b hb; cases hb⟩

theorem bind {r : R α} {f : α → R β} (h : Always P r) (hf : ∀ a, P a → Always Q (f a)) :
    Always Q (r >>= f) := by
  constructor
  intro b hb
  cases r with
  | error p => cases hb
  | ok a => exact (hf a (h.out a rfl)).out b hb

theorem bind' {r : R α} {f : α → R β} (hf : ∀ a, r = .ok a → Always Q (f a)) : Always Q (r >>= f) := by
  constructor
  intro b hb
  cases r with
  | error p => cases hb
  | ok a => exact (hf a rfl).out b hb

theorem mono {P' : α → Prop} {r : R α} (h : Always P r) (hp : ∀ a, P a → P' a) : Always P' r :=
  ⟨fun a ha => hp a (h.out a ha)⟩

theorem pure {a : α} (h : P a) : Always P (Pure.pure a : R α) := ok h

end Always

/-- The closure conditions. -/
structure Inv (P Q : State → Prop) (M : CompositionMode → Prop) (A : State → Instruction → Prop) : Prop where
  new : P (State.new .hiragana .direct)
  pushFor : ∀ s w m, P s → P (s.pushFor w m)
  setPre : ∀ s l b, P s → P { s with pre := l, capital := b }
  setCandidates : ∀ s cs, P s → P (s.setCandidates cs)
  clearUnconfirmed : ∀ s, P s → P s.clearUnconfirmed
  clearKanas : ∀ s, P s → A s .clearKanaConvertedInputs → P s.clearKanas
  clearCandidateList : ∀ s, P s → P s.clearCandidateList
  clearAll : ∀ s, P s → P s.clearAll
  consolidate : ∀ s, P s → P s.consolidate
  setPostfix : ∀ s w, P s → P (s.setPostfix w)
  changeMode : ∀ s m, P s → M m → P (s.changeMode m)
  abortToPrevious : ∀ s, P s → P s.abortToPrevious
  resetToDefault : ∀ s, P s → P s.resetToDefault
  cursor : ∀ s i, P s → s.cands.cands = [] ∨ i < s.cands.cands.length ∨ i + 1 = s.cands.cursor →
    P { s with cands := { s.cands with cursor := i } }
  inputMode : ∀ s im, P s → P { s with inputMode := im }
  flush : ∀ s, P s → P s.flushConfirmed
  flushQ : ∀ s, Q s → Q s.flushConfirmed
  deleteAuto : ∀ s, P s → s.mode ≠ .preCompositionOkurigana → P s.delete.1
  delete : ∀ s, P s → A s .delete → P s.delete.1
  enter : ∀ s prev, P s → M prev → Q (s.changeModeFrom .register prev)
  leave : ∀ s, Q s → P s.abortToPrevious
  exit : ∀ s t ds cs, Q s → P t → A t .confirmDirect → t.confirmed ≠ [] →
    Ctx.registered ds { s with mode := .direct } t.confirmed = .ok cs →
    P (({ s with mode := .direct } : State).addCandidates cs)
  mode : ∀ s, P s → M s.mode
  instr : ∀ s m, P s → A s (.changeCompositionMode m) → M m
  mPre : M .preComposition
  mOkuri : M .preCompositionOkurigana
  mSel : M .compositionSelection
  mComp : M .completion

/-- `P` for the current level, `Q` for the waiting ones. -/
def Ctx.Good (P Q : State → Prop) (c : Ctx) : Prop := P c.top ∧ ∀ s ∈ c.below, Q s

namespace Inv
open Ctx
variable {e : Env} {P Q : State → Prop} {M : CompositionMode → Prop} {A : State → Instruction → Prop}

theorem mapTop {c : Ctx} {f : State → State} (h : c.Good P Q) (hf : P c.top → P (f c.top)) :
    (c.mapTop f).Good P Q := ⟨hf h.1, h.2⟩

theorem clearPre (I : Inv P Q M A) (s : State) (h : P s) : P s.clearPre := I.setPre s [] false h

theorem push (I : Inv P Q M A) (s : State) (w : Str) (h : P s) : P (s.push w) := I.pushFor s w _ h

theorem appendConverted (I : Inv P Q M A) {c : Ctx} (h : c.Good P Q) (w : Str) : (c.appendConverted e w).Good P Q :=
  mapTop h fun h => I.push _ _ h

theorem setUnconverted (I : Inv P Q M A) {c : Ctx} (h : c.Good P Q) (l : List Keysym) :
    (c.setUnconverted l).Good P Q := mapTop h fun h => I.setPre _ l c.top.capital h

theorem setCarryOver (I : Inv P Q M A) {c : Ctx} (h : c.Good P Q) (l : List Keysym) :
    (c.setCarryOver l).Good P Q := mapTop h fun h => I.setPre _ l _ h

theorem updateCandidateList (I : Inv P Q M A) {c : Ctx} (h : c.Good P Q) :
    Always (Good P Q) c.updateCandidateList :=
  Always.bind' fun cs _ => Always.pure (mapTop h fun h => I.setCandidates _ cs h)

theorem updateCompletionList (I : Inv P Q M A) {c : Ctx} (h : c.Good P Q) :
    Always (Good P Q) c.updateCompletionList :=
  Always.bind' fun cs _ => Always.pure (mapTop h fun h => I.setCandidates _ cs h)

theorem purgeCurrent (I : Inv P Q M A) {c : Ctx} (h : c.Good P Q) : c.purgeCurrent.Good P Q := by
  unfold Ctx.purgeCurrent
  cases c.top.cands.current with
  | none => exact mapTop h fun h => I.clearAll _ h
  | some cand => exact ⟨I.clearAll _ h.1, h.2⟩

theorem confirmCurrent (I : Inv P Q M A) {c : Ctx} (h : c.Good P Q) : (c.confirmCurrent e).Good P Q := by
  unfold Ctx.confirmCurrent
  cases c.top.cands.current with
  | none => exact h
  | some cand => exact ⟨I.resetToDefault _ (I.clearUnconfirmed _ (I.push _ _ h.1)), h.2⟩

theorem confirmKana (I : Inv P Q M A) {c : Ctx} (h : c.Good P Q) (im : InputMode) : (c.confirmKana e im).Good P Q :=
  mapTop h fun h => I.clearUnconfirmed _ (I.pushFor _ _ _ h)

theorem setCompositionMode (I : Inv P Q M A) {c : Ctx} (h : c.Good P Q) {m : CompositionMode} (hm : M m) :
    (c.setCompositionMode m).Good P Q := mapTop h fun h => I.changeMode _ m h hm

theorem enterRegister (I : Inv P Q M A) {c : Ctx} (h : c.Good P Q) {m : CompositionMode} (hm : M m) :
    (c.enterRegister m).Good P Q := by
  unfold Ctx.enterRegister
  split
  · refine ⟨I.new, ?_⟩
    intro s hs
    rcases List.mem_cons.mp hs with rfl | hs
    · exact I.enter _ _ h.1 hm
    · exact h.2 s hs
  · exact h

theorem outputConverted (I : Inv P Q M A) {c : Ctx} (h : c.Good P Q) (im : InputMode) (cm : CompositionMode) :
    (c.outputConverted e im cm).Good P Q := by
  unfold Ctx.outputConverted
  split
  · split
    · exact I.setCarryOver (mapTop h fun h => by apply I.clearPre; exact I.pushFor _ _ _ h) _
    · exact I.setCarryOver (mapTop h fun h => by apply I.clearPre; exact I.pushFor _ _ _ h) _
    · exact I.setCarryOver (mapTop h fun h => by apply I.clearPre; exact I.pushFor _ _ _ h) _
    · exact h
  · exact h

theorem forward (I : Inv P Q M A) {s : State} (p : Profile) (h : P s) : Always P (s.forward p) := by
  apply Always.bind' (r := s.cands.forward p)
  intro a ha
  apply Always.pure
  unfold CandidateList.forward at ha
  cases hm : usizeSub p s.cands.cands.length 1 with
  | error q => rw [hm] at ha; cases ha
  | ok m =>
    rw [hm] at ha
    simp only [bind, Except.bind] at ha
    split at ha
    · rename_i hlt
      cases ha
      refine I.cursor s _ h ?_
      unfold usizeSub at hm
      split at hm
      · cases hm; exact Or.inr (Or.inl (by omega))
      · left; exact List.eq_nil_of_length_eq_zero (by omega)
    · cases ha; exact h

theorem backward (I : Inv P Q M A) {s : State} (h : P s) : P s.backward := by
  unfold State.backward CandidateList.backward
  split
  · exact I.cursor s _ h (Or.inr (Or.inr (by omega)))
  · exact h

theorem setPointer (I : Inv P Q M A) {s : State} (i : Nat) (h : P s) : P (s.setPointer i).1 := by
  unfold State.setPointer CandidateList.setSelectionPointer
  cases hi : s.cands.cands[i]? with
  | none => exact h
  | some x => exact I.cursor s i h (Or.inr (Or.inl (List.getElem?_eq_some_iff.mp hi).1))

theorem tryNextCandidate (I : Inv P Q M A) {c : Ctx} (h : c.Good P Q) {cm : CompositionMode} (hm : M cm)
    (im : InputMode) : Always (Good P Q) (c.tryNextCandidate e cm im) := by
  unfold Ctx.tryNextCandidate
  split
  · apply Always.bind (I.updateCandidateList (I.outputConverted h im cm))
    intro c' h'
    split
    · exact Always.pure (I.enterRegister h' hm)
    · split
      · exact Always.pure (I.setCompositionMode h' I.mSel)
      · exact Always.pure h'
  · apply Always.bind' (r := c.top.cands.hasNext e.prof)
    intro n _
    split
    · exact Always.pure (I.enterRegister h hm)
    · apply Always.bind (I.forward e.prof h.1)
      intro s hs
      exact Always.pure ⟨hs, h.2⟩

theorem tryNextCompletion (I : Inv P Q M A) {c : Ctx} (h : c.Good P Q) (cm : CompositionMode)
    (im : InputMode) : Always (Good P Q) (c.tryNextCompletion e cm im) := by
  unfold Ctx.tryNextCompletion
  split
  · apply Always.bind (I.updateCompletionList (I.outputConverted h im cm))
    intro c' h'
    split
    · exact Always.pure h'
    · split
      · exact Always.pure (I.setCompositionMode h' I.mComp)
      · exact Always.pure h'
  · apply Always.bind' (r := c.top.cands.hasNext e.prof)
    intro n _
    split
    · exact Always.pure h
    · apply Always.bind (I.forward e.prof h.1)
      intro s hs
      exact Always.pure (I.setCompositionMode (c := { c with top := s }) ⟨hs, h.2⟩ I.mComp)

theorem delete_mode (s : State) (h : s.mode = .preComposition ∨ s.mode = .direct) :
    s.delete.1.mode = .preComposition ∨ s.delete.1.mode = .direct := by
  rcases h with h | h
  · unfold State.delete
    simp only [h]
    split
    · exact Or.inl rfl
    · split
      · exact Or.inl rfl
      · exact Or.inr rfl
  · unfold State.delete
    simp only [h]
    split
    · exact Or.inr rfl
    · exact Or.inr rfl

theorem deleteN (I : Inv P Q M A) (n : Nat) {s : State} (h : P s)
    (hm : s.mode = .preComposition ∨ s.mode = .direct) : P (Ctx.deleteN s n) := by
  induction n generalizing s with
  | zero => exact h
  | succ n ih =>
    refine ih (I.deleteAuto s h ?_) (delete_mode s hm)
    rcases hm with hm | hm <;> rw [hm] <;> decide

theorem autoStartHenkan (I : Inv P Q M A) {c : Ctx} (h : c.Good P Q) : Always (Good P Q) (c.autoStartHenkan e) := by
  unfold Ctx.autoStartHenkan
  split
  · exact Always.error
  · rename_i hm
    dsimp only
    split
    · refine I.tryNextCandidate (mapTop h fun h => I.setPostfix _ _ (I.deleteN _ h ?_)) I.mPre _
      exact Or.inl (Classical.not_not.mp hm)
    · exact Always.ok h

theorem transitionByCapital (I : Inv P Q M A) {c : Ctx} (h : c.Good P Q) (ev : KeyEvent) (m : CompositionMode)
    (d : Bool) : (c.transitionByCapital ev m d).1.Good P Q := by
  unfold Ctx.transitionByCapital
  split
  · exact mapTop (I.setCompositionMode h I.mPre) fun h => I.setPre _ _ true h
  · split
    · exact mapTop (I.setCompositionMode h I.mOkuri) fun h => I.setPre _ _ true h
    · exact h

theorem startOkuriHenkan (I : Inv P Q M A) {c : Ctx} (h : c.Good P Q) (carry : List Keysym) :
    Always (Good P Q) (c.startOkuriHenkan carry) := by
  unfold Ctx.startOkuriHenkan
  split
  · apply Always.bind (I.updateCandidateList h)
    intro c' h'
    split
    · exact Always.pure (I.enterRegister h' (I.mode _ h'.1))
    · exact Always.pure (I.setCompositionMode h' I.mSel)
  · exact Always.ok h

theorem inputConvertedKana (I : Inv P Q M A) {c : Ctx} (h : c.Good P Q) (kana : Str) (carry : List Keysym) (d : Bool)
    (pre : List Keysym) : Always (Good P Q) (c.inputConvertedKana e kana carry d pre) := by
  unfold Ctx.inputConvertedKana
  split
  · exact Always.ok (I.setCarryOver (I.appendConverted h _) _)
  · exact I.autoStartHenkan (I.setCarryOver (mapTop h fun h => I.push _ _ h) _)
  · refine I.startOkuriHenkan (I.setCarryOver ?_ _) _
    split
    · exact mapTop h fun h => I.pushFor _ _ _ h
    · exact mapTop h fun h => I.push _ _ h
  · exact Always.ok h

theorem inputAsContinuous (I : Inv P Q M A) {c : Ctx} (h : c.Good P Q) (ev : KeyEvent) :
    (c.inputAsContinuous ev).Good P Q := by
  unfold Ctx.inputAsContinuous
  split
  · exact I.setUnconverted h _
  · exact I.setUnconverted h _
  · exact I.setUnconverted h _
  · exact h

theorem abort (I : Inv P Q M A) {c : Ctx} (h : c.Good P Q) : c.abort.Good P Q := by
  unfold Ctx.abort
  have h1 : (c.mapTop fun s => s.clearPre.consolidate.clearCandidateList).Good P Q :=
    mapTop h fun h => I.clearCandidateList _ (I.consolidate _ (I.clearPre _ h))
  generalize (c.mapTop fun s => s.clearPre.consolidate.clearCandidateList) = c1 at h1
  have h2 : ((if c1.top.mode = .direct then c1.abortRegister else c1).mapTop State.abortToPrevious).Good P Q := by
    split
    · unfold Ctx.abortRegister
      split
      · rename_i s rest heq
        exact ⟨I.leave _ (h1.2 s (by rw [heq]; exact List.mem_cons_self)),
          fun t ht => h1.2 t (by rw [heq]; exact List.mem_cons_of_mem _ ht)⟩
      · exact mapTop h1 fun h => I.abortToPrevious _ h
    · exact mapTop h1 fun h => I.abortToPrevious _ h
  dsimp only
  generalize ((if c1.top.mode = .direct then c1.abortRegister else c1).mapTop State.abortToPrevious) = c2 at h2
  split
  · exact mapTop h2 fun h => I.abortToPrevious _ h
  · exact h2

theorem exitRegister (I : Inv P Q M A) {c : Ctx} (h : c.Good P Q) (ha : A c.top .confirmDirect) :
    Always (Good P Q) (c.exitRegister e c.top.confirmed) := by
  unfold Ctx.exitRegister
  split
  · exact Always.ok h
  · rename_i s rest heq
    have hs : Q s := h.2 s (by rw [heq]; exact List.mem_cons_self)
    have hr : ∀ t ∈ rest, Q t := fun t ht => h.2 t (by rw [heq]; exact List.mem_cons_of_mem _ ht)
    dsimp only
    split
    · exact Always.ok ⟨I.leave _ hs, hr⟩
    · rename_i hw
      apply Always.bind'
      intro cs hcs
      apply Always.pure
      apply I.confirmCurrent
      exact ⟨I.exit s c.top _ cs hs h.1 ha (by intro h0; rw [h0] at hw; exact hw rfl) hcs, hr⟩

/-- Result of one instruction: the context part. -/
theorem instruction (I : Inv P Q M A) {c : Ctx} (h : c.Good P Q) {i : Instruction} (ha : A c.top i)
    {cm : CompositionMode} (hm : M cm) (im : InputMode) :
    Always (fun r => r.1.Good P Q) (c.instruction e i cm im) := by
  cases i <;> unfold Ctx.instruction <;> dsimp only
  case abort => exact Always.ok (I.abort h)
  case changeInputMode m => exact Always.ok (mapTop h fun h => I.inputMode _ m h)
  case forceKanaConvert m => exact Always.ok (I.outputConverted h _ _)
  case clearUnconvertedInputs => exact Always.ok (mapTop h fun h => I.clearPre _ h)
  case clearKanaConvertedInputs => exact Always.ok (mapTop h fun h => I.clearKanas _ h ha)
  case clearUnconfirmedInputs => exact Always.ok (mapTop h fun h => I.clearUnconfirmed _ h)
  case changeCompositionMode m => exact Always.ok (I.setCompositionMode h (I.instr _ m h.1 ha))
  case finishKeyEvent => exact Always.ok h
  case passthroughKeyEvent => exact Always.ok h
  case tryNextCandidate =>
    apply Always.bind (I.tryNextCandidate h hm im)
    intro c' h'; exact Always.pure h'
  case tryPreviousCandidate =>
    split
    · exact Always.ok h
    · split
      · exact Always.ok (I.setCompositionMode
          (mapTop h fun h => by apply I.clearCandidateList; exact I.consolidate _ h) I.mPre)
      · exact Always.ok (mapTop h fun h => I.backward h)
  case nextCandidatePointer =>
    apply Always.bind (I.forward e.prof h.1)
    intro s hs; exact Always.pure ⟨hs, h.2⟩
  case previousCandidatePointer => exact Always.ok (mapTop h fun h => I.backward h)
  case confirmComposition => exact Always.ok (I.confirmCurrent h)
  case confirmAs m => exact Always.ok (I.confirmKana h m)
  case confirmDirect =>
    split
    · apply Always.bind (I.exitRegister h ha)
      intro c' h'; exact Always.pure h'
    · exact Always.ok h
  case purge => exact Always.ok (I.purgeCurrent h)
  case delete => exact Always.ok ⟨I.delete _ h.1 ha, h.2⟩
  case tryNextCompletion =>
    apply Always.bind (I.tryNextCompletion h cm im)
    intro c' h'; exact Always.pure h'
  case tryPreviousCompletion =>
    split
    · exact Always.ok h
    · split
      · exact Always.ok (mapTop h fun h => I.backward h)
      · exact Always.ok h

theorem runInstructions (I : Inv P Q M A) {cm : CompositionMode} (hm : M cm) (im : InputMode) (b : Bool)
    (is : List Instruction) {c : Ctx} (h : c.Good P Q) (ha : c.Admissible e (fun c => A c.top) cm im is) :
    Always (fun r => r.1.Good P Q) (Ctx.runInstructions e cm im b c is) := by
  induction is generalizing c with
  | nil => exact Always.ok h
  | cons i is ih =>
    unfold Ctx.runInstructions
    apply Always.bind'
    intro r hr
    have hg := (I.instruction h ha.1 hm im).out r hr
    obtain ⟨c', o⟩ := r
    cases o with
    | some b => exact Always.pure hg
    | none => exact ih hg (ha.2 c' hr)

theorem finishSymbol (I : Inv P Q M A) {c : Ctx} (h : c.Good P Q) :
    Always (fun r => r.1.Good P Q) (c.finishSymbol e) := by
  unfold Ctx.finishSymbol
  split
  · apply Always.bind (I.autoStartHenkan h)
    intro c' h'; exact Always.pure h'
  · exact Always.ok h

theorem bindTrue {r : R Ctx} (h : Always (Good P Q) r) :
    Always (fun x : Ctx × Bool => x.1.Good P Q) (r >>= fun c => pure (c, true)) := by
  apply Always.bind h
  intro c' h'; exact Always.pure h'

theorem symbolInput (I : Inv P Q M A) {c : Ctx} (h : c.Good P Q) (ev : KeyEvent) (ch : Char) (pre : List Keysym) :
    Always (fun r => r.1.Good P Q) (c.symbolInput e ev ch pre) := by
  have hout : ∀ {c : Ctx}, c.Good P Q → ∀ im m, ((c.outputConverted e im m).mapTop State.clearPre).Good P Q :=
    fun h im m => mapTop (I.outputConverted h im m) fun h => I.clearPre _ h
  unfold Ctx.symbolInput
  dsimp only
  split
  · split
    · exact I.finishSymbol (I.appendConverted (hout h _ _) _)
    · exact I.finishSymbol (mapTop (hout h _ _) fun h => I.clearPre _ (I.push _ _ h))
    · exact I.finishSymbol (mapTop (hout h _ _) fun h => I.clearPre _ (I.push _ _ h))
    · exact Always.ok (hout h _ _)
  · split
    · exact I.finishSymbol (I.inputAsContinuous h _)
    · split
      · exact I.finishSymbol (I.inputAsContinuous (I.transitionByCapital h _ _ _) _)
      · split
        · exact bindTrue (I.inputConvertedKana h _ _ _ _)
        · split
          · split
            · exact bindTrue (I.inputConvertedKana (I.transitionByCapital h _ _ _) _ _ _ _)
            · exact I.finishSymbol h
          · split
            · exact I.finishSymbol (I.inputAsContinuous (hout h _ _) _)
            · split
              · exact I.finishSymbol (I.inputAsContinuous (hout (I.transitionByCapital h _ _ _) _ _) _)
              · split
                · split
                  · exact I.finishSymbol (mapTop (hout h _ _) fun h => I.push _ _ h)
                  · exact I.finishSymbol (mapTop (hout h _ _) fun h => I.push _ _ h)
                  · exact I.finishSymbol (mapTop (hout h _ _) fun h => I.push _ _ h)
                  · exact Always.ok (hout h _ _)
                · exact Always.ok h

theorem romInput (I : Inv P Q M A) {c : Ctx} (h : c.Good P Q) (ev : KeyEvent) (pre : List Keysym) :
    Always (fun r => r.1.Good P Q) (c.romInput e ev pre) := by
  unfold Ctx.romInput
  split
  · exact bindTrue (I.inputConvertedKana h _ _ _ _)
  · split
    · exact bindTrue (I.inputConvertedKana (I.transitionByCapital h _ _ _) _ _ _ _)
    · split
      · exact I.symbolInput h _ _ _
      · exact Always.ok h

theorem plainInput (I : Inv P Q M A) {c : Ctx} (h : c.Good P Q) (ev : KeyEvent) : (c.plainInput e ev).1.Good P Q := by
  unfold Ctx.plainInput
  split
  · split
    · split
      · exact mapTop h fun h => I.push _ _ h
      · exact I.appendConverted h _
      · exact h
    · exact h
  · split
    · exact mapTop h fun h => I.push _ _ h
    · exact h
  · exact h

theorem charInput (I : Inv P Q M A) {c : Ctx} (h : c.Good P Q) (ev : KeyEvent) :
    Always (fun r => r.1.Good P Q) (c.charInput e ev) := by
  unfold Ctx.charInput
  split
  · exact Always.ok h
  · dsimp only
    generalize hc : (if (c.top.mode = .compositionSelection ∨ c.top.mode = .completion) ∧
      c.willBeProcessed ev c.top.pre = true then c.confirmCurrent e else c) = c1
    have h1 : c1.Good P Q := by
      rw [← hc]
      split
      · exact I.confirmCurrent h
      · exact h
    split
    · exact I.romInput h1 _ _
    · split
      · exact Always.ok (I.plainInput h1 _)
      · exact Always.ok h1

theorem processKeyEvent (I : Inv P Q M A) {c : Ctx} (h : c.Good P Q) (ev : KeyEvent)
    (ha : c.KeyAdmissible e (fun c => A c.top) ev) : Always (fun r => r.1.Good P Q) (c.processKeyEvent e ev) := by
  unfold Ctx.processKeyEvent
  split
  · exact Always.ok h
  · unfold Ctx.processInner
    split
    · exact I.charInput h ev
    · apply Always.bind'
      intro o ho
      cases o with
      | none => exact I.charInput h ev
      | some is => exact I.runInstructions (I.mode _ h.1) _ _ _ h (ha is ho)

theorem mapBottom {c : Ctx} {f : State → State} (h : c.Good P Q) (hP : ∀ s, P s → P (f s)) (hQ : ∀ s, Q s → Q (f s)) :
    (c.mapBottom f).Good P Q := by
  unfold Ctx.mapBottom
  split
  · exact ⟨hP _ h.1, h.2⟩
  · rename_i s rest heq
    refine ⟨h.1, ?_⟩
    intro t ht
    rcases List.mem_append.mp ht with ht | ht
    · exact h.2 t (by rw [heq]; exact List.dropLast_subset _ ht)
    · rw [List.mem_singleton.mp ht]
      exact hQ _ (h.2 _ (by rw [heq]; exact List.getLast_mem _))

theorem pollOutput (I : Inv P Q M A) {c : Ctx} (h : c.Good P Q) : c.pollOutput.1.Good P Q := by
  unfold Ctx.pollOutput Ctx.retrieveOutput
  split
  · exact h
  · exact mapBottom h I.flush I.flushQ

theorem selectCandidateAt (I : Inv P Q M A) {c : Ctx} (h : c.Good P Q) (i : Int) :
    (c.selectCandidateAt i).1.Good P Q := by
  unfold Ctx.selectCandidateAt
  dsimp only
  split
  · exact h
  · split
    · exact I.setCompositionMode (mapTop h fun h => by apply I.clearCandidateList; exact I.consolidate _ h) I.mPre
    · split
      · exact I.enterRegister (mapTop h fun h => I.setPointer _ h) I.mSel
      · exact mapTop h fun h => I.setPointer _ h

theorem confirmCandidateAt (I : Inv P Q M A) {c : Ctx} (h : c.Good P Q) (i : Nat) :
    (c.confirmCandidateAt e i).1.Good P Q := by
  unfold Ctx.confirmCandidateAt
  dsimp only
  have h1 : ({ c with top := (c.top.setPointer i).1 } : Ctx).Good P Q := ⟨I.setPointer i h.1, h.2⟩
  split
  · exact I.confirmCurrent h1
  · exact h1

end Inv

/-- When a call keeps the invariant: instructions are admissible, an explicitly set mode is allowed, and `reset`
is only used outside a registration unless `r` says that it may be. -/
def Op.Allowed (e : Env) (M : CompositionMode → Prop) (A : State → Instruction → Prop) (r : Prop) (c : Ctx) :
    Op → Prop
  | .key ev => c.KeyAdmissible e (fun c => A c.top) ev
  | .setCompositionMode m => M m
  | .reset => c.below = [] ∨ r
  | _ => True

theorem Inv.step {e : Env} {P Q : State → Prop} {M : CompositionMode → Prop} {A : State → Instruction → Prop}
    {r : Prop} (I : Inv P Q M A) (hr : r → ∀ s, Q s → P s.clearAll) {c : Ctx} (h : c.Good P Q) (op : Op)
    (ha : op.Allowed e M A r c) : Always (Ctx.Good P Q) (c.step e op) := by
  cases op <;> unfold Ctx.step
  case key ev =>
    apply Always.bind (I.processKeyEvent h ev ha)
    intro r hr; exact Always.pure hr
  case poll => exact Always.ok (I.pollOutput h)
  case reset =>
    apply Always.ok
    unfold Ctx.reset
    refine ⟨?_, by intro s hs; cases hs⟩
    dsimp only
    cases hb : c.below with
    | nil => exact I.clearAll _ h.1
    | cons s rest =>
      rcases ha with ha | ha
      · rw [ha] at hb; cases hb
      · refine hr ha _ (h.2 _ ?_)
        rw [hb, List.getLast?_eq_some_getLast (by simp), Option.getD_some]
        exact List.getLast_mem _
  case setInputMode m => exact Always.ok ⟨I.inputMode _ m h.1, h.2⟩
  case setCompositionMode m => exact Always.ok (I.setCompositionMode h ha)
  case selectAt i => exact Always.ok (I.selectCandidateAt h i)
  case confirmAt i => exact Always.ok (I.confirmCandidateAt h i)
  all_goals exact Always.ok h

theorem Inv.reach {e : Env} {P Q : State → Prop} {M : CompositionMode → Prop} {A : State → Instruction → Prop}
    {r : Prop} (I : Inv P Q M A) (hr : r → ∀ s, Q s → P s.clearAll) {c₀ c : Ctx} (h₀ : c₀.Good P Q)
    (h : Reach e (fun c op => op.Allowed e M A r c) c₀ c) : c.Good P Q := by
  induction h with
  | init => exact h₀
  | step _ hg hs ih => exact (I.step hr ih _ hg).out _ hs

end Cskk
