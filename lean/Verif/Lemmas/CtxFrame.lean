import Verif.Lemmas.CtxInv

/-!
# What calls leave alone

`Frame F`: a property of contexts which does not depend on the contents of the levels, is kept when a level is opened (at most
ten), closed, or all but the outermost are dropped, and when all dictionaries confirm or purge a candidate.  Such a property is kept by every call which does not replace rules, configuration or dictionaries.
-/

namespace Cskk

/-- The closure conditions which concern the calls that do not leave a level. -/
structure Grow (F : Ctx → Prop) : Prop where
  setTop : ∀ c t, F c → F { c with top := t }
  push : ∀ c s t, c.below.length + 1 < 10 → F c → F { c with below := s :: c.below, top := t }
  confirm : ∀ c x, F c → F { c with dicts := c.dicts.map fun (d : CskkDict) => d.confirm x }
  purge : ∀ c k x, F c → F { c with dicts := c.dicts.map fun (d : CskkDict) => d.purge k x }

/-- The closure conditions. -/
structure Frame (F : Ctx → Prop) : Prop extends Grow F where
  pop : ∀ c s r t, c.below = s :: r → F c → F { c with below := r, top := t }
  drop : ∀ c t, F c → F { c with below := [], top := t }
  relevel : ∀ c b, b.length = c.below.length → F c → F { c with below := b }

namespace Grow
variable {F : Ctx → Prop} {e : Env}

theorem top (I : Grow F) {c : Ctx} (h : F c) (t : State) : F { c with top := t } := I.setTop c t h

theorem mapTop (I : Grow F) {c : Ctx} (h : F c) (f : State → State) : F (c.mapTop f) := I.top h _

theorem updateCandidateList (I : Grow F) {c : Ctx} (h : F c) : Always F c.updateCandidateList :=
  Always.bind' fun _ _ => Always.pure (I.mapTop h _)

theorem updateCompletionList (I : Grow F) {c : Ctx} (h : F c) : Always F c.updateCompletionList :=
  Always.bind' fun _ _ => Always.pure (I.mapTop h _)

theorem purgeCurrent (I : Grow F) {c : Ctx} (h : F c) : F c.purgeCurrent := by
  unfold Ctx.purgeCurrent
  cases c.top.cands.current with
  | none => exact I.mapTop h _
  | some cand => exact I.mapTop (I.purge c c.top.cands.toComposite cand h) _

theorem confirmCurrent (I : Grow F) {c : Ctx} (h : F c) : F (c.confirmCurrent e) := by
  unfold Ctx.confirmCurrent
  cases c.top.cands.current with
  | none => exact h
  | some cand => exact I.mapTop (I.confirm c cand h) _

theorem enterRegister (I : Grow F) {c : Ctx} (h : F c) (m : CompositionMode) : F (c.enterRegister m) := by
  unfold Ctx.enterRegister
  split
  · rename_i hd; exact I.push c _ _ hd h
  · exact h

theorem outputConverted (I : Grow F) {c : Ctx} (h : F c) (im : InputMode) (m : CompositionMode) :
    F (c.outputConverted e im m) := by
  unfold Ctx.outputConverted
  split
  · split
    · exact I.mapTop (I.mapTop h _) _
    · exact I.mapTop (I.mapTop h _) _
    · exact I.mapTop (I.mapTop h _) _
    · exact h
  · exact h

theorem tryNextCandidate (I : Grow F) {c : Ctx} (h : F c) (cm : CompositionMode) (im : InputMode) :
    Always F (c.tryNextCandidate e cm im) := by
  unfold Ctx.tryNextCandidate
  split
  · refine Always.bind (I.updateCandidateList (I.outputConverted h im cm)) fun c' h' => ?_
    split
    · exact Always.pure (I.enterRegister h' _)
    · split
      · exact Always.pure (I.mapTop h' _)
      · exact Always.pure h'
  · refine Always.bind' fun n _ => ?_
    split
    · exact Always.pure (I.enterRegister h _)
    · exact Always.bind' fun s _ => Always.pure (I.top h s)

theorem tryNextCompletion (I : Grow F) {c : Ctx} (h : F c) (cm : CompositionMode) (im : InputMode) :
    Always F (c.tryNextCompletion e cm im) := by
  unfold Ctx.tryNextCompletion
  split
  · refine Always.bind (I.updateCompletionList (I.outputConverted h im cm)) fun c' h' => ?_
    split
    · exact Always.pure h'
    · split
      · exact Always.pure (I.mapTop h' _)
      · exact Always.pure h'
  · refine Always.bind' fun n _ => ?_
    split
    · exact Always.pure h
    · exact Always.bind' fun s _ => Always.pure (I.mapTop (I.top h s) _)

theorem autoStartHenkan (I : Grow F) {c : Ctx} (h : F c) : Always F (c.autoStartHenkan e) := by
  unfold Ctx.autoStartHenkan
  split
  · exact Always.error
  · dsimp only
    split
    · exact I.tryNextCandidate (I.mapTop h _) _ _
    · exact Always.ok h

theorem transitionByCapital (I : Grow F) {c : Ctx} (h : F c) (ev : KeyEvent) (m : CompositionMode) (d : Bool) :
    F (c.transitionByCapital ev m d).1 := by
  unfold Ctx.transitionByCapital
  split
  · exact I.setTop c _ h
  · split
    · exact I.setTop c _ h
    · exact h

theorem startOkuriHenkan (I : Grow F) {c : Ctx} (h : F c) (carry : List Keysym) :
    Always F (c.startOkuriHenkan carry) := by
  unfold Ctx.startOkuriHenkan
  split
  · refine Always.bind (I.updateCandidateList h) fun c' h' => ?_
    split
    · exact Always.pure (I.enterRegister h' _)
    · exact Always.pure (I.mapTop h' _)
  · exact Always.ok h

theorem inputConvertedKana (I : Grow F) {c : Ctx} (h : F c) (kana : Str) (carry : List Keysym) (d : Bool)
    (pre : List Keysym) : Always F (c.inputConvertedKana e kana carry d pre) := by
  unfold Ctx.inputConvertedKana
  split
  · exact Always.ok (I.mapTop (I.mapTop h _) _)
  · exact I.autoStartHenkan (I.mapTop (I.mapTop h _) _)
  · refine I.startOkuriHenkan (I.mapTop ?_ _) _
    split
    · exact I.mapTop h _
    · exact I.mapTop h _
  · exact Always.ok h

theorem inputAsContinuous (I : Grow F) {c : Ctx} (h : F c) (ev : KeyEvent) : F (c.inputAsContinuous ev) := by
  unfold Ctx.inputAsContinuous
  split
  · exact I.mapTop h _
  · exact I.mapTop h _
  · exact I.mapTop h _
  · exact h

theorem finishSymbol (I : Grow F) {c : Ctx} (h : F c) : Always (fun r => F r.1) (c.finishSymbol e) := by
  unfold Ctx.finishSymbol
  split
  · exact Always.bind (I.autoStartHenkan h) fun c' h' => Always.pure h'
  · exact Always.ok h

theorem symbolInput (I : Grow F) {c : Ctx} (h : F c) (ev : KeyEvent) (ch : Char) (pre : List Keysym) :
    Always (fun r => F r.1) (c.symbolInput e ev ch pre) := by
  have hout : ∀ {c : Ctx}, F c → ∀ im m, F ((c.outputConverted e im m).mapTop State.clearPre) :=
    fun h im m => I.mapTop (I.outputConverted h im m) _
  have bt : ∀ {r : R Ctx}, Always F r → Always (fun x : Ctx × Bool => F x.1) (r >>= fun c => pure (c, true)) :=
    fun h => Always.bind h fun c' h' => Always.pure h'
  unfold Ctx.symbolInput
  dsimp only
  split
  · split
    · exact I.finishSymbol (I.mapTop (hout h _ _) _)
    · exact I.finishSymbol (I.mapTop (hout h _ _) _)
    · exact I.finishSymbol (I.mapTop (hout h _ _) _)
    · exact Always.ok (hout h _ _)
  · split
    · exact I.finishSymbol (I.inputAsContinuous h _)
    · split
      · exact I.finishSymbol (I.inputAsContinuous (I.transitionByCapital h _ _ _) _)
      · split
        · exact bt (I.inputConvertedKana h _ _ _ _)
        · split
          · split
            · exact bt (I.inputConvertedKana (I.transitionByCapital h _ _ _) _ _ _ _)
            · exact I.finishSymbol h
          · split
            · exact I.finishSymbol (I.inputAsContinuous (hout h _ _) _)
            · split
              · exact I.finishSymbol (I.inputAsContinuous (hout (I.transitionByCapital h _ _ _) _ _) _)
              · split
                · split
                  · exact I.finishSymbol (I.mapTop (hout h _ _) _)
                  · exact I.finishSymbol (I.mapTop (hout h _ _) _)
                  · exact I.finishSymbol (I.mapTop (hout h _ _) _)
                  · exact Always.ok (hout h _ _)
                · exact Always.ok h

theorem romInput (I : Grow F) {c : Ctx} (h : F c) (ev : KeyEvent) (pre : List Keysym) :
    Always (fun r => F r.1) (c.romInput e ev pre) := by
  have bt : ∀ {r : R Ctx}, Always F r → Always (fun x : Ctx × Bool => F x.1) (r >>= fun c => pure (c, true)) :=
    fun h => Always.bind h fun c' h' => Always.pure h'
  unfold Ctx.romInput
  split
  · exact bt (I.inputConvertedKana h _ _ _ _)
  · split
    · exact bt (I.inputConvertedKana (I.transitionByCapital h _ _ _) _ _ _ _)
    · split
      · exact I.symbolInput h _ _ _
      · exact Always.ok h

theorem plainInput (I : Grow F) {c : Ctx} (h : F c) (ev : KeyEvent) : F (c.plainInput e ev).1 := by
  unfold Ctx.plainInput
  split
  · split
    · split
      · exact I.setTop c _ h
      · exact I.setTop c _ h
      · exact h
    · exact h
  · split
    · exact I.setTop c _ h
    · exact h
  · exact h

theorem charInput (I : Grow F) {c : Ctx} (h : F c) (ev : KeyEvent) :
    Always (fun r => F r.1) (c.charInput e ev) := by
  unfold Ctx.charInput
  split
  · exact Always.ok h
  · dsimp only
    generalize hc : (if (c.top.mode = .compositionSelection ∨ c.top.mode = .completion) ∧
      c.willBeProcessed ev c.top.pre = true then c.confirmCurrent e else c) = c1
    have h1 : F c1 := by
      rw [← hc]
      split
      · exact I.confirmCurrent h
      · exact h
    split
    · exact I.romInput h1 _ _
    · split
      · exact Always.ok (I.plainInput h1 _)
      · exact Always.ok h1

/-- An instruction which leaves no level. -/
theorem instruction (I : Grow F) {c : Ctx} (h : F c) (i : Instruction) (cm : CompositionMode) (im : InputMode)
    (ha : i ≠ .abort) (hd : i ≠ .confirmDirect) : Always (fun r => F r.1) (c.instruction e i cm im) := by
  cases i <;> unfold Ctx.instruction <;> dsimp only
  case abort => exact absurd rfl ha
  case confirmDirect => exact absurd rfl hd
  case forceKanaConvert m => exact Always.ok (I.outputConverted h _ _)
  case finishKeyEvent => exact Always.ok h
  case passthroughKeyEvent => exact Always.ok h
  case tryNextCandidate => exact Always.bind (I.tryNextCandidate h cm im) fun c' h' => Always.pure h'
  case tryPreviousCandidate =>
    split
    · exact Always.ok h
    · split
      · exact Always.ok (I.setTop c _ h)
      · exact Always.ok (I.mapTop h _)
  case nextCandidatePointer => exact Always.bind' fun s _ => Always.pure (I.top h s)
  case confirmComposition => exact Always.ok (I.confirmCurrent h)
  case purge => exact Always.ok (I.purgeCurrent h)
  case tryNextCompletion => exact Always.bind (I.tryNextCompletion h cm im) fun c' h' => Always.pure h'
  case tryPreviousCompletion =>
    split
    · exact Always.ok h
    · split
      · exact Always.ok (I.mapTop h _)
      · exact Always.ok h
  all_goals exact Always.ok (I.setTop c _ h)

end Grow

namespace Frame
variable {F : Ctx → Prop} {e : Env}

theorem abortRegister (I : Frame F) {c : Ctx} (h : F c) : F c.abortRegister := by
  unfold Ctx.abortRegister
  split
  · rename_i hb; exact I.pop c _ _ _ hb h
  · exact h

theorem exitRegister (I : Frame F) {c : Ctx} (h : F c) (w : Str) : Always F (c.exitRegister e w) := by
  unfold Ctx.exitRegister
  split
  · exact Always.ok h
  · rename_i s rest hb
    dsimp only
    split
    · exact Always.ok (I.mapTop (I.pop c s rest s hb h) _)
    · refine Always.bind' fun cs _ => Always.pure (I.confirmCurrent ?_)
      exact I.mapTop (I.mapTop (I.pop c s rest s hb h) _) _

theorem abort (I : Frame F) {c : Ctx} (h : F c) : F c.abort := by
  unfold Ctx.abort
  dsimp only
  have h1 := I.mapTop h fun s => s.clearPre.consolidate.clearCandidateList
  generalize (c.mapTop fun s => s.clearPre.consolidate.clearCandidateList) = c1 at h1
  have h2 : F ((if c1.top.mode = .direct then c1.abortRegister else c1).mapTop State.abortToPrevious) := by
    split
    · exact I.mapTop (I.abortRegister h1) _
    · exact I.mapTop h1 _
  generalize ((if c1.top.mode = .direct then c1.abortRegister else c1).mapTop State.abortToPrevious) = c2 at h2
  split
  · exact I.mapTop h2 _
  · exact h2

theorem instruction (I : Frame F) {c : Ctx} (h : F c) (i : Instruction) (cm : CompositionMode) (im : InputMode) :
    Always (fun r => F r.1) (c.instruction e i cm im) := by
  by_cases ha : i = .abort
  · subst ha; exact Always.ok (I.abort h)
  · by_cases hd : i = .confirmDirect
    · subst hd
      unfold Ctx.instruction
      dsimp only
      split
      · exact Always.bind (I.exitRegister h _) fun c' h' => Always.pure h'
      · exact Always.ok h
    · exact I.toGrow.instruction h i cm im ha hd

theorem runInstructions (I : Frame F) (cm : CompositionMode) (im : InputMode) (b : Bool) (is : List Instruction)
    {c : Ctx} (h : F c) : Always (fun r => F r.1) (Ctx.runInstructions e cm im b c is) := by
  induction is generalizing c with
  | nil => exact Always.ok h
  | cons i is ih =>
    unfold Ctx.runInstructions
    refine Always.bind (I.instruction h i cm im) fun r hr => ?_
    obtain ⟨c', o⟩ := r
    cases o with
    | some b => exact Always.pure hr
    | none => exact ih hr

theorem processKeyEvent (I : Frame F) {c : Ctx} (h : F c) (ev : KeyEvent) :
    Always (fun r => F r.1) (c.processKeyEvent e ev) := by
  unfold Ctx.processKeyEvent
  split
  · exact Always.ok h
  · unfold Ctx.processInner
    split
    · exact I.charInput h ev
    · refine Always.bind' fun o _ => ?_
      cases o with
      | none => exact I.charInput h ev
      | some is => exact I.runInstructions _ _ _ _ h

/-- Calls which do not replace rules, configuration or dictionaries. -/
def Plain : Op → Prop
  | .setKeywords _ | .setPeriod _ | .setComma _ | .setRule _ _ | .setDictionaries _ => False
  | _ => True

theorem step (I : Frame F) {c : Ctx} (h : F c) (op : Op) (hp : Plain op) : Always F (c.step e op) := by
  cases op <;> unfold Ctx.step
  case key ev => exact Always.bind (I.processKeyEvent h ev) fun r hr => Always.pure hr
  case poll =>
    apply Always.ok
    unfold Ctx.pollOutput Ctx.retrieveOutput
    split
    · exact h
    · rw [if_pos rfl]
      unfold Ctx.mapBottom
      split
      · exact I.top h _
      · rename_i s r hb; refine I.relevel c _ ?_ h; rw [hb]; simp
  case reset => exact Always.ok (I.drop c _ h)
  case setInputMode m => exact Always.ok (I.mapTop h _)
  case setCompositionMode m => exact Always.ok (I.mapTop h _)
  case selectAt i =>
    apply Always.ok
    unfold Ctx.selectCandidateAt
    dsimp only
    split
    · exact h
    · split
      · exact I.setTop c _ h
      · split
        · exact I.enterRegister (I.mapTop h _) _
        · exact I.setTop c _ h
  case confirmAt i =>
    apply Always.ok
    unfold Ctx.confirmCandidateAt
    dsimp only
    split
    · exact I.confirmCurrent (I.top h _)
    · exact I.top h _
  all_goals exact absurd hp id

end Frame

/-- The rules and the configuration are a frame. -/
theorem rules_frame (c₀ : Ctx) :
    Frame fun c => c.cmds = c₀.cmds ∧ c.kanaConv = c₀.kanaConv ∧ c.config = c₀.config :=
  ⟨⟨fun _ _ h => h, fun _ _ _ _ h => h, fun _ _ h => h, fun _ _ _ h => h⟩, fun _ _ _ _ _ h => h, fun _ _ h => h,
    fun _ _ _ h => h⟩

/-- At most ten levels are a frame. -/
theorem depth_frame : Frame fun c => c.below.length + 1 ≤ 10 where
  setTop := fun _ _ h => h
  push := fun _ _ _ hd _ => by simp only [List.length_cons]; omega
  pop := fun c s r t hb h => by rw [hb] at h; simp only [List.length_cons] at h ⊢; omega
  drop := fun _ _ _ => by simp
  relevel := fun c b hb h => by rw [← hb] at h; exact h
  confirm := fun _ _ h => h
  purge := fun _ _ _ h => h

/-- A key event changes neither the rules nor the configuration. -/
theorem processKeyEvent_rules {e : Env} {c : Ctx} {ev : KeyEvent} {r : Ctx × Bool} (h : c.processKeyEvent e ev = .ok r) :
    r.1.cmds = c.cmds ∧ r.1.kanaConv = c.kanaConv ∧ r.1.config = c.config :=
  ((rules_frame c).processKeyEvent ⟨rfl, rfl, rfl⟩ ev).out r h

end Cskk
