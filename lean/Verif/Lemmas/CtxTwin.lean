import Verif.Lemmas.CtxFrame

/-!
# Two contexts with different dictionaries of equal behaviour

`DictSim S`: `S` relates lists of dictionaries which answer all lookups and completions alike, and is kept when both confirm or
purge the same candidate.  Two contexts that differ only in dictionaries related by `S` stay so under every call.
-/

namespace Cskk

/-- The closure conditions. -/
structure DictSim (S : List CskkDict → List CskkDict → Prop) : Prop where
  confirm : ∀ a b x, S a b → S (a.map fun (d : CskkDict) => d.confirm x) (b.map fun (d : CskkDict) => d.confirm x)
  purge : ∀ a b k x, S a b → S (a.map fun (d : CskkDict) => d.purge k x) (b.map fun (d : CskkDict) => d.purge k x)
  getAll : ∀ a b, S a b → ∀ k, Dicts.getAll b k = Dicts.getAll a k
  complete : ∀ a b, S a b → ∀ k : CompositeKey, k.okuri ≠ some [] → Dicts.getAllComplete b k = Dicts.getAllComplete a k
  relookup : ∀ a b, S a b → Dicts.relookup b = Dicts.relookup a

/-- The second context is the first with related dictionaries. -/
def Twin (S : List CskkDict → List CskkDict → Prop) (c c' : Ctx) : Prop := ∃ ds, c' = { c with dicts := ds } ∧ S c.dicts ds

/-- Both computations panic alike, or both succeed with related results. -/
def Both {A : Type} (Q : A → A → Prop) : R A → R A → Prop
  | .ok a, .ok b => Q a b
  | .error p, .error q => p = q
  | _, _ => False

namespace Both
variable {A B : Type}

theorem bind {Q : A → A → Prop} {P : B → B → Prop} {r r' : R A} (h : Both Q r r') {f g : A → R B}
    (hf : ∀ a b, Q a b → Both P (f a) (g b)) : Both P (r >>= f) (r' >>= g) := by
  cases r with
  | ok a =>
    cases r' with
    | ok b => exact hf a b h
    | error q => exact h.elim
  | error p =>
    cases r' with
    | ok b => exact h.elim
    | error q => exact h

theorem bind' {P : B → B → Prop} {r : R A} {f g : A → R B} (hf : ∀ a, Both P (f a) (g a)) : Both P (r >>= f) (r >>= g) := by
  cases r with
  | ok a => exact hf a
  | error p => exact rfl

theorem ok {Q : A → A → Prop} {a b : A} (h : Q a b) : Both Q (.ok a) (.ok b) := h

theorem pure {Q : A → A → Prop} {a b : A} (h : Q a b) : Both Q (Pure.pure a) (Pure.pure b) := h

theorem error {Q : A → A → Prop} {p : Panic} : Both Q (.error p) (.error p) := rfl
end Both

namespace DictSim
variable {S : List CskkDict → List CskkDict → Prop} {e : Env}

/-- Related results of calls that also return a flag. -/
def Twin2 {X : Type} (S : List CskkDict → List CskkDict → Prop) (r r' : Ctx × X) : Prop := Twin S r.1 r'.1 ∧ r'.2 = r.2

theorem mapTop {c c' : Ctx} (h : Twin S c c') (f : State → State) : Twin S (c.mapTop f) (c'.mapTop f) := by
  obtain ⟨ds, rfl, hs⟩ := h; exact ⟨ds, rfl, hs⟩

theorem setMode {c c' : Ctx} (h : Twin S c c') (m : CompositionMode) : Twin S (c.setCompositionMode m) (c'.setCompositionMode m) := mapTop h _

theorem setInput {c c' : Ctx} (h : Twin S c c') (m : InputMode) : Twin S (c.setInputMode m) (c'.setInputMode m) := mapTop h _

theorem setTop {c c' : Ctx} (h : Twin S c c') (s : State) : Twin S { c with top := s } { c' with top := s } := by
  obtain ⟨ds, rfl, hs⟩ := h; exact ⟨ds, rfl, hs⟩

theorem okuri_ne (s : State) : s.compositeKey.okuri ≠ some [] := by
  unfold State.compositeKey
  split
  · rename_i h
    intro he
    simp only [Option.some.injEq] at he
    rw [he] at h
    simp at h
  · intro h; cases h

theorem updateCandidateList (I : DictSim S) {c c' : Ctx} (h : Twin S c c') :
    Both (Twin S) c.updateCandidateList c'.updateCandidateList := by
  obtain ⟨ds, rfl, hs⟩ := h
  unfold Ctx.updateCandidateList
  dsimp only
  rw [I.getAll _ _ hs]
  exact Both.bind' fun cs => Both.pure ⟨ds, rfl, hs⟩

theorem updateCompletionList (I : DictSim S) {c c' : Ctx} (h : Twin S c c') :
    Both (Twin S) c.updateCompletionList c'.updateCompletionList := by
  obtain ⟨ds, rfl, hs⟩ := h
  unfold Ctx.updateCompletionList
  dsimp only
  rw [I.complete _ _ hs _ (okuri_ne _)]
  exact Both.bind' fun cs => Both.pure ⟨ds, rfl, hs⟩

theorem purgeCurrent (I : DictSim S) {c c' : Ctx} (h : Twin S c c') : Twin S c.purgeCurrent c'.purgeCurrent := by
  obtain ⟨ds, rfl, hs⟩ := h
  unfold Ctx.purgeCurrent
  dsimp only
  cases c.top.cands.current with
  | none => exact ⟨ds, rfl, hs⟩
  | some cand => exact ⟨_, rfl, I.purge _ _ c.top.cands.toComposite cand hs⟩

theorem confirmCurrent (I : DictSim S) {c c' : Ctx} (h : Twin S c c') : Twin S (c.confirmCurrent e) (c'.confirmCurrent e) := by
  obtain ⟨ds, rfl, hs⟩ := h
  unfold Ctx.confirmCurrent
  dsimp only
  cases c.top.cands.current with
  | none => exact ⟨ds, rfl, hs⟩
  | some cand => exact ⟨_, rfl, I.confirm _ _ cand hs⟩

theorem enterRegister {c c' : Ctx} (h : Twin S c c') (m : CompositionMode) : Twin S (c.enterRegister m) (c'.enterRegister m) := by
  obtain ⟨ds, rfl, hs⟩ := h
  unfold Ctx.enterRegister Ctx.depth
  dsimp only
  split
  · exact ⟨ds, rfl, hs⟩
  · exact ⟨ds, rfl, hs⟩

theorem abortRegister {c c' : Ctx} (h : Twin S c c') : Twin S c.abortRegister c'.abortRegister := by
  obtain ⟨ds, rfl, hs⟩ := h
  obtain ⟨below, top, cmds, kana, ds0, conf⟩ := c
  cases below with
  | nil => exact ⟨ds, rfl, hs⟩
  | cons s r => exact ⟨ds, rfl, hs⟩

theorem registered (I : DictSim S) {a b : List CskkDict} (h : S a b) (s : State) (w : Str) :
    Ctx.registered b s w = Ctx.registered a s w := by
  unfold Ctx.registered
  rw [I.relookup _ _ h]

theorem exitRegister (I : DictSim S) {c c' : Ctx} (h : Twin S c c') (w : Str) : Both (Twin S) (c.exitRegister e w) (c'.exitRegister e w) := by
  obtain ⟨ds, rfl, hs⟩ := h
  obtain ⟨below, top, cmds, kana, ds0, conf⟩ := c
  unfold Ctx.exitRegister
  cases below with
  | nil => exact Both.ok ⟨ds, rfl, hs⟩
  | cons s r =>
    dsimp only
    split
    · exact Both.ok ⟨ds, rfl, hs⟩
    · dsimp only [Ctx.mapTop]
      rw [I.registered hs]
      refine Both.bind' fun cs => Both.pure (I.confirmCurrent ?_)
      exact ⟨ds, rfl, hs⟩

theorem outputConverted {c c' : Ctx} (h : Twin S c c') (im : InputMode) (m : CompositionMode) :
    Twin S (c.outputConverted e im m) (c'.outputConverted e im m) := by
  obtain ⟨ds, rfl, hs⟩ := h
  unfold Ctx.outputConverted
  dsimp only
  cases c.kanaConv.convertGreedy c.top.pre with
  | none => exact ⟨ds, rfl, hs⟩
  | some r => cases m <;> exact ⟨ds, rfl, hs⟩

theorem tryNextCandidate (I : DictSim S) {c c' : Ctx} (h : Twin S c c') (cm : CompositionMode) (im : InputMode) :
    Both (Twin S) (c.tryNextCandidate e cm im) (c'.tryNextCandidate e cm im) := by
  unfold Ctx.tryNextCandidate
  by_cases hm : cm ≠ .compositionSelection
  · rw [if_pos hm, if_pos hm]
    refine Both.bind (I.updateCandidateList (outputConverted h im cm)) fun a b hab => ?_
    have hab' := hab
    obtain ⟨ds, rfl, hs⟩ := hab
    dsimp only
    split
    · exact Both.pure (enterRegister hab' _)
    · split
      · exact Both.pure (mapTop hab' _)
      · exact Both.pure hab'
  · rw [if_neg hm, if_neg hm]
    have h' := h
    obtain ⟨ds, rfl, hs⟩ := h
    dsimp only
    refine Both.bind' fun n => ?_
    split
    · exact Both.pure (enterRegister h' _)
    · exact Both.bind' fun s => Both.pure (setTop h' s)

theorem tryNextCompletion (I : DictSim S) {c c' : Ctx} (h : Twin S c c') (cm : CompositionMode) (im : InputMode) :
    Both (Twin S) (c.tryNextCompletion e cm im) (c'.tryNextCompletion e cm im) := by
  unfold Ctx.tryNextCompletion
  by_cases hm : cm ≠ .completion
  · rw [if_pos hm, if_pos hm]
    refine Both.bind (I.updateCompletionList (outputConverted h im cm)) fun a b hab => ?_
    have hab' := hab
    obtain ⟨ds, rfl, hs⟩ := hab
    dsimp only
    split
    · exact Both.pure hab'
    · split
      · exact Both.pure (mapTop hab' _)
      · exact Both.pure hab'
  · rw [if_neg hm, if_neg hm]
    have h' := h
    obtain ⟨ds, rfl, hs⟩ := h
    dsimp only
    refine Both.bind' fun n => ?_
    split
    · exact Both.pure h'
    · exact Both.bind' fun s => Both.pure (mapTop (setTop h' s) _)

theorem autoStartHenkan (I : DictSim S) {c c' : Ctx} (h : Twin S c c') : Both (Twin S) (c.autoStartHenkan e) (c'.autoStartHenkan e) := by
  have h' := h
  obtain ⟨ds, rfl, hs⟩ := h
  unfold Ctx.autoStartHenkan
  dsimp only
  split
  · exact Both.error
  · cases c.config.keywords.find? fun suffix =>
        !decide (c.top.compositeKey.toComposite = suffix) && Ctx.endsWith c.top.compositeKey.toComposite suffix with
    | none => exact Both.ok h'
    | some w => exact I.tryNextCandidate (mapTop h' _) _ _

theorem transitionByCapital {c c' : Ctx} (h : Twin S c c') (ev : KeyEvent) (m : CompositionMode) (d : Bool) :
    Twin2 S (c.transitionByCapital ev m d) (c'.transitionByCapital ev m d) := by
  obtain ⟨ds, rfl, hs⟩ := h
  unfold Ctx.transitionByCapital
  dsimp only
  split
  · exact ⟨⟨ds, rfl, hs⟩, rfl⟩
  · split
    · exact ⟨⟨ds, rfl, hs⟩, rfl⟩
    · exact ⟨⟨ds, rfl, hs⟩, rfl⟩

theorem startOkuriHenkan (I : DictSim S) {c c' : Ctx} (h : Twin S c c') (carry : List Keysym) :
    Both (Twin S) (c.startOkuriHenkan carry) (c'.startOkuriHenkan carry) := by
  have h' := h
  obtain ⟨ds, rfl, hs⟩ := h
  unfold Ctx.startOkuriHenkan
  dsimp only
  split
  · refine Both.bind (I.updateCandidateList h') fun a b hab => ?_
    have hab' := hab
    obtain ⟨ds, rfl, hs⟩ := hab
    dsimp only
    split
    · exact Both.pure (enterRegister hab' _)
    · exact Both.pure (mapTop hab' _)
  · exact Both.ok h'

theorem inputConvertedKana (I : DictSim S) {c c' : Ctx} (h : Twin S c c') (kana : Str) (carry : List Keysym) (d : Bool)
    (pre : List Keysym) : Both (Twin S) (c.inputConvertedKana e kana carry d pre) (c'.inputConvertedKana e kana carry d pre) := by
  have h' := h
  obtain ⟨ds, rfl, hs⟩ := h
  unfold Ctx.inputConvertedKana
  dsimp only
  cases hm : c.top.mode <;> dsimp only
  case direct => exact Both.ok ⟨ds, rfl, hs⟩
  case preComposition => exact I.autoStartHenkan ⟨ds, rfl, hs⟩
  case preCompositionOkurigana =>
    apply I.startOkuriHenkan
    split
    · exact ⟨ds, rfl, hs⟩
    · exact ⟨ds, rfl, hs⟩
  all_goals exact Both.ok h'

theorem inputAsContinuous {c c' : Ctx} (h : Twin S c c') (ev : KeyEvent) : Twin S (c.inputAsContinuous ev) (c'.inputAsContinuous ev) := by
  obtain ⟨ds, rfl, hs⟩ := h
  unfold Ctx.inputAsContinuous
  dsimp only
  cases c.top.mode <;> exact ⟨ds, rfl, hs⟩

theorem top_eq {c c' : Ctx} (h : Twin S c c') : c'.top = c.top := by obtain ⟨ds, rfl, _⟩ := h; rfl

theorem depth_eq {c c' : Ctx} (h : Twin S c c') : c'.depth = c.depth := by obtain ⟨ds, rfl, _⟩ := h; rfl

theorem abort {c c' : Ctx} (h : Twin S c c') : Twin S c.abort c'.abort := by
  unfold Ctx.abort
  dsimp only
  have h1 := mapTop h fun s => s.clearPre.consolidate.clearCandidateList
  generalize (c.mapTop fun s => s.clearPre.consolidate.clearCandidateList) = a at h1
  generalize (c'.mapTop fun s => s.clearPre.consolidate.clearCandidateList) = b at h1
  rw [top_eq h1]
  have h2 : Twin S ((if a.top.mode = .direct then a.abortRegister else a).mapTop State.abortToPrevious)
      ((if a.top.mode = .direct then b.abortRegister else b).mapTop State.abortToPrevious) := by
    split
    · exact mapTop (abortRegister h1) _
    · exact mapTop h1 _
  generalize ((if a.top.mode = .direct then a.abortRegister else a).mapTop State.abortToPrevious) = a2 at h2
  generalize ((if a.top.mode = .direct then b.abortRegister else b).mapTop State.abortToPrevious) = b2 at h2
  rw [top_eq h2]
  split
  · exact mapTop h2 _
  · exact h2

theorem instruction (I : DictSim S) {c c' : Ctx} (h : Twin S c c') (i : Instruction) (cm : CompositionMode) (im : InputMode) :
    Both (Twin2 S) (c.instruction e i cm im) (c'.instruction e i cm im) := by
  have ht := top_eq h
  have hd := depth_eq h
  cases i <;> unfold Ctx.instruction <;> dsimp only <;> try rw [ht]
  case abort => exact Both.ok ⟨abort h, rfl⟩
  case forceKanaConvert m => exact Both.ok ⟨outputConverted h _ _, rfl⟩
  case finishKeyEvent => exact Both.ok ⟨h, rfl⟩
  case passthroughKeyEvent => exact Both.ok ⟨h, rfl⟩
  case tryNextCandidate => exact Both.bind (I.tryNextCandidate h cm im) fun a b hab => Both.pure ⟨hab, rfl⟩
  case tryPreviousCandidate =>
    split
    · exact Both.ok ⟨h, rfl⟩
    · split
      · exact Both.ok ⟨setMode (mapTop h _) _, rfl⟩
      · exact Both.ok ⟨mapTop h _, rfl⟩
  case nextCandidatePointer => exact Both.bind' fun s => Both.pure ⟨setTop h s, rfl⟩
  case confirmComposition => exact Both.ok ⟨I.confirmCurrent h, rfl⟩
  case confirmDirect =>
    rw [hd]
    split
    · exact Both.bind (I.exitRegister h _) fun a b hab => Both.pure ⟨hab, rfl⟩
    · exact Both.ok ⟨h, rfl⟩
  case purge => exact Both.ok ⟨I.purgeCurrent h, rfl⟩
  case tryNextCompletion => exact Both.bind (I.tryNextCompletion h cm im) fun a b hab => Both.pure ⟨hab, rfl⟩
  case tryPreviousCompletion =>
    split
    · exact Both.ok ⟨h, rfl⟩
    · split
      · exact Both.ok ⟨mapTop h _, rfl⟩
      · exact Both.ok ⟨h, rfl⟩
  case delete => exact Both.ok ⟨setTop h _, rfl⟩
  case confirmAs m =>
    refine Both.ok ⟨?_, rfl⟩
    unfold Ctx.confirmKana
    dsimp only
    rw [ht]
    exact mapTop h _
  case changeInputMode m => exact Both.ok ⟨setInput h _, rfl⟩
  case changeCompositionMode m => exact Both.ok ⟨setMode h _, rfl⟩
  all_goals exact Both.ok ⟨mapTop h _, rfl⟩

theorem runInstructions (I : DictSim S) (cm : CompositionMode) (im : InputMode) (b : Bool) (is : List Instruction)
    {c c' : Ctx} (h : Twin S c c') : Both (Twin2 S) (Ctx.runInstructions e cm im b c is) (Ctx.runInstructions e cm im b c' is) := by
  induction is generalizing c c' with
  | nil => exact Both.ok ⟨h, rfl⟩
  | cons i is ih =>
    unfold Ctx.runInstructions
    refine Both.bind (I.instruction h i cm im) fun r r' hr => ?_
    obtain ⟨a, o⟩ := r
    obtain ⟨a', o'⟩ := r'
    obtain ⟨h1, h2⟩ := hr
    dsimp only at h1 h2
    subst h2
    cases o' with
    | some b => exact Both.pure ⟨h1, rfl⟩
    | none => exact ih h1

theorem finishSymbol (I : DictSim S) {c c' : Ctx} (h : Twin S c c') : Both (Twin2 S) (c.finishSymbol e) (c'.finishSymbol e) := by
  unfold Ctx.finishSymbol
  rw [top_eq h]
  split
  · exact Both.bind (I.autoStartHenkan h) fun a b hab => Both.pure ⟨hab, rfl⟩
  · exact Both.ok ⟨h, rfl⟩

theorem symbolInput (I : DictSim S) {c c' : Ctx} (h : Twin S c c') (ev : KeyEvent) (ch : Char) (pre : List Keysym) :
    Both (Twin2 S) (c.symbolInput e ev ch pre) (c'.symbolInput e ev ch pre) := by
  have hout : ∀ {a b : Ctx}, Twin S a b → ∀ im m,
      Twin S ((a.outputConverted e im m).mapTop State.clearPre) ((b.outputConverted e im m).mapTop State.clearPre) :=
    fun h im m => mapTop (outputConverted h im m) _
  have bt : ∀ {r r' : R Ctx}, Both (Twin S) r r' →
      Both (Twin2 S) (r >>= fun c => pure (c, true)) (r' >>= fun c => pure (c, true)) :=
    fun h => Both.bind h fun a b hab => Both.pure ⟨hab, rfl⟩
  have hconf : c'.config = c.config ∧ c'.kanaConv = c.kanaConv := by obtain ⟨ds, rfl, _⟩ := h; exact ⟨rfl, rfl⟩
  unfold Ctx.symbolInput
  dsimp only
  rw [hconf.1, hconf.2, top_eq h]
  cases KanaBuilder.convertPeriods ch c.config.period c.config.comma with
  | some w =>
    dsimp only
    have ho := hout h c.top.inputMode c.top.mode
    rw [top_eq ho]
    cases ((c.outputConverted e c.top.inputMode c.top.mode).mapTop State.clearPre).top.mode <;> dsimp only
    case direct =>
      apply I.finishSymbol
      exact mapTop ho _
    case preComposition => exact I.finishSymbol (mapTop ho _)
    case preCompositionOkurigana => exact I.finishSymbol (mapTop ho _)
    all_goals exact Both.ok ⟨ho, rfl⟩
  | none =>
    dsimp only
    split
    · exact I.finishSymbol (inputAsContinuous h _)
    · split
      · exact I.finishSymbol (inputAsContinuous (transitionByCapital h _ _ _).1 _)
      · cases c.kanaConv.convertNonPartial (KanaBuilder.combineRaw ev []) with
        | some r => exact bt (I.inputConvertedKana h _ _ _ _)
        | none =>
          dsimp only
          cases c.kanaConv.convertNonPartial (KanaBuilder.combineLower ev []) with
          | some r =>
            dsimp only
            split
            · have ht := transitionByCapital h ev c.top.mode false
              rw [ht.2]
              exact bt (I.inputConvertedKana ht.1 _ _ _ _)
            · exact I.finishSymbol h
          | none =>
            dsimp only
            split
            · exact I.finishSymbol (inputAsContinuous (hout h _ _) _)
            · split
              · exact I.finishSymbol (inputAsContinuous (hout (transitionByCapital h _ _ _).1 _ _) _)
              · split
                · have ho := hout h c.top.inputMode c.top.mode
                  rw [top_eq ho]
                  cases ((c.outputConverted e c.top.inputMode c.top.mode).mapTop State.clearPre).top.mode <;> dsimp only
                  case direct => exact I.finishSymbol (mapTop ho _)
                  case preComposition => exact I.finishSymbol (mapTop ho _)
                  case preCompositionOkurigana => exact I.finishSymbol (mapTop ho _)
                  all_goals exact Both.ok ⟨ho, rfl⟩
                · exact Both.ok ⟨h, rfl⟩

theorem romInput (I : DictSim S) {c c' : Ctx} (h : Twin S c c') (ev : KeyEvent) (pre : List Keysym) :
    Both (Twin2 S) (c.romInput e ev pre) (c'.romInput e ev pre) := by
  have bt : ∀ {r r' : R Ctx}, Both (Twin S) r r' →
      Both (Twin2 S) (r >>= fun c => pure (c, true)) (r' >>= fun c => pure (c, true)) :=
    fun h => Both.bind h fun a b hab => Both.pure ⟨hab, rfl⟩
  have hk : c'.kanaConv = c.kanaConv := by obtain ⟨ds, rfl, _⟩ := h; rfl
  unfold Ctx.romInput
  dsimp only
  rw [hk, top_eq h]
  cases c.kanaConv.convertNonPartial (KanaBuilder.combineRaw ev pre) with
  | some r => exact bt (I.inputConvertedKana h _ _ _ _)
  | none =>
    dsimp only
    cases (if ev.isUpper then c.kanaConv.convertNonPartial (KanaBuilder.combineLower ev pre) else none) with
    | some r =>
      dsimp only
      have ht := transitionByCapital h ev c.top.mode c.top.capital
      rw [ht.2]
      exact bt (I.inputConvertedKana ht.1 _ _ _ _)
    | none =>
      dsimp only
      cases ev.symbolChar e.xkb with
      | some ch => exact I.symbolInput h _ _ _
      | none => exact Both.ok ⟨h, rfl⟩

theorem plainInput {c c' : Ctx} (h : Twin S c c') (ev : KeyEvent) : Twin2 S (c.plainInput e ev) (c'.plainInput e ev) := by
  obtain ⟨ds, rfl, hs⟩ := h
  unfold Ctx.plainInput
  dsimp only
  cases c.top.mode <;> dsimp only
  case direct =>
    cases ev.symbolChar e.xkb with
    | none => exact ⟨⟨ds, rfl, hs⟩, rfl⟩
    | some ch => cases c.top.inputMode <;> exact ⟨⟨ds, rfl, hs⟩, rfl⟩
  case abbreviation =>
    cases ev.symbolChar e.xkb with
    | none => exact ⟨⟨ds, rfl, hs⟩, rfl⟩
    | some ch => exact ⟨⟨ds, rfl, hs⟩, rfl⟩
  all_goals exact ⟨⟨ds, rfl, hs⟩, rfl⟩

theorem charInput (I : DictSim S) {c c' : Ctx} (h : Twin S c c') (ev : KeyEvent) :
    Both (Twin2 S) (c.charInput e ev) (c'.charInput e ev) := by
  unfold Ctx.charInput
  split
  · exact Both.ok ⟨h, rfl⟩
  · dsimp only
    have hw : c'.willBeProcessed ev c.top.pre = c.willBeProcessed ev c.top.pre := by obtain ⟨ds, rfl, _⟩ := h; rfl
    rw [top_eq h, hw]
    have h1 : Twin S
        (if (c.top.mode = .compositionSelection ∨ c.top.mode = .completion) ∧ c.willBeProcessed ev c.top.pre = true then c.confirmCurrent e else c)
        (if (c.top.mode = .compositionSelection ∨ c.top.mode = .completion) ∧ c.willBeProcessed ev c.top.pre = true then c'.confirmCurrent e else c') := by
      split
      · exact I.confirmCurrent h
      · exact h
    generalize (if (c.top.mode = .compositionSelection ∨ c.top.mode = .completion) ∧ c.willBeProcessed ev c.top.pre = true
      then c.confirmCurrent e else c) = a at h1
    generalize (if (c.top.mode = .compositionSelection ∨ c.top.mode = .completion) ∧ c.willBeProcessed ev c.top.pre = true
      then c'.confirmCurrent e else c') = b at h1
    rw [top_eq h1]
    split
    · exact I.romInput h1 _ _
    · split
      · exact Both.ok (plainInput h1 _)
      · exact Both.ok ⟨h1, rfl⟩

theorem processKeyEvent (I : DictSim S) {c c' : Ctx} (h : Twin S c c') (ev : KeyEvent) :
    Both (Twin2 S) (c.processKeyEvent e ev) (c'.processKeyEvent e ev) := by
  unfold Ctx.processKeyEvent
  split
  · exact Both.ok ⟨h, rfl⟩
  · unfold Ctx.processInner
    have hk : c'.skipCommand ev = c.skipCommand ev ∧ c'.cmds = c.cmds := by obtain ⟨ds, rfl, _⟩ := h; exact ⟨rfl, rfl⟩
    rw [hk.1, hk.2, top_eq h]
    split
    · exact I.charInput h ev
    · refine Both.bind' fun o => ?_
      cases o with
      | none => exact I.charInput h ev
      | some is => exact I.runInstructions _ _ _ _ h

/-- A call that replaces the dictionaries is given related ones. -/
def OpSim (S : List CskkDict → List CskkDict → Prop) : Op → Op → Prop
  | .setDictionaries a, .setDictionaries b => S a b
  | a, b => a = b

theorem step (I : DictSim S) {c c' : Ctx} (h : Twin S c c') {op op' : Op} (ho : OpSim S op op') :
    Both (Twin S) (c.step e op) (c'.step e op') := by
  cases op
  case setDictionaries a =>
    cases op'
    case setDictionaries b =>
      obtain ⟨ds, rfl, hs⟩ := h
      exact Both.ok ⟨b, rfl, ho⟩
    all_goals exact absurd ho (by intro h; cases h)
  all_goals
    have ho' : op' = _ := (by cases op' <;> first | exact ho.symm | exact absurd ho (by intro h; cases h))
    subst ho'
  case key ev => exact Both.bind (I.processKeyEvent h ev) fun a b hab => Both.pure hab.1
  case poll =>
    obtain ⟨ds, rfl, hs⟩ := h
    apply Both.ok
    unfold Ctx.pollOutput Ctx.retrieveOutput Ctx.bottom
    dsimp only
    split
    · exact ⟨ds, rfl, hs⟩
    · rw [if_pos rfl, if_pos rfl]
      unfold Ctx.mapBottom
      dsimp only
      cases c.below with
      | nil => exact ⟨ds, rfl, hs⟩
      | cons s r => exact ⟨ds, rfl, hs⟩
  case reset => obtain ⟨ds, rfl, hs⟩ := h; exact Both.ok ⟨ds, rfl, hs⟩
  case setInputMode m => exact Both.ok (mapTop h _)
  case setCompositionMode m => exact Both.ok (mapTop h _)
  case selectAt i =>
    apply Both.ok
    unfold Ctx.selectCandidateAt
    dsimp only
    rw [top_eq h]
    split
    · exact h
    · split
      · exact setMode (mapTop h _) _
      · split
        · exact enterRegister (mapTop h _) _
        · exact mapTop h (fun s => (s.setPointer i.toNat).1)
  case confirmAt i =>
    apply Both.ok
    unfold Ctx.confirmCandidateAt
    dsimp only
    rw [top_eq h]
    split
    · exact I.confirmCurrent (setTop h _)
    · exact setTop h _
  case setKeywords l => obtain ⟨ds, rfl, hs⟩ := h; exact Both.ok ⟨ds, rfl, hs⟩
  case setPeriod p => obtain ⟨ds, rfl, hs⟩ := h; exact Both.ok ⟨ds, rfl, hs⟩
  case setComma p => obtain ⟨ds, rfl, hs⟩ := h; exact Both.ok ⟨ds, rfl, hs⟩
  case setRule r k => obtain ⟨ds, rfl, hs⟩ := h; exact Both.ok ⟨ds, rfl, hs⟩

end DictSim
end Cskk
