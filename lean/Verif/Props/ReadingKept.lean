import Verif.Props.Reading
import Verif.Props.Screen

/-!
# C37: the reading which is looked up, whatever is deleted
-/

namespace Cskk.Spec

/-- BackSpace, or Ctrl-h. -/
def BackKey (ev : KeyEvent) : Prop := ev.symbol = 0xff08 ∨ ((ev.symbol = 0x68 ∨ ev.symbol = 0x48) ∧ ev.modifiers.getLsbD 2 = true)

/-- Rules are only changed to shipped ones. -/
def ShippedOp (_ : Ctx) : Op → Prop
  | .setRule r _ => Props.Taken.Shipped r
  | _ => True

/-- And BackSpace is not pressed where okurigana are shown and no key is pending. -/
def OkuriganaKept (c : Ctx) : Op → Prop
  | .setRule r _ => Props.Taken.Shipped r
  | .key ev => BackKey ev → c.top.mode = .preCompositionOkurigana → c.top.pre ≠ []
  | _ => True

/-- What the conversion command does when the reading `shown` is shown: the dictionaries are asked for `reading`, with the okurigana typed so far if any; if there are words,
exactly these are offered, otherwise a registration is opened (unless ten levels are open). -/
def LooksUp (e : Env) (c c' : Ctx) (shown reading : Str) : Prop :=
  ∃ okuri cs,
    (match c.top.preeditDetail e c.top.inputMode with
      | .preComposition _ text _ _ => text = e.kanaForm.adjust c.top.inputMode shown
      | .preCompositionOkurigana _ text shownOkuri _ => text = e.kanaForm.adjust c.top.inputMode shown ∧
          ∀ o, okuri = some o → shownOkuri = some (e.kanaForm.adjust c.top.inputMode o)
      | _ => False) ∧
    Dicts.getAll c.dicts ⟨reading, okuri⟩ = .ok cs ∧
    (cs ≠ [] → c'.candidates = cs ∧ c'.cursorPosition = some 0 ∧ c'.top.mode = .compositionSelection ∧ c'.depth = c.depth) ∧
    (cs = [] → shown ≠ [] → c.depth < 10 → c'.depth = c.depth + 1 ∧ c'.top = State.new .hiragana .direct)

end Cskk.Spec

namespace Cskk.Props.Reading
open Spec

/-! ## Nothing is looked up which is not shown -/

/-- The one is got from the other by leaving out characters. -/
def Within (s : State) : Prop := s.raw.Sublist s.kana

theorem dropLast_within {a b : Str} (h : a.Sublist b) : a.dropLast.Sublist b.dropLast := by
  rw [← List.reverse_sublist, ← List.tail_reverse, ← List.tail_reverse]
  exact (List.reverse_sublist.mpr h).tail

theorem Within.abort {s : State} (h : Within s) : Within s.abortToPrevious := by
  unfold State.abortToPrevious
  cases s.history.getLast? with
  | none => exact h
  | some m =>
    dsimp only
    split
    · exact List.Sublist.append h (List.Sublist.refl _)
    · exact h

theorem Within.delete {s : State} (h : Within s) : Within s.delete.1 := by
  have hd : s.raw.dropLast.Sublist s.kana.dropLast := dropLast_within h
  have hk : s.raw.dropLast.Sublist s.kana := (List.dropLast_sublist _).trans h
  unfold State.delete
  cases hm : s.mode <;> dsimp only
  case direct => split <;> exact h
  case preComposition =>
    split
    · exact h
    · split <;> first | exact hd | exact hk
  case abbreviation =>
    split
    · exact h
    · split <;> first | exact hd | exact hk
  case preCompositionOkurigana =>
    split <;> split <;> first | exact h | exact hk | (split <;> first | exact h | exact hk)
  all_goals exact h

theorem Within.inv : Inv Within Within (fun _ => True) NoClearKana where
  new := List.Sublist.refl _
  pushFor := by
    intro s w m h
    cases m <;> first | exact h | exact List.Sublist.append h (List.Sublist.refl _)
  setPre := fun _ _ _ h => h
  setCandidates := fun _ _ h => h
  clearUnconfirmed := fun _ _ => List.Sublist.refl _
  clearKanas := fun _ _ h => absurd rfl h
  clearCandidateList := fun _ h => h
  clearAll := fun _ _ => List.Sublist.refl _
  consolidate := fun _ h => List.Sublist.append h (List.Sublist.refl _)
  setPostfix := fun _ _ h => h
  changeMode := fun _ _ h _ => h
  abortToPrevious := fun _ h => h.abort
  resetToDefault := fun _ h => h
  cursor := fun _ _ h _ => h
  inputMode := fun _ _ h => h
  flush := fun _ h => h
  flushQ := fun _ h => h
  deleteAuto := fun _ h _ => h.delete
  delete := fun _ h _ => h.delete
  enter := fun _ _ h _ => h
  leave := fun _ h => h.abort
  exit := fun _ _ _ _ h _ _ _ _ => h
  mode := fun _ _ => trivial
  instr := fun _ _ _ _ => trivial
  mPre := trivial
  mOkuri := trivial
  mSel := trivial
  mComp := trivial

/-! ## Shipped rules -/

theorem step_cmds {e : Env} {c c' : Ctx} {op : Op} (hs : Taken.Shipped c.cmds) (h : ShippedOp c op) (hst : c.step e op = .ok c') : Taken.Shipped c'.cmds := by
  by_cases hp : Frame.Plain op
  · rw [(((rules_frame c).step ⟨rfl, rfl, rfl⟩ op hp).out c' hst).1]; exact hs
  · cases op <;> first | exact absurd trivial hp | (cases hst; exact h) | (cases hst; exact hs)

/-- The guard for `Same`: the instruction takes nothing away of which only the one reading has something. -/
def Spares (s : State) (i : Instruction) : Prop :=
  i ≠ .clearKanaConvertedInputs ∧ (i = .delete → s.mode = .preCompositionOkurigana → s.pre ≠ [] ∨ s.raw = [])

theorem Same.spared {s : State} (h : Same s) (hg : s.mode = .preCompositionOkurigana → s.pre ≠ [] ∨ s.raw = []) : Same s.delete.1 := by
  by_cases hp : s.mode = .preCompositionOkurigana → s.pre ≠ []
  · exact h.delete hp
  · obtain ⟨hm, hn⟩ := Classical.not_imp.mp hp
    have hr : s.raw = [] := (hg hm).resolve_left hn
    have hk : s.kana = [] := (show s.raw = s.kana from h).symm.trans hr
    unfold State.delete
    rw [hm]
    dsimp only
    split <;> split <;> first | (simp [Same, hr, hk]; done) | (split <;> simp [Same, hr, hk])

theorem Same.inv' : Inv Same Same (fun _ => True) Spares where
  new := rfl
  pushFor := Same.inv.pushFor
  setPre := Same.inv.setPre
  setCandidates := Same.inv.setCandidates
  clearUnconfirmed := Same.inv.clearUnconfirmed
  clearKanas := fun _ _ h => absurd rfl h.1
  clearCandidateList := Same.inv.clearCandidateList
  clearAll := Same.inv.clearAll
  consolidate := Same.inv.consolidate
  setPostfix := Same.inv.setPostfix
  changeMode := Same.inv.changeMode
  abortToPrevious := Same.inv.abortToPrevious
  resetToDefault := Same.inv.resetToDefault
  cursor := Same.inv.cursor
  inputMode := Same.inv.inputMode
  flush := Same.inv.flush
  flushQ := Same.inv.flushQ
  deleteAuto := Same.inv.deleteAuto
  delete := fun _ h hg => h.spared (hg.2 rfl)
  enter := Same.inv.enter
  leave := Same.inv.leave
  exit := fun _ _ _ _ h _ _ _ _ => h
  mode := Same.inv.mode
  instr := fun _ _ _ _ => trivial
  mPre := trivial
  mOkuri := trivial
  mSel := trivial
  mComp := trivial

theorem shipped_instr {r : CommandRule} (h : Taken.Shipped r) (cm : CompositionMode) (im : InputMode) : ∀ k ∈ r cm im,
    Instruction.clearKanaConvertedInputs ∉ k.2 ∧
    (Instruction.delete ∉ k.2.tail ∨ (k.2 = [.confirmComposition, .delete] ∧ cm ≠ .preCompositionOkurigana)) ∧
    (Instruction.delete ∈ k.2 → k.1.symbol = 0xff08 ∨ ((k.1.symbol = 0x68 ∨ k.1.symbol = 0x48) ∧ k.1.modifiers.getLsbD 2 = true)) := by
  have : ∀ r, Taken.Shipped r → ∀ cm im, ∀ k ∈ r cm im, Instruction.clearKanaConvertedInputs ∉ k.2 ∧
      (Instruction.delete ∉ k.2.tail ∨ (k.2 = [.confirmComposition, .delete] ∧ cm ≠ .preCompositionOkurigana)) ∧
      (Instruction.delete ∈ k.2 → k.1.symbol = 0xff08 ∨ ((k.1.symbol = 0x68 ∨ k.1.symbol = 0x48) ∧ k.1.modifiers.getLsbD 2 = true)) := by
    rintro r (rfl | rfl) cm im <;> cases cm <;> cases im <;> decide +kernel
  exact this r h cm im

theorem confirm_spares (e : Env) (c : Ctx) (hm : c.top.mode ≠ .preCompositionOkurigana) : Spares (c.confirmCurrent e).top .delete := by
  refine ⟨by simp, fun _ h => ?_⟩
  unfold Ctx.confirmCurrent at h ⊢
  cases hc : c.top.cands.current with
  | none => rw [hc] at h; exact absurd h hm
  | some x => exact Or.inr rfl

theorem shipped_within (e : Env) {r : CommandRule} (hr : Taken.Shipped r) (k : KanaBuilder) (im : InputMode) (cm : CompositionMode) (ds : List CskkDict) (c : Ctx)
    (h : Reach e ShippedOp (Ctx.new r k im cm ds) c) : c.Good Within Within ∧ Taken.Shipped c.cmds := by
  induction h with
  | init => exact ⟨⟨List.Sublist.refl _, by intro s hs; cases hs⟩, hr⟩
  | @step c c' op _ hg hst ih =>
    refine ⟨(Within.inv.step (r := True) (fun _ _ _ => List.Sublist.refl _) ih.1 op ?_).out c' hst, step_cmds ih.2 hg hst⟩
    cases op <;> try trivial
    case key ev =>
      intro is his
      obtain ⟨k, hkm, hm, rfl⟩ := Taken.instruction_of his
      exact Props.Screens.admissible_of_not e _ _ _ c (shipped_instr ih.2 _ _ k hkm).1
    case reset => exact Or.inr trivial

theorem admissible_guard (e : Env) (cm : CompositionMode) (im : InputMode) (is : List Instruction) (c : Ctx)
    (h : Instruction.clearKanaConvertedInputs ∉ is) (hd : Instruction.delete ∉ is) : c.Admissible e (fun c => Spares c.top) cm im is := by
  induction is generalizing c with
  | nil => trivial
  | cons i is ih =>
    exact ⟨⟨fun hh => h (by simp [hh]), fun hh => absurd hh (fun hh => hd (by simp [hh]))⟩, fun c' _ => ih c' (fun hh => h (by simp [hh])) (fun hh => hd (by simp [hh]))⟩

theorem shipped_same (e : Env) {r : CommandRule} (hr : Taken.Shipped r) (k : KanaBuilder) (im : InputMode) (cm : CompositionMode) (ds : List CskkDict) (c : Ctx)
    (h : Reach e OkuriganaKept (Ctx.new r k im cm ds) c) : c.Good Same Same ∧ Taken.Shipped c.cmds := by
  induction h with
  | init => exact ⟨⟨rfl, by intro s hs; cases hs⟩, hr⟩
  | @step c c' op _ hg hst ih =>
    refine ⟨(Same.inv'.step (r := True) (fun _ _ _ => rfl) ih.1 op ?_).out c' hst, step_cmds ih.2 (by cases op <;> first | trivial | exact hg) hst⟩
    cases op <;> try trivial
    case key ev =>
      intro is his
      obtain ⟨k, hkm, hm, rfl⟩ := Taken.instruction_of his
      obtain ⟨h1, h2, h3⟩ := shipped_instr ih.2 _ _ k hkm
      rcases h2 with h2 | ⟨h2, hcm⟩
      · cases hk : k.2 with
        | nil => trivial
        | cons i is =>
          rw [hk] at h1 h2 h3
          refine ⟨⟨fun hh => h1 (by simp [hh]), ?_⟩, fun c' _ => admissible_guard e _ _ is c' (fun hh => h1 (by simp [hh])) h2⟩
          intro hi hmode
          have := h3 (by simp [hi])
          rw [hm.1, hm.2.1 2 (by decide)] at this
          exact Or.inl (hg this hmode)
      · rw [h2]
        refine ⟨⟨by simp, fun h => by cases h⟩, fun c' hc' => ⟨?_, fun _ _ => trivial⟩⟩
        injection hc' with hc'
        injection hc' with hc' _
        subst hc'
        exact confirm_spares e c hcm
    case reset => exact Or.inr trivial

theorem lookup_core (e : Env) (c : Ctx) (hm : c.top.mode = .preComposition ∨ c.top.mode = .preCompositionOkurigana ∨ c.top.mode = .abbreviation)
    (hp : c.kanaConv.convertGreedy c.top.pre = none) (c' : Ctx) (res : Option Bool)
    (hc : c.instruction e .tryNextCandidate c.top.mode c.top.inputMode = .ok (c', res)) : LooksUp e c c' c.top.kana c.top.raw := by
  have hkey : c.top.compositeKey = ⟨c.top.raw, c.top.compositeKey.okuri⟩ := by unfold State.compositeKey; split <;> rfl
  have ho : c.outputConverted e c.top.inputMode c.top.mode = c := by unfold Ctx.outputConverted; rw [hp]
  have hne : c.top.mode ≠ .compositionSelection := by rcases hm with h | h | h <;> rw [h] <;> simp
  simp only [Ctx.instruction, Ctx.tryNextCandidate, if_pos hne, ho, Ctx.updateCandidateList] at hc
  refine ⟨c.top.compositeKey.okuri, ?_⟩
  rw [← hkey]
  cases hg : Dicts.getAll c.dicts c.top.compositeKey with
  | error p => rw [hg] at hc; cases hc
  | ok cs =>
    rw [hg] at hc
    refine ⟨cs, ?_, rfl, ?_, ?_⟩
    · unfold State.preeditDetail
      rcases hm with h | h | h <;> simp only [h]
      refine ⟨trivial, ?_⟩
      intro o hoo
      unfold State.compositeKey at hoo
      split at hoo
      · rename_i hu
        cases hoo
        simp only [Bool.and_eq_true, Bool.not_eq_true'] at hu
        rw [hu.2]; rfl
      · cases hoo
    · intro hcs
      have he : cs.isEmpty = false := by
        cases cs with
        | nil => exact absurd rfl hcs
        | cons a l => rfl
      simp only [bind, Except.bind, pure, Except.pure, Ctx.mapTop, State.setCandidates, CandidateList.set, he,
        Bool.and_false, Bool.false_eq_true, if_false, Bool.not_false, if_true] at hc
      cases hc
      refine ⟨rfl, ?_, rfl, rfl⟩
      simp [Ctx.cursorPosition, Ctx.setCompositionMode, Ctx.mapTop, State.changeMode, State.changeModeFrom, hcs]
    · intro hcs hk hd
      have hke : c.top.kana.isEmpty = false := by
        cases hh : c.top.kana with
        | nil => exact absurd hh hk
        | cons a l => rfl
      subst hcs
      have hdd : ∀ s : State, Ctx.depth { c with top := s } < STACK_MAX := fun _ => hd
      simp only [bind, Except.bind, pure, Except.pure, Ctx.mapTop, State.setCandidates, CandidateList.set, hke,
        List.isEmpty_nil, Bool.and_true, Bool.not_false, if_true, Ctx.enterRegister, if_pos (hdd _)] at hc
      cases hc
      exact ⟨rfl, rfl⟩

/-- **C37.** With the shipped rules, after any calls whatsoever, the conversion command looks up the shown reading, from which characters may be missing; it never looks up
anything which is not shown. -/
theorem lookup_within_shown (e : Env) {r : CommandRule} (hr : Taken.Shipped r) (k : KanaBuilder) (im : InputMode) (cm : CompositionMode) (ds : List CskkDict) (c : Ctx)
    (h : Reach e ShippedOp (Ctx.new r k im cm ds) c) (hm : c.top.mode = .preComposition ∨ c.top.mode = .preCompositionOkurigana ∨ c.top.mode = .abbreviation)
    (hp : c.kanaConv.convertGreedy c.top.pre = none) (c' : Ctx) (res : Option Bool)
    (hc : c.instruction e .tryNextCandidate c.top.mode c.top.inputMode = .ok (c', res)) : ∃ shown reading, reading.Sublist shown ∧ LooksUp e c c' shown reading :=
  ⟨_, _, (shipped_within e hr k im cm ds c h).1.1, lookup_core e c hm hp c' res hc⟩

/-- **C37.** And nothing is missing as long as BackSpace is not pressed where okurigana are shown and no key is pending. -/
theorem lookup_is_shown (e : Env) {r : CommandRule} (hr : Taken.Shipped r) (k : KanaBuilder) (im : InputMode) (cm : CompositionMode) (ds : List CskkDict) (c : Ctx)
    (h : Reach e OkuriganaKept (Ctx.new r k im cm ds) c) (hm : c.top.mode = .preComposition ∨ c.top.mode = .preCompositionOkurigana ∨ c.top.mode = .abbreviation)
    (hp : c.kanaConv.convertGreedy c.top.pre = none) (c' : Ctx) (res : Option Bool)
    (hc : c.instruction e .tryNextCandidate c.top.mode c.top.inputMode = .ok (c', res)) : ∃ shown, LooksUp e c c' shown shown := by
  have hs : c.top.raw = c.top.kana := (shipped_same e hr k im cm ds c h).1.1
  have hl := lookup_core e c hm hp c' res hc
  rw [hs] at hl
  exact ⟨_, hl⟩

/-- Every single key, given one after the other. -/
theorem keys_reach (e : Env) {c₀ : Ctx} : ∀ (l : List KeyEvent) {c c' : Ctx}, Reach e ShippedOp c₀ c → c.processKeyEvents e l = .ok c' → Reach e ShippedOp c₀ c' := by
  intro l
  induction l with
  | nil => intro c c' h hc; cases hc; exact h
  | cons ev l ih =>
    intro c c' h hc
    unfold Ctx.processKeyEvents at hc
    cases h1 : c.processKeyEvent e ev with
    | error p => rw [h1] at hc; cases hc
    | ok q =>
      rw [h1] at hc
      exact ih (.step (op := .key ev) h trivial (show c.step e (.key ev) = .ok q.1 by simp only [Ctx.step, h1]; rfl)) hc

/-- A conversion after `keys`, tested. -/
def after (p : Bool) (keys : List KeyEvent) (f : Ctx → Ctx → Bool) : Bool :=
  (okuCtx.processKeyEvents (Assets.env ⟨p⟩) keys).toOption.any fun c =>
    (c.instruction (Assets.env ⟨p⟩) .tryNextCandidate c.top.mode c.top.inputMode).toOption.any fun r => f c r.1

theorem after_reach {p : Bool} {keys : List KeyEvent} {f : Ctx → Ctx → Bool} (h : after p keys f = true) :
    ∃ c c' res, Reach (Assets.env ⟨p⟩) ShippedOp okuCtx c ∧ c.instruction (Assets.env ⟨p⟩) .tryNextCandidate c.top.mode c.top.inputMode = .ok (c', res) ∧ f c c' = true := by
  unfold after at h
  cases h1 : okuCtx.processKeyEvents (Assets.env ⟨p⟩) keys with
  | error q => rw [h1] at h; cases h
  | ok c =>
    rw [h1] at h
    have h : (c.instruction (Assets.env ⟨p⟩) .tryNextCandidate c.top.mode c.top.inputMode).toOption.any (fun r => f c r.1) = true := h
    cases h2 : c.instruction (Assets.env ⟨p⟩) .tryNextCandidate c.top.mode c.top.inputMode with
    | error q => rw [h2] at h; cases h
    | ok r =>
      rw [h2] at h
      exact ⟨c, r.1, r.2, keys_reach _ keys .init h1, h2, h⟩

/-- The theorem applies to the history of `deleting_okurigana_changes_lookup`, where `おく` is shown and `お` is looked up. -/
theorem within_shown_seen (p : Bool) : ∃ c c' res, Reach (Assets.env ⟨p⟩) ShippedOp okuCtx c ∧
    c.instruction (Assets.env ⟨p⟩) .tryNextCandidate c.top.mode c.top.inputMode = .ok (c', res) ∧ LooksUp (Assets.env ⟨p⟩) c c' c%"おく" c%"お" ∧
    c'.candidates.map (·.output) = [c%"尾"] := by
  obtain ⟨c, c', res, h1, h2, h3⟩ := after_reach (p := p) (keys := typed c%"OkuTt" ++ [⟨0xff08, 0⟩, ⟨0xff08, 0⟩])
    (f := fun c c' => decide (c.top.mode = .preComposition) && decide (c.kanaConv.convertGreedy c.top.pre = none) &&
      (decide (c.top.kana = c%"おく") && decide (c.top.raw = c%"お") && decide (c'.candidates.map (·.output) = [c%"尾"]))) (by cases p <;> decide +kernel)
  simp only [Bool.and_eq_true, decide_eq_true_eq] at h3
  obtain ⟨⟨hm, hp⟩, ⟨hk, hr⟩, ho⟩ := h3
  have := lookup_core (Assets.env ⟨p⟩) c (Or.inl hm) hp c' res h2
  rw [hk, hr] at this
  exact ⟨c, c', res, h1, h2, this, ho⟩

/-- Okurigana are kept, tested. -/
def kept (e : Env) : Ctx → List KeyEvent → Bool
  | _, [] => true
  | c, ev :: l => (!decide (ev.symbol = 0xff08 ∨ ((ev.symbol = 0x68 ∨ ev.symbol = 0x48) ∧ ev.modifiers.getLsbD 2 = true)) ||
      !decide (c.top.mode = .preCompositionOkurigana) || !c.top.pre.isEmpty) && (c.processKeyEvent e ev).toOption.all fun r => kept e r.1 l

theorem kept_reach (e : Env) {c₀ : Ctx} : ∀ (l : List KeyEvent) {c c' : Ctx}, Reach e OkuriganaKept c₀ c → kept e c l = true → c.processKeyEvents e l = .ok c' →
    Reach e OkuriganaKept c₀ c' := by
  intro l
  induction l with
  | nil => intro c c' h _ hc; cases hc; exact h
  | cons ev l ih =>
    intro c c' h hk hc
    unfold Ctx.processKeyEvents at hc
    unfold kept at hk
    rw [Bool.and_eq_true] at hk
    cases h1 : c.processKeyEvent e ev with
    | error p => rw [h1] at hc; cases hc
    | ok q =>
      rw [h1] at hc hk
      refine ih (.step (op := .key ev) h ?_ (show c.step e (.key ev) = .ok q.1 by simp only [Ctx.step, h1]; rfl)) hk.2 hc
      intro hb hm hp
      have hb : decide (ev.symbol = 0xff08 ∨ ((ev.symbol = 0x68 ∨ ev.symbol = 0x48) ∧ ev.modifiers.getLsbD 2 = true)) = true := decide_eq_true hb
      have := hk.1
      rw [hb, decide_eq_true hm, hp] at this
      cases this

/-- `OkuT` and BackSpace, while the `t` is pending: `おく` is shown and looked up. -/
theorem is_shown_seen (p : Bool) : ∃ c c' res, Reach (Assets.env ⟨p⟩) OkuriganaKept okuCtx c ∧
    c.instruction (Assets.env ⟨p⟩) .tryNextCandidate c.top.mode c.top.inputMode = .ok (c', res) ∧ LooksUp (Assets.env ⟨p⟩) c c' c%"おく" c%"おく" ∧
    c'.candidates.map (·.output) = [c%"奥"] := by
  have hkept : kept (Assets.env ⟨p⟩) okuCtx (typed c%"OkuT" ++ [⟨0xff08, 0⟩]) = true := by cases p <;> decide +kernel
  have h : after p (typed c%"OkuT" ++ [⟨0xff08, 0⟩]) (fun c c' => decide (c.top.mode = .preComposition) && decide (c.kanaConv.convertGreedy c.top.pre = none) &&
      (decide (c.top.kana = c%"おく") && decide (c.top.raw = c%"おく") && decide (c'.candidates.map (·.output) = [c%"奥"]))) = true := by cases p <;> decide +kernel
  unfold after at h
  cases h1 : okuCtx.processKeyEvents (Assets.env ⟨p⟩) (typed c%"OkuT" ++ [⟨0xff08, 0⟩]) with
  | error q => rw [h1] at h; cases h
  | ok c =>
    rw [h1] at h
    simp only [Except.toOption, Option.any_some] at h
    cases h2 : c.instruction (Assets.env ⟨p⟩) .tryNextCandidate c.top.mode c.top.inputMode with
    | error q => rw [h2] at h; cases h
    | ok r =>
      rw [h2] at h
      simp only [Option.any_some, Bool.and_eq_true, decide_eq_true_eq] at h
      obtain ⟨⟨hm, hp⟩, ⟨hk, hr⟩, ho⟩ := h
      have := lookup_core (Assets.env ⟨p⟩) c (Or.inl hm) hp r.1 r.2 h2
      rw [hk, hr] at this
      exact ⟨c, r.1, r.2, kept_reach _ _ .init hkept h1, h2, this, ho⟩

/-- **A finding.** When all of the reading is lost this way, a word is registered for the empty reading: `OTt`, BackSpace, BackSpace shows `▽お`, a space opens the registration
`▼お【】`, and the word typed there is kept for a reading which is empty, and which no file can hold. -/
theorem empty_reading_registered (p : Bool) :
    let keys := typed c%"OTt" ++ [⟨0xff08, 0⟩, ⟨0xff08, 0⟩] ++ typed c%" "
    let c₀ := Ctx.new Assets.defaultCommands Assets.defaultKana .hiragana .direct [⟨true, .user ⟨[], []⟩ false⟩]
    ((c₀.processKeyEvents (Assets.env ⟨p⟩) keys).toOption.map fun c => c.preedit (Assets.env ⟨p⟩)) = some c%"▼お【】" ∧
    ((c₀.processKeyEvents (Assets.env ⟨p⟩) (keys ++ typed c%"ka" ++ [⟨0xff0d, 0⟩])).toOption.map fun c => (c.dicts)) =
      some [⟨true, .user ((⟨[], []⟩ : DictMaps).select ⟨[], none, false, c%"か", none, c%"か"⟩) true⟩] := by
  cases p <;> decide +kernel

end Cskk.Props.Reading
