import Verif.Spec.Registration
import Verif.Lemmas.CtxFrame
import Verif.Props.Navigate
import Verif.Props.Register
import Verif.Props.ModeKeys

/-!
# C59: a registration leaves the levels below alone, and can be given up without a trace
-/

namespace Cskk.Props.Registration

open Cskk.Spec Cskk.Spec.ModeKeys Cskk.Props.Navigate

variable {e : Env}

/-- The levels `B` are still waiting. -/
theorem waiting_grow (B : List State) : Grow fun c => B <:+ c.below where
  setTop := fun _ _ h => h
  push := fun c s t _ h => h.trans (List.suffix_cons s c.below)
  confirm := fun _ _ h => h
  purge := fun _ _ _ h => h

/-- Afterwards the same levels are waiting and perhaps more, or the innermost one of them has been taken up again. -/
def Step (c : Ctx) (c' : Ctx) : Prop := c.below <:+ c'.below ∨ c'.below = c.below.tail

theorem abort_step (c : Ctx) : Step c c.abort := by
  unfold Ctx.abort
  dsimp only
  have key : ∀ c1 : Ctx, c1.below = c.below →
      Step c ((if c1.top.mode = .direct then c1.abortRegister else c1).mapTop State.abortToPrevious) := by
    intro c1 h1
    split
    · unfold Ctx.abortRegister Ctx.mapTop
      split
      · rename_i s rest hb
        right; show rest = c.below.tail
        rw [← h1, hb]; rfl
      · left; show c.below <:+ c1.below; rw [h1]; exact List.suffix_refl _
    · left; show c.below <:+ c1.below; rw [h1]; exact List.suffix_refl _
  have h2 := key (c.mapTop fun s => s.clearPre.consolidate.clearCandidateList) rfl
  generalize ((if (c.mapTop fun s => s.clearPre.consolidate.clearCandidateList).top.mode = .direct then
    (c.mapTop fun s => s.clearPre.consolidate.clearCandidateList).abortRegister
    else c.mapTop fun s => s.clearPre.consolidate.clearCandidateList).mapTop State.abortToPrevious) = c2 at h2
  split
  · exact h2
  · exact h2

theorem confirmCurrent_below (e : Env) (c : Ctx) : (c.confirmCurrent e).below = c.below := by
  unfold Ctx.confirmCurrent
  cases c.top.cands.current <;> rfl

theorem exit_below (c : Ctx) (w : Str) : Always (fun c' : Ctx => c'.below = c.below.tail) (c.exitRegister e w) := by
  unfold Ctx.exitRegister
  split
  · rename_i hb; apply Always.ok; rw [hb]; rfl
  · rename_i s rest hb
    dsimp only
    split
    · apply Always.ok; rw [hb]; rfl
    · refine Always.bind' fun cs _ => Always.pure ?_
      rw [confirmCurrent_below, hb]; rfl

theorem suffix_tail {α : Type} {l b : List α} (h : l <:+ b) : l <:+ b.tail ∨ b.tail = l.tail := by
  obtain ⟨p, rfl⟩ := h
  cases p with
  | nil => exact .inr rfl
  | cons x p => exact .inl ⟨p, rfl⟩

theorem grow_step {c c1 c2 : Ctx} (h : c.below <:+ c1.below) (h2 : Step c1 c2) : Step c c2 := by
  rcases h2 with h2 | h2
  · exact .inl (h.trans h2)
  · rcases suffix_tail h with h3 | h3
    · exact .inl (h2 ▸ h3)
    · exact .inr (h2.trans h3)

theorem run_step (cm : CompositionMode) (im : InputMode) (b : Bool) (is : List Instruction)
    (ha : Instruction.abort ∉ is.dropLast) (c₀ c : Ctx) (h : c₀.below <:+ c.below) :
    Always (fun r => Step c₀ r.1) (Ctx.runInstructions e cm im b c is) := by
  induction is generalizing c with
  | nil => exact Always.ok (.inl h)
  | cons i is ih =>
    unfold Ctx.runInstructions
    by_cases hd : i = .confirmDirect
    · subst hd
      refine Always.bind (P := fun r : Ctx × Option Bool => Step c₀ r.1 ∧ r.2.isSome) ?_ fun r hr => ?_
      · unfold Ctx.instruction
        dsimp only
        split
        · exact Always.bind (exit_below c _) fun c' h' => Always.pure ⟨grow_step h (.inr h'), rfl⟩
        · exact Always.ok ⟨.inl h, rfl⟩
      · obtain ⟨c', o⟩ := r
        cases o with
        | some b => exact Always.pure hr.1
        | none => exact absurd hr.2 (by simp)
    · by_cases hi : i = .abort
      · subst hi
        have hn : is = [] := by
          cases is with
          | nil => rfl
          | cons j is => exact absurd (by simp) ha
        subst hn
        refine Always.bind (P := fun r : Ctx × Option Bool => Step c₀ r.1)
          (Always.ok (grow_step h (abort_step c))) fun r hr => ?_
        obtain ⟨c', o⟩ := r
        cases o with
        | some b => exact Always.pure hr
        | none => exact Always.ok hr
      · refine Always.bind ((waiting_grow c₀.below).instruction h i cm im hi hd) fun r hr => ?_
        obtain ⟨c', o⟩ := r
        cases o with
        | some b => exact Always.pure (.inl hr)
        | none =>
          refine ih ?_ c' hr
          intro hmem
          apply ha
          cases is with
          | nil => simp at hmem
          | cons j is => simp only [List.dropLast_cons₂]; exact List.mem_cons_of_mem _ hmem

theorem getInstruction_abortLast {r : CommandRule} {p : Profile} {ev : KeyEvent} {im : InputMode} {cm : CompositionMode}
    {is : List Instruction} (ha : AbortLast r) (h : r.getInstruction p ev im cm = .ok (some is)) :
    Instruction.abort ∉ is.dropLast := by
  unfold CommandRule.getInstruction at h
  split at h
  · split at h <;> cases h
  · simp only [Except.ok.injEq, Option.map_eq_some_iff] at h
    obtain ⟨⟨k, is'⟩, hf, rfl⟩ := h
    exact ha _ _ _ _ (List.mem_of_find?_eq_some hf)

/-- C59: whatever the rule, as long as its commands do not go on after `Abort`: a key leaves all waiting levels as they are,
except that it may take up the innermost one again. -/
theorem key_step (c : Ctx) (ev : KeyEvent) (ha : AbortLast c.cmds) :
    Always (fun r => Step c r.1) (c.processKeyEvent e ev) := by
  unfold Ctx.processKeyEvent
  split
  · exact Always.ok (.inl (List.suffix_refl _))
  · unfold Ctx.processInner
    have hch := (waiting_grow c.below).charInput (e := e) (c := c) (List.suffix_refl _) ev
    split
    · exact hch.mono fun _ h => .inl h
    · refine Always.bind' fun o ho => ?_
      cases o with
      | none => exact hch.mono fun _ h => .inl h
      | some is => exact run_step _ _ _ _ (getInstruction_abortLast ha ho) c c (List.suffix_refl _)

theorem op_step (c : Ctx) (op : Op) (ha : AbortLast c.cmds) (hw : Working op) : Always (Step c) (c.step e op) := by
  have hg := waiting_grow c.below
  have h0 : c.below <:+ c.below := List.suffix_refl _
  cases op <;> unfold Ctx.step
  case key ev => exact Always.bind (key_step c ev ha) fun r hr => Always.pure hr
  case setInputMode m => exact Always.ok (.inl (hg.mapTop h0 _))
  case setCompositionMode m => exact Always.ok (.inl (hg.mapTop h0 _))
  case selectAt i =>
    apply Always.ok
    left
    unfold Ctx.selectCandidateAt
    dsimp only
    split
    · exact h0
    · split
      · exact hg.setTop c _ h0
      · split
        · exact hg.enterRegister (hg.mapTop h0 _) _
        · exact hg.setTop c _ h0
  case confirmAt i =>
    apply Always.ok
    left
    unfold Ctx.confirmCandidateAt
    dsimp only
    split
    · exact hg.confirmCurrent (hg.top h0 _)
    · exact hg.top h0 _
  all_goals exact absurd hw id

/-- **C59.** While a user works inside a registration, the levels which wait for it stay as they are: whatever is typed,
however many registrations are begun and ended inside it. -/
theorem waiting_untouched (B : List State) (c c' : Ctx) (ops : List Op) (ha : AbortLast c.cmds) (hb : B <:+ c.below)
    (h : Inside e B.length c ops c') :
    B <:+ c'.below ∧ c'.cmds = c.cmds ∧ c'.kanaConv = c.kanaConv ∧ c'.config = c.config := by
  generalize hn : B.length = n at h
  induction h with
  | nil c _ => exact ⟨hb, rfl, rfl, rfl⟩
  | cons c c₁ c' op ops hl hw hs hi ih =>
    have hp : Frame.Plain op := by cases op <;> first | trivial | exact absurd hw id
    have hr := ((rules_frame c).step (e := e) ⟨rfl, rfl, rfl⟩ op hp).out c₁ hs
    have h1 : B <:+ c₁.below := by
      rcases (op_step (e := e) c op ha hw).out c₁ hs with h | h
      · exact hb.trans h
      · rcases suffix_tail hb with h' | h'
        · exact h ▸ h'
        · have hl1 : n ≤ c₁.below.length := by cases hi <;> assumption
          rw [h, h', List.length_tail, hn] at hl1
          cases B with
          | nil => exact List.nil_suffix
          | cons b B => simp at hn; omega
    obtain ⟨g1, g2, g3, g4⟩ := ih (hr.1 ▸ ha) h1
    exact ⟨g1, g2.trans hr.1, g3.trans hr.2.1, g4.trans hr.2.2⟩

/-- The level which waits for a registration, taken up again without a word. -/
theorem back (s : State) (m : CompositionMode) (hh : s.history.length ≤ 20) :
    State.abortToPrevious { s with mode := .register, history := remember s.history m } =
      { resumed s m with history := s.history.drop (s.history.length - 19) } := by
  have hr : remember s.history m = s.history.drop (s.history.length - 19) ++ [m] := by
    unfold remember
    rw [List.length_append, List.length_singleton, List.drop_append_of_le_length (by omega)]
    congr 2
  unfold State.abortToPrevious
  simp only [hr, List.getLast?_append, List.getLast?_singleton, Option.some_or, List.dropLast_concat]
  unfold resumed State.consolidate
  split <;> rfl

/-- Inside a registration and at its own level: nothing but the word's level and the dictionaries has changed. -/
theorem at_level (c c' : Ctx) (m : CompositionMode) (ops : List Op) (ha : AbortLast c.cmds)
    (hi : Inside e (c.below.length + 1) (registering c m) ops c') (hd : c'.below.length = c.below.length + 1) :
    c' = { registering c m with top := c'.top, dicts := c'.dicts } := by
  obtain ⟨h1, h2, h3, h4⟩ := waiting_untouched (registering c m).below (registering c m) c' ops ha (List.suffix_refl _) hi
  have hb : (registering c m).below = c'.below := h1.eq_of_length (by rw [hd]; rfl)
  obtain ⟨below, top, cmds, kana, dicts, config⟩ := c'
  simp only at hb h2 h3 h4
  subst hb h2 h3 h4
  rfl

/-- **C59.** A registration can be given up: at its own level the key for that (`C-g` in the shipped rules) leads back to the
level which asked for the word, and everything is as it was before, except that the words which were confirmed in the
meantime are now known to the dictionaries. The oldest remembered mode is lost if there are twenty. -/
theorem cancel_restores (c c' : Ctx) (m : CompositionMode) (ops : List Op) (tbl : List (List Keysym × Conv)) (ev : KeyEvent)
    (ha : AbortLast c.cmds) (hk : c.kanaConv = KanaBuilder.ofTable tbl) (hh : c.top.history.length ≤ 20)
    (hi : Inside e (c.below.length + 1) (registering c m) ops c') (hd : c'.below.length = c.below.length + 1)
    (hm : c'.top.mode = .direct) (hr : ¬ IsRelease ev) (hc : CommandIs c' ev [.abort])
    (hs : ¬ Completes tbl c'.top.pre ev) :
    c'.processKeyEvent e ev =
      .ok ({ c with
        top := { resumed c.top m with history := c.top.history.drop (c.top.history.length - 19) }
        dicts := c'.dicts }, true) := by
  have he := at_level c c' m ops ha hi hd
  have hk' : c'.kanaConv = KanaBuilder.ofTable tbl := by rw [he]; exact hk
  rw [key_command e c' ev _ hr (by rw [hm]; decide) hc (Props.ModeKeys.skip_iff c' tbl ev hk' hs)]
  apply Props.Convert.single
  show Except.ok (c'.abort, none) = _
  congr 2
  unfold Ctx.abort
  have hm' : (c'.mapTop fun s => s.clearPre.consolidate.clearCandidateList).top.mode = .direct := hm
  simp only [hm', reduceCtorEq, false_and, if_false, if_true]
  rw [← back c.top m hh]
  have hbel : c'.below = { c.top with mode := .register, history := remember c.top.history m } :: c.below := by rw [he]; rfl
  unfold Ctx.abortRegister Ctx.mapTop
  simp only [hbel]
  rw [he]; rfl

/-- **C59.** … in particular: if the level was not taking okurigana, giving up restores the whole context, but for the
dictionaries. -/
theorem cancel_undoes (c c' : Ctx) (ops : List Op) (tbl : List (List Keysym × Conv)) (ev : KeyEvent) (ha : AbortLast c.cmds)
    (hk : c.kanaConv = KanaBuilder.ofTable tbl) (hh : c.top.history.length < 20)
    (ho : c.top.mode ≠ .preCompositionOkurigana)
    (hi : Inside e (c.below.length + 1) (registering c c.top.mode) ops c') (hd : c'.below.length = c.below.length + 1)
    (hm : c'.top.mode = .direct) (hr : ¬ IsRelease ev) (hc : CommandIs c' ev [.abort])
    (hs : ¬ Completes tbl c'.top.pre ev) :
    c'.processKeyEvent e ev = .ok ({ c with dicts := c'.dicts }, true) := by
  rw [cancel_restores c c' c.top.mode ops tbl ev ha hk (by omega) hi hd hm hr hc hs]
  have h0 : c.top.history.length - 19 = 0 := by omega
  unfold resumed
  rw [if_neg ho, h0]
  rfl

/-- The key which ends a registration: the word typed at this level is what is registered. -/
theorem return_exits (c c' : Ctx) (m : CompositionMode) (ops : List Op) (tbl : List (List Keysym × Conv)) (ev : KeyEvent)
    (ha : AbortLast c.cmds) (hk : c.kanaConv = KanaBuilder.ofTable tbl)
    (hi : Inside e (c.below.length + 1) (registering c m) ops c') (hd : c'.below.length = c.below.length + 1)
    (hm : c'.top.mode ≠ .register) (hr : ¬ IsRelease ev) (hc : CommandIs c' ev [.confirmDirect])
    (hs : ¬ Completes tbl c'.top.pre ev) :
    c'.processKeyEvent e ev = (c'.exitRegister e c'.top.confirmed).map fun x => (x, true) := by
  have he := at_level c c' m ops ha hi hd
  have hk' : c'.kanaConv = KanaBuilder.ofTable tbl := by rw [he]; exact hk
  rw [key_command e c' ev _ hr hm hc (Props.ModeKeys.skip_iff c' tbl ev hk' hs)]
  have hdep : c'.depth > 1 := by unfold Ctx.depth; omega
  unfold Ctx.processInstructions Ctx.runInstructions Ctx.instruction
  simp only [hdep, if_true]
  cases c'.exitRegister e c'.top.confirmed <;> rfl

/-- **C59.** Ending a registration without having typed a word is the same as giving it up. -/
theorem return_empty (c c' : Ctx) (m : CompositionMode) (ops : List Op) (tbl : List (List Keysym × Conv)) (ev : KeyEvent)
    (ha : AbortLast c.cmds) (hk : c.kanaConv = KanaBuilder.ofTable tbl) (hh : c.top.history.length ≤ 20)
    (hi : Inside e (c.below.length + 1) (registering c m) ops c') (hd : c'.below.length = c.below.length + 1)
    (hm : c'.top.mode ≠ .register) (hr : ¬ IsRelease ev) (hc : CommandIs c' ev [.confirmDirect])
    (hs : ¬ Completes tbl c'.top.pre ev) (hw : c'.top.confirmed = []) :
    c'.processKeyEvent e ev =
      .ok ({ c with
        top := { resumed c.top m with history := c.top.history.drop (c.top.history.length - 19) }
        dicts := c'.dicts }, true) := by
  have he := at_level c c' m ops ha hi hd
  rw [return_exits c c' m ops tbl ev ha hk hi hd hm hr hc hs, ← back c.top m hh]
  have hbel : c'.below = { c.top with mode := .register, history := remember c.top.history m } :: c.below := by rw [he]; rfl
  unfold Ctx.exitRegister
  simp only [hbel, hw, List.isEmpty_nil, if_true]
  show Except.ok _ = _
  rw [he]; rfl

/-- **C59.** Ending a registration with a word `w`: the user is back on the level which asked for it, a text `t` is committed
there behind what was committed before, and converting the reading offers `t` from now on. `t` is the word itself,
unless its number markers are filled with the numbers of the reading. The only other possibility needs a word with the marker `#4`. -/
theorem return_registers (c c' c'' : Ctx) (m : CompositionMode) (ops : List Op) (tbl : List (List Keysym × Conv)) (ev : KeyEvent) (b : Bool)
    (w r : Str) (ha : AbortLast c.cmds) (hk : c.kanaConv = KanaBuilder.ofTable tbl)
    (hread : c.top.cands.toComposite = ⟨r, none⟩) (ho : c.top.okuri = [])
    (hi : Inside e (c.below.length + 1) (registering c m) ops c') (hd : c'.below.length = c.below.length + 1)
    (hm : c'.top.mode ≠ .register) (hr : ¬ IsRelease ev) (hc : CommandIs c' ev [.confirmDirect])
    (hs : ¬ Completes tbl c'.top.pre ev) (hw : c'.top.confirmed = w) (hne : w ≠ [])
    (hu : ∃ d ∈ c'.dicts, ∃ m b, d.kind = .user m b) (h : c'.processKeyEvent e ev = .ok (c'', b)) :
    b = true ∧ c''.below = c.below ∧
    ((∃ t, c''.top.confirmed = c.top.confirmed ++ t ∧
      (Numeric.markers w = [] ∨ (Numeric.markers w).length ≠ (digitRuns r).length → t = w) ∧
      ∀ cs, Dicts.getAll c''.dicts ⟨r, none⟩ = .ok cs → t ∈ cs.map (·.output)) ∨
    (c%"#4" <:+: w ∧ c''.top.confirmed = c.top.confirmed ∧ c''.dicts = c'.dicts)) := by
  have he := at_level c c' m ops ha hi hd
  rw [return_exits c c' m ops tbl ev ha hk hi hd hm hr hc hs, hw] at h
  have hbel : c'.below = { c.top with mode := .register, history := remember c.top.history m } :: c.below := by rw [he]; rfl
  cases hx : c'.exitRegister e w with
  | error p => rw [hx] at h; cases h
  | ok c3 =>
    rw [hx] at h
    cases h
    rcases Register.registered_word_offered e c' c'' _ _ w r hbel hne hread ho hu hx with ⟨t, h1, h2, h3, h4⟩ | ⟨h1, h2, h3, h4⟩
    · exact ⟨rfl, h1, .inl ⟨t, h2, h3, h4⟩⟩
    · exact ⟨rfl, h2, .inr ⟨h1, h3, h4⟩⟩

/-- C59: outside a registration the key is handed back to the application and changes nothing. -/
theorem return_outside (c : Ctx) (tbl : List (List Keysym × Conv)) (ev : KeyEvent)
    (hk : c.kanaConv = KanaBuilder.ofTable tbl) (hb : c.below = []) (hm : c.top.mode ≠ .register) (hr : ¬ IsRelease ev)
    (hc : CommandIs c ev [.confirmDirect]) (hs : ¬ Completes tbl c.top.pre ev) :
    c.processKeyEvent e ev = .ok (c, false) := by
  rw [key_command e c ev _ hr hm hc (Props.ModeKeys.skip_iff c tbl ev hk hs)]
  have hdep : ¬ c.depth > 1 := by unfold Ctx.depth; rw [hb]; simp
  unfold Ctx.processInstructions Ctx.runInstructions Ctx.instruction
  simp only [hdep, if_false]
  rfl

/-- Both shipped rules fulfil the condition. -/
theorem shipped_abortLast : AbortLast Assets.defaultCommands ∧ AbortLast Assets.azikCommands := by
  have key : ∀ l : List (KeyEvent × List Instruction), (l.all fun x => decide (Instruction.abort ∉ x.2.dropLast)) = true →
      ∀ k is, (k, is) ∈ l → Instruction.abort ∉ is.dropLast := by
    intro l hl k is hm
    exact of_decide_eq_true (List.all_eq_true.mp hl (k, is) hm)
  constructor <;> intro m im <;> apply key <;> cases m <;> cases im <;> decide +kernel

/-- In both shipped rules `C-g` gives up and Return (or `C-m`) ends a registration, in every input mode, when nothing is
being converted. Return has no place in a romaji sequence. -/
theorem shipped_ends (c : Ctx) (hm : c.top.mode = .direct)
    (hr : c.cmds = Assets.defaultCommands ∧ c.kanaConv = Assets.defaultKana ∨
      c.cmds = Assets.azikCommands ∧ c.kanaConv = Assets.azikKana) :
    ∃ tbl, c.kanaConv = KanaBuilder.ofTable tbl ∧
    CommandIs c ⟨0x67, 4⟩ [.abort] ∧ ¬ Completes tbl c.top.pre ⟨0x67, 4⟩ ∧
    CommandIs c ⟨0xff0d, 0⟩ [.confirmDirect] ∧ ¬ Completes tbl c.top.pre ⟨0xff0d, 0⟩ ∧
    CommandIs c ⟨0x6d, 4⟩ [.confirmDirect] ∧ ¬ Completes tbl c.top.pre ⟨0x6d, 4⟩ := by
  have hcmd : ∀ ev is, (ev, is) ∈ [((⟨0x67, 4⟩ : KeyEvent), [Instruction.abort]), (⟨0xff0d, 0⟩, [.confirmDirect]),
      (⟨0x6d, 4⟩, [.confirmDirect])] → CommandIs c ev is := by
    intro ev is h
    apply commandIs_of_find
    simp only [List.mem_cons, Prod.mk.injEq, List.not_mem_nil, or_false] at h
    rcases hr with ⟨h', _⟩ | ⟨h', _⟩ <;> rw [h', hm] <;> cases c.top.inputMode <;>
      rcases h with ⟨rfl, rfl⟩ | ⟨rfl, rfl⟩ | ⟨rfl, rfl⟩ <;> decide +kernel
  have hmod : ∀ (tbl : List (List Keysym × Conv)) k, ¬ Completes tbl c.top.pre ⟨k, 4⟩ := by
    intro tbl k h
    exact h.1 ⟨2, by decide, (by decide : BitVec.getLsbD (4 : BitVec 32) 2 = true)⟩
  rcases hr with ⟨_, h⟩ | ⟨_, h⟩
  · refine ⟨_, h, hcmd _ _ (by simp), hmod _ _, hcmd _ _ (by simp), ?_, hcmd _ _ (by simp), hmod _ _⟩
    apply Props.ModeKeys.not_completes
    have : ∀ x ∈ Assets.defaultRomaji, x.1.getLast? ≠ some 0xff0d ∧ x.1.getLast? ≠ some (KanaBuilder.uncapitalize 0xff0d) := by
      decide +kernel
    intro x hx hl
    rcases hl with hl | hl
    · exact absurd hl (this x hx).1
    · exact absurd hl (this x hx).2
  · refine ⟨_, h, hcmd _ _ (by simp), hmod _ _, hcmd _ _ (by simp), ?_, hcmd _ _ (by simp), hmod _ _⟩
    apply Props.ModeKeys.not_completes
    have : ∀ x ∈ Assets.azikRomaji, x.1.getLast? ≠ some 0xff0d ∧ x.1.getLast? ≠ some (KanaBuilder.uncapitalize 0xff0d) := by
      decide +kernel
    intro x hx hl
    rcases hl with hl | hl
    · exact absurd hl (this x hx).1
    · exact absurd hl (this x hx).2

/-- **C59.** From the unknown word back: with a shipped rule, space on a reading which no dictionary knows asks for a word;
whatever is typed there, `C-g` at that level restores the reading, its mode and all the text around it.  (A pending `n`
which space made part of the reading stays part of it.) -/
theorem unknown_word_given_up (c : Ctx) (tbl : List (List Keysym × Conv)) (r : State)
    (hrule : c.cmds = Assets.defaultCommands ∧ c.kanaConv = Assets.defaultKana ∨
      c.cmds = Assets.azikCommands ∧ c.kanaConv = Assets.azikKana)
    (hk : c.kanaConv = KanaBuilder.ofTable tbl)
    (hm : c.top.mode = .preComposition ∨ c.top.mode = .abbreviation)
    (hi : c.top.inputMode ≠ .ascii ∧ c.top.inputMode ≠ .zenkaku) (hf : Convert.Flushed tbl c.top r)
    (hh : c.top.history.length < 20) (hd : c.depth < 10)
    (hx : Dicts.getAll c.dicts (Convert.lookupKey r) = .ok []) (hn : r.kana ≠ []) :
    ∃ c₁, c.processKeyEvent e ⟨0x20, 0⟩ = .ok (c₁, true) ∧ c₁.below.length = c.below.length + 1 ∧
      ∀ ops c', Inside e (c.below.length + 1) c₁ ops c' → c'.below.length = c.below.length + 1 → c'.top.mode = .direct →
        c'.processKeyEvent e ⟨0x67, 4⟩ =
          .ok ({ c with top := Convert.withCandidates r [], dicts := c'.dicts }, true) := by
  have hcomp : Convert.Composing c.top := by
    rcases hm with h | h
    · exact .inl h
    · exact .inr (.inr h)
  obtain ⟨h1, h2⟩ := Convert.shipped_space c hcomp hi hrule
  have hrel : ∀ k : Keysym, ∀ m : BitVec 32, m = 0 ∨ m = 4 → ¬ IsRelease ⟨k, m⟩ := by
    intro k m h; rcases h with rfl | rfl <;> simp [IsRelease]
  have hu := Convert.convert_unknown e c ⟨0x20, 0⟩ tbl r hk hcomp (hrel _ _ (.inl rfl)) hf h2 h1 (by omega) hx hn
  rw [if_pos hd] at hu
  refine ⟨_, hu, rfl, fun ops c' hin hlen hmode => ?_⟩
  have hal : AbortLast c.cmds := by
    rcases hrule with ⟨h, _⟩ | ⟨h, _⟩ <;> rw [h]
    · exact shipped_abortLast.1
    · exact shipped_abortLast.2
  obtain ⟨fh, fm, _, _⟩ := Convert.flushed_frame hf
  have hal' : AbortLast (registering { c with top := Convert.withCandidates r [] } c.top.mode).cmds := hal
  have hrest := waiting_untouched _ _ c' ops hal' (List.suffix_refl _) hin
  have hrule' : c'.cmds = Assets.defaultCommands ∧ c'.kanaConv = Assets.defaultKana ∨
      c'.cmds = Assets.azikCommands ∧ c'.kanaConv = Assets.azikKana := by
    rw [hrest.2.1, hrest.2.2.1]; exact hrule
  obtain ⟨tbl', hk', hc1, hc2, _⟩ := shipped_ends c' hmode hrule'
  have hko : c.kanaConv = KanaBuilder.ofTable tbl' := by rw [← hk', hrest.2.2.1]; rfl
  have := cancel_undoes (e := e) { c with top := Convert.withCandidates r [] } c' ops tbl' ⟨0x67, 4⟩ hal hko
    (by show r.history.length < 20; rw [fh]; exact hh)
    (by show r.mode ≠ _; rw [fm]; rcases hm with h | h <;> rw [h] <;> decide)
    (by show Inside e _ (registering _ r.mode) ops c'; rw [fm]; exact hin) hlen hmode (hrel _ _ (.inr rfl)) hc1 hc2
  exact this

/-- C59, a finding: while a level waits for a word, the text committed on it but not yet delivered is not shown: the preedit
is the same whatever that text is. (On an inner level nothing can deliver it either, so text typed in a registration
disappears from view while a nested registration is open.) -/
theorem waiting_hides_committed (c : Ctx) (l₁ l₂ : List State) (s : State) (w : Str) (hb : c.below = l₁ ++ s :: l₂)
    (hm : s.mode = .register) :
    { c with below := l₁ ++ { s with confirmed := w } :: l₂ : Ctx }.preedit e = c.preedit e := by
  have hs : ∀ im, ({ s with confirmed := w } : State).preeditString e im = s.preeditString e im := by
    intro im
    unfold State.preeditString State.preeditDetail
    simp only [hm]
  unfold Ctx.preedit Ctx.states
  simp only [hb, List.reverse_append, List.reverse_cons, List.append_assoc, List.foldl_append, List.foldl_cons,
    List.foldl_nil, hs]

/-! ## A session -/

/-- Performs keys as long as `n` levels are waiting. -/
def insideKeys (e : Env) (n : Nat) (c : Ctx) : List KeyEvent → Option Ctx
  | [] => if n ≤ c.below.length then some c else none
  | k :: ks => if n ≤ c.below.length then
      match c.step e (.key k) with
      | .ok c₁ => insideKeys e n c₁ ks
      | .error _ => none
    else none

theorem insideKeys_inside {n : Nat} {c c' : Ctx} {ks : List KeyEvent} (h : insideKeys e n c ks = some c') :
    Inside e n c (ks.map .key) c' := by
  induction ks generalizing c with
  | nil =>
    unfold insideKeys at h
    split at h
    · cases h; exact .nil _ (by assumption)
    · cases h
  | cons k ks ih =>
    unfold insideKeys at h
    split at h
    · split at h
      · rename_i c₁ hs
        exact .cons _ _ _ _ _ (by assumption) trivial hs (ih h)
      · cases h
    · cases h

/-- `▽かn` typed behind `を`, with a user dictionary which knows `あい` only. -/
def session : Ctx :=
  let d : CskkDict := ⟨true, .user ⟨[], [(c%"あい", ⟨c%"あい", false, [([], [⟨c%"愛", none⟩])]⟩)]⟩ false⟩
  let s := State.new .hiragana .direct
  Ctx.mk [] { s with mode := .preComposition, kana := c%"か", raw := c%"か", pre := [0x6e], history := [.direct], confirmed := c%"を" }
    Assets.defaultCommands Assets.defaultKana [d] Config.default

/-- Space; then `A` `i` space (converting `あい` inside the registration), Return to take `愛`, then `K` `u` space for a second,
nested registration, which is given up, and `C-g` for the reading `く`. -/
def sessionKeys : List KeyEvent :=
  [⟨0x41, 1⟩, ⟨0x69, 0⟩, ⟨0x20, 0⟩, ⟨0xff0d, 0⟩, ⟨0x4b, 1⟩, ⟨0x75, 0⟩, ⟨0x20, 0⟩, ⟨0x73, 0⟩, ⟨0x67, 4⟩, ⟨0x67, 4⟩]

def shown (c : Ctx) : Nat × CompositionMode × Str × Str :=
  (c.below.length, c.top.mode, c.top.confirmed, c.preedit (Assets.env ⟨true⟩))

/-- While the nested registration is open, the `愛` typed before it is not shown: a level which waits shows only its reading (C13).
The hypotheses of `cancel_undoes` and `return_registers` are met after these keys: the user is at the level of the outer
registration with `愛` typed, and what is shown on the way. -/
example :
    (insideKeys (Assets.env ⟨true⟩) 1 (registering (session.mapTop fun s => Convert.withCandidates
        { s with kana := c%"かん", raw := c%"かん", pre := [] } []) .preComposition) (sessionKeys.take 8)).map shown =
      some (2, .direct, [], c%"▼かん【▼く【s】】") ∧
    (insideKeys (Assets.env ⟨true⟩) 1 (registering (session.mapTop fun s => Convert.withCandidates
        { s with kana := c%"かん", raw := c%"かん", pre := [] } []) .preComposition) sessionKeys).map shown =
      some (1, .direct, c%"愛", c%"▼かん【愛】") := by
  decide +kernel

/-- The hypotheses of `unknown_word_given_up` are met, and the preedit comes back. -/
example :
    (session.processKeyEvents (Assets.env ⟨true⟩) ([⟨0x20, 0⟩] ++ sessionKeys ++ [⟨0x67, 4⟩])).toOption.map shown =
      some (0, .preComposition, c%"を", c%"を▽かん") ∧
    (session.processKeyEvents (Assets.env ⟨true⟩) ([⟨0x20, 0⟩] ++ sessionKeys ++ [⟨0xff0d, 0⟩])).toOption.map shown =
      some (0, .direct, c%"を愛", c%"を愛") := by
  decide +kernel

end Cskk.Props.Registration
