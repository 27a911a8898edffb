import Verif.Props.Romaji
import Verif.Props.Levels
import Verif.Props.KeyInput

/-!
# C32: `will_process` and `process_key_event`
-/

namespace Cskk.Spec

/-- A printable ASCII key. -/
def Printable (ev : KeyEvent) : Prop := 0x20 ≤ ev.symbol ∧ ev.symbol ≤ 0x7e

/-- The modes with romaji conversion. -/
def RomajiMode (c : Ctx) : Prop :=
  (c.top.mode = .direct ∨ c.top.mode = .preComposition ∨ c.top.mode = .preCompositionOkurigana) ∧
  (c.top.inputMode = .hiragana ∨ c.top.inputMode = .katakana ∨ c.top.inputMode = .hankakuKatakana)

/-- If the romaji table uses the key at all, it is a printable ASCII key (true of every key for the default table, and of
every key but two for the azik table). -/
def AsciiIn (k : KanaBuilder) (ev : KeyEvent) : Prop := ∀ pre, k.canContinue ev pre = true → Printable ev

/-- The key continues the pending keys to the beginning of a table entry, or begins one itself. -/
def Continues (c : Ctx) (ev : KeyEvent) : Prop :=
  c.kanaConv.canContinue ev c.top.pre = true ∨ c.kanaConv.canContinue ev [] = true

end Cskk.Spec

namespace Cskk.Props.WillProcess
open Spec

/-! ## `will_process` -/

theorem rom_iff (c : Ctx) : hasRom2kanaConversion c.top.inputMode c.top.mode = true ↔ RomajiMode c := by
  unfold RomajiMode hasRom2kanaConversion
  cases c.top.mode <;> cases c.top.inputMode <;> simp

theorem printable_iff (ev : KeyEvent) : ev.isAsciiInputtable = true ↔ Printable ev := by
  unfold KeyEvent.isAsciiInputtable Printable KEY_space KEY_asciitilde
  simp

theorem rom_mode {c : Ctx} (h : RomajiMode c) : c.top.mode ≠ .register := by
  rcases h.1 with h | h | h <;> rw [h] <;> simp

theorem getInstruction_isSome {c : Ctx} {ev : KeyEvent} {p : Profile} (hm : c.top.mode ≠ .register) :
    ∃ o, c.cmds.getInstruction p ev c.top.inputMode c.top.mode = .ok o ∧ (o.isSome = true ↔ ¬ NoCommand c ev) := by
  unfold CommandRule.getInstruction
  rw [if_neg hm]
  refine ⟨_, rfl, ?_⟩
  rw [Option.isSome_map, List.find?_isSome]
  unfold NoCommand
  constructor
  · rintro ⟨k, hk, he⟩ h
    exact h k hk ((matchingKey_iff _ _).mp (of_decide_eq_true he))
  · intro h
    apply Classical.byContradiction
    intro hn
    apply h
    intro k hk hx
    exact hn ⟨k, hk, decide_eq_true ((matchingKey_iff _ _).mpr hx)⟩

/-- `will_process` (which cannot change the context: it takes it by shared reference and returns a boolean only) says
yes exactly to commands, to keys which fit the romaji table in the romaji modes, and to printable keys in the others. -/
theorem will_process_iff (e : Env) (c : Ctx) (ev : KeyEvent) (hm : c.top.mode ≠ .register) :
    ∃ b, c.willProcess e ev = .ok b ∧
      (b = true ↔ ¬ NoCommand c ev ∨
        (¬ HasOtherModifier ev ∧ ((RomajiMode c ∧ Continues c ev) ∨ (¬ RomajiMode c ∧ Printable ev)))) := by
  obtain ⟨o, ho, hi⟩ := getInstruction_isSome (p := e.prof) (ev := ev) hm
  unfold Ctx.willProcess
  rw [ho]
  refine ⟨_, rfl, ?_⟩
  rw [← modifierless_iff, ← rom_iff, ← hi, ← printable_iff]
  unfold Continues
  simp only [Bool.or_eq_true, Bool.and_eq_true, Bool.not_eq_true', Bool.not_eq_true]

/-! ## Keys which are not commands -/

/-- The reported result is `b`. -/
abbrev Says (b : Bool) : R (Ctx × Bool) → Prop := Always fun r => r.2 = b

theorem says_finish (e : Env) (c : Ctx) : Says true (c.finishSymbol e) := by
  unfold Ctx.finishSymbol
  split
  · exact Always.bind' fun c' _ => Always.pure rfl
  · exact Always.ok rfl

/-- The mode is one of the three romaji modes. -/
def M3 (m : CompositionMode) : Prop := m = .direct ∨ m = .preComposition ∨ m = .preCompositionOkurigana

theorem outputConverted_mode (e : Env) (c : Ctx) (im : InputMode) (cm : CompositionMode) :
    (c.outputConverted e im cm).top.mode = c.top.mode := by
  unfold Ctx.outputConverted
  split
  · split <;> rfl
  · rfl

theorem transition_mode (c : Ctx) (ev : KeyEvent) (i : CompositionMode) (d : Bool) (h : M3 c.top.mode) :
    M3 (c.transitionByCapital ev i d).1.top.mode := by
  unfold Ctx.transitionByCapital
  split
  · exact Or.inr (Or.inl rfl)
  · split
    · exact Or.inr (Or.inr rfl)
    · exact h

theorem says_symbol (e : Env) (c : Ctx) (ev : KeyEvent) (ch : Char) (pre : List Keysym) (hm : M3 c.top.mode)
    (hp : Printable ev) : Says true (c.symbolInput e ev ch pre) := by
  have hA := (printable_iff ev).mpr hp
  have hout : ∀ c : Ctx, M3 c.top.mode → ∀ im cm, M3 ((c.outputConverted e im cm).mapTop State.clearPre).top.mode := by
    intro c h im cm
    show M3 (c.outputConverted e im cm).top.mode
    rw [outputConverted_mode]; exact h
  unfold Ctx.symbolInput
  dsimp only
  split
  · have := hout c hm c.top.inputMode c.top.mode
    rcases this with h | h | h
    · simp only [h]; exact says_finish e _
    · simp only [h]; exact says_finish e _
    · simp only [h]; exact says_finish e _
  · split
    · exact says_finish e _
    · split
      · exact says_finish e _
      · split
        · exact Always.bind' fun _ _ => Always.pure rfl
        · split
          · split
            · exact Always.bind' fun _ _ => Always.pure rfl
            · exact says_finish e _
          · split
            · exact says_finish e _
            · split
              · exact says_finish e _
              · have := hout c hm c.top.inputMode c.top.mode
                rcases this with h | h | h <;> simp only [h] <;> exact says_finish e _

theorem convert_continue {k : KanaBuilder} {ev : KeyEvent} {pre : List Keysym} {v : Conv}
    (h : k.convertNonPartial (KanaBuilder.combineRaw ev pre) = some v) : k.canContinue ev pre = true := by
  unfold KanaBuilder.convertNonPartial at h
  unfold KanaBuilder.canContinue
  cases hn : Trie.getNode (KanaBuilder.combineRaw ev pre) k.processMap with
  | none => rw [hn] at h; cases h
  | some n => rfl

theorem says_rom (e : Env) (c : Ctx) (ev : KeyEvent) (pre : List Keysym) (hm : M3 c.top.mode)
    (hp : Printable ev) (hc : (ev.symbolChar e.xkb).isSome = true) : Says true (c.romInput e ev pre) := by
  unfold Ctx.romInput
  split
  · exact Always.bind' fun _ _ => Always.pure rfl
  · split
    · exact Always.bind' fun _ _ => Always.pure rfl
    · obtain ⟨ch, hch⟩ := Option.isSome_iff_exists.mp hc
      rw [hch]
      exact says_symbol e c ev ch pre hm hp

theorem not_upper {ev : KeyEvent} (h : ¬ Printable ev) : ev.isUpper = false := by
  rw [← Bool.not_eq_true, isUpper_iff]
  intro hu; exact h ⟨Nat.le_trans (by decide) hu.1, Nat.le_trans hu.2 (by decide)⟩

theorem lower_raw {ev : KeyEvent} (h : ¬ Printable ev) (pre : List Keysym) :
    KanaBuilder.combineLower ev pre = KanaBuilder.combineRaw ev pre := by
  have := not_upper h
  unfold KanaBuilder.combineLower KanaBuilder.combineRaw KanaBuilder.uncapitalize
  rw [if_neg]
  intro hh
  rw [← Bool.not_eq_true, isUpper_iff] at this
  exact this hh

theorem period_rom (e : Env) (c : Ctx) (ev : KeyEvent) (pre : List Keysym) (hm : M3 c.top.mode)
    (ht : AsciiIn c.kanaConv ev) (hp : ¬ Printable ev) :
    Says (decide (ev.symbolChar e.xkb = some '.' ∨ ev.symbolChar e.xkb = some ',')) (c.romInput e ev pre) ∧
    (¬ (ev.symbolChar e.xkb = some '.' ∨ ev.symbolChar e.xkb = some ',') → c.romInput e ev pre = .ok (c, false)) := by
  have hcan : ∀ pre, c.kanaConv.canContinue ev pre = false := by
    intro pre
    rw [← Bool.not_eq_true]; exact fun h => hp (ht pre h)
  have hconv : ∀ pre, c.kanaConv.convertNonPartial (KanaBuilder.combineRaw ev pre) = none := by
    intro pre
    cases h : c.kanaConv.convertNonPartial (KanaBuilder.combineRaw ev pre) with
    | none => rfl
    | some v => have := convert_continue h; rw [hcan] at this; cases this
  have hcanl : ∀ pre, c.kanaConv.canContinueLower ev pre = false := by
    intro pre
    rw [← hcan pre]
    unfold KanaBuilder.canContinueLower KanaBuilder.canContinue
    rw [lower_raw hp]
  have hA : ev.isAsciiInputtable = false := by
    rw [← Bool.not_eq_true, printable_iff]; exact hp
  have hrom : c.romInput e ev pre = match ev.symbolChar e.xkb with
      | some ch => c.symbolInput e ev ch pre
      | none => .ok (c, false) := by
    unfold Ctx.romInput
    rw [hconv, not_upper hp]
    rfl
  rw [hrom]
  cases hch : ev.symbolChar e.xkb with
  | none => 
    have hf : decide ((none : Option Char) = some '.' ∨ (none : Option Char) = some ',') = false := by decide
    rw [hf]
    exact ⟨Always.ok rfl, fun _ => rfl⟩
  | some ch =>
    have hs : c.symbolInput e ev ch pre = match KanaBuilder.convertPeriods ch c.config.period c.config.comma with
        | some w =>
          let c := (c.outputConverted e c.top.inputMode c.top.mode).mapTop State.clearPre
          match c.top.mode with
          | .direct => (c.appendConverted e w).finishSymbol e
          | .preComposition | .preCompositionOkurigana => (c.mapTop fun s => (s.push w).clearPre).finishSymbol e
          | _ => .ok (c, false)
        | none => .ok (c, false) := by
      unfold Ctx.symbolInput
      dsimp only
      cases KanaBuilder.convertPeriods ch c.config.period c.config.comma with
      | some w => rfl
      | none =>
        dsimp only
        simp only [hcan, not_upper hp, hconv, lower_raw hp, hcanl, hA, Bool.false_and, Bool.false_eq_true, if_false]
    simp only [Option.some.injEq]
    rw [hs]
    have hmode : M3 ((c.outputConverted e c.top.inputMode c.top.mode).mapTop State.clearPre).top.mode := by
      show M3 (c.outputConverted e c.top.inputMode c.top.mode).top.mode
      rw [outputConverted_mode]; exact hm
    unfold KanaBuilder.convertPeriods
    by_cases h1 : ch = '.'
    · subst h1
      refine ⟨?_, fun h => absurd (Or.inl rfl) h⟩
      simp only [true_or, decide_true, if_true]
      cases c.config.period <;> simp only <;>
        rcases hmode with h | h | h <;> simp only [h] <;> exact says_finish e _
    · by_cases h2 : ch = ','
      · subst h2
        refine ⟨?_, fun h => absurd (Or.inr rfl) h⟩
        simp only [or_true, decide_true, if_true, h1, if_false]
        cases c.config.comma <;> simp only <;>
          rcases hmode with h | h | h <;> simp only [h] <;> exact says_finish e _
      · simp only [h1, h2, if_false, or_self, decide_false]
        exact ⟨Always.ok rfl, fun _ => trivial⟩

theorem charInput_mod (e : Env) (c : Ctx) (ev : KeyEvent) (h : HasOtherModifier ev) :
    c.charInput e ev = .ok (c, false) := by
  have : ev.isModifierlessInput = false := by
    rw [← Bool.not_eq_true, modifierless_iff]; exact fun hn => hn h
  unfold Ctx.charInput
  rw [this]; rfl

theorem charInput_rom (e : Env) (c : Ctx) (ev : KeyEvent) (hr : RomajiMode c) (h : ¬ HasOtherModifier ev) :
    c.charInput e ev = c.romInput e ev c.top.pre := by
  have h1 := (modifierless_iff ev).mpr h
  have h2 := (rom_iff c).mpr hr
  unfold Ctx.charInput
  have h3 : ¬ ((c.top.mode = .compositionSelection ∨ c.top.mode = .completion) ∧ c.willBeProcessed ev c.top.pre) := by
    rintro ⟨hx, _⟩
    rcases hr.1 with h | h | h <;> rw [h] at hx <;> rcases hx with hx | hx <;> cases hx
  simp only [h1, Bool.not_true, Bool.false_eq_true, if_false, if_neg h3, h2, if_true]

/-- The key event is handled as character input: it is no release and no command. -/
theorem process_no_command (e : Env) (c : Ctx) (ev : KeyEvent) (hm : c.top.mode ≠ .register) (hr : ¬ IsRelease ev)
    (hn : NoCommand c ev) : c.processKeyEvent e ev = c.charInput e ev := by
  have h1 : Modifier.contains ev.modifiers Modifier.RELEASE = false := by
    rw [← Bool.not_eq_true, contains_release]; exact hr
  unfold Ctx.processKeyEvent Ctx.processInner
  rw [h1, getInstruction_none e.prof hm hn]
  simp only [Bool.false_eq_true, if_false, ite_self, bind, Except.bind]

/-- **C32, romaji modes.** A key which is no command is consumed exactly if it has no modifier (other than SHIFT) and is
a printable ASCII key or another key for a period or comma (as on the keypad). -/
theorem consumed_iff_romaji (e : Env) (c : Ctx) (ev : KeyEvent) (hr : RomajiMode c) (ht : AsciiIn c.kanaConv ev)
    (hch : Printable ev → (ev.symbolChar e.xkb).isSome = true) (hn : NoCommand c ev) (c' : Ctx) (b : Bool)
    (h : c.processKeyEvent e ev = .ok (c', b)) :
    b = true ↔ ¬ HasOtherModifier ev ∧
      (Printable ev ∨ ev.symbolChar e.xkb = some '.' ∨ ev.symbolChar e.xkb = some ',') := by
  rcases (Classical.em (IsRelease ev)).symm with hrel | hrel
  · rw [process_no_command e c ev (rom_mode hr) hrel hn] at h
    by_cases hmod : HasOtherModifier ev
    · rw [charInput_mod e c ev hmod] at h
      cases h
      simp [hmod]
    · rw [charInput_rom e c ev hr hmod] at h
      by_cases hp : Printable ev
      · have := (says_rom e c ev c.top.pre hr.1 hp (hch hp)).out _ h
        simp only at this
        simp [this, hmod, hp]
      · have := (period_rom e c ev c.top.pre hr.1 ht hp).1.out _ h
        simp only at this
        simp [this, hmod, hp]
  · rw [KeyInput.release_inert e c ev hrel] at h
    cases h
    have : HasOtherModifier ev := ⟨30, by decide, hrel⟩
    simp [this]

/-- **C32.** In the romaji modes `will_process` never promises a key which is no command and is then not consumed. -/
theorem no_false_promise (e : Env) (c : Ctx) (ev : KeyEvent) (hr : RomajiMode c) (ht : AsciiIn c.kanaConv ev)
    (hch : Printable ev → (ev.symbolChar e.xkb).isSome = true) (hn : NoCommand c ev) (c' : Ctx) (b : Bool)
    (h : c.processKeyEvent e ev = .ok (c', b)) (hw : c.willProcess e ev = .ok true) : b = true := by
  rw [consumed_iff_romaji e c ev hr ht hch hn c' b h]
  obtain ⟨b', hb', hi⟩ := will_process_iff e c ev (rom_mode hr)
  rw [hw] at hb'
  cases hb'
  rcases hi.mp rfl with h | ⟨h1, h2 | h2⟩
  · exact absurd hn h
  · refine ⟨h1, Or.inl ?_⟩
    rcases h2.2 with h | h <;> exact ht _ h
  · exact absurd hr h2.1

/-- **C32.** The converse fails exactly for printable (or period and comma) keys which fit no table entry. -/
theorem disagree_iff_romaji (e : Env) (c : Ctx) (ev : KeyEvent) (hr : RomajiMode c) (ht : AsciiIn c.kanaConv ev)
    (hch : Printable ev → (ev.symbolChar e.xkb).isSome = true) (hn : NoCommand c ev) (c' : Ctx) (b w : Bool)
    (h : c.processKeyEvent e ev = .ok (c', b)) (hw : c.willProcess e ev = .ok w) :
    b ≠ w ↔ ¬ HasOtherModifier ev ∧ ¬ Continues c ev ∧
      (Printable ev ∨ ev.symbolChar e.xkb = some '.' ∨ ev.symbolChar e.xkb = some ',') := by
  have hb := consumed_iff_romaji e c ev hr ht hch hn c' b h
  obtain ⟨w', hw', hi⟩ := will_process_iff e c ev (rom_mode hr)
  rw [hw] at hw'
  cases hw'
  have hcp : Continues c ev → Printable ev := by
    rintro (h | h) <;> exact ht _ h
  have hi' : w = true ↔ ¬ HasOtherModifier ev ∧ Continues c ev := by
    rw [hi]
    constructor
    · rintro (h | ⟨h1, h2 | h2⟩)
      · exact absurd hn h
      · exact ⟨h1, h2.2⟩
      · exact absurd hr h2.1
    · rintro ⟨h1, h2⟩
      exact Or.inr ⟨h1, Or.inl ⟨hr, h2⟩⟩
  by_cases hmod : HasOtherModifier ev
  · have : b = false := by rw [← Bool.not_eq_true, hb]; simp [hmod]
    have : w = false := by rw [← Bool.not_eq_true, hi']; simp [hmod]
    simp_all
  · by_cases hc : Continues c ev
    · have : b = true := hb.mpr ⟨hmod, Or.inl (hcp hc)⟩
      have : w = true := hi'.mpr ⟨hmod, hc⟩
      simp_all
    · have : w = false := by rw [← Bool.not_eq_true, hi']; simp [hc]
      subst this
      simp only [ne_eq, Bool.not_eq_false, hb, hc, not_false_eq_true, true_and]

/-! ## The other modes -/

/-- The modes in which printable keys are characters of the text: direct input of ASCII or full-width letters, and
abbreviation. -/
def LetterMode (c : Ctx) : Prop :=
  (c.top.mode = .direct ∧ (c.top.inputMode = .ascii ∨ c.top.inputMode = .zenkaku)) ∨ c.top.mode = .abbreviation

/-- **C32, letter modes.** There `will_process` and `process_key_event` agree on every key which is no command. -/
theorem agree_letters (e : Env) (c : Ctx) (ev : KeyEvent) (hl : LetterMode c)
    (hch : Printable ev → (ev.symbolChar e.xkb).isSome = true) (hn : NoCommand c ev) :
    ∃ c' b, c.processKeyEvent e ev = .ok (c', b) ∧ c.willProcess e ev = .ok b ∧
      (b = true ↔ ¬ HasOtherModifier ev ∧ Printable ev) := by
  have hm : c.top.mode ≠ .register := by rcases hl with ⟨h, _⟩ | h <;> rw [h] <;> simp
  have hnr : ¬ RomajiMode c := by
    rintro ⟨h1, h2⟩
    rcases hl with ⟨h, hi⟩ | h
    · rcases hi with hi | hi <;> rw [hi] at h2 <;> rcases h2 with h2 | h2 | h2 <;> cases h2
    · rw [h] at h1; rcases h1 with h1 | h1 | h1 <;> cases h1
  obtain ⟨w, hw, hi⟩ := will_process_iff e c ev hm
  have hi' : w = true ↔ ¬ HasOtherModifier ev ∧ Printable ev := by
    rw [hi]; simp [hn, hnr]
  by_cases hrel : IsRelease ev
  · have hmod : HasOtherModifier ev := ⟨30, by decide, hrel⟩
    have : w = false := by rw [← Bool.not_eq_true, hi']; simp [hmod]
    subst this
    exact ⟨c, false, KeyInput.release_inert e c ev hrel, hw, hi'⟩
  · rw [process_no_command e c ev hm hrel hn]
    by_cases hmod : HasOtherModifier ev
    · have : w = false := by rw [← Bool.not_eq_true, hi']; simp [hmod]
      subst this
      exact ⟨c, false, charInput_mod e c ev hmod, hw, hi'⟩
    · have h1 := (modifierless_iff ev).mpr hmod
      have h2 : hasRom2kanaConversion c.top.inputMode c.top.mode = false := by
        rw [← Bool.not_eq_true, rom_iff]; exact hnr
      have h3 : ¬ ((c.top.mode = .compositionSelection ∨ c.top.mode = .completion) ∧
          c.willBeProcessed ev c.top.pre) := by
        rintro ⟨hx, _⟩
        rcases hl with ⟨h, _⟩ | h <;> rw [h] at hx <;> rcases hx with hx | hx <;> cases hx
      unfold Ctx.charInput
      simp only [h1, Bool.not_true, Bool.false_eq_true, if_false, if_neg h3, h2]
      by_cases hp : Printable ev
      · rw [(printable_iff ev).mpr hp]
        simp only [if_true]
        have : w = true := hi'.mpr ⟨hmod, hp⟩
        subst this
        obtain ⟨ch, hc⟩ := Option.isSome_iff_exists.mp (hch hp)
        unfold Ctx.plainInput
        rcases hl with ⟨h, hi2 | hi2⟩ | h
        · simp only [h, hi2, hc]; exact ⟨_, true, rfl, hw, hi'⟩
        · simp only [h, hi2, hc]; exact ⟨_, true, rfl, hw, hi'⟩
        · simp only [h, hc]; exact ⟨_, true, rfl, hw, hi'⟩
      · have hA : ev.isAsciiInputtable = false := by
          rw [← Bool.not_eq_true, printable_iff]; exact hp
        rw [hA]
        simp only [Bool.false_eq_true, if_false]
        have : w = false := by rw [← Bool.not_eq_true, hi']; simp [hp]
        subst this
        exact ⟨c, false, rfl, hw, hi'⟩

/-- **C32, candidate modes.** While a candidate is shown, both agree on every key which is no command. -/
theorem agree_selection (e : Env) (c : Ctx) (ev : KeyEvent)
    (hm : c.top.mode = .compositionSelection ∨ c.top.mode = .completion) (x : Candidate)
    (hx : c.top.cands.current = some x) (hd : c.top.defaultMode = .direct)
    (hch : Printable ev → (ev.symbolChar e.xkb).isSome = true) (hn : NoCommand c ev) (c' : Ctx) (b w : Bool)
    (h : c.processKeyEvent e ev = .ok (c', b)) (hw : c.willProcess e ev = .ok w) : b = w := by
  have hreg : c.top.mode ≠ .register := by rcases hm with h | h <;> rw [h] <;> simp
  have hnr : ¬ RomajiMode c := by
    rintro ⟨h1, _⟩
    rcases hm with h | h <;> rw [h] at h1 <;> rcases h1 with h1 | h1 | h1 <;> cases h1
  obtain ⟨w', hw', hi⟩ := will_process_iff e c ev hreg
  rw [hw] at hw'
  cases hw'
  have hi' : w = true ↔ ¬ HasOtherModifier ev ∧ Printable ev := by
    rw [hi]; simp [hn, hnr]
  by_cases hrel : IsRelease ev
  · have hmod : HasOtherModifier ev := ⟨30, by decide, hrel⟩
    rw [KeyInput.release_inert e c ev hrel] at h
    cases h
    symm; rw [← Bool.not_eq_true, hi']; simp [hmod]
  rw [process_no_command e c ev hreg hrel hn] at h
  by_cases hmod : HasOtherModifier ev
  · rw [charInput_mod e c ev hmod] at h
    cases h
    symm; rw [← Bool.not_eq_true, hi']; simp [hmod]
  have h1 := (modifierless_iff ev).mpr hmod
  have h2 : hasRom2kanaConversion c.top.inputMode c.top.mode = false := by
    rw [← Bool.not_eq_true, rom_iff]; exact hnr
  have hwb : c.willBeProcessed ev c.top.pre = ev.isAsciiInputtable := by
    unfold Ctx.willBeProcessed
    rw [h1, h2]; simp
  by_cases hp : Printable ev
  · have hwt : w = true := hi'.mpr ⟨hmod, hp⟩
    rw [hwt]
    have hA := (printable_iff ev).mpr hp
    have hcond : (c.top.mode = .compositionSelection ∨ c.top.mode = .completion) ∧
        c.willBeProcessed ev c.top.pre = true := ⟨hm, by rw [hwb, hA]⟩
    unfold Ctx.charInput at h
    simp only [h1, Bool.not_true, Bool.false_eq_true, if_false, if_pos hcond, hA, if_true] at h
    have hmode : (c.confirmCurrent e).top.mode = .direct := by
      unfold Ctx.confirmCurrent
      rw [hx]
      show (State.push _ _).defaultMode = .direct
      have : ∀ (s : State) w, (s.push w).defaultMode = s.defaultMode := by
        intro s w; unfold State.push; cases s.mode <;> rfl
      rw [this]; exact hd
    by_cases hr2 : hasRom2kanaConversion (c.confirmCurrent e).top.inputMode (c.confirmCurrent e).top.mode = true
    · rw [hr2] at h
      simp only [if_true] at h
      exact (says_rom e _ ev c.top.pre (Or.inl hmode) hp (hch hp)).out _ h
    · rw [Bool.not_eq_true] at hr2
      rw [hr2] at h
      simp only [Bool.false_eq_true, if_false] at h
      obtain ⟨ch, hc⟩ := Option.isSome_iff_exists.mp (hch hp)
      unfold Ctx.plainInput at h
      simp only [hmode, hc] at h
      rw [hmode] at hr2
      unfold hasRom2kanaConversion at hr2
      cases him : (c.confirmCurrent e).top.inputMode <;> rw [him] at hr2 h
      case ascii => cases h; rfl
      case zenkaku => cases h; rfl
      all_goals cases hr2
  · have hwf : w = false := by rw [← Bool.not_eq_true, hi']; simp [hp]
    have hA : ev.isAsciiInputtable = false := by
      rw [← Bool.not_eq_true, printable_iff]; exact hp
    have hcond : ¬ ((c.top.mode = .compositionSelection ∨ c.top.mode = .completion) ∧
        c.willBeProcessed ev c.top.pre = true) := by
      rw [hwb, hA]; simp
    unfold Ctx.charInput at h
    simp only [h1, Bool.not_true, Bool.false_eq_true, if_false, if_neg hcond, h2, hA] at h
    cases h
    rw [hwf]

/-! ## Commands -/

/-- Commands are always announced. -/
theorem command_announced (e : Env) (c : Ctx) (ev : KeyEvent) (hm : c.top.mode ≠ .register) (hc : ¬ NoCommand c ev) :
    c.willProcess e ev = .ok true := by
  obtain ⟨w, hw, hi⟩ := will_process_iff e c ev hm
  rw [hw, hi.mpr (Or.inl hc)]

/-- Only three instructions may end a command early. -/
theorem instruction_goes_on (e : Env) (c : Ctx) (i : Instruction) (cm : CompositionMode) (im : InputMode)
    (h1 : i ≠ .passthroughKeyEvent) (h2 : i ≠ .confirmDirect) (h3 : i ≠ .delete) (c1 : Ctx) (o : Option Bool)
    (hi : c.instruction e i cm im = .ok (c1, o)) : o = none := by
  cases i <;> simp only [Ctx.instruction] at hi <;>
    first
    | exact absurd rfl h1
    | exact absurd rfl h2
    | exact absurd rfl h3
    | (cases hi; rfl)
    | (split at hi <;> (try split at hi) <;> cases hi <;> rfl)
    | skip
  case nextCandidatePointer =>
    cases hf : c.top.forward e.prof with
    | error p => rw [hf] at hi; cases hi
    | ok s => rw [hf] at hi; cases hi; rfl
  case tryNextCandidate =>
    cases hf : c.tryNextCandidate e cm im with
    | error p => rw [hf] at hi; cases hi
    | ok s => rw [hf] at hi; cases hi; rfl
  case tryNextCompletion =>
    cases hf : c.tryNextCompletion e cm im with
    | error p => rw [hf] at hi; cases hi
    | ok s => rw [hf] at hi; cases hi; rfl

/-- An executed command is reported as consumed unless it contains one of the three instructions which may hand the
key back. -/
theorem command_consumed (e : Env) (c : Ctx) (is : List Instruction) (hne : is ≠ []) (cm : CompositionMode) (im : InputMode)
    (h1 : .passthroughKeyEvent ∉ is) (h2 : .confirmDirect ∉ is) (h3 : .delete ∉ is) (c' : Ctx) (b : Bool)
    (h : c.processInstructions e is cm im = .ok (c', b)) : b = true := by
  have key : ∀ (is : List Instruction) (c : Ctx), .passthroughKeyEvent ∉ is → .confirmDirect ∉ is → .delete ∉ is →
      Always (fun r : Ctx × Bool => r.2 = true) (Ctx.runInstructions e cm im true c is) := by
    intro is
    induction is with
    | nil => intro c _ _ _; exact Always.ok rfl
    | cons i is ih =>
      intro c h1 h2 h3
      simp only [List.mem_cons, not_or] at h1 h2 h3
      unfold Ctx.runInstructions
      apply Always.bind' (r := c.instruction e i cm im)
      rintro ⟨c1, o⟩ hi
      have ho : o = none := instruction_goes_on e c i cm im (Ne.symm h1.1) (Ne.symm h2.1) (Ne.symm h3.1) c1 o hi
      subst ho
      exact ih c1 h1.2 h2.2 h3.2
  have hb : (!is.isEmpty) = true := by cases is <;> simp_all
  unfold Ctx.processInstructions at h
  rw [hb] at h
  exact (key is c h1 h2 h3).out _ h

/-- The instructions before the first one of those three are carried out; it then decides, and what follows it is not looked at:
PassthroughKeyEvent hands the key back, ConfirmDirect hands it back outside a registration and takes it in one, Delete takes it
when it had something to delete. -/
theorem command_decided (e : Env) (c : Ctx) (before after : List Instruction) (cm : CompositionMode) (im : InputMode)
    (h1 : .passthroughKeyEvent ∉ before) (h2 : .confirmDirect ∉ before) (h3 : .delete ∉ before) (c1 : Ctx) (b : Bool)
    (h : c.processInstructions e before cm im = .ok (c1, b)) :
    c.processInstructions e (before ++ .passthroughKeyEvent :: after) cm im = .ok (c1, false) ∧
    (c1.below = [] → c.processInstructions e (before ++ .confirmDirect :: after) cm im = .ok (c1, false)) ∧
    (c1.below ≠ [] → ∀ c2 taken, c.processInstructions e (before ++ .confirmDirect :: after) cm im = .ok (c2, taken) → taken = true) ∧
    c.processInstructions e (before ++ .delete :: after) cm im = .ok ({ c1 with top := c1.top.delete.1 }, c1.top.delete.2) := by
  have key : ∀ (is : List Instruction) (n n' : Bool) (c : Ctx), .passthroughKeyEvent ∉ is → .confirmDirect ∉ is → .delete ∉ is →
      ∀ b, Ctx.runInstructions e cm im n c is = .ok (c1, b) → ∀ rest,
      Ctx.runInstructions e cm im n' c (is ++ rest) = Ctx.runInstructions e cm im n' c1 rest := by
    intro is
    induction is with
    | nil => intro n n' c _ _ _ b h rest; cases h; rfl
    | cons i is ih =>
      intro n n' c h1 h2 h3 b h rest
      simp only [List.mem_cons, not_or] at h1 h2 h3
      simp only [Ctx.runInstructions, List.cons_append] at h ⊢
      cases hi : c.instruction e i cm im with
      | error p => rw [hi] at h; cases h
      | ok r =>
        obtain ⟨c2, o⟩ := r
        have ho : o = none := instruction_goes_on e c i cm im (Ne.symm h1.1) (Ne.symm h2.1) (Ne.symm h3.1) c2 o hi
        subst ho
        rw [hi] at h
        exact ih n n' c2 h1.2 h2.2 h3.2 b h rest
  have hrun : ∀ i rest, c.processInstructions e (before ++ i :: rest) cm im =
      Ctx.runInstructions e cm im (!(before ++ i :: rest).isEmpty) c1 (i :: rest) := by
    intro i rest
    exact key before _ _ c h1 h2 h3 b h _
  refine ⟨?_, ?_, ?_, ?_⟩
  · rw [hrun]; rfl
  · intro hb
    rw [hrun]
    simp [Ctx.runInstructions, Ctx.instruction, Ctx.depth, hb, bind, Except.bind, pure, Except.pure]
  · intro hb c2 taken h
    rw [hrun] at h
    have hd : c1.depth > 1 := by
      unfold Ctx.depth
      have := List.length_pos_iff.mpr hb
      omega
    simp only [Ctx.runInstructions, Ctx.instruction, if_pos hd] at h
    cases hx : c1.exitRegister e c1.top.confirmed with
    | error p => rw [hx] at h; cases h
    | ok c3 => rw [hx] at h; cases h; rfl
  · rw [hrun]; rfl

/-! ## The shipped tables and examples -/

theorem default_table_ascii (ev : KeyEvent) : AsciiIn Assets.defaultKana ev := by
  intro pre h
  obtain ⟨x, hx, s, hs⟩ := (Romaji.can_continue_iff _ _ _).mp h
  have : ∀ x ∈ Assets.defaultRomaji, ∀ k ∈ x.1, 0x20 ≤ k ∧ k ≤ 0x7e := by decide +kernel
  exact this x hx ev.symbol (by rw [hs]; simp)

/-- The azik table contains two entries, `nl` and `ch`, which are read as the names of the single keys 0x9e8 and 0xfea0,
not as two letters; all other keys in it are printable. -/
theorem azik_table_ascii (ev : KeyEvent) (h : ev.symbol ≠ 0x9e8) (h' : ev.symbol ≠ 0xfea0) :
    AsciiIn Assets.azikKana ev := by
  intro pre hc
  obtain ⟨x, hx, s, hs⟩ := (Romaji.can_continue_iff _ _ _).mp hc
  have : ∀ x ∈ Assets.azikRomaji, ∀ k ∈ x.1, k ≠ 0x9e8 → k ≠ 0xfea0 → 0x20 ≤ k ∧ k ≤ 0x7e := by
    decide +kernel
  exact this x hx ev.symbol (by rw [hs]; simp) h h'

/-- A new context with the shipped rule. -/
def start (im : InputMode) : Ctx := Ctx.new Assets.defaultCommands Assets.defaultKana im .direct []

/-- The hypotheses of `disagree_iff_romaji` are met by the letter `k` (agreement) and by space. -/
example : RomajiMode (start .hiragana) ∧ NoCommand (start .hiragana) ⟨0x6b, 0⟩ ∧ NoCommand (start .hiragana) ⟨0x20, 0⟩ ∧
    (((Assets.env ⟨true⟩).xkb.toChar 0x20).isSome = true) := by
  refine ⟨⟨Or.inl rfl, Or.inl rfl⟩, ?_, ?_, by decide +kernel⟩ <;> unfold NoCommand <;>
    simp only [← matchingKey_iff] <;> decide +kernel

/-- A rule which switches to ASCII and hands the key to the application, as Escape for an editor: the switch is made, the abort behind
it is not. -/
example (p : Bool) : (start .hiragana).processInstructions (Assets.env ⟨p⟩)
    ([.changeInputMode .ascii] ++ .passthroughKeyEvent :: [.abort]) .direct .hiragana = .ok ((start .hiragana).setInputMode .ascii, false) :=
  (command_decided (Assets.env ⟨p⟩) (start .hiragana) [.changeInputMode .ascii] [.abort] .direct .hiragana (by decide) (by decide)
    (by decide) _ true rfl).1

/-- **Disagreements.** In hiragana input space is consumed although `will_process` says no; Return with nothing typed is
not consumed although it says yes; with input mode Ascii set while a reading is composed, letters are not consumed
although it says yes. -/
theorem disagreements (p : Bool) :
    ((start .hiragana).willProcess (Assets.env ⟨p⟩) ⟨0x20, 0⟩ = .ok false ∧
      (((start .hiragana).processKeyEvent (Assets.env ⟨p⟩) ⟨0x20, 0⟩).toOption.map (·.2)) = some true) ∧
    ((start .hiragana).willProcess (Assets.env ⟨p⟩) ⟨0xff0d, 0⟩ = .ok true ∧
      (((start .hiragana).processKeyEvent (Assets.env ⟨p⟩) ⟨0xff0d, 0⟩).toOption.map (·.2)) = some false) ∧
    (((start .ascii).setCompositionMode .preComposition).willProcess (Assets.env ⟨p⟩) ⟨0x61, 0⟩ = .ok true ∧
      ((((start .ascii).setCompositionMode .preComposition).processKeyEvent (Assets.env ⟨p⟩) ⟨0x61, 0⟩).toOption.map (·.2)) =
        some false) := by
  cases p <;> decide +kernel

end Cskk.Props.WillProcess
