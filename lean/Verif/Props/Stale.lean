import Verif.Props.ShippedTyping
import Verif.Props.Delete

/-!
# C69: a capital letter typed after a deleted one
-/

namespace Cskk.Props.Stale
open Spec Spec.Typing Romaji KanaBuilder Navigate Convert Typing Words

/-- The small letter of a capital letter: the key map gives some character which is no full stop or comma. -/
structure Small (e : Env) (ev : KeyEvent) (k : Keysym) : Prop where
  char : ∃ ch, e.xkb.toChar k = some ch ∧ ch ≠ '.' ∧ ch ≠ ','

/-- A capital letter which changes no mode is typed as the small letter is, if that occurs in an entry here. -/
theorem small_rom (e : Env) (c : Ctx) (tbl : Table) (ev : KeyEvent) (k : Keysym) (hk : c.kanaConv = ofTable tbl)
    (hev : CapitalAt e tbl c.top.pre ev k) (hs : Small e ev k) (htr : c.transitionByCapital ev c.top.mode c.top.capital = (c, false))
    (hc : begins tbl (c.top.pre ++ [k]) = true ∨ begins tbl [k] = true)
    (hfr : begins tbl (c.top.pre ++ [k]) = false → completed tbl [k] ≠ none → c.transitionByCapital ev c.top.mode false = (c, false)) :
    c.romInput e ev c.top.pre = c.romInput e ⟨k, ev.modifiers⟩ c.top.pre := by
  have hl := hev.lower
  have hup : KeyEvent.isUpper ⟨k, ev.modifiers⟩ = false := by
    unfold KeyEvent.isUpper KEY_A KEY_Z
    have a1 : @LE.le Nat _ 0x61 k := hl.1
    have : ¬ @LE.le Nat _ k 0x5a := by omega
    rw [Bool.and_eq_false_iff]; right
    exact decide_eq_false this
  rw [hev.romInput c rfl hk]
  obtain ⟨ch, hch, hn⟩ := hs.char
  unfold Ctx.romInput
  simp only [hk, combineRaw, combineLower, nonPartial_eq, htr]
  cases hcm : completed tbl (c.top.pre ++ [k]) with
  | some v => rfl
  | none =>
    simp only [hup, Bool.false_eq_true, if_false, KeyEvent.symbolChar, hch]
    unfold Ctx.symbolInput
    simp only [punctuation_eq, punctuation_none hn, hk, continue_eq, hup, Bool.false_and, Bool.false_eq_true, if_false, combineRaw, combineLower,
      nonPartial_eq, List.nil_append]
    cases hb : begins tbl (c.top.pre ++ [k]) with
    | true => rfl
    | false =>
      simp only [Bool.false_eq_true, if_false]
      cases h2 : completed tbl [k] with
      | some v =>
        rw [hfr hb (by rw [h2]; simp)]
      | none =>
        have h3 : begins tbl [k] = true := by
          rcases hc with h | h
          · rw [hb] at h; cases h
          · exact h
        have huc : KanaBuilder.uncapitalize k = k := by
          unfold KanaBuilder.uncapitalize KEY_A KEY_Z
          have a1 : @LE.le Nat _ 0x61 k := hl.1
          have : ¬ @LE.le Nat _ k 0x5a := by omega
          rw [if_neg fun h => this h.2]
        simp only [huc, h2, h3, if_true]

/-- A capital letter which changes no mode is the small letter. -/
theorem capital_is_small (e : Env) (c : Ctx) (tbl : Table) (ev : KeyEvent) (k : Keysym) (hk : c.kanaConv = ofTable tbl)
    (hr : RomajiMode c) (hev : Capital e tbl ev k) (hs : Small e ev k) (htr : c.transitionByCapital ev c.top.mode c.top.capital = (c, false))
    (hc : completed tbl (c.top.pre ++ [k]) ≠ none ∨
      (begins tbl (c.top.pre ++ [k]) = true ∧ NoCommand c ev ∧ NoCommand c ⟨k, ev.modifiers⟩)) :
    c.processKeyEvent e ev = c.processKeyEvent e ⟨k, ev.modifiers⟩ := by
  have hl := hev.lower
  have hup : KeyEvent.isUpper ⟨k, ev.modifiers⟩ = false := by
    unfold KeyEvent.isUpper KEY_A KEY_Z
    have a1 : @LE.le Nat _ 0x61 k := hl.1
    have : ¬ @LE.le Nat _ k 0x5a := by omega
    rw [Bool.and_eq_false_iff]; right
    exact decide_eq_false this
  have hmod : ¬ HasOtherModifier ⟨k, ev.modifiers⟩ := hev.modifier
  have huc : KanaBuilder.uncapitalize k = k := by
    unfold KanaBuilder.uncapitalize KEY_A KEY_Z
    have a1 : @LE.le Nat _ 0x61 k := hl.1
    have : ¬ @LE.le Nat _ k 0x5a := by omega
    rw [if_neg fun h => this h.2]
  have key : c.processKeyEvent e ⟨k, ev.modifiers⟩ = c.romInput e ⟨k, ev.modifiers⟩ c.top.pre := by
    have hrel : ¬ IsRelease ⟨k, ev.modifiers⟩ := fun hr => hmod ⟨30, by decide, hr⟩
    rw [← WillProcess.charInput_rom e c ⟨k, ev.modifiers⟩ hr hmod]
    rcases hc with hc | hc
    · have h1 : Modifier.contains ev.modifiers Modifier.RELEASE = false := by
        rw [← Bool.not_eq_true, show Modifier.contains ev.modifiers Modifier.RELEASE = Modifier.contains (⟨k, ev.modifiers⟩ : KeyEvent).modifiers Modifier.RELEASE from rfl, contains_release]; exact hrel
      unfold Ctx.processKeyEvent Ctx.processInner
      rw [h1]
      have hs : c.skipCommand ⟨k, ev.modifiers⟩ = true := by
        unfold Ctx.skipCommand
        rw [(WillProcess.rom_iff c).mpr hr, (modifierless_iff ⟨k, ev.modifiers⟩).mpr hmod, hk]
        unfold combineLower
        rw [nonPartial_eq tbl (c.top.pre ++ [KanaBuilder.uncapitalize k]), huc]
        cases h : completed tbl (c.top.pre ++ [k]) with
        | none => exact absurd h hc
        | some v => simp
      rw [hs]; rfl
    · exact WillProcess.process_no_command e c _ (WillProcess.rom_mode hr) hrel hc.2.2
  have hcc : completed tbl (c.top.pre ++ [k]) ≠ none ∨ NoCommand c ev := hc.imp id fun h => h.2.1
  have hbg : begins tbl (c.top.pre ++ [k]) = true := by
    rcases hc with hc | hc
    · cases hx : begins tbl (c.top.pre ++ [k]) with
      | true => rfl
      | false => exact absurd (completed_of_not_begins hx) hc
    · exact hc.1
  rw [(hev.at c.top.pre).key c hk hr hcc, key]
  exact small_rom e c tbl ev k hk (hev.at _) hs htr (.inl hbg) fun h => by rw [hbg] at h; cases h

/-- **C69.** While the level remembers a capital letter, another capital letter which goes on with the pending keys is taken as the small
letter: in direct input it starts no word, in a reading it starts no okurigana. -/
theorem stale_capital_is_small (e : Env) (c : Ctx) (tbl : Table) (ev : KeyEvent) (k : Keysym) (hk : c.kanaConv = ofTable tbl)
    (hr : RomajiMode c) (hev : Capital e tbl ev k) (hs : Small e ev k) (hcap : c.top.capital = true)
    (hc : completed tbl (c.top.pre ++ [k]) ≠ none ∨
      (begins tbl (c.top.pre ++ [k]) = true ∧ NoCommand c ev ∧ NoCommand c ⟨k, ev.modifiers⟩)) :
    c.processKeyEvent e ev = c.processKeyEvent e ⟨k, ev.modifiers⟩ := by
  refine capital_is_small e c tbl ev k hk hr hev hs ?_ hc
  unfold Ctx.transitionByCapital
  simp [hcap]

/-- The level after a capital letter was typed and deleted again. -/
def deleted (c : Ctx) : Ctx := { c with top := { c.top with history := remember c.top.history .direct, capital := true } }

/-- **C69, violation.** With the default rule: a capital letter typed by mistake in direct input and removed with two BackSpaces leaves everything as it
was to the eye, but the next capital letter is taken as a small one and starts no word. -/
theorem corrected_start (p : Bool) (c : Ctx) (hr : c.cmds = Assets.defaultCommands) (hk : c.kanaConv = Assets.defaultKana)
    (hf : ShippedTyping.Fresh c) (up lo : Char) (hup : up.toNat + 0x20 = lo.toNat) (hlo : 0x61 ≤ lo.toNat ∧ lo.toNat ≤ 0x7a)
    (hU : up ≠ 'U') (hcu : up ∉ ShippedTyping.defaultCommandKeys .direct) (hb : begins Assets.defaultRomaji [lo.toNat] = true)
    (hn : completed Assets.defaultRomaji [lo.toNat] = none) (hq : Quiet c []) :
    c.processKeyEvents (Assets.env ⟨p⟩) [⟨up.toNat, 0⟩, ⟨0xff08, 0⟩, ⟨0xff08, 0⟩] = .ok (deleted c) ∧
    (deleted c).preedit (Assets.env ⟨p⟩) = c.preedit (Assets.env ⟨p⟩) ∧
    ∀ (up' lo' : Char), up'.toNat + 0x20 = lo'.toNat → 0x61 ≤ lo'.toNat ∧ lo'.toNat ≤ 0x7a → up' ≠ 'U' →
      up' ∉ ShippedTyping.defaultCommandKeys .direct → lo' ∉ ShippedTyping.defaultCommandKeys .direct →
      begins Assets.defaultRomaji [lo'.toNat] = true →
      (deleted c).processKeyEvent (Assets.env ⟨p⟩) ⟨up'.toNat, 0⟩ = (deleted c).processKeyEvent (Assets.env ⟨p⟩) ⟨lo'.toNat, 0⟩ := by
  have hsh : ShippedTyping.Shipped c Assets.defaultRomaji ShippedTyping.defaultCommandKeys := .default hr hk
  have hsd : ShippedTyping.Shipped (deleted c) Assets.defaultRomaji ShippedTyping.defaultCommandKeys := .default hr hk
  have hnc := hsh.noCommand hf.rom up (by omega) (by omega) (by rw [hf.mode]; exact hcu)
  refine ⟨?_, ?_, ?_⟩
  · have h1 := word_begins (Assets.env ⟨p⟩) c _ ⟨up.toNat, 0⟩ lo.toNat hsh.kana hf.rom hf.mode hf.okuri hf.history hf.capital
      ((ShippedTyping.shipped_capital p c _ _ hsh up lo hup hlo hU).at _) hnc (by rw [hf.pre]; exact hn) (by rw [hf.pre]; exact hb)
      (by rw [hf.raw]; exact hq)
    have him : c.top.inputMode ≠ .ascii ∧ c.top.inputMode ≠ .zenkaku := by
      obtain ⟨_, h | h | h⟩ := hf.rom <;> rw [h] <;> decide
    simp only [Ctx.processKeyEvents, h1, bind, Except.bind]
    have bs : ∀ s : State, s.mode = .preComposition → s.inputMode = c.top.inputMode →
        ({ c with top := s } : Ctx).processKeyEvent (Assets.env ⟨p⟩) ⟨0xff08, 0⟩ = .ok ({ c with top := s.delete.1 }, s.delete.2) := by
      intro s h1 h2
      exact Delete.backspace_is_delete _ { c with top := s } (.inl ⟨hr, hk⟩) (.inr ⟨.inl h1, by rw [h2]; exact him⟩)
    rw [bs { inMode c.top .preComposition with pre := c.top.pre ++ [lo.toNat], capital := true } rfl rfl]
    have d1 : ({ inMode c.top .preComposition with pre := c.top.pre ++ [lo.toNat], capital := true } : State).delete.1 =
        { inMode c.top .preComposition with pre := [], capital := true } := by
      simp [State.delete, inMode, hf.pre]
    simp only [d1]
    rw [bs { inMode c.top .preComposition with pre := [], capital := true } rfl rfl]
    have d2 : ({ inMode c.top .preComposition with pre := [], capital := true } : State).delete.1 =
        { c.top with history := remember c.top.history .direct, capital := true } := by
      have h1 := hf.kana
      have h2 := hf.raw
      have h3 := hf.mode
      have h4 := hf.pre
      revert h1 h2 h3 h4
      cases c.top
      rintro rfl rfl rfl rfl
      simp [State.delete, inMode]
    simp only [d2]
    rfl
  · have hmode : c.top.mode = .direct := hf.mode
    simp [Ctx.preedit, Ctx.states, deleted, State.preeditString, State.preeditDetail, State.unconverted, hmode]
  · intro up' lo' hup' hlo' hU' hcu' hcl' hb'
    have hrom : RomajiMode (deleted c) := hf.rom
    have hpre : (deleted c).top.pre = [] := hf.pre
    have hmode : (deleted c).top.mode = .direct := hf.mode
    refine stale_capital_is_small _ _ _ ⟨up'.toNat, 0⟩ lo'.toNat hsd.kana hrom (ShippedTyping.shipped_capital p _ _ _ hsd up' lo' hup' hlo' hU')
      ⟨⟨lo', (ShippedTyping.shipped_key p lo' (by omega) (by omega)).char, ?_⟩⟩ rfl (.inr ⟨by rw [hpre]; exact hb', ?_, ?_⟩)
    · constructor <;> (rintro rfl; revert hlo'; decide)
    · exact hsd.noCommand hrom up' (by omega) (by omega) (by rw [hmode]; exact hcu')
    · exact hsd.noCommand hrom lo' (by omega) (by omega) (by rw [hmode]; exact hcl')

/-- A new context and the keys `K`, BackSpace, BackSpace meet the hypotheses. -/
example (p : Bool) : (WillProcess.start .hiragana).processKeyEvents (Assets.env ⟨p⟩) [⟨0x4b, 0⟩, ⟨0xff08, 0⟩, ⟨0xff08, 0⟩] =
    .ok (deleted (WillProcess.start .hiragana)) :=
  (corrected_start p (WillProcess.start .hiragana) rfl rfl ⟨⟨Or.inl rfl, Or.inl rfl⟩, rfl, rfl, rfl, rfl, rfl, rfl, by decide⟩
    'K' 'k' (by decide) (by decide) (by decide) (by decide) (by decide +kernel) (by decide +kernel) (by unfold Quiet; decide)).1

/-- The keys as a user sees them: `K`, two BackSpaces, then `Ai`: the text is committed as it is instead of opening a reading. In a reading, a wrong okurigana
letter removed with BackSpace: the next capital letter goes into the reading. -/
theorem corrected_examples (p : Bool) :
    let start := Ctx.new Assets.defaultCommands Assets.defaultKana .hiragana .direct []
    let bs : KeyEvent := ⟨0xff08, 0⟩
    let seen := fun evs => (start.processKeyEvents (Assets.env ⟨p⟩) evs).toOption.map fun c => c.preedit (Assets.env ⟨p⟩)
    seen (typed c%"Ai") = some c%"▽あい" ∧
    seen (typed c%"K" ++ [bs, bs] ++ typed c%"Ai") = some c%"あい" ∧
    seen (typed c%"OoR") = some c%"▽おお*r" ∧
    seen (typed c%"OoK" ++ [bs] ++ typed c%"R") = some c%"▽おおr" := by
  cases p <;> decide +kernel

end Cskk.Props.Stale
