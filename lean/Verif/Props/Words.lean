import Verif.Props.Typing

/-!
# C25, C44: capital letters start a word and its okurigana
-/

namespace Cskk.Props.Words
open Spec Spec.Typing Romaji KanaBuilder Navigate Convert Typing

/-- The event is the capital letter of the letter with keysym `k` (`k` from 0x61 to 0x7a): the key map gives some
character which is no full stop or comma, and no entry of the table has a capital letter of this kind. -/
structure Capital (e : Env) (tbl : Table) (ev : KeyEvent) (k : Keysym) : Prop where
  lower : 0x61 ≤ k ∧ k ≤ 0x7a
  symbol : ev.symbol + 0x20 = k
  modifier : ¬ HasOtherModifier ev
  char : ∃ ch, e.xkb.toChar ev.symbol = some ch ∧ ch ≠ '.' ∧ ch ≠ ','
  absent : ∀ x ∈ tbl, ev.symbol ∉ x.1

/-- The same after the pending keys `u`: no entry begins with them and the capital letter, or with the capital letter. -/
structure CapitalAt (e : Env) (tbl : Table) (u : List Keysym) (ev : KeyEvent) (k : Keysym) : Prop where
  lower : 0x61 ≤ k ∧ k ≤ 0x7a
  symbol : ev.symbol + 0x20 = k
  modifier : ¬ HasOtherModifier ev
  char : ∃ ch, e.xkb.toChar ev.symbol = some ch ∧ ch ≠ '.' ∧ ch ≠ ','
  absent : begins tbl (u ++ [ev.symbol]) = false ∧ begins tbl [ev.symbol] = false

theorem Capital.not_begins {e : Env} {tbl : Table} {ev : KeyEvent} {k : Keysym} (h : Capital e tbl ev k) (u : List Keysym) :
    begins tbl (u ++ [ev.symbol]) = false := by
  unfold begins
  rw [List.any_eq_false]
  intro x hx hp
  rw [List.isPrefixOf_iff_prefix] at hp
  exact h.absent x hx (hp.subset (by simp))

theorem Capital.at {e : Env} {tbl : Table} {ev : KeyEvent} {k : Keysym} (h : Capital e tbl ev k) (u : List Keysym) : CapitalAt e tbl u ev k :=
  ⟨h.lower, h.symbol, h.modifier, h.char, h.not_begins u, h.not_begins []⟩

section
variable {e : Env} {tbl : Table} {u : List Keysym} {ev : KeyEvent} {k : Keysym} (h : CapitalAt e tbl u ev k)
include h

theorem CapitalAt.isUpper : ev.isUpper = true := by
  obtain ⟨⟨h1, h2⟩, h3, _, _, _⟩ := h
  unfold KeyEvent.isUpper KEY_A KEY_Z
  rw [Bool.and_eq_true, decide_eq_true_iff, decide_eq_true_iff]
  have a1 : @LE.le Nat _ 0x61 k := h1
  have a2 : @LE.le Nat _ k 0x7a := h2
  have a3 : @HAdd.hAdd Nat Nat Nat _ ev.symbol 0x20 = k := h3
  constructor
  · show @LE.le Nat _ 0x41 ev.symbol; omega
  · show @LE.le Nat _ ev.symbol 0x5a; omega

theorem CapitalAt.uncapitalize : uncapitalize ev.symbol = k := by
  have hu := h.isUpper
  simp only [KeyEvent.isUpper, Bool.and_eq_true] at hu
  unfold KanaBuilder.uncapitalize
  rw [if_pos ⟨of_decide_eq_true hu.1, of_decide_eq_true hu.2⟩, h.symbol]

theorem CapitalAt.toLower : ev.toLower = ⟨k, ev.modifiers⟩ := by
  unfold KeyEvent.toLower
  rw [h.isUpper, if_pos rfl, h.symbol]

/-- A capital letter is never a command while it completes an entry, otherwise only if the rule says so. -/
theorem CapitalAt.key (c : Ctx) (hk : c.kanaConv = ofTable tbl) (hr : RomajiMode c)
    (hc : completed tbl (c.top.pre ++ [k]) ≠ none ∨ NoCommand c ev) :
    c.processKeyEvent e ev = c.romInput e ev c.top.pre := by
  have hrel : ¬ IsRelease ev := fun hr => h.modifier ⟨30, by decide, hr⟩
  rw [← WillProcess.charInput_rom e c ev hr h.modifier]
  rcases hc with hc | hc
  · have h1 : Modifier.contains ev.modifiers Modifier.RELEASE = false := by
      rw [← Bool.not_eq_true, contains_release]; exact hrel
    unfold Ctx.processKeyEvent Ctx.processInner
    rw [h1]
    have hs : c.skipCommand ev = true := by
      unfold Ctx.skipCommand
      rw [(WillProcess.rom_iff c).mpr hr, (modifierless_iff ev).mpr h.modifier, hk]
      unfold combineLower
      rw [nonPartial_eq tbl (c.top.pre ++ [KanaBuilder.uncapitalize ev.symbol]), h.uncapitalize]
      cases h : completed tbl (c.top.pre ++ [k]) with
      | none => exact absurd h hc
      | some v => simp
    rw [hs]; rfl
  · exact WillProcess.process_no_command e c ev (WillProcess.rom_mode hr) hrel hc

/-- The four ways a capital letter is taken. -/
theorem CapitalAt.romInput (c : Ctx) (hu : c.top.pre = u) (hk : c.kanaConv = ofTable tbl) :
    c.romInput e ev c.top.pre =
      match completed tbl (c.top.pre ++ [k]) with
      | some v => do
        let (c', did) := c.transitionByCapital ev c.top.mode c.top.capital
        let c' ← c'.inputConvertedKana e v.1 v.2 did c.top.pre
        return (c', true)
      | none =>
        if begins tbl (c.top.pre ++ [k]) then
          ((c.transitionByCapital ev c.top.mode c.top.capital).1.inputAsContinuous ⟨k, ev.modifiers⟩).finishSymbol e
        else
          match completed tbl [k] with
          | some v => do
            let (c', did) := c.transitionByCapital ev c.top.mode false
            let c' ← c'.inputConvertedKana e v.1 v.2 did c.top.pre
            return (c', true)
          | none =>
            if begins tbl [k] then
              ((((c.transitionByCapital ev c.top.mode c.top.capital).1.outputConverted e c.top.inputMode c.top.mode).mapTop
                State.clearPre).inputAsContinuous ⟨k, ev.modifiers⟩).finishSymbol e
            else c.romInput e ev c.top.pre := by
  obtain ⟨ch, hch, hn⟩ := h.char
  subst hu
  have h0' : begins tbl [ev.symbol] = false := h.absent.2
  have h0 : completed tbl [ev.symbol] = none := completed_of_not_begins h0'
  have h1' : begins tbl (c.top.pre ++ [ev.symbol]) = false := h.absent.1
  have h1 : completed tbl (c.top.pre ++ [ev.symbol]) = none := completed_of_not_begins h1'
  unfold Ctx.romInput
  simp only [hk, combineRaw, combineLower, nonPartial_eq, h1, h.isUpper, h.uncapitalize, if_true]
  cases completed tbl (c.top.pre ++ [k]) with
  | some v => rfl
  | none =>
    simp only [KeyEvent.symbolChar, hch]
    unfold Ctx.symbolInput
    simp only [punctuation_eq, punctuation_none hn, hk, continue_eq, continueLower_eq, h1', h.uncapitalize,
      h.isUpper, Bool.true_and, h.toLower, Bool.false_eq_true, if_false, combineRaw, combineLower, nonPartial_eq,
      List.nil_append, h0, h0', if_true]
    cases begins tbl (c.top.pre ++ [k]) with
    | true => rfl
    | false =>
      simp only [Bool.false_eq_true, if_false]
      cases completed tbl [k] with
      | some v => rfl
      | none =>
        simp only []
        cases begins tbl [k] <;> rfl

end

theorem remember_length (l : List CompositionMode) (m : CompositionMode) : (remember l m).length ≤ 20 := by
  unfold remember
  simp only [List.length_drop, List.length_append, List.length_cons, List.length_nil]
  omega

/-! ## A capital letter in direct input starts a reading -/

theorem quiet_ok (e : Env) (c : Ctx) (hm : c.top.mode = .preComposition) (ho : c.top.okuri = []) (hq : Quiet c c.top.raw) :
    c.finishSymbol e = .ok (c, true) := by
  unfold Ctx.finishSymbol
  rw [if_pos hm, autoStart_quiet e c hm ho hq]; rfl

section
variable (e : Env) (c : Ctx) (tbl : Table) (ev : KeyEvent) (k : Keysym)
  (hk : c.kanaConv = ofTable tbl) (hr : RomajiMode c) (hm : c.top.mode = .direct) (ho : c.top.okuri = [])
  (hh : c.top.history.length ≤ 20) (hcap : c.top.capital = false)
  (hev : CapitalAt e tbl c.top.pre ev k)
include hm hh hev in
theorem transition_direct (b : Bool) (hb : b = false) : c.transitionByCapital ev c.top.mode b =
    ({ c with top := { inMode c.top .preComposition with capital := true } }, true) := by
  unfold Ctx.transitionByCapital
  rw [hev.isUpper, hb, hm]
  simp only [Bool.not_false, Bool.and_self, decide_true, if_true, Ctx.setCompositionMode, State.changeMode, Ctx.mapTop]
  rw [changeModeFrom_eq _ _ _ hh]
  rfl

include hk hr hm ho hh hcap hev

omit hr in
/-- C25: a capital letter which with the pending keys only begins an entry starts a reading and is pending. -/
theorem word_begins_rom (h1 : completed tbl (c.top.pre ++ [k]) = none)
    (h2 : begins tbl (c.top.pre ++ [k]) = true) (hq : Quiet c c.top.raw) :
    c.romInput e ev c.top.pre = .ok ({ c with top := { inMode c.top .preComposition with
      pre := c.top.pre ++ [k], capital := true } }, true) := by
  rw [hev.romInput c rfl hk, h1]
  simp only [h2, if_true, transition_direct e c tbl ev k hm hh hev _ hcap]
  rw [show (Ctx.inputAsContinuous { c with top := { inMode c.top .preComposition with capital := true } }
    ⟨k, ev.modifiers⟩) = { c with top := { inMode c.top .preComposition with
      pre := c.top.pre ++ [k], capital := true } } from ?_]
  · exact quiet_ok e _ rfl ho hq
  · simp [Ctx.inputAsContinuous, inMode, Ctx.setUnconverted, Ctx.mapTop, nextUnprocessedState, continue_eq, h2, hk,
      combineRaw]

/-- C25: a capital letter which with the pending keys only begins an entry starts a reading and is pending. -/
theorem word_begins (hc : NoCommand c ev) (h1 : completed tbl (c.top.pre ++ [k]) = none)
    (h2 : begins tbl (c.top.pre ++ [k]) = true) (hq : Quiet c c.top.raw) :
    c.processKeyEvent e ev = .ok ({ c with top := { inMode c.top .preComposition with
      pre := c.top.pre ++ [k], capital := true } }, true) := by
  rw [hev.key c hk hr (Or.inr hc), word_begins_rom e c tbl ev k hk hm ho hh hcap hev h1 h2 hq]

omit hr in
/-- C25: a capital letter which completes an entry with the pending keys starts a reading with its kana. -/
theorem word_starts_rom (w : Str) (carry : List Keysym) (h1 : completed tbl (c.top.pre ++ [k]) = some (w, carry))
    (hq : Quiet c (c.top.raw ++ w)) :
    c.romInput e ev c.top.pre = .ok ({ c with top := { inMode c.top .preComposition with
      kana := c.top.kana ++ w, raw := c.top.raw ++ w, pre := carry, capital := !carry.isEmpty } }, true) := by
  rw [hev.romInput c rfl hk, h1]
  simp only [transition_direct e c tbl ev k hm hh hev _ hcap]
  simp only [Ctx.inputConvertedKana, inMode, Ctx.setCarryOver, Ctx.mapTop, State.push, State.pushFor]
  rw [autoStart_quiet e]
  · cases carry <;> rfl
  · rfl
  · exact ho
  · exact hq

/-- C25: a capital letter which completes an entry with the pending keys starts a reading with its kana. -/
theorem word_starts (w : Str) (carry : List Keysym) (h1 : completed tbl (c.top.pre ++ [k]) = some (w, carry))
    (hq : Quiet c (c.top.raw ++ w)) :
    c.processKeyEvent e ev = .ok ({ c with top := { inMode c.top .preComposition with
      kana := c.top.kana ++ w, raw := c.top.raw ++ w, pre := carry, capital := !carry.isEmpty } }, true) := by
  rw [hev.key c hk hr (Or.inl (by rw [h1]; simp)), word_starts_rom e c tbl ev k hk hm ho hh hcap hev w carry h1 hq]

omit hr hcap in
/-- C25: pending keys with which the capital letter cannot go on are lost if the letter alone is an entry. -/
theorem word_starts_fresh_rom (w : Str) (carry : List Keysym)
    (h1 : begins tbl (c.top.pre ++ [k]) = false) (h2 : completed tbl [k] = some (w, carry))
    (hq : Quiet c (c.top.raw ++ w)) :
    c.romInput e ev c.top.pre = .ok ({ c with top := { inMode c.top .preComposition with
      kana := c.top.kana ++ w, raw := c.top.raw ++ w, pre := carry, capital := !carry.isEmpty } }, true) := by
  rw [hev.romInput c rfl hk, completed_of_not_begins h1]
  simp only [h1, h2, Bool.false_eq_true, if_false, transition_direct e c tbl ev k hm hh hev _ rfl]
  simp only [Ctx.inputConvertedKana, inMode, Ctx.setCarryOver, Ctx.mapTop, State.push, State.pushFor]
  rw [autoStart_quiet e]
  · cases carry <;> rfl
  · rfl
  · exact ho
  · exact hq

omit hcap in
/-- C25: pending keys with which the capital letter cannot go on are lost if the letter alone is an entry. -/
theorem word_starts_fresh (hc : NoCommand c ev) (w : Str) (carry : List Keysym)
    (h1 : begins tbl (c.top.pre ++ [k]) = false) (h2 : completed tbl [k] = some (w, carry))
    (hq : Quiet c (c.top.raw ++ w)) :
    c.processKeyEvent e ev = .ok ({ c with top := { inMode c.top .preComposition with
      kana := c.top.kana ++ w, raw := c.top.raw ++ w, pre := carry, capital := !carry.isEmpty } }, true) := by
  rw [hev.key c hk hr (Or.inr hc), word_starts_fresh_rom e c tbl ev k hk hm ho hh hev w carry h1 h2 hq]

omit hr in
/-- C25: pending keys which are an entry (such as `n`) are committed if the capital letter begins another one. -/
theorem word_begins_after_rom (h1 : begins tbl (c.top.pre ++ [k]) = false)
    (h2 : completed tbl [k] = none) (h3 : begins tbl [k] = true) (hq : Quiet c c.top.raw) :
    c.romInput e ev c.top.pre = .ok ({ c with top := { inMode c.top .preComposition with
      confirmed := c.top.confirmed ++ rendered (e.kanaForm.adjust c.top.inputMode) (flushed tbl c.top.pre)
      pre := [k], capital := false } }, true) := by
  rw [hev.romInput c rfl hk, completed_of_not_begins h1]
  simp only [h1, h2, h3, Bool.false_eq_true, if_false, if_true,
    transition_direct e c tbl ev k hm hh hev _ hcap]
  rw [show (Ctx.inputAsContinuous (Ctx.mapTop (Ctx.outputConverted e { c with top := { inMode c.top .preComposition with
      capital := true } } c.top.inputMode c.top.mode) State.clearPre) ⟨k, ev.modifiers⟩) =
      { c with top := { inMode c.top .preComposition with
      confirmed := c.top.confirmed ++ rendered (e.kanaForm.adjust c.top.inputMode) (flushed tbl c.top.pre)
      pre := [k], capital := false } } from ?_]
  · exact quiet_ok e _ rfl ho hq
  · unfold Ctx.outputConverted flushed
    rw [hm, hk, greedy_eq]
    simp only [inMode]
    cases valueOf tbl c.top.pre with
    | none => simp [Ctx.mapTop, State.clearPre, rendered, Ctx.inputAsContinuous, Ctx.setUnconverted,
        nextUnprocessedState, continue_eq, h3, combineRaw]
    | some v => simp [Ctx.mapTop, State.clearPre, rendered, Ctx.setCarryOver, State.pushFor, Ctx.inputAsContinuous,
        Ctx.setUnconverted, nextUnprocessedState, continue_eq, h3, combineRaw]

/-- C25: pending keys which are an entry (such as `n`) are committed if the capital letter begins another one. -/
theorem word_begins_after (hc : NoCommand c ev) (h1 : begins tbl (c.top.pre ++ [k]) = false)
    (h2 : completed tbl [k] = none) (h3 : begins tbl [k] = true) (hq : Quiet c c.top.raw) :
    c.processKeyEvent e ev = .ok ({ c with top := { inMode c.top .preComposition with
      confirmed := c.top.confirmed ++ rendered (e.kanaForm.adjust c.top.inputMode) (flushed tbl c.top.pre)
      pre := [k], capital := false } }, true) := by
  rw [hev.key c hk hr (Or.inr hc), word_begins_after_rom e c tbl ev k hk hm ho hh hcap hev h1 h2 h3 hq]

omit hr ho in
/-- A capital letter which completes an entry with the pending keys starts a reading with its kana, which may end with a keyword. -/
theorem word_starts_auto (w : Str) (carry : List Keysym) (h1 : completed tbl (c.top.pre ++ [k]) = some (w, carry)) :
    c.romInput e ev c.top.pre = (do
      let c' ← ({ c with top := { inMode c.top .preComposition with
        kana := c.top.kana ++ w, raw := c.top.raw ++ w, pre := carry, capital := !carry.isEmpty } } : Ctx).autoStartHenkan e
      return (c', true)) := by
  rw [hev.romInput c rfl hk, h1]
  simp only [transition_direct e c tbl ev k hm hh hev _ hcap]
  simp only [Ctx.inputConvertedKana, inMode, Ctx.setCarryOver, Ctx.mapTop, State.push, State.pushFor]
  cases carry <;> rfl

omit hr ho hcap in
/-- The same if the capital letter alone is an entry and cannot go on with the pending keys. -/
theorem word_starts_fresh_auto (w : Str) (carry : List Keysym) (h1 : begins tbl (c.top.pre ++ [k]) = false) (h2 : completed tbl [k] = some (w, carry)) :
    c.romInput e ev c.top.pre = (do
      let c' ← ({ c with top := { inMode c.top .preComposition with
        kana := c.top.kana ++ w, raw := c.top.raw ++ w, pre := carry, capital := !carry.isEmpty } } : Ctx).autoStartHenkan e
      return (c', true)) := by
  rw [hev.romInput c rfl hk, completed_of_not_begins h1]
  simp only [h1, h2, Bool.false_eq_true, if_false, transition_direct e c tbl ev k hm hh hev _ rfl]
  simp only [Ctx.inputConvertedKana, inMode, Ctx.setCarryOver, Ctx.mapTop, State.push, State.pushFor]
  cases carry <;> rfl

end

/-! ## Okurigana (`▽*`) -/

/-- The conversion of level `r` on top of the levels of `c`, which has found the words `cs`: the first is selected, or if
there is none the registration of one begins (unless ten levels are open). -/
def converted (c : Ctx) (r : State) (cs : List Candidate) : Ctx :=
  if cs ≠ [] then { c with top := inMode (withCandidates r cs) .compositionSelection }
  else if c.depth < 10 then registering { c with top := withCandidates r [] } r.mode
  else { c with top := withCandidates r [] }

/-- A level in which okurigana is typed, after typing: what was written is appended to the okurigana. -/
def okurigana (c : Ctx) (s : Typing) : Ctx :=
  { c with top := { c.top with
      okuri := c.top.okuri ++ rendered id s.out
      useOkuri := c.top.useOkuri || !s.out.isEmpty
      pre := s.pending
      capital := s.shift } }

/-- The character completes kana after which nothing is pending. -/
def Ends (tbl : Table) (ps : PeriodStyle) (cs : CommaStyle) (u : List Keysym) (ch : Char) : Prop :=
  ∃ w, completed tbl (u ++ [ch.toNat]) = some (w, []) ∨
    (completed tbl (u ++ [ch.toNat]) = none ∧ punctuation ps cs ch = none ∧ begins tbl (u ++ [ch.toNat]) = false ∧
      completed tbl [ch.toNat] = some (w, []))

theorem startOkuri_converts (c : Ctx) (hh : c.top.history.length ≤ 20) (hn : c.top.kana ≠ []) (cs : List Candidate)
    (hx : Dicts.getAll c.dicts (lookupKey c.top) = .ok cs) : c.startOkuriHenkan [] = .ok (converted c c.top cs) := by
  unfold Ctx.startOkuriHenkan
  have hne : c.top.kana.isEmpty = false := by simpa using hn
  simp only [List.isEmpty_nil, hne, Bool.not_false, Bool.and_self, if_true, Ctx.updateCandidateList, compositeKey_eq, hx,
    Bind.bind, Except.bind, pure, Except.pure, Ctx.mapTop, setCandidates_eq]
  cases cs with
  | nil =>
    have : (withCandidates c.top []).cands.cands.isEmpty = true := rfl
    rw [if_pos this, enterRegister_eq]
    · rfl
    · exact hh
  | cons x xs =>
    have : ¬ (withCandidates c.top (x :: xs)).cands.cands.isEmpty = true := by simp [withCandidates]
    rw [if_neg this]
    simp only [Ctx.setCompositionMode, State.changeMode, Ctx.mapTop]
    rw [changeModeFrom_eq]
    · rfl
    · exact hh

theorem startOkuri_stays (c : Ctx) (carry : List Keysym) (h : carry ≠ [] ∨ c.top.kana = []) :
    c.startOkuriHenkan carry = .ok c := by
  unfold Ctx.startOkuriHenkan
  rcases h with h | h
  · have : carry.isEmpty = false := by simpa using h
    simp [this]
  · simp [h]

theorem flush_okuri (e : Env) (c : Ctx) (tbl : Table) (im : InputMode) (hk : c.kanaConv = ofTable tbl) :
    (c.outputConverted e im .preCompositionOkurigana).mapTop State.clearPre =
      okurigana c ⟨flushed tbl c.top.pre, [], false⟩ := by
  unfold Ctx.outputConverted flushed
  rw [hk, greedy_eq]
  cases valueOf tbl c.top.pre with
  | none => simp [Ctx.mapTop, State.clearPre, okurigana, rendered]
  | some v => simp [Ctx.mapTop, State.clearPre, okurigana, rendered, Ctx.setCarryOver, State.pushFor]

/-- C25, C44: one character of okurigana. As soon as kana are complete the word is converted with them as its okurigana;
otherwise what is written is appended. -/
theorem okuri_rom (e : Env) (c : Ctx) (tbl : Table) (ev : KeyEvent) (ch : Char) (hk : c.kanaConv = ofTable tbl)
    (hm : c.top.mode = .preCompositionOkurigana) (hp : AsIs tbl c.top.pre ch) (hev : Key e ev ch)
    (hh : c.top.history.length ≤ 20)
    (c' : Ctx)
    (he : c' = okurigana c (typeKey tbl c.config.period c.config.comma ⟨[], c.top.pre, c.top.capital⟩ ch)) :
    (Ends tbl c.config.period c.config.comma c.top.pre ch → c.top.kana ≠ [] →
      ∀ cs, Dicts.getAll c.dicts (lookupKey c'.top) = .ok cs →
        c.romInput e ev c.top.pre = .ok (converted c' c'.top cs, true)) ∧
    ((¬ Ends tbl c.config.period c.config.comma c.top.pre ch ∨ c.top.kana = []) →
      c.romInput e ev c.top.pre = .ok (c', true)) := by
  subst he
  obtain ⟨sym, mods⟩ := ev
  obtain ⟨rfl, hmod, hchar⟩ := hev
  have hconv : ∀ v : Conv, (c.inputConvertedKana e v.1 v.2 false c.top.pre) =
      (okurigana c ⟨[.kana v.1], v.2, c.top.capital && !v.2.isEmpty⟩).startOkuriHenkan v.2 := by
    intro v
    simp only [Ctx.inputConvertedKana, hm, Ctx.setCarryOver, Ctx.mapTop, State.push, State.pushFor, okurigana, rendered, id,
      List.append_nil, Bool.false_and, Bool.false_eq_true, if_false]
    cases v.2 <;> simp
  have hfin : ∀ s : Typing, (okurigana c s).finishSymbol e = .ok (okurigana c s, true) := by
    intro s
    simp [Ctx.finishSymbol, okurigana, hm]
  -- the two ways kana are complete
  have hdone : ∀ v : Conv, (v.2 = [] → Ends tbl c.config.period c.config.comma c.top.pre ch) →
      (Ends tbl c.config.period c.config.comma c.top.pre ch → v.2 = []) →
      (Ends tbl c.config.period c.config.comma c.top.pre ch → c.top.kana ≠ [] →
        ∀ cs, Dicts.getAll c.dicts (lookupKey
          (okurigana c ⟨[.kana v.1], v.2, c.top.capital && !v.2.isEmpty⟩).top) = .ok cs →
        (do let c' ← c.inputConvertedKana e v.1 v.2 false c.top.pre
            return (c', true) : R (Ctx × Bool)) =
          .ok (converted (okurigana c ⟨[.kana v.1], v.2, c.top.capital && !v.2.isEmpty⟩)
            (okurigana c ⟨[.kana v.1], v.2, c.top.capital && !v.2.isEmpty⟩).top cs, true)) ∧
      ((¬ Ends tbl c.config.period c.config.comma c.top.pre ch ∨ c.top.kana = []) →
        (do let c' ← c.inputConvertedKana e v.1 v.2 false c.top.pre
            return (c', true) : R (Ctx × Bool)) =
          .ok (okurigana c ⟨[.kana v.1], v.2, c.top.capital && !v.2.isEmpty⟩, true)) := by
    intro v hv1 hv2
    rw [hconv]
    constructor
    · intro hE hn cs hx
      rw [hv2 hE] at hx ⊢
      rw [startOkuri_converts _ (by exact hh) (by exact hn) cs hx]
      rfl
    · intro h
      rw [startOkuri_stays]
      · rfl
      · exact h.imp (fun h h' => h (hv1 h')) id
  have hnot : ∀ s : Typing, ¬ Ends tbl c.config.period c.config.comma c.top.pre ch → ∀ m : R (Ctx × Bool),
      m = .ok (okurigana c s, true) →
      (Ends tbl c.config.period c.config.comma c.top.pre ch → c.top.kana ≠ [] →
        ∀ cs, Dicts.getAll c.dicts (lookupKey (okurigana c s).top) = .ok cs →
        m = .ok (converted (okurigana c s) (okurigana c s).top cs, true)) ∧
      ((¬ Ends tbl c.config.period c.config.comma c.top.pre ch ∨ c.top.kana = []) → m = .ok (okurigana c s, true)) :=
    fun s h m hm => ⟨fun h' => absurd h' h, fun _ => hm⟩
  unfold Ctx.romInput typeKey
  simp only [hk, combineRaw, combineLower, nonPartial_eq]
  cases h1 : completed tbl (c.top.pre ++ [ch.toNat]) with
  | some v =>
    apply hdone v
    · intro h; exact ⟨v.1, Or.inl (by rw [h1, ← h])⟩
    · rintro ⟨w, h | h⟩
      · rw [h1] at h; cases h; rfl
      · rw [h1] at h; cases h.1
  | none =>
    obtain ⟨f1, f2, f3, f4⟩ := hp.facts mods h1
    simp only [f1, KeyEvent.symbolChar, hchar]
    unfold Ctx.symbolInput
    simp only [punctuation_eq]
    cases h2 : punctuation c.config.period c.config.comma ch with
    | some w =>
      apply hnot
      · rintro ⟨w, h | h⟩
        · rw [h1] at h; cases h
        · rw [h2] at h; cases h.2.1
      simp only [hm, flush_okuri e c tbl _ hk]
      simp [Ctx.finishSymbol, okurigana, hm, Ctx.mapTop, State.push, State.pushFor, State.clearPre, rendered, rendered_append]
    | none =>
      simp only [hk, continue_eq, combineRaw, combineLower, nonPartial_eq, continueLower_eq, List.nil_append, f2,
        Bool.false_eq_true, if_false]
      cases h3 : begins tbl (c.top.pre ++ [ch.toNat]) with
      | true =>
        simp only [if_true]
        apply hnot
        · rintro ⟨w, h | h⟩
          · rw [h1] at h; cases h
          · rw [h3] at h; cases h.2.2.1
        rw [← hfin]
        simp [Ctx.inputAsContinuous, hm, Ctx.setUnconverted, Ctx.mapTop, okurigana, rendered, hk,
          nextUnprocessedState, continue_eq, h3, combineRaw]
      | false =>
        simp only [Bool.false_eq_true, if_false]
        cases h4 : completed tbl [ch.toNat] with
        | some v =>
          apply hdone v
          · intro h; exact ⟨v.1, Or.inr ⟨h1, h2, h3, by rw [h4, ← h]⟩⟩
          · rintro ⟨w, h | h⟩
            · rw [h1] at h; cases h
            · rw [h4] at h; cases h.2.2.2; rfl
        | none =>
          apply hnot
          · rintro ⟨w, h | h⟩
            · rw [h1] at h; cases h
            · rw [h4] at h; cases h.2.2.2
          simp only [f3 h4, hm, flush_okuri e c tbl _ hk]
          cases h5 : begins tbl [ch.toNat] with
          | true =>
            simp only [if_true]
            rw [← hfin]
            simp [Ctx.inputAsContinuous, hm, Ctx.setUnconverted, Ctx.mapTop, okurigana, hk,
              nextUnprocessedState, continue_eq, h5, combineRaw]
          | false =>
            have ha : KeyEvent.isAsciiInputtable ⟨ch.toNat, mods⟩ = true :=
              (WillProcess.printable_iff _).mpr hp.1
            simp [f4 h5, Ctx.finishSymbol, ha, okurigana, hm, Ctx.mapTop, State.push, State.pushFor, rendered, rendered_append]

/-- C25, C44: one character of okurigana. As soon as kana are complete the word is converted with them as its okurigana;
otherwise what is written is appended. -/
theorem okuri_key (e : Env) (c : Ctx) (tbl : Table) (ev : KeyEvent) (ch : Char) (hk : c.kanaConv = ofTable tbl)
    (hr : RomajiMode c) (hm : c.top.mode = .preCompositionOkurigana) (hp : Plain ch) (hev : Key e ev ch)
    (hc : completed tbl (c.top.pre ++ [ch.toNat]) ≠ none ∨ NoCommand c ev) (hh : c.top.history.length ≤ 20)
    (c' : Ctx)
    (he : c' = okurigana c (typeKey tbl c.config.period c.config.comma ⟨[], c.top.pre, c.top.capital⟩ ch)) :
    (Ends tbl c.config.period c.config.comma c.top.pre ch → c.top.kana ≠ [] →
      ∀ cs, Dicts.getAll c.dicts (lookupKey c'.top) = .ok cs →
        c.processKeyEvent e ev = .ok (converted c' c'.top cs, true)) ∧
    ((¬ Ends tbl c.config.period c.config.comma c.top.pre ch ∨ c.top.kana = []) →
      c.processKeyEvent e ev = .ok (c', true)) := by
  rw [plain_key e c tbl ev ch hk hr hev hc]
  exact okuri_rom e c tbl ev ch hk hm (plain_asIs hp _ _) hev hh c' he

section
variable (e : Env) (c : Ctx) (tbl : Table) (ev : KeyEvent) (k : Keysym)
  (hk : c.kanaConv = ofTable tbl) (hr : RomajiMode c) (hm : c.top.mode = .preComposition) (hn : c.top.kana ≠ [])
  (hh : c.top.history.length ≤ 20) (hcap : c.top.capital = false)
  (hev : CapitalAt e tbl c.top.pre ev k)

include hm hn hh hev in
theorem transition_reading (b : Bool) (hb : b = false) : c.transitionByCapital ev c.top.mode b =
    ({ c with top := { inMode c.top .preCompositionOkurigana with capital := true } }, true) := by
  have hne : c.top.kana.isEmpty = false := by simpa using hn
  unfold Ctx.transitionByCapital
  rw [hev.isUpper, hb, hm, hne]
  simp only [Bool.not_false, Bool.and_self, decide_true, if_true, Ctx.setCompositionMode, State.changeMode, Ctx.mapTop,
    reduceCtorEq, decide_false, Bool.and_false, Bool.false_eq_true, if_false]
  rw [changeModeFrom_eq _ _ _ hh]
  rfl

include hk hr hm hn hh hcap hev

omit hr in
/-- C25: while composing, a capital letter which only begins an entry with the pending keys begins the okurigana. -/
theorem okuri_begins_rom (h1 : completed tbl (c.top.pre ++ [k]) = none)
    (h2 : begins tbl (c.top.pre ++ [k]) = true) :
    c.romInput e ev c.top.pre = .ok ({ c with top := { inMode c.top .preCompositionOkurigana with
      pre := c.top.pre ++ [k], capital := true } }, true) := by
  rw [hev.romInput c rfl hk, h1]
  simp only [h2, if_true, transition_reading e c tbl ev k hm hn hh hev _ hcap]
  simp [Ctx.inputAsContinuous, inMode, Ctx.setUnconverted, Ctx.mapTop, nextUnprocessedState, continue_eq, h2, hk,
      combineRaw, Ctx.finishSymbol]

/-- C25: while composing, a capital letter which only begins an entry with the pending keys begins the okurigana. -/
theorem okuri_begins (hc : NoCommand c ev) (h1 : completed tbl (c.top.pre ++ [k]) = none)
    (h2 : begins tbl (c.top.pre ++ [k]) = true) :
    c.processKeyEvent e ev = .ok ({ c with top := { inMode c.top .preCompositionOkurigana with
      pre := c.top.pre ++ [k], capital := true } }, true) := by
  rw [hev.key c hk hr (Or.inr hc), okuri_begins_rom e c tbl ev k hk hm hn hh hcap hev h1 h2]

omit hr in
/-- C25, C44: while composing, a capital letter which completes an entry with the pending keys is the okurigana, and the
word is converted. -/
theorem okuri_starts_rom (w : Str) (h1 : completed tbl (c.top.pre ++ [k]) = some (w, [])) (r : State)
    (hrs : r = { inMode c.top .preCompositionOkurigana with
      okuri := c.top.okuri ++ w, useOkuri := true, pre := [], capital := false })
    (cs : List Candidate) (hx : Dicts.getAll c.dicts (lookupKey r) = .ok cs) :
    c.romInput e ev c.top.pre = .ok (converted c r cs, true) := by
  rw [hev.romInput c rfl hk, h1]
  simp only [transition_reading e c tbl ev k hm hn hh hev _ hcap]
  simp only [Ctx.inputConvertedKana, inMode, Ctx.setCarryOver, Ctx.mapTop, State.push, State.pushFor, List.isEmpty_nil,
    Bool.not_true, Bool.and_false, Bool.false_eq_true, if_false, if_true]
  rw [show (Ctx.mk c.below _ c.cmds c.kanaConv c.dicts c.config) = { c with top := r } from by rw [hrs]; rfl]
  rw [startOkuri_converts { c with top := r } (by rw [hrs]; exact remember_length _ _) (by rw [hrs]; exact hn) cs hx]
  rfl

/-- C25, C44: while composing, a capital letter which completes an entry with the pending keys is the okurigana, and the
word is converted. -/
theorem okuri_starts (w : Str) (h1 : completed tbl (c.top.pre ++ [k]) = some (w, [])) (r : State)
    (hrs : r = { inMode c.top .preCompositionOkurigana with
      okuri := c.top.okuri ++ w, useOkuri := true, pre := [], capital := false })
    (cs : List Candidate) (hx : Dicts.getAll c.dicts (lookupKey r) = .ok cs) :
    c.processKeyEvent e ev = .ok (converted c r cs, true) := by
  rw [hev.key c hk hr (Or.inl (by rw [h1]; simp)), okuri_starts_rom e c tbl ev k hk hm hn hh hcap hev w h1 r hrs cs hx]

omit hr in
/-- C25: while composing, pending keys and the same letter as a capital, which make a small っ and leave the letter
pending: the っ belongs to the reading. -/
theorem okuri_sokuon_rom (w : Str) (carry : List Keysym) (h1 : completed tbl (c.top.pre ++ [k]) = some (w, carry))
    (hp : c.top.pre ≠ []) (hcr : carry ≠ []) :
    c.romInput e ev c.top.pre = .ok ({ c with top := { inMode c.top .preCompositionOkurigana with
      kana := c.top.kana ++ w, raw := c.top.raw ++ w, pre := carry, capital := true } }, true) := by
  rw [hev.romInput c rfl hk, h1]
  simp only [transition_reading e c tbl ev k hm hn hh hev _ hcap]
  have a : c.top.pre.isEmpty = false := by simpa using hp
  have b : carry.isEmpty = false := by simpa using hcr
  simp only [Ctx.inputConvertedKana, inMode, Ctx.setCarryOver, Ctx.mapTop, State.pushFor, a, b,
    Bool.not_false, Bool.and_true, Bool.false_eq_true, if_false, if_true]
  rw [startOkuri_stays _ _ (Or.inl hcr)]
  rfl

/-- C25: while composing, pending keys and the same letter as a capital, which make a small っ and leave the letter
pending: the っ belongs to the reading. -/
theorem okuri_sokuon (w : Str) (carry : List Keysym) (h1 : completed tbl (c.top.pre ++ [k]) = some (w, carry))
    (hp : c.top.pre ≠ []) (hcr : carry ≠ []) :
    c.processKeyEvent e ev = .ok ({ c with top := { inMode c.top .preCompositionOkurigana with
      kana := c.top.kana ++ w, raw := c.top.raw ++ w, pre := carry, capital := true } }, true) := by
  rw [hev.key c hk hr (Or.inl (by rw [h1]; simp)), okuri_sokuon_rom e c tbl ev k hk hm hn hh hcap hev w carry h1 hp hcr]

omit hr in
/-- C25: while composing, pending keys which are an entry (such as `n`) become part of the reading if the capital letter
begins another one. -/
theorem okuri_begins_after_rom (h1 : begins tbl (c.top.pre ++ [k]) = false)
    (h2 : completed tbl [k] = none) (h3 : begins tbl [k] = true) :
    c.romInput e ev c.top.pre = .ok ({ c with top := { inMode c.top .preCompositionOkurigana with
      kana := c.top.kana ++ rendered id (flushed tbl c.top.pre)
      raw := c.top.raw ++ rendered id (flushed tbl c.top.pre)
      pre := [k], capital := false } }, true) := by
  rw [hev.romInput c rfl hk, completed_of_not_begins h1]
  simp only [h1, h2, h3, Bool.false_eq_true, if_false, if_true,
    transition_reading e c tbl ev k hm hn hh hev _ hcap]
  unfold Ctx.outputConverted flushed
  rw [hm, hk, greedy_eq]
  simp only [inMode]
  cases valueOf tbl c.top.pre with
  | none => simp [Ctx.mapTop, State.clearPre, rendered, Ctx.inputAsContinuous, Ctx.setUnconverted, Ctx.finishSymbol,
      nextUnprocessedState, continue_eq, h3, combineRaw, hm]
  | some v => simp [Ctx.mapTop, State.clearPre, rendered, Ctx.setCarryOver, State.pushFor, Ctx.inputAsContinuous,
      Ctx.setUnconverted, nextUnprocessedState, continue_eq, h3, combineRaw, Ctx.finishSymbol, hm]

/-- C25: while composing, pending keys which are an entry (such as `n`) become part of the reading if the capital letter
begins another one. -/
theorem okuri_begins_after (hc : NoCommand c ev) (h1 : begins tbl (c.top.pre ++ [k]) = false)
    (h2 : completed tbl [k] = none) (h3 : begins tbl [k] = true) :
    c.processKeyEvent e ev = .ok ({ c with top := { inMode c.top .preCompositionOkurigana with
      kana := c.top.kana ++ rendered id (flushed tbl c.top.pre)
      raw := c.top.raw ++ rendered id (flushed tbl c.top.pre)
      pre := [k], capital := false } }, true) := by
  rw [hev.key c hk hr (Or.inr hc), okuri_begins_after_rom e c tbl ev k hk hm hn hh hcap hev h1 h2 h3]

omit hr hcap in
/-- While composing, a capital letter which is an entry alone and cannot go on with the pending keys is the okurigana; the pending keys are lost. -/
theorem okuri_starts_fresh (w : Str) (h1 : begins tbl (c.top.pre ++ [k]) = false) (h2 : completed tbl [k] = some (w, [])) (r : State)
    (hrs : r = { inMode c.top .preCompositionOkurigana with
      okuri := c.top.okuri ++ w, useOkuri := true, pre := [], capital := false })
    (cs : List Candidate) (hx : Dicts.getAll c.dicts (lookupKey r) = .ok cs) :
    c.romInput e ev c.top.pre = .ok (converted c r cs, true) := by
  rw [hev.romInput c rfl hk, completed_of_not_begins h1]
  simp only [h1, h2, Bool.false_eq_true, if_false, transition_reading e c tbl ev k hm hn hh hev _ rfl]
  simp only [Ctx.inputConvertedKana, inMode, Ctx.setCarryOver, Ctx.mapTop, State.push, State.pushFor, List.isEmpty_nil,
    Bool.not_true, Bool.and_false, Bool.false_eq_true, if_false, if_true]
  rw [show (Ctx.mk c.below _ c.cmds c.kanaConv c.dicts c.config) = { c with top := r } from by rw [hrs]; rfl]
  rw [startOkuri_converts { c with top := r } (by rw [hrs]; exact remember_length _ _) (by rw [hrs]; exact hn) cs hx]
  rfl

end

/-! ## Whole words -/

theorem pke_append (e : Env) (c : Ctx) (a b : List KeyEvent) :
    c.processKeyEvents e (a ++ b) = (do let c' ← c.processKeyEvents e a; c'.processKeyEvents e b) := by
  induction a generalizing c with
  | nil => rfl
  | cons x a ih =>
    simp only [List.cons_append, Ctx.processKeyEvents, Bind.bind, Except.bind]
    cases c.processKeyEvent e x with
    | error p => rfl
    | ok y => exact ih y.1

theorem spells_ne_nil {tbl : Table} {u : List Keysym} {t : Str} {ws : List Str} (h : Spells tbl u t ws) (ht : t ≠ []) :
    ws ≠ [] := by
  cases h with
  | done => exact absurd rfl ht
  | piece => simp
  | short => simp

/-- The level in which a reading is typed and nothing has been typed yet. -/
def opened (c : Ctx) : Ctx := { c with top := { inMode c.top .preComposition with capital := true } }

section
variable (e : Env) (c : Ctx) (tbl : Table) (ev : KeyEvent) (lo : Char) (l : List (KeyEvent × Char)) (ws : List Str)
  (hk : c.kanaConv = ofTable tbl) (hr : RomajiMode c) (hm : c.top.mode = .direct) (ho : c.top.okuri = [])
  (hh : c.top.history.length ≤ 20) (hcap : c.top.capital = false) (hpre : c.top.pre = [])
  (hev : Capital e tbl ev lo.toNat)
include hk hr hm ho hh hcap hpre hev

/-- A capital letter which is used by the table types like the small letter, in a reading which it opens. -/
theorem capital_types (hc : completed tbl [lo.toNat] ≠ none ∨ (begins tbl [lo.toNat] = true ∧ NoCommand c ev))
    (hlo : lo ≠ '.' ∧ lo ≠ ',')
    (hq : Quiet c (c.top.raw ++ rendered id (typeKey tbl c.config.period c.config.comma ⟨[], [], true⟩ lo).out)) :
    c.processKeyEvent e ev =
      .ok (reading (opened c) (typeKey tbl c.config.period c.config.comma ⟨[], [], true⟩ lo), true) := by
  have e1 : c.top.pre ++ [lo.toNat] = [lo.toNat] := by rw [hpre]; rfl
  cases h1 : completed tbl [lo.toNat] with
  | some v =>
    have ht : typeKey tbl c.config.period c.config.comma ⟨[], [], true⟩ lo = ⟨[.kana v.1], v.2, !v.2.isEmpty⟩ := by
      simp [typeKey, h1]
    rw [ht] at hq ⊢
    rw [word_starts e c tbl ev lo.toNat hk hr hm ho hh hcap (hev.at _) v.1 v.2 (by rw [e1]; exact h1)
      (by simpa [rendered] using hq)]
    simp [reading, opened, rendered, inMode]
  | none =>
    obtain ⟨h2, hnc⟩ := hc.resolve_left (by simp [h1])
    have ht : typeKey tbl c.config.period c.config.comma ⟨[], [], true⟩ lo = ⟨[], [lo.toNat], true⟩ := by
      simp [typeKey, h1, h2, punctuation_none hlo]
    rw [ht] at hq ⊢
    rw [word_begins e c tbl ev lo.toNat hk hr hm ho hh hcap (hev.at _) hnc (by rw [e1]; exact h1) (by rw [e1]; exact h2)
      (by simpa [rendered] using hq)]
    simp [reading, opened, rendered, inMode, hpre]

/-- **C25, C44.** A text whose first letter is a capital, typed in direct input, becomes the reading it spells. -/
theorem word_typed (hc : completed tbl [lo.toNat] ≠ none ∨ (begins tbl [lo.toNat] = true ∧ NoCommand c ev))
    (hp : ∀ x ∈ l, Plain x.2 ∧ Key e x.1 x.2)
    (hu : Undisturbed tbl (opened c) (typeKey tbl c.config.period c.config.comma ⟨[], [], false⟩ lo).pending l)
    (hs : Spells tbl [] (lo :: l.map Prod.snd) ws) (hq : ∀ v, v <+: ws → Quiet c (c.top.raw ++ v.flatten)) :
    c.processKeyEvents e (ev :: l.map Prod.fst) =
      .ok { c with top := { inMode c.top .preComposition with
        kana := c.top.kana ++ ws.flatten, raw := c.top.raw ++ ws.flatten, pre := [], capital := false } } := by
  have hpunct : lo ≠ '.' ∧ lo ≠ ',' := by
    obtain ⟨h1, h2⟩ := hev.lower
    constructor <;> (rintro rfl; revert h1; decide)
  have hqs : ∀ q, q <+: lo :: l.map Prod.snd → Quiet c (c.top.raw ++ rendered id
      (typeText tbl c.config.period c.config.comma ⟨[], [], true⟩ q).out) := by
    intro q hq'
    obtain ⟨v, hv1, hv2⟩ := spells_prefix tbl c.config.period c.config.comma _ _ ws hs [] true q hq'
    rw [hv2, List.nil_append, rendered_kana]
    simpa using hq v hv1
  have hkey := capital_types e c tbl ev lo hk hr hm ho hh hcap hpre hev hc hpunct (hqs [lo] (by simp))
  obtain ⟨b, hb, hf⟩ := spells_text tbl c.config.period c.config.comma _ _ ws hs [] true
  have hf' : b = false := by
    apply hf
    left
    exact spells_ne_nil hs (by simp)
  subst hf'
  have hcat : ∀ t : Str, typeText tbl c.config.period c.config.comma ⟨[], [], true⟩ (lo :: t) =
      typeText tbl c.config.period c.config.comma (typeKey tbl c.config.period c.config.comma ⟨[], [], true⟩ lo) t :=
    fun t => rfl
  have hpend := typeKey_pending tbl c.config.period c.config.comma [] [] true lo
  rw [Ascii.pke_cons e c _ ev _ true hkey]
  rw [hcat] at hb
  have hqs' := fun q (h : q <+: l.map Prod.snd) => hqs (lo :: q) (by simpa using h)
  simp only [hcat] at hqs'
  revert hb hqs' hpend
  generalize typeKey tbl c.config.period c.config.comma ⟨[], [], true⟩ lo = s
  obtain ⟨o, u, sh⟩ := s
  intro hb hpend hqs'
  rw [typeText_out tbl _ _ o u sh] at hb
  rw [typing_reading e (reading (opened c) ⟨o, u, sh⟩) tbl l hk ⟨Or.inr (Or.inl rfl), hr.2⟩ rfl ho hp]
  · injection hb with hb1 hb2 hb3
    refine congrArg Except.ok ?_
    have hw : rendered id o ++ rendered id (typeText tbl c.config.period c.config.comma ⟨[], u, sh⟩
        (l.map Prod.snd)).out = ws.flatten := by
      rw [← rendered_append, hb1]
      simp [rendered_kana]
    simp only [reading, opened, inMode, List.append_assoc]
    simp only [hw, hb2, hb3]
  · refine undisturbed_congr tbl (opened c) (reading (opened c) ⟨o, u, sh⟩) rfl rfl rfl rfl _ l ?_
    show Undisturbed tbl (opened c) u l
    simp only at hpend
    rw [hpend]
    exact hu
  · intro q hq'
    have := hqs' q hq'
    rw [typeText_out tbl _ _ o u sh] at this
    simpa [reading, opened, inMode, rendered_append, Quiet] using this

/-- **C44.** Typing a word with a capital letter and pressing the conversion key offers exactly the words the dictionaries
have for the kana it spells, and shows the first one. -/
theorem word_converted (hc : completed tbl [lo.toNat] ≠ none ∨ (begins tbl [lo.toNat] = true ∧ NoCommand c ev))
    (hp : ∀ x ∈ l, Plain x.2 ∧ Key e x.1 x.2)
    (hu : Undisturbed tbl (opened c) (typeKey tbl c.config.period c.config.comma ⟨[], [], false⟩ lo).pending l)
    (hs : Spells tbl [] (lo :: l.map Prod.snd) ws) (hempty : c.top.kana = [] ∧ c.top.raw = [])
    (hq : ∀ v, v <+: ws → Quiet c v.flatten)
    (sp : KeyEvent) (hsp : CommandIs (opened c) sp [.tryNextCandidate]) (hrel : ¬ IsRelease sp)
    (habs : ∀ x ∈ tbl, sp.symbol ∉ x.1 ∧ uncapitalize sp.symbol ∉ x.1) (hnil : valueOf tbl [] = none)
    (x : Candidate) (xs : List Candidate) (hx : Dicts.getAll c.dicts ⟨ws.flatten, none⟩ = .ok (x :: xs)) :
    ∃ c', c.processKeyEvents e (ev :: l.map Prod.fst ++ [sp]) = .ok c' ∧ c'.below = c.below ∧ c'.dicts = c.dicts ∧
      c'.candidates = x :: xs ∧ c'.cursorPosition = some 0 ∧
      c'.top.preeditString e c'.top.inputMode =
        c.top.confirmed ++ '▼' :: (x.output ++ e.kanaForm.adjust c.top.inputMode []) := by
  have hb := word_typed e c tbl ev lo l ws hk hr hm ho hh hcap hpre hev hc hp hu hs
    (by rw [hempty.2]; simpa using hq)
  rw [hempty.1, hempty.2, List.nil_append] at hb
  rw [pke_append, hb]
  have hkey : lookupKey { inMode c.top .preComposition with
      kana := ws.flatten, raw := ws.flatten, pre := [], capital := false } = ⟨ws.flatten, none⟩ := by
    simp [lookupKey, inMode, ho]
  obtain ⟨c', h1, h2, h3, h4, h5, h6⟩ := convert_shows e { c with top := { inMode c.top .preComposition with
      kana := ws.flatten, raw := ws.flatten, pre := [], capital := false } } sp tbl
    { inMode c.top .preComposition with kana := ws.flatten, raw := ws.flatten, pre := [], capital := false }
    hk (Or.inl rfl) hrel
    (Or.inr (Or.inr ⟨Or.inr (by
      rintro ⟨v, hv⟩
      rw [← valueOf_iff] at hv
      exact absurd (hv.symm.trans hnil) (by simp)), rfl⟩))
    (skip_of_absent _ sp tbl hk habs) hsp (remember_length _ _) x xs (by rw [hkey]; exact hx)
  refine ⟨c', ?_, h2, h3, h4, h5, ?_⟩
  · show Ctx.processKeyEvents e _ [sp] = _
    rw [Ascii.pke_cons e _ _ sp [] true h1]
    rfl
  · rw [h6]; simp [inMode, ho]

end

/-! ## Words with okurigana -/

/-- Keys which only begin an entry become pending. -/
theorem okuri_pending (e : Env) (tbl : Table) (l : List (KeyEvent × Char)) (c : Ctx) (hk : c.kanaConv = ofTable tbl)
    (hr : RomajiMode c) (hm : c.top.mode = .preCompositionOkurigana) (hp : ∀ x ∈ l, Plain x.2 ∧ Key e x.1 x.2)
    (hc : ∀ x ∈ l, NoCommand c x.1) (hh : c.top.history.length ≤ 20)
    (hx : ∃ x ∈ tbl, ∃ s, s ≠ [] ∧ x.1 = c.top.pre ++ (l.map Prod.snd).map Char.toNat ++ s)
    (hd : ∀ x ∈ l, x.2 ≠ '.' ∧ x.2 ≠ ',') :
    c.processKeyEvents e (l.map Prod.fst) =
      .ok { c with top := { c.top with pre := c.top.pre ++ (l.map Prod.snd).map Char.toNat } } := by
  induction l generalizing c with
  | nil => simp [Ctx.processKeyEvents]
  | cons y l ih =>
    obtain ⟨x, hx1, s, hs, he⟩ := hx
    have hext : extendable tbl (c.top.pre ++ [y.2.toNat]) = true :=
      (extendable_iff _ _).mpr ⟨x, hx1, (l.map Prod.snd).map Char.toNat ++ s, by simp [hs], by simp [he]⟩
    have hstep : typeKey tbl c.config.period c.config.comma ⟨[], c.top.pre, c.top.capital⟩ y.2 =
        ⟨[], c.top.pre ++ [y.2.toNat], c.top.capital⟩ := by
      unfold typeKey
      simp [completed_of_extendable hext, punctuation_none (hd y (by simp)), begins_of_extendable hext]
    have hend : ¬ Ends tbl c.config.period c.config.comma c.top.pre y.2 := by
      rintro ⟨w, h | h⟩
      · rw [completed_of_extendable hext] at h; cases h
      · rw [begins_of_extendable hext] at h; cases h.2.2.1
    have hkey := (okuri_key e c tbl y.1 y.2 hk hr hm (hp y (by simp)).1 (hp y (by simp)).2
      (Or.inr (hc y (by simp))) hh _ rfl).2 (Or.inl hend)
    rw [hstep] at hkey
    rw [List.map_cons, Ascii.pke_cons e c _ _ _ true hkey, ih]
    · simp [okurigana, rendered]
    · exact hk
    · exact hr
    · exact hm
    · exact fun z hz => hp z (by simp [hz])
    · exact fun z hz => hc z (by simp [hz])
    · exact hh
    · exact ⟨x, hx1, s, hs, by simp [he, okurigana]⟩
    · exact fun z hz => hd z (by simp [hz])

/-- The level after its okurigana was typed. -/
def withOkuri (s : State) (w : Str) : State :=
  { s with okuri := s.okuri ++ w, useOkuri := true, pre := [], capital := false }

/-- **C44.** Typing okurigana: as soon as its kana are complete the word is looked up with them and converted. -/
theorem okuri_typed (e : Env) (tbl : Table) (l : List (KeyEvent × Char)) (c : Ctx) (u : List Keysym) (t w : Str)
    (h : Okuri tbl u t w) (hu : u = c.top.pre) (ht : t = l.map Prod.snd) (hk : c.kanaConv = ofTable tbl)
    (hr : RomajiMode c) (hm : c.top.mode = .preCompositionOkurigana) (hp : ∀ x ∈ l, Plain x.2 ∧ Key e x.1 x.2)
    (hc : ∀ x ∈ l, NoCommand c x.1) (hh : c.top.history.length ≤ 20) (hn : c.top.kana ≠ []) (cs : List Candidate)
    (hx : Dicts.getAll c.dicts (lookupKey (withOkuri c.top w)) = .ok cs) :
    c.processKeyEvents e (l.map Prod.fst) = .ok (converted c (withOkuri c.top w) cs) := by
  induction h generalizing l c with
  | last u p w hp0 hv hext hd =>
    subst hu
    have hl0 : l ≠ [] := by rintro rfl; exact hp0 ht
    have hl : l = l.dropLast ++ [l.getLast hl0] := (List.dropLast_concat_getLast hl0).symm
    generalize l.dropLast = a at hl
    generalize l.getLast hl0 = z at hl
    subst hl
    subst ht
    simp only [List.map_append, List.map_cons, List.map_nil, List.dropLast_concat] at hv hext hd ⊢
    obtain ⟨x, hx1, hx2⟩ := value_mem hv
    rw [pke_append, okuri_pending e tbl a c hk hr hm (fun y hy => hp y (by simp [hy])) (fun y hy => hc y (by simp [hy])) hh
      ⟨x, hx1, [z.2.toNat], by simp, by simp [hx2]⟩ (fun y hy => hd y.2 (List.mem_map_of_mem hy))]
    have hcomp : completed tbl (c.top.pre ++ (a.map Prod.snd).map Char.toNat ++ [z.2.toNat]) = some (w, []) := by
      rw [List.append_assoc, completed, hext, hv]; rfl
    have hkey := (okuri_key e { c with top := { c.top with pre := c.top.pre ++ (a.map Prod.snd).map Char.toNat } } tbl z.1 z.2
      hk hr hm (hp z (by simp)).1 (hp z (by simp)).2 (Or.inr (hc z (by simp))) hh _ rfl).1 ⟨w, Or.inl hcomp⟩ hn cs
      (by rw [show typeKey tbl _ _ _ z.2 = ⟨[.kana w], [], false⟩ from by
            simp only [typeKey, hcomp]; simp]
          simpa [okurigana, rendered, withOkuri] using hx)
    rw [show typeKey tbl _ _ _ z.2 = ⟨[.kana w], [], false⟩ from by simp only [typeKey, hcomp]; simp] at hkey
    show Ctx.processKeyEvents e _ [z.1] = _
    rw [Ascii.pke_cons e _ _ z.1 [] true hkey]
    rw [show okurigana { c with top := { c.top with pre := c.top.pre ++ (a.map Prod.snd).map Char.toNat } }
      ⟨[.kana w], [], false⟩ = { c with top := withOkuri c.top w } from by simp [okurigana, withOkuri, rendered]]
    rfl
  | more u p t w w' carry hp0 hv hext hd hcr ht' ih =>
    subst hu
    obtain ⟨l₁, l₂, rfl, h1, h2⟩ := List.map_eq_append_iff.mp ht.symm
    subst h1 h2
    have hl0 : l₁ ≠ [] := by rintro rfl; exact hp0 rfl
    have hl : l₁ = l₁.dropLast ++ [l₁.getLast hl0] := (List.dropLast_concat_getLast hl0).symm
    generalize l₁.dropLast = a at hl
    generalize l₁.getLast hl0 = z at hl
    subst hl
    simp only [List.map_append, List.map_cons, List.map_nil, List.dropLast_concat] at hv hext hd ⊢
    obtain ⟨x, hx1, hx2⟩ := value_mem hv
    rw [List.append_assoc, pke_append, okuri_pending e tbl a c hk hr hm (fun y hy => hp y (by simp [hy]))
      (fun y hy => hc y (by simp [hy])) hh
      ⟨x, hx1, [z.2.toNat], by simp, by simp [hx2]⟩ (fun y hy => hd y.2 (List.mem_map_of_mem hy))]
    have hcomp : completed tbl (c.top.pre ++ (a.map Prod.snd).map Char.toNat ++ [z.2.toNat]) = some (w, carry) := by
      rw [List.append_assoc, completed, hext, hv]; rfl
    have hend : ¬ Ends tbl c.config.period c.config.comma (c.top.pre ++ (a.map Prod.snd).map Char.toNat) z.2 := by
      rintro ⟨w, h | h⟩
      · rw [hcomp] at h; cases h; exact hcr rfl
      · rw [hcomp] at h; cases h.1
    have hkey := (okuri_key e { c with top := { c.top with pre := c.top.pre ++ (a.map Prod.snd).map Char.toNat } } tbl z.1 z.2
      hk hr hm (hp z (by simp)).1 (hp z (by simp)).2 (Or.inr (hc z (by simp))) hh _ rfl).2 (Or.inl hend)
    have hne : carry.isEmpty = false := by simpa using hcr
    rw [show typeKey tbl _ _ _ z.2 = ⟨[.kana w], carry, c.top.capital⟩ from by
      simp only [typeKey, hcomp]; simp [hne]] at hkey
    show Ctx.processKeyEvents e _ (z.1 :: l₂.map Prod.fst) = _
    rw [Ascii.pke_cons e _ _ z.1 _ true hkey]
    rw [ih l₂ (okurigana { c with top := { c.top with pre := c.top.pre ++ (a.map Prod.snd).map Char.toNat } }
      ⟨[.kana w], carry, c.top.capital⟩) rfl rfl hk hr hm (fun y hy => hp y (by simp [hy]))
      (fun y hy => hc y (by simp [hy])) hh hn (by simpa [okurigana, rendered, withOkuri] using hx)]
    rw [show withOkuri (okurigana { c with top := { c.top with pre := c.top.pre ++ (a.map Prod.snd).map Char.toNat } }
      ⟨[.kana w], carry, c.top.capital⟩).top w' = withOkuri c.top (w ++ w') from by
        simp [okurigana, withOkuri, rendered]]
    rfl

/-- **C44.** Typing a word with a capital letter and its okurigana with another one (as in `OkuRu`) looks up the kana of
the word together with the okurigana, and converts at once. -/
theorem okuri_word_converted (e : Env) (c : Ctx) (tbl : Table) (ev ev' : KeyEvent) (lo lo' : Char)
    (l l' : List (KeyEvent × Char)) (ws : List Str) (w : Str)
    (hk : c.kanaConv = ofTable tbl) (hr : RomajiMode c) (hm : c.top.mode = .direct) (ho : c.top.okuri = [])
    (hh : c.top.history.length ≤ 20) (hcap : c.top.capital = false) (hpre : c.top.pre = [])
    (hempty : c.top.kana = [] ∧ c.top.raw = [])
    -- the word
    (hev : Capital e tbl ev lo.toNat)
    (hc : completed tbl [lo.toNat] ≠ none ∨ (begins tbl [lo.toNat] = true ∧ NoCommand c ev))
    (hp : ∀ x ∈ l, Plain x.2 ∧ Key e x.1 x.2)
    (hu : Undisturbed tbl (opened c) (typeKey tbl c.config.period c.config.comma ⟨[], [], false⟩ lo).pending l)
    (hs : Spells tbl [] (lo :: l.map Prod.snd) ws) (hq : ∀ v, v <+: ws → Quiet c v.flatten) (hw : ws.flatten ≠ [])
    -- the okurigana
    (hev' : Capital e tbl ev' lo'.toNat) (hc' : NoCommand (opened c) ev')
    (hb' : begins tbl [lo'.toNat] = true) (hn' : completed tbl [lo'.toNat] = none)
    (hp' : ∀ x ∈ l', Plain x.2 ∧ Key e x.1 x.2)
    (hu' : ∀ x ∈ l', ∀ k ∈ c.cmds .preCompositionOkurigana c.top.inputMode, ¬ KeyMatches k.1 x.1)
    (hs' : Okuri tbl [lo'.toNat] (l'.map Prod.snd) w) (hw' : w ≠ [])
    -- the dictionaries
    (cs : List Candidate) (hx : Dicts.getAll c.dicts ⟨ws.flatten, some w⟩ = .ok cs) :
    ∃ r : State, c.processKeyEvents e (ev :: l.map Prod.fst ++ ev' :: l'.map Prod.fst) = .ok (converted c r cs) ∧
      r.kana = ws.flatten ∧ r.okuri = w ∧ r.confirmed = c.top.confirmed ∧ r.inputMode = c.top.inputMode ∧ r.pre = [] ∧
      r.defaultMode = c.top.defaultMode := by
  have hb := word_typed e c tbl ev lo l ws hk hr hm ho hh hcap hpre hev hc hp hu hs
    (by rw [hempty.2]; simpa using hq)
  rw [hempty.1, hempty.2, List.nil_append] at hb
  rw [pke_append, hb]
  show ∃ r : State, Ctx.processKeyEvents e _ _ = _ ∧ _
  generalize hc1 : ({ c with top := { inMode c.top .preComposition with
      kana := ws.flatten, raw := ws.flatten, pre := [], capital := false } } : Ctx) = c1
  have e1 : c1.top = { inMode c.top .preComposition with
      kana := ws.flatten, raw := ws.flatten, pre := [], capital := false } := by rw [← hc1]
  have h2 := okuri_begins e c1 tbl ev' lo'.toNat (by rw [← hc1]; exact hk)
    (by rw [← hc1]; exact ⟨Or.inr (Or.inl rfl), hr.2⟩) (by rw [e1]; rfl) (by rw [e1]; exact hw)
    (by rw [e1]; exact remember_length _ _) (by rw [e1]) (hev'.at _) (by rw [← hc1]; exact hc') (by rw [e1]; exact hn')
    (by rw [e1]; exact hb')
  rw [Ascii.pke_cons e _ _ ev' _ true h2]
  generalize hc2 : ({ c1 with top := { inMode c1.top .preCompositionOkurigana with
      pre := c1.top.pre ++ [lo'.toNat], capital := true } } : Ctx) = c2
  have e2 : c2.top = { inMode c1.top .preCompositionOkurigana with
      pre := c1.top.pre ++ [lo'.toNat], capital := true } := by rw [← hc2]
  have h3 := okuri_typed e tbl l' c2 _ _ w hs' (by rw [e2, e1]; rfl) rfl (by rw [← hc2, ← hc1]; exact hk)
    (by rw [← hc2, ← hc1]; exact ⟨Or.inr (Or.inr rfl), hr.2⟩) (by rw [e2]; rfl) hp'
    (by rw [← hc2, ← hc1]; exact hu') (by rw [e2]; exact remember_length _ _) (by rw [e2, e1]; exact hw) cs
    (by
      have : lookupKey (withOkuri c2.top w) = ⟨ws.flatten, some w⟩ := by
        simp [e2, e1, lookupKey, withOkuri, inMode, ho, hw']
      rw [this, ← hc2, ← hc1]
      exact hx)
  refine ⟨withOkuri c2.top w, ?_, ?_, ?_, ?_, ?_, rfl, ?_⟩
  · rw [h3, ← hc2, ← hc1]; rfl
  · rw [e2, e1]; rfl
  · simp [e2, e1, withOkuri, inMode, ho]
  · rw [e2, e1]; rfl
  · rw [e2, e1]; rfl
  · rw [e2, e1]; rfl

/-! ## Keywords which start the conversion -/

theorem deleteN_eq (s : State) (n : Nat) (hm : s.mode = .preComposition) (hp : s.pre = []) (hkr : s.kana = s.raw)
    (hn : n ≤ s.raw.length) :
    Ctx.deleteN s n = { s with kana := s.raw.take (s.raw.length - n), raw := s.raw.take (s.raw.length - n) } := by
  induction n generalizing s with
  | zero =>
    unfold Ctx.deleteN
    rw [Nat.sub_zero, List.take_length]
    cases s; simp_all
  | succ n ih =>
    unfold Ctx.deleteN
    have hne : s.kana ≠ [] := by
      rw [hkr]; intro h; rw [h] at hn; simp at hn
    have hd : s.delete.1 = { s with kana := s.raw.dropLast, raw := s.raw.dropLast } := by
      simp [State.delete, hm, hp, hne, hkr.symm]
    rw [hd, ih]
    · have ht : s.raw.dropLast.take (s.raw.dropLast.length - n) = s.raw.take (s.raw.length - (n + 1)) := by
        rw [List.length_dropLast, List.dropLast_eq_take, List.take_take]
        congr 1; omega
      simp only [ht]
    · exact hm
    · exact hp
    · rfl
    · simp only [List.length_dropLast]; omega

theorem deleteN_pending (s : State) (n : Nat) (hm : s.mode = .preComposition) (hn : s.pre.length ≤ n) :
    Ctx.deleteN s n = Ctx.deleteN { s with pre := [] } (n - s.pre.length) := by
  induction n generalizing s with
  | zero =>
    have : s.pre = [] := List.eq_nil_of_length_eq_zero (by omega)
    rw [this]
    unfold Ctx.deleteN
    cases s; simp_all
  | succ n ih =>
    by_cases hp : s.pre = []
    · rw [hp]
      cases s; simp_all
    · have hd : s.delete.1 = { s with pre := s.pre.dropLast } := by
        simp [State.delete, hm, hp]
      have hl : 0 < s.pre.length := List.length_pos_iff.mpr hp
      rw [Ctx.deleteN, hd, ih { s with pre := s.pre.dropLast } hm (by simp only [List.length_dropLast]; omega)]
      simp only [List.length_dropLast]
      congr 1
      omega

/-- A reading which ends with a keyword (and is not the keyword alone): the reading before the keyword is converted. (Keys which are pending are erased
in place of the kana of the keyword.) -/
theorem autoStart_keyword (e : Env) (c1 : Ctx) (tbl : Table) (hk : c1.kanaConv = ofTable tbl) (hm1 : c1.top.mode = .preComposition)
    (ho : c1.top.okuri = []) (hh : c1.top.history.length ≤ 20) (hnil : valueOf tbl [] = none)
    (stem kw : Str) (hpre : c1.top.pre.length ≤ kw.length)
    (hkana : c1.top.kana = stem ++ kw) (hraw : c1.top.raw = stem ++ kw) (hstem : stem ≠ [])
    (k₁ k₂ : List Str) (hks : c1.config.keywords = k₁ ++ kw :: k₂) (hfirst : ∀ x ∈ k₁, x <:+ stem ++ kw → x = stem ++ kw)
    (word : Str) (hword : word = (stem ++ kw).take ((stem ++ kw).length - (kw.length - c1.top.pre.length)))
    (r : State) (hrs : r = { c1.top with pre := [], kana := word, raw := word, okuri := kw, useOkuri := false })
    (cs : List Candidate) (hx : Dicts.getAll c1.dicts ⟨word, none⟩ = .ok cs) :
    c1.autoStartHenkan e = .ok (converted c1 r cs) := by
  have hwne : word ≠ [] := by
    rw [hword]
    intro hx
    have := congrArg List.length hx
    have h1 : 0 < stem.length := List.length_pos_iff.mpr hstem
    simp only [List.length_take, List.length_append, List.length_nil] at this
    omega
  have hkey : c1.top.compositeKey.toComposite = stem ++ kw := by
    simp [State.compositeKey, ho, hraw]
  have hfind : (c1.config.keywords.find? fun suffix => !decide (stem ++ kw = suffix) &&
      Ctx.endsWith (stem ++ kw) suffix) = some kw := by
    rw [List.find?_eq_some_iff_append]
    refine ⟨?_, k₁, k₂, hks, ?_⟩
    · simp [Ctx.endsWith, hstem]
    · intro x hx
      cases hd : Ctx.endsWith (stem ++ kw) x with
      | false => simp
      | true =>
        have := hfirst x hx (List.isSuffixOf_iff_suffix.mp hd)
        simp [this]
  have htop : (c1.mapTop fun s => (Ctx.deleteN s kw.length).setPostfix kw) = { c1 with top := r } := by
    unfold Ctx.mapTop
    simp only
    rw [deleteN_pending _ _ hm1 hpre, deleteN_eq]
    rotate_left
    · exact hm1
    · rfl
    · show c1.top.kana = c1.top.raw
      rw [hkana, hraw]
    · show _ ≤ c1.top.raw.length
      rw [hraw]; simp only [List.length_append]; omega
    rw [hrs, hword]
    show ({ c1 with top := State.setPostfix { c1.top with
      pre := [], kana := c1.top.raw.take (c1.top.raw.length - _), raw := c1.top.raw.take (c1.top.raw.length - _) } kw } : Ctx) = _
    rw [hraw]
    rfl
  unfold Ctx.autoStartHenkan
  simp only [hkey, hm1, ne_eq, not_true_eq_false, if_false, hfind, htop]
  have hflush : Flushed tbl r r := Or.inr (Or.inr ⟨Or.inr (by
      rintro ⟨v, hv⟩
      rw [← valueOf_iff] at hv
      have : r.pre = [] := by rw [hrs]
      rw [this, hnil] at hv
      cases hv), rfl⟩)
  have hmr : r.mode = .preComposition := by rw [hrs]; exact hm1
  have hout : ∀ im, Ctx.outputConverted e { c1 with top := r } im .preComposition = { c1 with top := r } := by
    intro im
    have := outputConverted_eq e { c1 with top := r } tbl hk r hflush im
    rwa [show ({ c1 with top := r } : Ctx).top.mode = .preComposition from hmr] at this
  have hlk : lookupKey r = ⟨word, none⟩ := by rw [hrs]; simp [lookupKey]
  have hre : r.kana.isEmpty = false := by rw [hrs]; simpa using hwne
  have hhr : r.history.length ≤ 20 := by rw [hrs]; exact hh
  simp only [Ctx.tryNextCandidate, ne_eq, reduceCtorEq, not_false_eq_true, if_true, hout, Ctx.updateCandidateList,
    compositeKey_eq, hlk, hx, Bind.bind, Except.bind, pure, Except.pure, Ctx.mapTop, setCandidates_eq]
  have hkana : ∀ cs, (withCandidates r cs).kana.isEmpty = false := fun _ => hre
  cases cs with
  | nil =>
    have hl' : (withCandidates r []).cands.cands.isEmpty = true := rfl
    simp only [hkana, hl', Bool.not_false, Bool.and_self, if_true]
    rw [enterRegister_eq]
    · simp only [converted, ne_eq, not_true_eq_false, if_false, hmr]
      rfl
    · exact hhr
  | cons x xs =>
    have hl' : (withCandidates r (x :: xs)).cands.cands.isEmpty = false := rfl
    simp only [hl', Bool.and_false, Bool.false_eq_true, if_false, Bool.not_false, if_true, Ctx.setCompositionMode,
      State.changeMode, Ctx.mapTop]
    rw [changeModeFrom_eq]
    · rfl
    · exact hhr

/-- **C44.** Typing a character after which the reading ends with a keyword (such as `。`, and is not the keyword alone)
converts the reading before the keyword; the keyword follows the converted word. -/
theorem keyword_converts (e : Env) (c : Ctx) (tbl : Table) (ev : KeyEvent) (ch : Char) (hk : c.kanaConv = ofTable tbl)
    (hr : RomajiMode c) (hm : c.top.mode = .preComposition) (ho : c.top.okuri = []) (hp : Plain ch) (hev : Key e ev ch)
    (hc : completed tbl (c.top.pre ++ [ch.toNat]) ≠ none ∨ NoCommand c ev) (hh : c.top.history.length ≤ 20)
    (hkr : c.top.kana = c.top.raw) (hnil : valueOf tbl [] = none)
    -- what is typed ends the reading `stem` with the keyword `kw`, and nothing is pending
    (out : List Piece) (b : Bool)
    (ht : typeKey tbl c.config.period c.config.comma ⟨[], c.top.pre, c.top.capital⟩ ch = ⟨out, [], b⟩)
    (stem kw : Str) (hw : c.top.raw ++ rendered id out = stem ++ kw) (hstem : stem ≠ [])
    -- `kw` is the first keyword of which this is true
    (k₁ k₂ : List Str) (hks : c.config.keywords = k₁ ++ kw :: k₂) (hfirst : ∀ x ∈ k₁, x <:+ stem ++ kw → x = stem ++ kw)
    (r : State)
    (hrs : r = { c.top with kana := stem, raw := stem, okuri := kw, useOkuri := false, pre := [], capital := b })
    (cs : List Candidate) (hx : Dicts.getAll c.dicts ⟨stem, none⟩ = .ok cs) :
    c.processKeyEvent e ev = .ok (converted c r cs, true) := by
  rw [reading_key_start e c tbl ev ch hk hr hm hp hev hc, ht]
  have hread : reading c ⟨out, [], b⟩ = { c with top := { c.top with
      kana := stem ++ kw, raw := stem ++ kw, pre := [], capital := b } } := by
    simp only [reading, hkr, hw]
  rw [hread]
  rw [autoStart_keyword e { c with top := { c.top with kana := stem ++ kw, raw := stem ++ kw, pre := [], capital := b } } tbl hk hm ho hh hnil stem kw
    (Nat.zero_le _) rfl rfl hstem k₁ k₂ hks hfirst stem (by simp) r (by rw [hrs]) cs hx]
  rfl

end Cskk.Props.Words
