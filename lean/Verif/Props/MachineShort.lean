import Verif.Props.MachineChoosing

/-!
# C75, sixth part: an abbreviation
-/

namespace Cskk.Props.Machine

open Spec Spec.Typing Spec.Teach Spec.Document Spec.ModeKeys Spec.Editing Spec.Machine
open Romaji KanaBuilder Navigate Convert Typing Words ShippedTyping
open Cskk.Props.Document (Uses)

section
variable {pr : Bool} {S : Setup} {c : Ctx} {D D' : Desk}

theorem Rel.short (h : Rel pr S c D) {text : Str} {u : List Keysym} {shift : Bool} (hp : D.phase = .short text u shift) :
    ShortAt c.top D.mode text u shift := by
  have := h.level
  rw [hp] at this
  exact this

/-- The pending keys stay in an abbreviation. -/
theorem short_typed (h : Rel pr S c D) {text : Str} {u : List Keysym} {shift : Bool} (hp : D.phase = .short text u shift) :
    Typed c S D c.top text u true shift := by
  have hl := h.short hp
  exact ⟨hl.mode, hl.kanaMode, .inr (.inr ⟨.inl hl.mode, rfl⟩), h.base, ⟨hl.pre, hl.capital, hl.kana, hl.raw, hl.okuri, fun hx => absurd rfl hx⟩, hl.mode, rfl⟩

/-- A printable character in an abbreviation. -/
theorem short_char (h : Rel pr S c D) {text : Str} {u : List Keysym} {shift : Bool} (hp : D.phase = .short text u shift) {ch : Char} (hpr : printable ch = true)
    (hs : D.shortChar text u shift ch = some D') : Goes pr S c ⟨ch.toNat, 0⟩ D' true := by
  have hl := h.short hp
  have hb := h.base
  have hpr' := of_decide_eq_true hpr
  unfold Desk.shortChar at hs
  split at hs
  · rename_i hsp
    subst hsp
    split at hs
    · rename_i ht
      subst ht
      split at hs
      · rename_i hx
        injection hs with hs; subst hs
        have := nothing_goes h (short_typed h hp) hx
        have hD : { D with phase := typing [] u true shift } = D := by
          rw [show typing [] u true shift = .short [] u shift from rfl, ← hp]
        rw [hD] at this
        exact this
      · rename_i hx
        exact lookup_goes h (short_typed h hp) (.inr hx) hs
    · rename_i hne
      exact lookup_goes h (short_typed h hp) (.inl hne) hs
  · rename_i hsp
    injection hs with hs; subst hs
    have hty : Types (Assets.env ⟨pr⟩) c ⟨ch.toNat, 0⟩ ch := by
      refine ⟨⟨hpr'.1, hpr'.2⟩, (shipped_key pr ch hpr'.1 hpr'.2).modifier, (shipped_key pr ch hpr'.1 hpr'.2).char, ?_⟩
      unfold NoCommand
      have hk := hl.kanaMode
      rw [hl.mode, hb.mode]
      rcases h.runs.uses.cases with hc | hc <;> rw [hc] <;> refine noCommand_of _ [' '] _ _ ?_ ch hpr'.1 hpr'.2 (by simpa using hsp) <;>
        rcases kanaMode_iff.mp hk with b | b | b <;> rw [b] <;> decide +kernel
    refine ⟨_, Ascii.step_abbreviation _ c _ ch hl.mode hty, h.with (D := D) ⟨hb.written, hb.mode, hb.trail, hb.default, hb.history⟩
      ⟨hl.mode, hl.kanaMode, hl.pre, hl.capital, ?_, ?_, hl.okuri⟩⟩
    · show c.top.kana ++ [ch] = _
      rw [hl.kana]
    · show c.top.raw ++ [ch] = _
      rw [hl.raw]

/-- A key of which an abbreviation knows nothing. -/
theorem short_handed (h : Rel pr S c D) {text : Str} {u : List Keysym} {shift : Bool} (hp : D.phase = .short text u shift) (ev : KeyEvent) (hrel : ¬ IsRelease ev)
    (hn : ∀ k ∈ c.cmds .abbreviation D.mode, k.1 ≠ CommandRule.matchingKey ev) (hx : HasOtherModifier ev ∨ ¬ Printable ev) : Goes pr S c ev D false := by
  have hl := h.short hp
  have hnc : NoCommand c ev := by
    intro k hk hm
    rw [hl.mode, h.base.mode] at hk
    exact hn k hk ((matchingKey_iff _ _).mpr hm)
  refine ⟨c, ?_, h⟩
  rw [WillProcess.process_no_command _ c ev (by rw [hl.mode]; simp) hrel hnc]
  by_cases hmod : HasOtherModifier ev
  · exact WillProcess.charInput_mod _ c ev hmod
  · have hx := hx.resolve_left hmod
    have h1 := (modifierless_iff ev).mpr hmod
    have h2 : hasRom2kanaConversion c.top.inputMode c.top.mode = false := by rw [hl.mode]; rfl
    have h3 : ¬ ((c.top.mode = .compositionSelection ∨ c.top.mode = .completion) ∧ c.willBeProcessed ev c.top.pre) := by
      rw [hl.mode]; simp
    have hA : ev.isAsciiInputtable = false := by
      rw [← Bool.not_eq_true, WillProcess.printable_iff]; exact hx
    unfold Ctx.charInput
    simp only [h1, Bool.not_true, Bool.false_eq_true, if_false, if_neg h3, h2, hA]

theorem short_enter (h : Rel pr S c D) {text : Str} {u : List Keysym} {shift : Bool} (hp : D.phase = .short text u shift) : Goes pr S c ⟨0xff0d, 0⟩ D false := by
  have hk := (h.short hp).kanaMode
  refine short_handed h hp _ (by unfold IsRelease; decide) ?_ (.inr (by unfold Printable; decide))
  rcases h.runs.uses.cases with hc | hc <;> rw [hc] <;> rcases kanaMode_iff.mp hk with b | b | b <;> rw [b] <;> decide +kernel

theorem short_ctrlG (h : Rel pr S c D) {text : Str} {u : List Keysym} {shift : Bool} (hp : D.phase = .short text u shift) : Goes pr S c ⟨0x67, 4⟩ D false := by
  have hk := (h.short hp).kanaMode
  refine short_handed h hp _ (by unfold IsRelease; decide) ?_ (.inl ⟨2, by decide, by decide⟩)
  rcases h.runs.uses.cases with hc | hc <;> rw [hc] <;> rcases kanaMode_iff.mp hk with b | b | b <;> rw [b] <;> decide +kernel

/-- Ctrl-j. -/
theorem short_ctrlJ (h : Rel pr S c D) {text : Str} {u : List Keysym} {shift : Bool} (hp : D.phase = .short text u shift) :
    Goes pr S c ⟨0x6a, 4⟩ (D.commit text) true := by
  have hl := h.short hp
  have hb := h.base
  have hk := hl.kanaMode
  have hfind : ((c.cmds c.top.mode c.top.inputMode).find? fun b => decide (b.1 = CommandRule.matchingKey ⟨0x6a, 4⟩)).map (·.2) =
      some [.confirmAs .ascii, .changeCompositionMode .direct] := by
    rw [hl.mode, hb.mode]
    rcases h.runs.uses.cases with hc | hc <;> rw [hc] <;> rcases kanaMode_iff.mp hk with b | b | b <;> rw [b] <;> decide +kernel
  obtain ⟨c', h1, s1⟩ := ModeKeys.commit_reading_only (Assets.env ⟨pr⟩) c S.layout.tbl ⟨0x6a, 4⟩ .ascii h.runs.table (by unfold IsRelease; decide)
    (by rw [hl.mode]; decide) hb.history (commandIs_of_find hfind) (by rintro ⟨hx, _⟩; exact hx ⟨2, by decide, by decide⟩)
  refine ⟨c', h1, ?_⟩
  obtain ⟨o1, o2, o3, o4, o5⟩ := s1.only
  obtain ⟨e1, e2, e3⟩ := s1.reading
  refine ⟨h.runs.congr o3 o4 o5, o2.trans h.dicts, ⟨s1.committed.trans ?_, s1.inputMode.trans hb.mode, ?_, s1.default.trans hb.default, ?_⟩,
    ⟨s1.mode, s1.pending.1, s1.pending.2, e1, e2, e3⟩, by rw [o1]; exact h.below⟩
  · rw [if_neg (by decide), hb.written, hl.kana]; rfl
  · rw [s1.history]; exact hb.leave (level_mode h.level)
  · rw [s1.history]; exact remember_length _ _

theorem delete_short {s : State} (hm : s.mode = .abbreviation) :
    s.delete = if s.pre ≠ [] then ({ s with pre := s.pre.dropLast }, true)
      else if s.kana ≠ [] then ({ s with kana := s.kana.dropLast, raw := s.raw.dropLast }, true)
      else ({ s with raw := s.raw.dropLast, mode := .direct }, true) := by
  cases s
  simp only at hm
  subst hm
  rfl

/-- BackSpace. -/
theorem short_back (h : Rel pr S c D) {text : Str} {u : List Keysym} {shift : Bool} (hp : D.phase = .short text u shift) :
    Goes pr S c ⟨0xff08, 0⟩ { D with
      phase := if u ≠ [] then .short text u.dropLast shift else if text = [] then .direct [] shift else .short text.dropLast [] shift } true := by
  have hl := h.short hp
  have hb := h.base
  have hx := Editing.backspace (Assets.env ⟨pr⟩) h.runs.uses.shipped (.inr ⟨.inr (.inr hl.mode), by rw [hb.mode]; exact kanaMode_ne hl.kanaMode⟩)
  rw [delete_short hl.mode, hl.pre, hl.kana, hl.raw] at hx
  by_cases hu : u = []
  · subst hu
    rw [if_neg (by simp)] at hx
    rw [if_neg (by simp)]
    by_cases ht : text = []
    · rw [if_neg (by simpa using ht)] at hx
      rw [if_pos ht]
      refine ⟨_, hx, h.with (D := D) ⟨hb.written, hb.mode, hb.trail, hb.default, hb.history⟩ ⟨rfl, rfl, hl.capital, ht, ?_, hl.okuri⟩⟩
      show text.dropLast = []
      rw [ht]; rfl
    · rw [if_pos ht] at hx
      rw [if_neg ht]
      exact ⟨_, hx, h.with (D := D) ⟨hb.written, hb.mode, hb.trail, hb.default, hb.history⟩ ⟨hl.mode, hl.kanaMode, rfl, hl.capital, rfl, rfl, hl.okuri⟩⟩
  · rw [if_pos hu] at hx
    rw [if_pos hu]
    exact ⟨_, hx, h.with (D := D) ⟨hb.written, hb.mode, hb.trail, hb.default, hb.history⟩ ⟨hl.mode, hl.kanaMode, rfl, hl.capital, rfl, rfl, hl.okuri⟩⟩

/-- Tab. -/
theorem short_tab (h : Rel pr S c D) {text : Str} {u : List Keysym} {shift : Bool} (hp : D.phase = .short text u shift)
    (hs : D.complete S text u true shift = some D') : Goes pr S c ⟨0xff09, 0⟩ D' true := complete_goes h (short_typed h hp) hs

end

end Cskk.Props.Machine
