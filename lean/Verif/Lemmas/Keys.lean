import Verif.Spec.Keys

/-! # Lemmas on key events and command lookup -/

namespace Cskk
open Spec

theorem contains_release (ev : KeyEvent) :
    Modifier.contains ev.modifiers Modifier.RELEASE = true ↔ IsRelease ev := by
  unfold Modifier.contains IsRelease
  rw [beq_iff_eq]
  constructor
  · intro h
    have : (ev.modifiers &&& Modifier.RELEASE).getLsbD 30 = Modifier.RELEASE.getLsbD 30 := by rw [h]
    rw [BitVec.getLsbD_and] at this
    have h30 : Modifier.RELEASE.getLsbD 30 = true := by decide
    rw [h30] at this
    simpa using this
  · intro h
    apply BitVec.eq_of_getLsbD_eq
    intro i hi
    rw [BitVec.getLsbD_and]
    by_cases h30 : i = 30
    · subst h30; rw [h]; simp
    · have : Modifier.RELEASE.getLsbD i = false := by
        unfold Modifier.RELEASE
        rw [BitVec.getLsbD_shiftLeft]
        by_cases hlt : i < 30
        · simp [hlt]
        · have : ¬ (i - 30 = 0) := by omega
          simp [this]
      rw [this]; simp

theorem notShift_bit : ∀ i, i < 32 → (~~~Modifier.SHIFT).getLsbD i = !decide (i = 0) := by decide

theorem modifierless_iff (ev : KeyEvent) : ev.isModifierlessInput = true ↔ ¬ HasOtherModifier ev := by
  unfold KeyEvent.isModifierlessInput Modifier.difference HasOtherModifier
  rw [beq_iff_eq]
  constructor
  · rintro h ⟨i, h0, hi⟩
    have : (ev.modifiers &&& ~~~Modifier.SHIFT).getLsbD i = (0 : BitVec 32).getLsbD i := by rw [h]
    rw [BitVec.getLsbD_and, hi] at this
    have hlt : i < 32 := BitVec.lt_of_getLsbD hi
    rw [notShift_bit i hlt] at this
    simp [h0] at this
  · intro h
    apply BitVec.eq_of_getLsbD_eq
    intro i hi
    rw [BitVec.getLsbD_and, notShift_bit i hi]
    by_cases h0 : i = 0
    · subst h0; simp
    · cases hb : ev.modifiers.getLsbD i with
      | false => simp
      | true => exact absurd ⟨i, h0, hb⟩ h

theorem isUpper_iff (ev : KeyEvent) : ev.isUpper = true ↔ 0x41 ≤ ev.symbol ∧ ev.symbol ≤ 0x5a := by
  unfold KeyEvent.isUpper
  rw [Bool.and_eq_true]
  exact ⟨fun h => ⟨of_decide_eq_true h.1, of_decide_eq_true h.2⟩, fun h => ⟨decide_eq_true h.1, decide_eq_true h.2⟩⟩

theorem matchingKey_iff (k ev : KeyEvent) : k = CommandRule.matchingKey ev ↔ KeyMatches k ev := by
  unfold CommandRule.matchingKey KeyMatches
  constructor
  · intro h
    by_cases hu : ev.isUpper = true
    · rw [if_pos hu] at h
      subst h
      refine ⟨rfl, ?_, ?_⟩
      · intro i h0
        rw [BitVec.getLsbD_and]
        cases hb : ev.modifiers.getLsbD i with
        | false => rfl
        | true => rw [notShift_bit i (BitVec.lt_of_getLsbD hb)]; simp [h0]
      · rw [if_pos ((isUpper_iff ev).mp hu), BitVec.getLsbD_and, notShift_bit 0 (by decide)]; simp
    · rw [if_neg hu] at h
      subst h
      refine ⟨rfl, fun _ _ => rfl, ?_⟩
      rw [if_neg (fun h => hu ((isUpper_iff _).mpr h))]
  · rintro ⟨h1, h2, h3⟩
    have : ∀ a b : KeyEvent, a.symbol = b.symbol → a.modifiers = b.modifiers → a = b := by
      intro a b; cases a; cases b; simp_all
    by_cases hu : ev.isUpper = true
    · rw [if_pos hu]
      refine this _ _ h1 ?_
      apply BitVec.eq_of_getLsbD_eq
      intro i hi
      by_cases h0 : i = 0
      · subst h0; rw [h3, if_pos ((isUpper_iff ev).mp hu), BitVec.getLsbD_and, notShift_bit 0 (by decide)]; simp
      · rw [h2 i h0, BitVec.getLsbD_and, notShift_bit i hi]
        simp [h0]
    · rw [if_neg hu]
      refine this _ _ h1 ?_
      apply BitVec.eq_of_getLsbD_eq
      intro i hi
      by_cases h0 : i = 0
      · subst h0; rw [h3, if_neg (fun h => hu ((isUpper_iff _).mpr h))]
      · exact h2 i h0

theorem getInstruction_none {c : Ctx} {ev : KeyEvent} (p : Profile) (hm : c.top.mode ≠ .register)
    (h : NoCommand c ev) : c.cmds.getInstruction p ev c.top.inputMode c.top.mode = .ok none := by
  unfold CommandRule.getInstruction
  rw [if_neg hm]
  have : (c.cmds c.top.mode c.top.inputMode).find? (fun e => decide (e.1 = CommandRule.matchingKey ev)) = none := by
    rw [List.find?_eq_none]
    intro k hk
    simp only [decide_eq_true_eq]
    rw [matchingKey_iff]
    exact h k hk
  rw [this]; rfl

/-- In registration mode a level accepts no command (release build) or the assertion in rule.rs:68 fails. -/
theorem getInstruction_register {r : CommandRule} {ev : KeyEvent} {p : Profile} {im : InputMode} :
    r.getInstruction p ev im .register = if p.checked then .error .debugAssert else .ok none := by
  simp [CommandRule.getInstruction]

end Cskk
