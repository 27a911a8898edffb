import Verif.Lemmas.Keys
import Verif.Model.DefaultRule

/-!
# C01, C02: events which are handed back
-/

namespace Cskk.Props.KeyInput
open Spec

/-- C01: a key release is not consumed and the context stays exactly as it is. -/
theorem release_inert (e : Env) (c : Ctx) (ev : KeyEvent) (h : IsRelease ev) :
    c.processKeyEvent e ev = .ok (c, false) := by
  unfold Ctx.processKeyEvent
  rw [if_pos ((contains_release ev).mpr h)]

/-- C01 for whole key sequences: the releases in it make no difference. -/
theorem releases_make_no_difference (e : Env) (c : Ctx) (evs : List KeyEvent) :
    c.processKeyEvents e evs = c.processKeyEvents e (evs.filter fun ev => !ev.modifiers.getLsbD 30) := by
  induction evs generalizing c with
  | nil => rfl
  | cons ev evs ih =>
    by_cases h : ev.modifiers.getLsbD 30 = true
    · have hf : (ev :: evs).filter (fun ev => !ev.modifiers.getLsbD 30) = evs.filter fun ev => !ev.modifiers.getLsbD 30 := by
        exact List.filter_cons_of_neg (by rw [h]; decide)
      rw [hf, ← ih c]
      show (do let (c, _) ← c.processKeyEvent e ev; c.processKeyEvents e evs) = _
      rw [release_inert e c ev h]; rfl
    · have hf : (ev :: evs).filter (fun ev => !ev.modifiers.getLsbD 30) =
          ev :: evs.filter fun ev => !ev.modifiers.getLsbD 30 :=
        List.filter_cons_of_pos (by rw [Bool.not_eq_true] at h; rw [h]; rfl)
      rw [hf]
      show (do let (c, _) ← c.processKeyEvent e ev; c.processKeyEvents e evs) =
        (do let (c, _) ← c.processKeyEvent e ev; c.processKeyEvents e _)
      cases c.processKeyEvent e ev with
      | error p => rfl
      | ok r => exact ih r.1

/-- A release of Return (symbol 0xff0d) is such an event. -/
example : IsRelease ⟨0xff0d, Modifier.RELEASE⟩ ∧ ¬ IsRelease ⟨0xff0d, Modifier.CONTROL⟩ := by
  unfold IsRelease; decide

/-- C02: with a modifier other than SHIFT (this includes CapsLock, NumLock and REPEAT) and no command for the event,
the event is not consumed and the context stays exactly as it is. -/
theorem modified_without_command_inert (e : Env) (c : Ctx) (ev : KeyEvent) (hm : HasOtherModifier ev)
    (hc : NoCommand c ev) (hr : c.top.mode ≠ .register) : c.processKeyEvent e ev = .ok (c, false) := by
  have hml : ev.isModifierlessInput = false := by
    cases h : ev.isModifierlessInput with
    | false => rfl
    | true => exact absurd hm ((modifierless_iff ev).mp h)
  unfold Ctx.processKeyEvent
  split
  · rfl
  · unfold Ctx.processInner Ctx.skipCommand
    rw [hml, getInstruction_none e.prof hr hc]
    simp [Ctx.charInput, hml, bind, Except.bind]

/-- The hypotheses are met by Control-a in Hiragana/Direct of the default rule. -/
example : HasOtherModifier ⟨0x61, Modifier.CONTROL⟩ ∧
    NoCommand (Ctx.new Assets.defaultCommands Assets.defaultKana .hiragana .direct []) ⟨0x61, Modifier.CONTROL⟩ ∧
    (Ctx.new Assets.defaultCommands Assets.defaultKana .hiragana .direct []).top.mode ≠ .register := by
  refine ⟨⟨2, by decide, by decide⟩, ?_, by decide⟩
  unfold NoCommand
  simp only [← matchingKey_iff]
  decide +kernel

/-- CapsLock or NumLock held down therefore disables all kana input: `a` with NumLock is handed back. -/
theorem locks_disable_input (e : Env) (c : Ctx) (k : Keysym) (lock : Modifier)
    (hl : lock = Modifier.CAPS_LOCK ∨ lock = Modifier.NUM_LOCK)
    (hc : NoCommand c ⟨k, lock⟩) (hr : c.top.mode ≠ .register) : c.processKeyEvent e ⟨k, lock⟩ = .ok (c, false) := by
  apply modified_without_command_inert e c _ ?_ hc hr
  rcases hl with rfl | rfl
  · exact ⟨1, by decide, by show BitVec.getLsbD Modifier.CAPS_LOCK 1 = true; decide⟩
  · exact ⟨4, by decide, by show BitVec.getLsbD Modifier.NUM_LOCK 4 = true; decide⟩

end Cskk.Props.KeyInput
