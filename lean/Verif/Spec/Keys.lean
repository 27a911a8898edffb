import Verif.Model.Context

/-!
# What a key event means to a rule, stated on the bits of the event

Bit 0 of the modifiers is SHIFT, bit 30 marks a key release (fcitx-utils `KeyState`).
-/

namespace Cskk.Spec

/-- The event reports the release of a key. -/
def IsRelease (ev : KeyEvent) : Prop := ev.modifiers.getLsbD 30 = true

/-- Some modifier other than SHIFT is held. -/
def HasOtherModifier (ev : KeyEvent) : Prop := ∃ i, i ≠ 0 ∧ ev.modifiers.getLsbD i = true

/-- The rule's key `k` is the key of the event: same symbol, same modifiers, except that SHIFT is not compared for the
letters A–Z, which the rule must list without SHIFT. -/
def KeyMatches (k ev : KeyEvent) : Prop :=
  k.symbol = ev.symbol ∧ (∀ i, i ≠ 0 → k.modifiers.getLsbD i = ev.modifiers.getLsbD i) ∧
    k.modifiers.getLsbD 0 = (if 0x41 ≤ ev.symbol ∧ ev.symbol ≤ 0x5a then false else ev.modifiers.getLsbD 0)

/-- The active rule has no command for the event in the current modes. -/
def NoCommand (c : Ctx) (ev : KeyEvent) : Prop :=
  ∀ k ∈ c.cmds c.top.mode c.top.inputMode, ¬ KeyMatches k.1 ev

/-- The key events of ASCII characters (the keysym of an ASCII character is its code); a capital letter comes without
SHIFT, as from the key descriptions of `skk_key_event_new_from_string_representation`. -/
def typed (t : Str) : List KeyEvent := t.map fun ch => ⟨ch.toNat, 0⟩

end Cskk.Spec
