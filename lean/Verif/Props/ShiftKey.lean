import Verif.Props.WillProcess

/-!
# C02: Shift

A keyboard sends capital letters, and many signs, with Shift. For the letters A–Z it makes no difference. For signs it does: a command which the rule lists
as a plain sign is not found when the sign comes with Shift.
-/

namespace Cskk.Props.ShiftKey
open Spec

/-- Typing looks at the symbol only. -/
theorem romInput_symbol (e : Env) (c : Ctx) (n : Keysym) (m m' : Modifier) (pre : List Keysym) : c.romInput e ⟨n, m⟩ pre = c.romInput e ⟨n, m'⟩ pre := by
  unfold Ctx.romInput Ctx.symbolInput
  have h1 : ∀ c : Ctx, c.inputAsContinuous (KeyEvent.toLower ⟨n, m⟩) = c.inputAsContinuous (KeyEvent.toLower ⟨n, m'⟩) := by
    intro c
    unfold Ctx.inputAsContinuous KeyEvent.toLower
    cases h : KeyEvent.isUpper ⟨n, m⟩ with
    | false => rw [show KeyEvent.isUpper ⟨n, m'⟩ = false from h]; rfl
    | true => rw [show KeyEvent.isUpper ⟨n, m'⟩ = true from h]; rfl
  simp only [h1]
  rfl

theorem charInput_symbol (e : Env) (c : Ctx) (n : Keysym) (m m' : Modifier) (h : ¬ HasOtherModifier ⟨n, m⟩) (h' : ¬ HasOtherModifier ⟨n, m'⟩) :
    c.charInput e ⟨n, m⟩ = c.charInput e ⟨n, m'⟩ := by
  have h1 := (modifierless_iff _).mpr h
  have h2 := (modifierless_iff _).mpr h'
  have hc : ∀ pre, c.kanaConv.canContinue ⟨n, m⟩ pre = c.kanaConv.canContinue ⟨n, m'⟩ pre := fun _ => rfl
  have hp : ∀ c : Ctx, c.plainInput e ⟨n, m⟩ = c.plainInput e ⟨n, m'⟩ := fun _ => rfl
  have ha : KeyEvent.isAsciiInputtable ⟨n, m⟩ = KeyEvent.isAsciiInputtable ⟨n, m'⟩ := rfl
  unfold Ctx.charInput Ctx.willBeProcessed
  simp only [h1, h2, hc, hp, ha, romInput_symbol e _ n m m']

theorem skip_symbol (c : Ctx) (n : Keysym) (m m' : Modifier) (h : ¬ HasOtherModifier ⟨n, m⟩) (h' : ¬ HasOtherModifier ⟨n, m'⟩) :
    c.skipCommand ⟨n, m⟩ = c.skipCommand ⟨n, m'⟩ := by
  have h1 := (modifierless_iff _).mpr h
  have h2 := (modifierless_iff _).mpr h'
  unfold Ctx.skipCommand
  rw [h1, h2]
  rfl

/-- No modifier but Shift. -/
theorem only_shift {n : Keysym} {m : Modifier} (h : ¬ HasOtherModifier ⟨n, m⟩) : m &&& ~~~Modifier.SHIFT = 0 := by
  apply BitVec.eq_of_getLsbD_eq
  intro i hi
  rw [BitVec.getLsbD_and, show BitVec.getLsbD (0 : BitVec 32) i = false from BitVec.getLsbD_zero]
  by_cases h0 : i = 0
  · subst h0; rw [show (~~~Modifier.SHIFT).getLsbD 0 = false from by decide, Bool.and_false]
  · have : m.getLsbD i = false := by
      rw [← Bool.not_eq_true]; exact fun hy => h ⟨i, h0, hy⟩
    rw [this, Bool.false_and]

theorem not_release {n : Keysym} {m : Modifier} (h : ¬ HasOtherModifier ⟨n, m⟩) : Modifier.contains m Modifier.RELEASE = false := by
  cases hb : Modifier.contains m Modifier.RELEASE with
  | false => rfl
  | true => exact absurd ⟨30, by decide, (contains_release ⟨n, m⟩).mp hb⟩ h

/-- **C02, letters.** Whether a letter A–Z comes with Shift or without makes no difference: with any rule and in any state the result is the same. -/
theorem shifted_letter (e : Env) (c : Ctx) (n : Keysym) (m m' : Modifier) (hn : 0x41 ≤ n ∧ n ≤ 0x5a) (h : ¬ HasOtherModifier ⟨n, m⟩)
    (h' : ¬ HasOtherModifier ⟨n, m'⟩) : c.processKeyEvent e ⟨n, m⟩ = c.processKeyEvent e ⟨n, m'⟩ := by
  have hk : ∀ m, ¬ HasOtherModifier ⟨n, m⟩ → CommandRule.matchingKey ⟨n, m⟩ = ⟨n, 0⟩ := by
    intro m hm
    unfold CommandRule.matchingKey
    rw [if_pos ((isUpper_iff _).mpr hn)]
    show (⟨n, m &&& ~~~Modifier.SHIFT⟩ : KeyEvent) = _
    rw [only_shift hm]
  have hg : c.cmds.getInstruction e.prof ⟨n, m⟩ c.top.inputMode c.top.mode = c.cmds.getInstruction e.prof ⟨n, m'⟩ c.top.inputMode c.top.mode := by
    unfold CommandRule.getInstruction
    rw [hk m h, hk m' h']
  unfold Ctx.processKeyEvent Ctx.processInner
  simp only [not_release h, not_release h', Bool.false_eq_true, if_false]
  rw [skip_symbol c n m m' h h', charInput_symbol e c n m m' h h', hg]

/-- **C02, signs.** A sign with Shift is no command of a rule which lists it without Shift: it is typed. -/
theorem shifted_sign (e : Env) (c : Ctx) (n : Keysym) (hn : ¬ (0x41 ≤ n ∧ n ≤ 0x5a)) (hm : c.top.mode ≠ .register)
    (hl : ∀ k ∈ c.cmds c.top.mode c.top.inputMode, k.1.symbol = n → k.1.modifiers.getLsbD 0 = false) :
    c.processKeyEvent e ⟨n, 1⟩ = c.charInput e ⟨n, 1⟩ := by
  refine WillProcess.process_no_command e c _ hm (show ¬ (1#32).getLsbD 30 = true by decide) ?_
  intro k hk hx
  obtain ⟨h1, _, h3⟩ := hx
  rw [if_neg hn, hl k hk h1] at h3
  exact absurd h3 (show ¬ false = (1#32).getLsbD 0 by decide)

/-- With the azik rule `{` begins a reading. As most keyboards send it, with Shift, it does not: it is typed. -/
theorem azik_brace :
    (let c := Ctx.new Assets.azikCommands Assets.azikKana .hiragana .direct []
     let seen : R (Ctx × Bool) → Option (Str × Str) := fun r => r.toOption.map fun x => (x.1.preedit (Assets.env ⟨true⟩), x.1.top.confirmed)
     seen (c.processKeyEvent (Assets.env ⟨true⟩) ⟨0x7b, 0⟩) = some (c%"▽", []) ∧
     seen (c.processKeyEvent (Assets.env ⟨true⟩) ⟨0x7b, 1⟩) = some (c%"{", c%"{")) := by
  decide +kernel

/-- The letter `K` with Shift begins a reading, as without. -/
example :
    (let c := Ctx.new Assets.defaultCommands Assets.defaultKana .hiragana .direct []
     (c.processKeyEvent (Assets.env ⟨true⟩) ⟨0x4b, 1⟩).toOption.map (fun x => x.1.preedit (Assets.env ⟨true⟩)) = some c%"▽k" ∧
     ¬ HasOtherModifier ⟨0x4b, 1⟩ ∧ ¬ HasOtherModifier ⟨0x4b, 0⟩) := by
  refine ⟨by decide +kernel, ?_, ?_⟩ <;> rw [← modifierless_iff] <;> decide +kernel

end Cskk.Props.ShiftKey
