import Verif.Spec.ModeKeys
import Verif.Props.ShippedTyping
import Verif.Props.Register

/-!
# C58: mode keys
-/

namespace Cskk.Props.ModeKeys
open Spec Spec.Typing Spec.ModeKeys Romaji KanaBuilder Navigate Convert Typing

theorem adjust_nil (f : KanaFormChanger) (im : InputMode) : f.adjust im [] = [] := by cases im <;> rfl

/-- A key which completes no romaji sequence is looked up as a command. -/
theorem skip_iff (c : Ctx) (tbl : Table) (ev : KeyEvent) (hk : c.kanaConv = ofTable tbl)
    (h : ¬ Completes tbl c.top.pre ev) : c.skipCommand ev = false := by
  unfold Ctx.skipCommand
  by_cases hm : ev.isModifierlessInput = true
  · have hno : ¬ HasOtherModifier ev := (modifierless_iff ev).mp hm
    have h' : ¬ ((completed tbl (c.top.pre ++ [ev.symbol])).isSome = true ∨
        (completed tbl (c.top.pre ++ [uncapitalize ev.symbol])).isSome = true) := fun h2 => h ⟨hno, h2⟩
    unfold combineLower combineRaw
    rw [hk, nonPartial_eq, nonPartial_eq]
    rw [not_or, Bool.not_eq_true, Bool.not_eq_true] at h'
    rw [h'.1, h'.2]
    simp
  · rw [Bool.not_eq_true] at hm
    rw [hm]; rfl

/-- Forced conversion in direct input: the kana of the pending keys are committed in the form asked for. -/
theorem force_direct (e : Env) (c : Ctx) (tbl : Table) (f : InputMode) (hk : c.kanaConv = ofTable tbl) :
    ∃ u b, c.outputConverted e f .direct = { c with top := { c.top with
      confirmed := c.top.confirmed ++ e.kanaForm.adjust f (pendingKana tbl c.top.pre), pre := u, capital := b } } := by
  unfold Ctx.outputConverted pendingKana
  have hg : c.kanaConv.convertGreedy c.top.pre = valueOf tbl c.top.pre := by rw [hk, greedy_eq]
  rw [hg]
  cases valueOf tbl c.top.pre with
  | none => exact ⟨c.top.pre, c.top.capital, by simp [adjust_nil]⟩
  | some v => exact ⟨v.2, if v.2.isEmpty then false else false, rfl⟩

/-- Forced conversion while a reading is typed: the kana are appended to the reading. -/
theorem force_reading (e : Env) (c : Ctx) (tbl : Table) (f : InputMode) (hk : c.kanaConv = ofTable tbl) :
    ∃ u b, c.outputConverted e f .preComposition = { c with top := { c.top with
      kana := c.top.kana ++ pendingKana tbl c.top.pre, raw := c.top.raw ++ pendingKana tbl c.top.pre, pre := u, capital := b } } := by
  unfold Ctx.outputConverted pendingKana
  have hg : c.kanaConv.convertGreedy c.top.pre = valueOf tbl c.top.pre := by rw [hk, greedy_eq]
  rw [hg]
  cases valueOf tbl c.top.pre with
  | none => exact ⟨c.top.pre, c.top.capital, by simp⟩
  | some v => exact ⟨v.2, if v.2.isEmpty then false else false, rfl⟩

/-- **C58.** A key for changing the input mode: the kana of the pending keys are committed, in the form the rule asks for, the
input mode is the new one, and nothing else changes. (The last instruction of the shipped rules, one of
`ClearUnconfirmedInputs` and `ClearUnconvertedInputs`, drops what is still pending.) -/
theorem switch_mode (e : Env) (c : Ctx) (tbl : Table) (ev : KeyEvent) (f m : InputMode) (last : Instruction)
    (hk : c.kanaConv = ofTable tbl) (hr : ¬ IsRelease ev) (hm : c.top.mode = .direct)
    (hlast : last = .clearUnconfirmedInputs ∨ last = .clearUnconvertedInputs)
    (hc : CommandIs c ev [.forceKanaConvert f, .changeInputMode m, last]) (hs : ¬ Completes tbl c.top.pre ev) :
    ∃ c', c.processKeyEvent e ev = .ok (c', true) ∧
      Switched c c' m (c.top.confirmed ++ e.kanaForm.adjust f (pendingKana tbl c.top.pre)) := by
  rw [key_command e c ev _ hr (by rw [hm]; decide) hc (skip_iff c tbl ev hk hs), hm]
  obtain ⟨u, b, hf⟩ := force_direct e c tbl f hk
  rcases hlast with rfl | rfl
  · refine ⟨_, by
      simp only [Ctx.processInstructions, Ctx.runInstructions, Ctx.instruction, hf, Bind.bind, Except.bind, pure, Except.pure]
      rfl, ?_⟩
    exact ⟨⟨rfl, rfl, rfl, rfl, rfl⟩, rfl, rfl, rfl, rfl, ⟨rfl, rfl⟩, rfl, fun _ => ⟨rfl, rfl, rfl⟩⟩
  · refine ⟨_, by
      simp only [Ctx.processInstructions, Ctx.runInstructions, Ctx.instruction, hf, Bind.bind, Except.bind, pure, Except.pure]
      rfl, ?_⟩
    exact ⟨⟨rfl, rfl, rfl, rfl, rfl⟩, rfl, rfl, rfl, rfl, ⟨rfl, rfl⟩, rfl, fun h => h⟩

theorem changeMode_history (s : State) (m : CompositionMode) (hh : s.history.length ≤ 20) :
    (s.changeMode m).history = remember s.history s.mode := by
  unfold State.changeMode State.changeModeFrom remember HISTORY_MAX
  simp only [List.length_append, List.length_cons, List.length_nil]
  split
  · have : s.history.length = 20 := by omega
    rw [this]
  · have : s.history.length + 1 - 20 = 0 := by omega
    rw [this]; rfl

/-- **C58.** A key for committing the reading as kana: the reading together with the kana of the pending keys is committed, in
the form the rule asks for, and the composition is finished. -/
theorem commit_reading (e : Env) (c : Ctx) (tbl : Table) (ev : KeyEvent) (f m : InputMode)
    (hk : c.kanaConv = ofTable tbl) (hr : ¬ IsRelease ev) (hm : c.top.mode = .preComposition) (hh : c.top.history.length ≤ 20)
    (hz : m ≠ .zenkaku)
    (hc : CommandIs c ev [.forceKanaConvert f, .confirmAs m, .changeCompositionMode .direct])
    (hs : ¬ Completes tbl c.top.pre ev) :
    ∃ c', c.processKeyEvent e ev = .ok (c', true) ∧
      Finished c c' (c.top.confirmed ++ e.kanaForm.adjust m (c.top.kana ++ pendingKana tbl c.top.pre)) := by
  rw [key_command e c ev _ hr (by rw [hm]; decide) hc (skip_iff c tbl ev hk hs), hm]
  obtain ⟨u, b, hf⟩ := force_reading e c tbl f hk
  refine ⟨_, by
    simp only [Ctx.processInstructions, Ctx.runInstructions, Ctx.instruction, hf, Ctx.confirmKana, if_neg hz, Bind.bind, Except.bind,
      pure, Except.pure]
    rfl, ?_⟩
  refine ⟨⟨rfl, rfl, rfl, rfl, rfl⟩, rfl, ?_, rfl, rfl, ⟨rfl, rfl⟩, ⟨rfl, rfl, rfl⟩, rfl, rfl⟩
  exact changeMode_history _ _ hh

/-- **C58.** Without forced conversion (Ctrl-q in the shipped rules, and all keys while typing an abbreviation) only the reading is
committed; pending keys are dropped. -/
theorem commit_reading_only (e : Env) (c : Ctx) (tbl : Table) (ev : KeyEvent) (m : InputMode)
    (hk : c.kanaConv = ofTable tbl) (hr : ¬ IsRelease ev) (hm : c.top.mode ≠ .register) (hh : c.top.history.length ≤ 20)
    (hc : CommandIs c ev [.confirmAs m, .changeCompositionMode .direct]) (hs : ¬ Completes tbl c.top.pre ev) :
    ∃ c', c.processKeyEvent e ev = .ok (c', true) ∧
      Finished c c' (c.top.confirmed ++
        (if m = .zenkaku then e.asciiForm.adjustString c.top.kana else e.kanaForm.adjust m c.top.kana)) := by
  rw [key_command e c ev _ hr hm hc (skip_iff c tbl ev hk hs)]
  refine ⟨_, by
    simp only [Ctx.processInstructions, Ctx.runInstructions, Ctx.instruction, Ctx.confirmKana, Bind.bind, Except.bind,
      pure, Except.pure]
    rfl, ?_⟩
  refine ⟨⟨rfl, rfl, rfl, rfl, rfl⟩, rfl, ?_, rfl, rfl, ⟨rfl, rfl⟩, ⟨rfl, rfl, rfl⟩, rfl, rfl⟩
  exact changeMode_history _ _ hh

/-! ## The shipped rules -/

theorem completes_entry {tbl : Table} {u : List Keysym} {ev : KeyEvent} (h : Completes tbl u ev) :
    ∃ x ∈ tbl, x.1 = u ++ [ev.symbol] ∨ x.1 = u ++ [uncapitalize ev.symbol] := by
  have key : ∀ k, (completed tbl k).isSome = true → ∃ x ∈ tbl, x.1 = k := by
    intro k hk
    unfold completed at hk
    split at hk
    · cases hk
    · cases hv : valueOf tbl k with
      | none => rw [hv] at hk; cases hk
      | some v => exact value_mem hv
  rcases h.2 with h | h
  · obtain ⟨x, hx, he⟩ := key _ h; exact ⟨x, hx, Or.inl he⟩
  · obtain ⟨x, hx, he⟩ := key _ h; exact ⟨x, hx, Or.inr he⟩

theorem not_completes {tbl : Table} {u : List Keysym} {ev : KeyEvent}
    (h : ∀ x ∈ tbl, (x.1.getLast? = some ev.symbol ∨ x.1.getLast? = some (uncapitalize ev.symbol)) → x.1.dropLast ≠ u) :
    ¬ Completes tbl u ev := by
  intro hc
  obtain ⟨x, hx, he | he⟩ := completes_entry hc
  · exact h x hx (Or.inl (by rw [he]; simp)) (by rw [he]; simp)
  · exact h x hx (Or.inr (by rw [he]; simp)) (by rw [he]; simp)

/-- The keys for changing the input mode in the default rule: `l`, `L` (with or without SHIFT reported), `q`, Ctrl-q. -/
def defaultKey : ModeKey → List KeyEvent
  | .ascii => [⟨0x6c, 0⟩]
  | .zenkaku => [⟨0x4c, 0⟩, ⟨0x4c, 1⟩]
  | .kana => [⟨0x71, 0⟩]
  | .halfKana => [⟨0x71, 4⟩]

/-- The same in the AZIK rule: `l`, `L`, `@`, Ctrl-@. -/
def azikKey : ModeKey → List KeyEvent
  | .ascii => [⟨0x6c, 0⟩]
  | .zenkaku => [⟨0x4c, 0⟩, ⟨0x4c, 1⟩]
  | .kana => [⟨0x40, 0⟩]
  | .halfKana => [⟨0x40, 4⟩]

/-- The form in which the default rule commits the kana of the pending keys: that of the old input mode, except for Ctrl-q in
katakana input. -/
def defaultForm (k : ModeKey) (im : InputMode) : InputMode :=
  match k, im with
  | .halfKana, .katakana => .hiragana
  | _, im => im

/-- Direct kana input. -/
def DirectKana (c : Ctx) : Prop :=
  c.top.mode = .direct ∧ (c.top.inputMode = .hiragana ∨ c.top.inputMode = .katakana ∨ c.top.inputMode = .hankakuKatakana)

/-- **C58, default rule.** In direct kana input `l` leads to ASCII, `L` to full width letters, `q` to katakana and back to
hiragana, Ctrl-q to half width katakana and back to katakana. The kana of the pending keys (`n`) are committed first. The one
exception is `l` (or `L`) after a pending `z`: `zl` is `→`. -/
theorem default_mode_keys (e : Env) (c : Ctx) (h1 : c.cmds = Assets.defaultCommands) (h2 : c.kanaConv = Assets.defaultKana)
    (hd : DirectKana c) (k : ModeKey) (ev : KeyEvent) (hev : ev ∈ defaultKey k)
    (hz : ev.symbol ≠ 0x71 → c.top.pre ≠ [0x7a]) :
    ∃ c', c.processKeyEvent e ev = .ok (c', true) ∧ Switched c c' (k.target c.top.inputMode)
      (c.top.confirmed ++ e.kanaForm.adjust (defaultForm k c.top.inputMode) (pendingKana Assets.defaultRomaji c.top.pre)) := by
  obtain ⟨hm, him⟩ := hd
  apply switch_mode e c Assets.defaultRomaji ev _ _ .clearUnconfirmedInputs h2 _ hm (Or.inl rfl)
  · apply commandIs_of_find
    rw [h1, hm]
    rcases him with h | h | h <;> rw [h] <;> cases k <;>
      simp only [defaultKey, List.mem_cons, List.not_mem_nil, or_false] at hev
    all_goals first | (subst hev; decide +kernel) | (rcases hev with rfl | rfl <;> decide +kernel)
  · cases k <;> simp only [defaultKey, List.mem_cons, List.not_mem_nil, or_false] at hev
    · subst hev
      have hz := hz (by decide)
      refine not_completes fun x hx hl he => hz ?_
      rw [← he]
      clear he; revert x; decide +kernel
    · have : ev.symbol = 0x4c := by rcases hev with rfl | rfl <;> rfl
      have hz := hz (by rw [this]; decide)
      refine not_completes fun x hx hl he => hz ?_
      rw [← he]; rw [this] at hl
      clear he; revert x; decide +kernel
    · subst hev
      refine not_completes fun x hx hl he => ?_
      clear he; revert x; decide +kernel
    · subst hev
      refine not_completes fun x hx hl he => ?_
      clear he; revert x; decide +kernel
  · cases k <;> simp only [defaultKey, List.mem_cons, List.not_mem_nil, or_false] at hev
    all_goals first | (subst hev; simp [IsRelease]) | (rcases hev with rfl | rfl <;> simp [IsRelease])

/-- **C58, AZIK rule.** The same with `@` for `q`; here many entries end with `l` (`kl` is `こん`), and then `l` is no command. -/
theorem azik_mode_keys (e : Env) (c : Ctx) (h1 : c.cmds = Assets.azikCommands) (h2 : c.kanaConv = Assets.azikKana)
    (hd : DirectKana c) (k : ModeKey) (ev : KeyEvent) (hev : ev ∈ azikKey k)
    (hz : ev.symbol ≠ 0x40 → ¬ Completes Assets.azikRomaji c.top.pre ev) :
    ∃ c', c.processKeyEvent e ev = .ok (c', true) ∧ Switched c c' (k.target c.top.inputMode)
      (c.top.confirmed ++ e.kanaForm.adjust c.top.inputMode (pendingKana Assets.azikRomaji c.top.pre)) := by
  obtain ⟨hm, him⟩ := hd
  apply switch_mode e c Assets.azikRomaji ev _ _ .clearUnconvertedInputs h2 _ hm (Or.inr rfl)
  · apply commandIs_of_find
    rw [h1, hm]
    rcases him with h | h | h <;> rw [h] <;> cases k <;>
      simp only [azikKey, List.mem_cons, List.not_mem_nil, or_false] at hev
    all_goals first | (subst hev; decide +kernel) | (rcases hev with rfl | rfl <;> decide +kernel)
  · by_cases hs : ev.symbol = 0x40
    · refine not_completes fun x hx hl he => ?_
      rw [hs] at hl
      clear he; revert x; decide +kernel
    · exact hz hs
  · cases k <;> simp only [azikKey, List.mem_cons, List.not_mem_nil, or_false] at hev
    all_goals first | (subst hev; simp [IsRelease]) | (rcases hev with rfl | rfl <;> simp [IsRelease])

/-- `q` twice is the old input mode again; only the kana of the pending keys have been committed. -/
theorem toggle_twice (e : Env) (c : Ctx) (h1 : c.cmds = Assets.defaultCommands) (h2 : c.kanaConv = Assets.defaultKana)
    (hd : DirectKana c) (hh : c.top.inputMode ≠ .hankakuKatakana) :
    ∃ c', c.processKeyEvents e [⟨0x71, 0⟩, ⟨0x71, 0⟩] = .ok c' ∧ Switched c c' c.top.inputMode
      (c.top.confirmed ++ e.kanaForm.adjust c.top.inputMode (pendingKana Assets.defaultRomaji c.top.pre)) := by
  obtain ⟨c₁, hc₁, s₁⟩ := default_mode_keys e c h1 h2 hd .kana ⟨0x71, 0⟩ (by simp [defaultKey]) (fun h => absurd rfl h)
  have hd₁ : DirectKana c₁ := by
    refine ⟨s₁.mode.trans hd.1, ?_⟩
    rw [s₁.inputMode]
    rcases hd.2 with h | h | h
    · rw [h]; exact Or.inr (Or.inl rfl)
    · rw [h]; exact Or.inl rfl
    · exact absurd h hh
  obtain ⟨c₂, hc₂, s₂⟩ := default_mode_keys e c₁ (s₁.only.2.2.1.trans h1) (s₁.only.2.2.2.1.trans h2) hd₁ .kana ⟨0x71, 0⟩
    (by simp [defaultKey]) (fun h => absurd rfl h)
  refine ⟨c₂, ?_, ?_⟩
  · rw [Ascii.pke_cons e c c₁ _ _ true hc₁, Ascii.pke_cons e c₁ c₂ _ _ true hc₂]; rfl
  · obtain ⟨o1, m1, hi1, i1, c1, p1, d1, r1⟩ := s₁
    obtain ⟨o2, m2, hi2, i2, c2, p2, d2, r2⟩ := s₂
    refine ⟨?_, m2.trans m1, hi2.trans hi1, ?_, ?_, p2, d2.trans d1, fun h => r2 (r1 h)⟩
    · exact ⟨o2.1.trans o1.1, o2.2.1.trans o1.2.1, o2.2.2.1.trans o1.2.2.1, o2.2.2.2.1.trans o1.2.2.2.1, o2.2.2.2.2.trans o1.2.2.2.2⟩
    · rw [i2, i1]
      rcases hd.2 with h | h | h
      · rw [h]; rfl
      · rw [h]; rfl
      · exact absurd h hh
    · rw [c2, c1, p1.1]
      have : pendingKana Assets.defaultRomaji [] = [] := by decide +kernel
      rw [this, adjust_nil, List.append_nil]
      rcases hd.2 with h | h | h
      · rw [h]; rfl
      · rw [h]; rfl
      · exact absurd h hh

/-- Ctrl-j in ASCII or full width input leads to hiragana, with both rules. Nothing else changes. -/
theorem back_to_kana (e : Env) (c : Ctx) (h1 : c.cmds = Assets.defaultCommands ∨ c.cmds = Assets.azikCommands)
    (hm : c.top.mode = .direct) (hi : c.top.inputMode = .ascii ∨ c.top.inputMode = .zenkaku) :
    c.processKeyEvent e ⟨0x6a, 4⟩ = .ok ({ c with top := { c.top with inputMode := .hiragana } }, true) := by
  have hc : CommandIs c ⟨0x6a, 4⟩ [.changeInputMode .hiragana] := by
    apply commandIs_of_find
    rw [hm]
    rcases h1 with h | h <;> rw [h] <;> rcases hi with h | h <;> rw [h] <;> decide +kernel
  rw [key_command e c _ _ (by simp [IsRelease]) (by rw [hm]; decide) hc rfl]
  rfl

/-- The forms in which the default rule commits a reading: `q` as katakana, or as hiragana if the input mode is not hiragana;
Ctrl-j in the form of the input mode. -/
def commitForm : Bool → InputMode → InputMode
  | true, .hiragana => .katakana
  | true, _ => .hiragana
  | false, im => im

/-- **C58, default rule.** While a reading is typed, `q` (`toggle`) and Ctrl-j commit it, together with the kana of the
pending keys. -/
theorem default_commit_keys (e : Env) (c : Ctx) (h1 : c.cmds = Assets.defaultCommands) (h2 : c.kanaConv = Assets.defaultKana)
    (hm : c.top.mode = .preComposition) (hh : c.top.history.length ≤ 20)
    (him : c.top.inputMode = .hiragana ∨ c.top.inputMode = .katakana ∨ c.top.inputMode = .hankakuKatakana) (toggle : Bool) :
    ∃ c', c.processKeyEvent e (if toggle then ⟨0x71, 0⟩ else ⟨0x6a, 4⟩) = .ok (c', true) ∧
      Finished c c' (c.top.confirmed ++
        e.kanaForm.adjust (commitForm toggle c.top.inputMode) (c.top.kana ++ pendingKana Assets.defaultRomaji c.top.pre)) := by
  apply commit_reading e c Assets.defaultRomaji _ (commitForm toggle c.top.inputMode) (commitForm toggle c.top.inputMode) h2 _ hm hh
  · rcases him with h | h | h <;> rw [h] <;> cases toggle <;> decide
  · apply commandIs_of_find
    rw [h1, hm]
    rcases him with h | h | h <;> rw [h] <;> cases toggle <;> decide +kernel
  · cases toggle
    · rintro ⟨h, -⟩
      exact h ⟨2, by decide, by decide⟩
    · refine not_completes fun x hx hl he => ?_
      clear he; revert x; decide +kernel
  · cases toggle <;> simp [IsRelease]

/-- **C58, default rule.** Ctrl-q while a reading is typed commits it as half width katakana (as katakana in half width
katakana input). -/
theorem default_half_width (e : Env) (c : Ctx) (h1 : c.cmds = Assets.defaultCommands) (h2 : c.kanaConv = Assets.defaultKana)
    (hm : c.top.mode = .preComposition) (hh : c.top.history.length ≤ 20)
    (him : c.top.inputMode = .hiragana ∨ c.top.inputMode = .katakana ∨ c.top.inputMode = .hankakuKatakana) :
    ∃ c', c.processKeyEvent e ⟨0x71, 4⟩ = .ok (c', true) ∧
      Finished c c' (c.top.confirmed ++ e.kanaForm.adjust
        (if c.top.inputMode = .hankakuKatakana then .katakana else .hankakuKatakana) c.top.kana) := by
  have key : ∀ m, CommandIs c ⟨0x71, 4⟩ [.confirmAs m, .changeCompositionMode .direct] → m ≠ .zenkaku →
      ∃ c', c.processKeyEvent e ⟨0x71, 4⟩ = .ok (c', true) ∧ Finished c c' (c.top.confirmed ++ e.kanaForm.adjust m c.top.kana) := by
    intro m hc hz
    have := commit_reading_only e c Assets.defaultRomaji ⟨0x71, 4⟩ m h2 (by simp [IsRelease]) (by rw [hm]; decide) hh hc
      (by rintro ⟨h, -⟩; exact h ⟨2, by decide, by decide⟩)
    rwa [if_neg hz] at this
  apply key
  · apply commandIs_of_find
    rw [h1, hm]
    rcases him with h | h | h <;> rw [h] <;> decide +kernel
  · split <;> decide

/-- While an abbreviation is typed, Ctrl-j commits it as it is and Ctrl-q in full width. -/
theorem default_abbreviation (e : Env) (c : Ctx) (h1 : c.cmds = Assets.defaultCommands) (h2 : c.kanaConv = Assets.defaultKana)
    (hm : c.top.mode = .abbreviation) (hh : c.top.history.length ≤ 20)
    (him : c.top.inputMode = .hiragana ∨ c.top.inputMode = .katakana ∨ c.top.inputMode = .hankakuKatakana) :
    (∃ c', c.processKeyEvent e ⟨0x6a, 4⟩ = .ok (c', true) ∧ Finished c c' (c.top.confirmed ++ c.top.kana)) ∧
    (∃ c', c.processKeyEvent e ⟨0x71, 4⟩ = .ok (c', true) ∧
      Finished c c' (c.top.confirmed ++ e.asciiForm.adjustString c.top.kana)) := by
  have key : ∀ k m, CommandIs c ⟨k, 4⟩ [.confirmAs m, .changeCompositionMode .direct] →
      ∃ c', c.processKeyEvent e ⟨k, 4⟩ = .ok (c', true) ∧ Finished c c' (c.top.confirmed ++
        (if m = .zenkaku then e.asciiForm.adjustString c.top.kana else e.kanaForm.adjust m c.top.kana)) := by
    intro k m hc
    exact commit_reading_only e c Assets.defaultRomaji ⟨k, 4⟩ m h2 (by simp [IsRelease]) (by rw [hm]; decide) hh hc
      (by rintro ⟨h, -⟩; exact h ⟨2, by decide, by show (4 : Modifier).getLsbD 2 = true; decide⟩)
  constructor
  · exact key 0x6a .ascii (by
      apply commandIs_of_find
      rw [h1, hm]
      rcases him with h | h | h <;> rw [h] <;> decide +kernel)
  · exact key 0x71 .zenkaku (by
      apply commandIs_of_find
      rw [h1, hm]
      rcases him with h | h | h <;> rw [h] <;> decide +kernel)

/-- The hypotheses are met: `かn` typed in katakana input. -/
def kaN (cm : CompositionMode) : Ctx :=
  let s := State.new .katakana .direct
  Ctx.mk [] { s with mode := cm, pre := [0x6e], confirmed := c%"カ", kana := if cm = .direct then [] else c%"か",
                     raw := if cm = .direct then [] else c%"か" }
    Assets.defaultCommands Assets.defaultKana [] Config.default

example : DirectKana (kaN .direct) ∧ pendingKana Assets.defaultRomaji (kaN .direct).top.pre = c%"ん" ∧
    (((kaN .direct).processKeyEvent (Assets.env ⟨true⟩) ⟨0x6c, 0⟩).toOption.map fun r =>
      (r.1.top.confirmed, r.1.top.inputMode, r.2)) = some (c%"カン", .ascii, true) := by
  refine ⟨⟨rfl, Or.inr (Or.inl rfl)⟩, by decide +kernel, by decide +kernel⟩

example : (((kaN .preComposition).processKeyEvent (Assets.env ⟨true⟩) ⟨0x71, 0⟩).toOption.map fun r =>
      (r.1.top.confirmed, r.1.top.mode, r.2)) = some (c%"カかん", .direct, true) := by decide +kernel

/-! ## What one would not expect -/

/-- Ctrl-q in katakana input commits the pending `n` as hiragana. -/
theorem half_width_key_commits_hiragana : (((kaN .direct).processKeyEvent (Assets.env ⟨true⟩) ⟨0x71, 4⟩).toOption.map fun r =>
      (r.1.top.confirmed, r.1.top.inputMode)) = some (c%"カん", .hankakuKatakana) := by decide +kernel

/-- Ctrl-q while a reading is typed drops the pending `n`. -/
theorem half_width_commit_drops_pending : (((kaN .preComposition).processKeyEvent (Assets.env ⟨true⟩) ⟨0x71, 4⟩).toOption.map
      fun r => (r.1.top.confirmed, r.1.top.pre)) = some (c%"カｶ", []) := by decide +kernel

/-- `q` and Ctrl-j while okurigana is typed drop the okurigana: from `▽おく*っt` the `っ` is lost. -/
theorem commit_drops_okurigana (p : Bool) :
    (((Ctx.new Assets.defaultCommands Assets.defaultKana .hiragana .direct []).processKeyEvents (Assets.env ⟨p⟩)
      (typed c%"OkuTt" ++ [⟨0x6a, 4⟩])).toOption.map fun c => (c.top.confirmed, c.top.mode, c.top.okuri)) =
      some (c%"おく", .direct, []) := by revert p; decide +kernel

/-- `Q` and `/` leave keys pending: after `kan` and `Q` the preedit is `か▽n`, and a following `a` gives `な`; after `/` they stay
pending while the abbreviation is typed and are shown behind it. -/
theorem pending_survives_Q_and_slash (p : Bool) :
    (((Ctx.new Assets.defaultCommands Assets.defaultKana .hiragana .direct []).processKeyEvents (Assets.env ⟨p⟩)
      (typed c%"kanQa")).toOption.map fun c => c.preedit (Assets.env ⟨p⟩)) = some c%"か▽な" ∧
    (((Ctx.new Assets.defaultCommands Assets.defaultKana .hiragana .direct []).processKeyEvents (Assets.env ⟨p⟩)
      (typed c%"kan/x")).toOption.map fun c => (c.preedit (Assets.env ⟨p⟩), c.top.pre)) = some (c%"か▽xn", [0x6e]) := by
  revert p; decide +kernel

end Cskk.Props.ModeKeys
