import Verif.Props.Reading

/-!
# C38: BackSpace
-/

namespace Cskk.Props.Delete
open Spec

/-- Every pending key is shown as one character. -/
def SingleNames (e : Env) (s : State) : Prop := ∀ k ∈ s.pre, (e.keysymName k).length = 1

/-- The pending keys as shown. -/
theorem names_dropLast (e : Env) (l : List Keysym) (h : ∀ k ∈ l, (e.keysymName k).length = 1) :
    (l.dropLast.map e.keysymName).flatten = (l.map e.keysymName).flatten.dropLast := by
  rcases List.eq_nil_or_concat l with rfl | ⟨l', k, rfl⟩
  · rfl
  · have hk := h k (by simp)
    obtain ⟨ch, hch⟩ := List.length_eq_one_iff.mp hk
    simp [hch]

theorem names_ne_nil (e : Env) (l : List Keysym) (h : ∀ k ∈ l, (e.keysymName k).length = 1) (hl : l ≠ []) :
    (l.map e.keysymName).flatten ≠ [] := by
  cases l with
  | nil => exact absurd rfl hl
  | cons k l =>
    have hk := h k (by simp)
    obtain ⟨ch, hch⟩ := List.length_eq_one_iff.mp hk
    simp [hch]

theorem unconverted_getD (e : Env) (s : State) : (s.unconverted e).getD [] = (s.pre.map e.keysymName).flatten := by
  unfold State.unconverted
  cases hp : s.pre with
  | nil => rfl
  | cons k l => rfl

theorem direct_text (e : Env) (s : State) (hm : s.mode = .direct) (im : InputMode) :
    s.preeditString e im = s.confirmed ++ (s.pre.map e.keysymName).flatten := by
  unfold State.preeditString State.preeditDetail
  simp only [hm]
  rw [unconverted_getD]

theorem composing_text (e : Env) (s : State) (hm : s.mode = .preComposition ∨ s.mode = .abbreviation) (im : InputMode) :
    s.preeditString e im =
      s.confirmed ++ c%"▽" ++ e.kanaForm.adjust im s.kana ++ (s.pre.map e.keysymName).flatten := by
  unfold State.preeditString State.preeditDetail
  rcases hm with hm | hm <;> simp only [hm] <;> rw [unconverted_getD]

theorem okurigana_text (e : Env) (s : State) (hm : s.mode = .preCompositionOkurigana) :
    s.preeditString e .hiragana =
      s.confirmed ++ c%"▽" ++ s.kana ++ c%"*" ++ s.okuri ++ (s.pre.map e.keysymName).flatten := by
  unfold State.preeditString State.preeditDetail
  simp only [hm]
  rw [unconverted_getD]
  cases ho : s.okuri with
  | nil => rfl
  | cons a l => rfl

/-- **C38 (Direct).** Delete takes exactly the last shown character away; it is handed back exactly when nothing is
shown, and then changes nothing. -/
theorem delete_direct (e : Env) (s : State) (hm : s.mode = .direct) (hn : SingleNames e s) (im : InputMode) :
    s.delete.1.preeditString e im = (s.preeditString e im).dropLast ∧
    (s.delete.2 = true ↔ s.preeditString e im ≠ []) ∧
    (s.delete.2 = false → s.delete.1 = s) := by
  have hd : s.delete = if s.pre ≠ [] then ({ s with pre := s.pre.dropLast }, true)
      else ({ s with confirmed := s.confirmed.dropLast }, !s.confirmed.isEmpty) := by
    unfold State.delete; simp only [hm]
  rw [direct_text e s hm, hd]
  by_cases hp : s.pre = []
  · simp only [hp, ne_eq, not_true_eq_false, if_false]
    rw [direct_text e { s with pre := [], confirmed := s.confirmed.dropLast } hm]
    refine ⟨by simp, ?_, ?_⟩
    · cases s.confirmed <;> simp
    · intro h
      cases hc : s.confirmed with
      | nil =>
        show ({ s with pre := [], confirmed := [] } : State) = s
        rw [← hp, ← hc]
      | cons a l => rw [hc] at h; cases h
  · simp only [hp, ne_eq, not_false_eq_true, if_true]
    rw [direct_text e { s with pre := s.pre.dropLast } hm]
    refine ⟨?_, ?_, by simp⟩
    · show s.confirmed ++ (s.pre.dropLast.map e.keysymName).flatten = _
      rw [names_dropLast e _ hn, List.dropLast_append_of_ne_nil (names_ne_nil e _ hn hp)]
    · simp only [true_iff]
      exact fun h => names_ne_nil e _ hn hp (List.append_eq_nil_iff.mp h).2

/-- **C38 (composing).** Delete takes exactly the last shown character away, the mark `▽` too if nothing else is left,
and is always consumed. -/
theorem delete_composing (e : Env) (s : State) (hm : s.mode = .preComposition ∨ s.mode = .abbreviation)
    (hn : SingleNames e s) :
    s.delete.1.preeditString e .hiragana = (s.preeditString e .hiragana).dropLast ∧ s.delete.2 = true := by
  have hd : s.delete = if s.pre ≠ [] then ({ s with pre := s.pre.dropLast }, true)
      else if s.kana ≠ [] then ({ s with kana := s.kana.dropLast, raw := s.raw.dropLast }, true)
      else ({ s with raw := s.raw.dropLast, mode := .direct }, true) := by
    unfold State.delete; rcases hm with hm | hm <;> simp only [hm]
  rw [composing_text e s hm, hd]
  by_cases hp : s.pre = []
  · by_cases hk : s.kana = []
    · simp only [hp, hk, ne_eq, not_true_eq_false, if_false]
      refine ⟨?_, trivial⟩
      rw [direct_text e { s with pre := [], kana := [], raw := s.raw.dropLast, mode := .direct } rfl]
      simp [KanaFormChanger.adjust]
    · simp only [hp, hk, ne_eq, not_true_eq_false, if_false, not_false_eq_true, if_true]
      refine ⟨?_, trivial⟩
      rw [composing_text e { s with pre := [], kana := s.kana.dropLast, raw := s.raw.dropLast } hm]
      simp only [KanaFormChanger.adjust, List.map_nil, List.flatten_nil, List.append_nil]
      rw [List.dropLast_append_of_ne_nil hk]
  · simp only [hp, ne_eq, not_false_eq_true, if_true]
    refine ⟨?_, trivial⟩
    rw [composing_text e { s with pre := s.pre.dropLast } hm]
    show _ ++ (s.pre.dropLast.map e.keysymName).flatten = _
    rw [names_dropLast e _ hn, List.dropLast_append_of_ne_nil (names_ne_nil e _ hn hp)]

/-- **C38 (okurigana).** If something follows the mark `*`, Delete takes its last character away and is consumed; the
mark goes with the last one.  If nothing follows it, only the mark goes, and the key is handed back nevertheless. -/
theorem delete_okurigana (e : Env) (s : State) (hm : s.mode = .preCompositionOkurigana) (hn : SingleNames e s) :
    (2 ≤ s.okuri.length + s.pre.length →
      s.delete.1.preeditString e .hiragana = (s.preeditString e .hiragana).dropLast ∧ s.delete.2 = true) ∧
    (s.okuri.length + s.pre.length = 1 →
      s.delete.1.preeditString e .hiragana = (s.preeditString e .hiragana).dropLast.dropLast ∧ s.delete.2 = true) ∧
    (s.okuri.length + s.pre.length = 0 →
      s.delete.1.preeditString e .hiragana = (s.preeditString e .hiragana).dropLast ∧ s.delete.2 = false) := by
  have hd : s.delete = (if s.pre ≠ [] then
        (if s.pre.dropLast.isEmpty && s.okuri.isEmpty then { s with pre := s.pre.dropLast, mode := .preComposition }
          else { s with pre := s.pre.dropLast }, true)
      else (if s.okuri.dropLast.isEmpty then
          { s with okuri := s.okuri.dropLast, raw := s.raw.dropLast, mode := .preComposition }
          else { s with okuri := s.okuri.dropLast, raw := s.raw.dropLast }, !s.okuri.isEmpty)) := by
    unfold State.delete
    simp only [hm]
    by_cases hp : s.pre = []
    · simp [hp]
    · simp [hp]
  rw [okurigana_text e s hm, hd]
  by_cases hp : s.pre = []
  · simp only [hp, ne_eq, not_true_eq_false, if_false, List.length_nil, Nat.add_zero, List.map_nil, List.flatten_nil,
      List.append_nil]
    refine ⟨?_, ?_, ?_⟩
    · intro hl
      have h1 : s.okuri.dropLast.isEmpty = false := by
        cases hh : s.okuri.dropLast with
        | nil => have := congrArg List.length hh; rw [List.length_dropLast, List.length_nil] at this; omega
        | cons a l => rfl
      have h2 : s.okuri ≠ [] := by intro h; rw [h] at hl; simp at hl
      rw [h1]
      simp only [Bool.false_eq_true, if_false]
      rw [okurigana_text e { s with pre := [], okuri := s.okuri.dropLast, raw := s.raw.dropLast } hm]
      refine ⟨?_, by simp [h2]⟩
      simp only [ List.map_nil, List.flatten_nil, List.append_nil]
      rw [List.dropLast_append_of_ne_nil h2]
    · intro hl
      obtain ⟨ch, hch⟩ := List.length_eq_one_iff.mp hl
      simp only [hch, List.dropLast_singleton, List.isEmpty_nil, if_true]
      rw [composing_text e { s with pre := [], okuri := [], raw := s.raw.dropLast, mode := .preComposition } (Or.inl rfl)]
      simp only [KanaFormChanger.adjust, List.map_nil, List.flatten_nil, List.append_nil, List.dropLast_concat]
      exact ⟨trivial, rfl⟩
    · intro hl
      have ho := List.eq_nil_of_length_eq_zero hl
      simp only [ho, List.dropLast_nil, List.isEmpty_nil, if_true]
      rw [composing_text e { s with pre := [], okuri := [], raw := s.raw.dropLast, mode := .preComposition } (Or.inl rfl)]
      simp only [KanaFormChanger.adjust, List.map_nil, List.flatten_nil, List.append_nil, List.dropLast_concat]
      exact ⟨trivial, rfl⟩
  · simp only [hp, ne_eq, not_false_eq_true, if_true]
    have hlp : 0 < s.pre.length := List.length_pos_iff.mpr hp
    refine ⟨?_, ?_, fun h => by omega⟩
    · intro hl
      have h1 : (s.pre.dropLast.isEmpty && s.okuri.isEmpty) = false := by
        rw [Bool.and_eq_false_iff]
        cases ho : s.okuri with
        | nil =>
          left
          cases hh : s.pre.dropLast with
          | nil =>
            have := congrArg List.length hh
            rw [List.length_dropLast, List.length_nil] at this
            rw [ho, List.length_nil] at hl
            omega
          | cons a l => rfl
        | cons a l => right; rfl
      rw [h1]
      simp only [Bool.false_eq_true, if_false]
      rw [okurigana_text e { s with pre := s.pre.dropLast } hm]
      refine ⟨?_, trivial⟩
      show _ ++ (s.pre.dropLast.map e.keysymName).flatten = _
      rw [names_dropLast e _ hn, List.dropLast_append_of_ne_nil (names_ne_nil e _ hn hp)]
    · intro hl
      have ho : s.okuri = [] := List.eq_nil_of_length_eq_zero (by omega)
      obtain ⟨k, hk⟩ := List.length_eq_one_iff.mp (show s.pre.length = 1 by omega)
      have hkn := hn k (by rw [hk]; simp)
      obtain ⟨ch, hch⟩ := List.length_eq_one_iff.mp hkn
      simp only [hk, ho, List.dropLast_singleton, List.isEmpty_nil, Bool.and_true, if_true]
      rw [composing_text e { s with pre := [], okuri := [], mode := .preComposition } (Or.inl rfl)]
      simp only [KanaFormChanger.adjust, List.map_nil, List.flatten_nil, List.append_nil, List.dropLast_concat,
        List.map_cons, hch, List.flatten_cons]
      exact ⟨trivial, trivial⟩

/-- In the other modes Delete is handed back and changes nothing. -/
theorem delete_other (s : State)
    (hm : s.mode = .compositionSelection ∨ s.mode = .completion ∨ s.mode = .register) : s.delete = (s, false) := by
  unfold State.delete
  rcases hm with h | h | h <;> simp only [h]

/-- With either shipped rule BackSpace is the command Delete in these modes. -/
theorem backspace_is_delete (e : Env) (c : Ctx)
    (hs : (c.cmds = Assets.defaultCommands ∧ c.kanaConv = Assets.defaultKana) ∨ (c.cmds = Assets.azikCommands ∧ c.kanaConv = Assets.azikKana))
    (hm : c.top.mode = .direct ∨ ((c.top.mode = .preComposition ∨ c.top.mode = .preCompositionOkurigana ∨
      c.top.mode = .abbreviation) ∧ c.top.inputMode ≠ .ascii ∧ c.top.inputMode ≠ .zenkaku)) :
    c.processKeyEvent e ⟨0xff08, 0⟩ = .ok ({ c with top := c.top.delete.1 }, c.top.delete.2) := by
  have hrel : Modifier.contains (KeyEvent.mk 0xff08 0).modifiers Modifier.RELEASE = false := by decide
  have hnone : ∀ ks, c.kanaConv.convertNonPartial (ks ++ [0xff08]) = none := by
    intro ks
    cases hv : c.kanaConv.convertNonPartial (ks ++ [0xff08]) with
    | none => rfl
    | some v =>
      exfalso
      rcases hs with ⟨_, hk⟩ | ⟨_, hk⟩ <;> rw [hk] at hv <;> obtain ⟨pre, post, he, _⟩ := ((Romaji.convert_non_partial_iff _ _ _).mp hv).1
      · have : ∀ x ∈ Assets.defaultRomaji, 0xff08 ∉ x.1 := by decide +kernel
        exact this (ks ++ [0xff08], v) (by rw [he]; simp) (by simp)
      · have : ∀ x ∈ Assets.azikRomaji, 0xff08 ∉ x.1 := by decide +kernel
        exact this (ks ++ [0xff08], v) (by rw [he]; simp) (by simp)
  have hskip : c.skipCommand ⟨0xff08, 0⟩ = false := by
    unfold Ctx.skipCommand KanaBuilder.combineLower KanaBuilder.combineRaw
    have hu : KanaBuilder.uncapitalize 0xff08 = 0xff08 := by decide
    simp only [hu, hnone]
    simp
  have hreg : c.top.mode ≠ .register := by rcases hm with h | ⟨h | h | h, _⟩ <;> rw [h] <;> simp
  have hget : c.cmds.getInstruction e.prof ⟨0xff08, 0⟩ c.top.inputMode c.top.mode = .ok (some [.delete]) := by
    unfold CommandRule.getInstruction
    rw [if_neg hreg]
    rcases hs with ⟨hr, _⟩ | ⟨hr, _⟩ <;> rw [hr] <;>
    rcases hm with h | ⟨h | h | h, h1, h2⟩ <;> rw [h] <;>
      cases him : c.top.inputMode <;>
      first
      | exact absurd him h1
      | exact absurd him h2
      | decide +kernel
  unfold Ctx.processKeyEvent Ctx.processInner
  rw [hrel, hskip]
  simp only [Bool.false_eq_true, if_false]
  rw [hget]
  rfl

/-- Each case occurs: `▽かk`, `▽おく*っt`, nothing typed. -/
example : ((Reading.okuCtx.processKeyEvents (Assets.env ⟨true⟩) (typed c%"Kak")).toOption.map fun c =>
      (c.preedit (Assets.env ⟨true⟩), decide (∀ k ∈ c.top.pre, ((Assets.env ⟨true⟩).keysymName k).length = 1))) =
        some (c%"▽かk", true) ∧
    ((Reading.okuCtx.processKeyEvents (Assets.env ⟨true⟩) (typed c%"Kak" ++ [⟨0xff08, 0⟩])).toOption.map fun c =>
      c.preedit (Assets.env ⟨true⟩)) = some c%"▽か" ∧
    ((Reading.okuCtx.processKeyEvents (Assets.env ⟨true⟩) (typed c%"OkuTt" ++ [⟨0xff08, 0⟩])).toOption.map fun c =>
      c.preedit (Assets.env ⟨true⟩)) = some c%"▽おく*っ" ∧
    ((Reading.okuCtx.processKeyEvent (Assets.env ⟨true⟩) ⟨0xff08, 0⟩).toOption.map fun r => r.2) = some false := by
  decide +kernel

/-- **Exception to C38.** With the mode PreCompositionOkurigana set by the API and no okurigana yet, Delete removes the
mark but reports that it did nothing, so the application deletes a character of its own text as well; besides, the
reading used for lookups loses its last kana. -/
theorem delete_bare_mark (s : State) (hm : s.mode = .preCompositionOkurigana) (hp : s.pre = []) (ho : s.okuri = []) :
    s.delete.2 = false ∧ s.delete.1.mode = .preComposition ∧ s.delete.1.kana = s.kana ∧
      s.delete.1.raw = s.raw.dropLast := by
  unfold State.delete
  simp [hm, hp, ho]

end Cskk.Props.Delete
