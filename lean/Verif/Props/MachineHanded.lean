import Verif.Props.MachineDirect
import Verif.Props.ShiftKey

/-!
# C75: keys which are handed back, and keys which do the same
-/

namespace Cskk.Props.Machine

open Spec Spec.Typing Spec.Teach Spec.Document Spec.ModeKeys Spec.Editing Spec.Machine
open Romaji KanaBuilder Navigate Convert Typing Words ShippedTyping
open Cskk.Props.Document (Uses)

theorem level_mode {s : State} {m : InputMode} {p : Phase} (h : Level s m p) : s.mode = Phase.doing p := by
  cases p with
  | direct u b => exact DirectAt.mode h
  | reading d => exact ReadingAt.mode h
  | short text sh => exact ShortAt.mode h
  | okuri stem tail u b => exact OkuriAt.mode h
  | choosing a words i => exact ChoosingAt.mode h
  | completing text sh words i => exact CompletingAt.mode h

theorem level_kana {s : State} {m : InputMode} {p : Phase} (h : Level s m p) : Phase.doing p = .direct ∨ kanaMode m = true := by
  cases p with
  | direct u b => exact .inl rfl
  | reading d => exact .inr (ReadingAt.kanaMode h)
  | short text sh => exact .inr (ShortAt.kanaMode h)
  | okuri stem tail u b => exact .inr (OkuriAt.kanaMode h)
  | choosing a words i => exact .inr (ChoosingAt.kanaMode h)
  | completing text sh words i => exact .inr (CompletingAt.kanaMode h)

theorem doing_ne (p : Phase) : Phase.doing p ≠ .register := by cases p <;> simp [Phase.doing]

theorem no_mark {pr : Bool} {ev : KeyEvent} (h : ¬ Printable ev) :
    ¬ (ev.symbolChar (Assets.env ⟨pr⟩).xkb = some '.' ∨ ev.symbolChar (Assets.env ⟨pr⟩).xkb = some ',') := by
  have : ev.symbolChar (Assets.env ⟨pr⟩).xkb = Assets.xkb.toChar ev.symbol := rfl
  rw [this]
  unfold Assets.xkb
  dsimp only
  unfold Printable at h
  rw [if_neg h]
  split
  · rename_i hx
    rcases hx with hx | hx | hx | hx <;> rw [hx] <;> decide
  · simp

section
variable {pr : Bool} {S : Setup} {c : Ctx} {D D' : Desk}

theorem table_ascii (h : Rel pr S c D) {ev : KeyEvent} (hx : ev.symbol < 0x100 ∨ 0xff00 ≤ ev.symbol) : AsciiIn c.kanaConv ev := by
  have hu := h.runs.uses
  generalize S.layout = L at hu
  cases hu with
  | default _ hk => rw [hk]; exact WillProcess.default_table_ascii ev
  | azik _ hk => rw [hk]; exact WillProcess.azik_table_ascii ev (fun h9 => by rw [h9] at hx; revert hx; decide) (fun h9 => by rw [h9] at hx; revert hx; decide)

/-- A key of which the rule knows nothing. -/
theorem handed (h : Rel pr S c D) (ev : KeyEvent) (hn : IsRelease ev ∨ NoCommand c ev)
    (hx : HasOtherModifier ev ∨ (¬ Printable ev ∧ (ev.symbol < 0x100 ∨ 0xff00 ≤ ev.symbol))) : Goes pr S c ev D false := by
  refine ⟨c, ?_, h⟩
  by_cases hrel : IsRelease ev
  · exact KeyInput.release_inert _ c ev hrel
  have hn := hn.resolve_left hrel
  have hmode : c.top.mode ≠ .register := by rw [level_mode h.level]; exact doing_ne _
  rw [WillProcess.process_no_command _ c ev hmode hrel hn]
  by_cases hmod : HasOtherModifier ev
  · exact WillProcess.charInput_mod _ c ev hmod
  obtain ⟨hpr, hr⟩ := hx.resolve_left hmod
  by_cases hrom : RomajiMode c
  · rw [WillProcess.charInput_rom _ c ev hrom hmod]
    exact (WillProcess.period_rom _ c ev _ hrom.1 (table_ascii h hr) hpr).2 (no_mark hpr)
  · have h1 := (modifierless_iff ev).mpr hmod
    have h2 : hasRom2kanaConversion c.top.inputMode c.top.mode = false := by
      rw [← Bool.not_eq_true, WillProcess.rom_iff]; exact hrom
    have hA : ev.isAsciiInputtable = false := by
      rw [← Bool.not_eq_true, WillProcess.printable_iff]; exact hpr
    have hwb : c.willBeProcessed ev c.top.pre = ev.isAsciiInputtable := by
      unfold Ctx.willBeProcessed
      rw [h1, h2]; simp
    have h3 : ¬ ((c.top.mode = .compositionSelection ∨ c.top.mode = .completion) ∧ c.willBeProcessed ev c.top.pre) := by
      rw [hwb, hA]; simp
    unfold Ctx.charInput
    simp only [h1, Bool.not_true, Bool.false_eq_true, if_false, if_neg h3, h2, hA]

/-- The same with the commands of the mode looked through. -/
theorem handed_of (h : Rel pr S c D) (ev : KeyEvent) (hx : HasOtherModifier ev ∨ (¬ Printable ev ∧ (ev.symbol < 0x100 ∨ 0xff00 ≤ ev.symbol)))
    (hn : ∀ k ∈ c.cmds (Phase.doing D.phase) D.mode, k.1 ≠ CommandRule.matchingKey ev) : Goes pr S c ev D false := by
  refine handed h ev (.inr fun k hk hm => ?_) hx
  rw [level_mode h.level, h.base.mode] at hk
  exact hn k hk ((matchingKey_iff _ _).mpr hm)

theorem not_upper_of {n : Nat} (h : ¬ (0x20 ≤ n ∧ n ≤ 0x7e)) : ¬ (0x41 ≤ n ∧ n ≤ 0x5a) := by omega

theorem low_or_high {n : Nat} (h : ¬ (0x100 ≤ n ∧ n < 0xff00 ∨ 0xff80 ≤ n ∧ n < 0xffbe ∨ 0x1000000 ≤ n)) : n < 0x100 ∨ 0xff00 ≤ n := by omega

/-- What the shipped commands look like. -/
def Listed (k : KeyEvent) : Prop :=
  (k.modifiers = 0 ∧ (0x20 ≤ k.symbol ∧ k.symbol ≤ 0x7e ∨ k.symbol ∈ [0xff08, 0xff09, 0xff0d, 0xff1b])) ∨ (k.modifiers = 1 ∧ k.symbol = 0xff09) ∨
  (k.modifiers = 4 ∧ (0x20 ≤ k.symbol ∧ k.symbol ≤ 0x7e) ∧ (0x41 ≤ k.symbol ∧ k.symbol ≤ 0x5a → k.symbol = 'G'.toNat ∨ k.symbol = 'H'.toNat))

instance (k : KeyEvent) : Decidable (Listed k) := by unfold Listed; infer_instance

theorem commands_listed (h : Rel pr S c D) {m : CompositionMode} {im : InputMode} : ∀ k ∈ c.cmds m im, Listed k.1 := by
  rcases h.runs.uses.cases with hc | hc <;> rw [hc] <;> cases m <;> cases im <;> decide +kernel

/-- A key which is of no use is no command. -/
theorem useless_noCommand (h : Rel pr S c D) {ev : KeyEvent} (hu : useless ev = true) : NoCommand c ev := by
  unfold useless at hu
  have hupper : ev.isUpper = true ↔ 0x41 ≤ ev.symbol ∧ ev.symbol ≤ 0x5a := isUpper_iff ev
  have hmods : (CommandRule.matchingKey ev).modifiers &&& ~~~5#32 = ev.modifiers &&& ~~~5#32 := by
    unfold CommandRule.matchingKey
    split
    · show (ev.modifiers &&& ~~~1#32) &&& ~~~5#32 = _
      rw [BitVec.and_assoc, show (~~~1#32 &&& ~~~5#32) = ~~~5#32 from by decide]
    · rfl
  have hsym : (CommandRule.matchingKey ev).symbol = ev.symbol := by
    unfold CommandRule.matchingKey
    split <;> rfl
  intro k hk hm
  have hl := commands_listed h k hk
  have hm := (matchingKey_iff _ _).mpr hm
  rw [hm] at hl
  unfold Listed at hl
  rw [hsym] at hl
  simp only [Bool.or_eq_true, Bool.and_eq_true, Bool.not_eq_true', decide_eq_true_eq, decide_eq_false_iff_not, Bool.or_eq_false_iff,
    List.contains_eq_mem] at hu
  rcases hu with (((hu | ⟨hu, hv⟩) | ⟨hu, hv⟩) | ⟨⟨⟨hu, hv⟩, hw⟩, hx⟩) | ⟨⟨⟨hu, hv⟩, hw⟩, hx⟩
  · rw [← hmods] at hu
    rcases hl with hl | hl | hl <;> rw [hl.1] at hu <;> exact hu (by decide)
  · have : (CommandRule.matchingKey ev).modifiers = if ev.isUpper then 4#32 else 5#32 := by
      unfold CommandRule.matchingKey
      cases hy : ev.isUpper with
      | true => rw [if_pos rfl, if_pos rfl]; show ev.modifiers &&& ~~~1#32 = _; rw [hu]; decide
      | false => rw [if_neg (by simp), if_neg (by simp)]; exact hu
    rw [this] at hl
    cases hy : ev.isUpper with
    | false => rw [hy] at hl; rcases hl with hl | hl | hl <;> exact absurd hl.1 (by decide)
    | true =>
      rw [hy] at hl
      rcases hl with hl | hl | hl
      · exact absurd hl.1 (by decide)
      · exact absurd hl.1 (by decide)
      · exact (hl.2.2 (hupper.mp hy)).elim hv.1 hv.2
  all_goals
    have hup : ev.isUpper = false := by rw [← Bool.not_eq_true, hupper]; exact not_upper_of hv
    have : (CommandRule.matchingKey ev).modifiers = ev.modifiers := by
      unfold CommandRule.matchingKey
      rw [hup]; rfl
    rw [this, hu] at hl
  · rcases hl with hl | hl | hl
    · exact absurd hl.1 (by decide)
    · exact absurd hl.1 (by decide)
    · exact hv hl.2.1
  · rcases hl with hl | hl | hl
    · exact absurd hl.1 (by decide)
    · exact hx hl.2
    · exact absurd hl.1 (by decide)
  · rcases hl with hl | hl | hl
    · exact hl.2.elim hv hx
    · exact absurd hl.1 (by decide)
    · exact absurd hl.1 (by decide)

/-- A key which is of no use is held with other modifiers, or is no character. -/
theorem useless_plain {ev : KeyEvent} (hu : useless ev = true) : HasOtherModifier ev ∨ (¬ Printable ev ∧ (ev.symbol < 0x100 ∨ 0xff00 ≤ ev.symbol)) := by
  unfold useless at hu
  simp only [Bool.or_eq_true, Bool.and_eq_true, Bool.not_eq_true', decide_eq_true_eq, decide_eq_false_iff_not, Bool.or_eq_false_iff,
    List.contains_eq_mem] at hu
  rcases hu with (((hu | ⟨hu, hv⟩) | ⟨hu, hv⟩) | ⟨⟨⟨hu, hv⟩, hw⟩, hx⟩) | ⟨⟨⟨hu, hv⟩, hw⟩, hx⟩
  · refine .inl (Classical.byContradiction fun hno => hu ?_)
    apply BitVec.eq_of_getLsbD_eq
    intro i hi
    rw [BitVec.getLsbD_and, show BitVec.getLsbD (0 : BitVec 32) i = false from BitVec.getLsbD_zero]
    by_cases h0 : i = 0
    · subst h0; rw [show (~~~5#32).getLsbD 0 = false from by decide, Bool.and_false]
    · have : ev.modifiers.getLsbD i = false := by
        rw [← Bool.not_eq_true]; exact fun hy => hno ⟨i, h0, hy⟩
      rw [this, Bool.false_and]
  · exact .inl ⟨2, by decide, by rw [hu]; decide⟩
  · exact .inl ⟨2, by decide, by rw [hu]; decide⟩
  all_goals
    exact .inr ⟨hv, low_or_high hw⟩

/-- A key which is of no use is handed back. -/
theorem useless_handed (h : Rel pr S c D) {ev : KeyEvent} (hu : useless ev = true) : Goes pr S c ev D false :=
  handed h ev (.inr (useless_noCommand h hu)) (useless_plain hu)

/-! ## Keys which do the same -/

/-- Two keys with the same command do the same. -/
theorem same_command (h : Rel pr S c D) {ev ev' : KeyEvent} {is : List Instruction} (h1 : CommandIs c ev is) (h2 : CommandIs c ev' is)
    (hr : ¬ IsRelease ev) (hr' : ¬ IsRelease ev') (hs : ¬ Completes S.layout.tbl c.top.pre ev) (hs' : ¬ Completes S.layout.tbl c.top.pre ev') {b : Bool}
    (hg : Goes pr S c ev' D' b) : Goes pr S c ev D' b := by
  have hm : c.top.mode ≠ .register := by rw [level_mode h.level]; exact doing_ne _
  obtain ⟨c', g1, g2⟩ := hg
  refine ⟨c', ?_, g2⟩
  rw [key_command _ c ev _ hr hm h1 (ModeKeys.skip_iff c _ ev h.runs.table hs)]
  rw [key_command _ c ev' _ hr' hm h2 (ModeKeys.skip_iff c _ ev' h.runs.table hs')] at g1
  exact g1

/-- The command for a key in this phase. -/
theorem command_of (h : Rel pr S c D) {ev : KeyEvent} {is : List Instruction}
    (hf : ((c.cmds (Phase.doing D.phase) D.mode).find? fun b => decide (b.1 = CommandRule.matchingKey ev)).map (·.2) = some is) : CommandIs c ev is := by
  apply commandIs_of_find
  rw [level_mode h.level, h.base.mode]
  exact hf

theorem table_printable (h : Rel pr S c D) : ∀ x ∈ S.layout.tbl, ∀ k ∈ x.1, k < 0xff00 := by
  have hu := h.runs.uses
  generalize S.layout = L at hu
  cases hu with
  | default _ _ => decide +kernel
  | azik _ _ => decide +kernel

/-- A key which is no character completes nothing. -/
theorem high_completes (h : Rel pr S c D) {ev : KeyEvent} (u : List Keysym) (hx : 0xff00 ≤ ev.symbol) : ¬ Completes S.layout.tbl u ev := by
  intro hc
  have hun : uncapitalize ev.symbol = ev.symbol := by
    unfold uncapitalize KEY_A KEY_Z
    exact if_neg fun hy => by
      have := Nat.le_trans hx hy.2
      revert this; decide
  obtain ⟨x, hx1, he | he⟩ := ModeKeys.completes_entry hc
  · exact absurd (table_printable h x hx1 ev.symbol (by rw [he]; simp)) (Nat.not_lt_of_le hx)
  · rw [hun] at he
    exact absurd (table_printable h x hx1 ev.symbol (by rw [he]; simp)) (Nat.not_lt_of_le hx)

theorem ctrl_completes {n : Keysym} {tbl : Table} {u : List Keysym} : ¬ Completes tbl u ⟨n, 4⟩ := by
  rintro ⟨hx, _⟩
  exact hx ⟨2, by decide, show (4#32).getLsbD 2 = true by decide⟩

theorem ctrl_release {n : Keysym} : ¬ IsRelease ⟨n, 4⟩ := by
  show ¬ (4#32).getLsbD 30 = true
  decide

/-- The composition was finished. -/
theorem finished_rel (h : Rel pr S c D) {c' : Ctx} {w : Str} (s1 : Finished c c' (c.top.confirmed ++ w)) : Rel pr S c' (D.commit w) := by
  have hb := h.base
  obtain ⟨o1, o2, o3, o4, o5⟩ := s1.only
  obtain ⟨e1, e2, e3⟩ := s1.reading
  refine ⟨h.runs.congr o3 o4 o5, o2.trans h.dicts, ⟨s1.committed.trans ?_, s1.inputMode.trans hb.mode, ?_, s1.default.trans hb.default, ?_⟩,
    ⟨s1.mode, s1.pending.1, s1.pending.2, e1, e2, e3⟩, by rw [o1]; exact h.below⟩
  · rw [hb.written]; rfl
  · rw [s1.history]; exact hb.leave (level_mode h.level)
  · rw [s1.history]; exact remember_length _ _

theorem wide_string (f : AsciiFormChanger) (w : Str) : f.adjustString w = (w.map f.adjustChar).flatten := by
  have key : ∀ (w acc : Str), w.foldl (fun result c =>
      match assocGet f.zenkakuMap [c] with
      | some z => result ++ z
      | none => result ++ [c]) acc = acc ++ (w.map f.adjustChar).flatten := by
    intro w
    induction w with
    | nil => simp
    | cons c w ih =>
      intro acc
      rw [List.foldl_cons, ih, List.map_cons, List.flatten_cons, ← List.append_assoc]
      congr 1
      unfold AsciiFormChanger.adjustChar
      cases assocGet f.zenkakuMap [c] <;> rfl
  exact key w []

/-- Ctrl with the key for katakana, and Ctrl-q in an abbreviation: what was typed is committed. -/
theorem commit_only (h : Rel pr S c D) {ev : KeyEvent} (m : InputMode) (hr : ¬ IsRelease ev)
    (hc : CommandIs c ev [.confirmAs m, .changeCompositionMode .direct]) (hs : ¬ Completes S.layout.tbl c.top.pre ev) :
    Goes pr S c ev (D.commit (if m = .zenkaku then (c.top.kana.map S.wide).flatten else S.form m c.top.kana)) true := by
  have hm : c.top.mode ≠ .register := by rw [level_mode h.level]; exact doing_ne _
  obtain ⟨c', h1, s1⟩ := ModeKeys.commit_reading_only (Assets.env ⟨pr⟩) c S.layout.tbl ev m h.runs.table hr hm h.base.history hc hs
  refine ⟨c', h1, finished_rel h ?_⟩
  rw [h.runs.wide, h.runs.form, ← wide_string]
  exact s1

/-- The key which begins a reading does nothing where there is one already (default rule). -/
theorem opener_nothing (h : Rel pr S c D) {ch : Char} (ho : ch = S.opener)
    (hm : c.top.mode = .preComposition ∨ c.top.mode = .preCompositionOkurigana) (hk : kanaMode D.mode = true)
    (hcm : command S.layout c.top.mode c.top.pre ch = true) : Goes pr S c ⟨ch.toNat, 0⟩ D true := by
  have hn := not_completes hcm
  have hmem : ch ∈ S.layout.commands c.top.mode := by
    unfold command at hcm
    rw [Bool.and_eq_true] at hcm
    simpa using hcm.1
  obtain ⟨h1, h2⟩ := h.runs.opener.resolve_right (by
    rintro ⟨hz, hx⟩
    rw [ho, hx] at hmem
    have hu := h.runs.uses
    revert hmem
    generalize S.layout = L at hu
    cases hu with
    | default a b => rcases hm with hm | hm <;> rw [hm] <;> decide
    | azik a b => rcases hm with hm | hm <;> rw [hm] <;> decide)
  have hQ : ch = 'Q' := ho.trans h2
  subst hQ
  have hfind : ((c.cmds c.top.mode c.top.inputMode).find? fun b => decide (b.1 = CommandRule.matchingKey ⟨'Q'.toNat, 0⟩)).map (·.2) = some [.finishKeyEvent] := by
    rw [h.base.mode, h1]
    rcases hm with hm | hm <;> rw [hm] <;> rcases kanaMode_iff.mp hk with h | h | h <;> rw [h] <;> decide +kernel
  refine ⟨c, ?_, h⟩
  rw [key_command _ c _ _ (by unfold IsRelease; decide) (by rcases hm with hm | hm <;> rw [hm] <;> decide) (commandIs_of_find hfind)
    (ModeKeys.skip_iff c S.layout.tbl _ h.runs.table ?_)]
  · rfl
  · rintro ⟨_, hx | hx⟩
    · rw [hn.1] at hx; cases hx
    · rw [hn.2] at hx; cases hx

end

end Cskk.Props.Machine
