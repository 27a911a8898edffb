import Verif.Spec.Taken
import Verif.Props.ShippedTyping
import Verif.Props.WillProcess
import Verif.Props.Document

/-!
# C72: what is typed goes to the input method, not to the application
-/

namespace Cskk.Props.Taken
open Spec Spec.Taken WillProcess

/-- The rule is one of the two shipped ones. -/
def Shipped (r : CommandRule) : Prop := r = Assets.defaultCommands ∨ r = Assets.azikCommands

theorem character_printable {ev : KeyEvent} (h : Character ev) : Printable ev := by
  obtain ⟨ch, rfl, h1, h2⟩ := h; exact ⟨h1, h2⟩

theorem character_char (pr : Bool) {ev : KeyEvent} (h : Character ev) : (ev.symbolChar (Assets.env ⟨pr⟩).xkb).isSome = true := by
  obtain ⟨ch, rfl, h1, h2⟩ := h
  obtain ⟨_, _, this⟩ := ShippedTyping.shipped_key pr ch h1 h2
  simp only [KeyEvent.symbolChar]
  rw [this]; rfl

theorem character_bare {ev : KeyEvent} (h : Character ev) : ev.isModifierlessInput = true := by
  obtain ⟨ch, rfl, h1, h2⟩ := h
  rw [modifierless_iff]
  rintro ⟨i, _, hb⟩; simp at hb

/-- The shipped rules bind no character to a command which may hand the key back. -/
theorem character_commands {r : CommandRule} (h : Shipped r) {ev : KeyEvent} (hev : Character ev) (cm : CompositionMode) (im : InputMode) :
    ∀ k ∈ r cm im, KeyMatches k.1 ev → k.2 ≠ [] ∧ .passthroughKeyEvent ∉ k.2 ∧ .confirmDirect ∉ k.2 ∧ .delete ∉ k.2 := by
  have hall : ∀ r, Shipped r → ∀ cm im, ∀ k ∈ r cm im,
      (k.2 ≠ [] ∧ .passthroughKeyEvent ∉ k.2 ∧ .confirmDirect ∉ k.2 ∧ .delete ∉ k.2) ∨
        ((k.1.symbol < 0x20 ∨ 0x7e < k.1.symbol) ∨ k.1.modifiers ≠ 0) := by
    rintro r (rfl | rfl) cm im <;> cases cm <;> cases im <;> decide +kernel
  intro k hk hm
  rcases hall r h cm im k hk with h | h
  · exact h
  · exfalso
    have hm' := (matchingKey_iff k.1 ev).mpr hm
    obtain ⟨ch, rfl, h1, h2⟩ := hev
    have hs : k.1.symbol = ch.toNat := hm.1
    rcases h with h | h
    · rw [hs] at h; exact h.elim (fun h => absurd h1 (Nat.not_le_of_lt h)) (fun h => absurd h2 (Nat.not_le_of_lt h))
    · apply h
      rw [hm']; unfold CommandRule.matchingKey
      split
      · show (0 : Modifier) &&& _ = 0
        exact BitVec.zero_and
      · rfl

theorem instruction_of {r : CommandRule} {p : Profile} {ev : KeyEvent} {im : InputMode} {cm : CompositionMode}
    {is : List Instruction} (h : r.getInstruction p ev im cm = .ok (some is)) : ∃ k ∈ r cm im, KeyMatches k.1 ev ∧ k.2 = is := by
  unfold CommandRule.getInstruction at h
  split at h
  · split at h <;> cases h
  · have h := Except.ok.inj h
    cases hf : (r cm im).find? fun e => decide (e.1 = CommandRule.matchingKey ev) with
    | none => rw [hf] at h; cases h
    | some k =>
      rw [hf] at h
      exact ⟨k, List.mem_of_find?_eq_some hf, (matchingKey_iff _ _).mp (of_decide_eq_true (List.find?_some hf :)), Option.some.inj h⟩

theorem kana_rom {c : Ctx} (hm : M3 c.top.mode) (hk : Kana c.top.inputMode) : hasRom2kanaConversion c.top.inputMode c.top.mode = true :=
  (rom_iff c).mpr ⟨hm, hk⟩

/-- A character which is no command, in a state where typing can go on. -/
theorem charInput_taken (pr : Bool) {c : Ctx} (hd : c.top.defaultMode = .direct) (hl : ¬ Lost c) {ev : KeyEvent} (hev : Character ev) :
    Says true (c.charInput (Assets.env ⟨pr⟩) ev) := by
  have hp := character_printable hev
  have ha := (printable_iff ev).mpr hp
  have hch := character_char pr hev
  have direct : ∀ c : Ctx, c.top.mode = .direct → ∀ pre,
      Says true (if hasRom2kanaConversion c.top.inputMode c.top.mode then c.romInput (Assets.env ⟨pr⟩) ev pre
        else if ev.isAsciiInputtable then .ok (c.plainInput (Assets.env ⟨pr⟩) ev) else .ok (c, false)) := by
    intro c hm pre
    split
    · exact says_rom _ c ev pre (Or.inl hm) hp hch
    · rename_i hr
      apply Always.ok
      obtain ⟨ch, hc⟩ := Option.isSome_iff_exists.mp hch
      unfold Ctx.plainInput
      rw [hm, hc]
      rw [hm] at hr
      cases hi : c.top.inputMode <;> simp_all [hasRom2kanaConversion]
  unfold Ctx.charInput
  rw [character_bare hev]
  simp only [Bool.not_true, Bool.false_eq_true, if_false]
  by_cases hls : ListShown c.top.mode
  · -- the shown word is confirmed first
    have hrom : hasRom2kanaConversion c.top.inputMode c.top.mode = false := by
      rcases hls with h | h <;> rw [h] <;> rfl
    have hw : c.willBeProcessed ev c.top.pre = true := by
      unfold Ctx.willBeProcessed; rw [hrom, ha]; simp
    have hcur : c.top.cands.current ≠ none := fun h => hl (.inr (.inl ⟨hls, h⟩))
    obtain ⟨x, hx⟩ := Option.ne_none_iff_exists'.mp hcur
    rw [if_pos (c := (c.top.mode = .compositionSelection ∨ c.top.mode = .completion) ∧ c.willBeProcessed ev c.top.pre = true) ⟨hls, hw⟩]
    apply direct
    unfold Ctx.confirmCurrent
    rw [hx]
    show (((c.top.push _).clearUnconfirmed).resetToDefault).mode = .direct
    have : ∀ w, (c.top.push w).defaultMode = c.top.defaultMode := by
      intro w; unfold State.push State.pushFor; cases c.top.mode <;> rfl
    show ((c.top.push _)).defaultMode = .direct
    rw [this, hd]
  · rw [if_neg (c := (c.top.mode = .compositionSelection ∨ c.top.mode = .completion) ∧ c.willBeProcessed ev c.top.pre = true) (fun h => hls h.1)]
    cases hm : c.top.mode with
    | direct => have := direct c hm c.top.pre; rwa [hm] at this
    | preComposition =>
      have hk : Kana c.top.inputMode := Classical.byContradiction fun h => hl (.inr (.inr ⟨.inl hm, h⟩))
      have hr := kana_rom (.inr (.inl hm)) hk
      rw [hm] at hr
      rw [hr, if_pos rfl]
      exact says_rom _ c ev _ (.inr (.inl hm)) hp hch
    | preCompositionOkurigana =>
      have hk : Kana c.top.inputMode := Classical.byContradiction fun h => hl (.inr (.inr ⟨.inr hm, h⟩))
      have hr := kana_rom (.inr (.inr hm)) hk
      rw [hm] at hr
      rw [hr, if_pos rfl]
      exact says_rom _ c ev _ (.inr (.inr hm)) hp hch
    | compositionSelection => exact absurd (.inl hm) hls
    | completion => exact absurd (.inr hm) hls
    | register => exact absurd (.inl hm) hl
    | abbreviation =>
      have hr : hasRom2kanaConversion c.top.inputMode .abbreviation = false := rfl
      rw [hr, ha]
      simp only [Bool.false_eq_true, if_false, if_true]
      apply Always.ok
      obtain ⟨ch, hc⟩ := Option.isSome_iff_exists.mp hch
      unfold Ctx.plainInput
      rw [hm, hc]

/-- **C72.** The key of a printable character is taken whenever typing can go on. -/
theorem character_taken (pr : Bool) {c : Ctx} (hs : Shipped c.cmds) (hd : c.top.defaultMode = .direct) (hl : ¬ Lost c) {ev : KeyEvent}
    (hev : Character ev) {c' : Ctx} {b : Bool} (h : c.processKeyEvent (Assets.env ⟨pr⟩) ev = .ok (c', b)) : b = true := by
  have : Says true (c.processKeyEvent (Assets.env ⟨pr⟩) ev) := by
    unfold Ctx.processKeyEvent
    split
    · rename_i hr
      exfalso
      rw [contains_release] at hr
      obtain ⟨ch, rfl, _, _⟩ := hev
      simp [IsRelease] at hr
    · unfold Ctx.processInner
      split
      · exact charInput_taken pr hd hl hev
      · apply Always.bind'
        intro o ho
        cases o with
        | none => exact charInput_taken pr hd hl hev
        | some is =>
          obtain ⟨k, hk, hm, rfl⟩ := instruction_of ho
          obtain ⟨h0, h1, h2, h3⟩ := character_commands hs hev _ _ k hk hm
          exact ⟨fun r hr => command_consumed _ c k.2 h0 _ _ h1 h2 h3 r.1 r.2 hr⟩
  exact this.out _ h

/-! ## Typing can always go on, unless something is cancelled -/

/-- A level which is edited. -/
structure Fit (s : State) : Prop where
  mode : s.mode ≠ .register
  default : s.defaultMode = .direct
  kana : s.mode ≠ .direct → Kana s.inputMode
  word : ListShown s.mode → s.cands.current ≠ none

/-- A level which waits for a registration. -/
structure Waits (s : State) : Prop where
  mode : s.mode = .register
  default : s.defaultMode = .direct
  kana : Kana s.inputMode
  back : ∃ m, s.history.getLast? = some m ∧ m ≠ .register ∧ (ListShown m → s.cands.current ≠ none)

/-- All levels. -/
def AllFit (c : Ctx) : Prop := Fit c.top ∧ ∀ s ∈ c.below, Waits s

theorem Fit.not_lost {c : Ctx} (h : Fit c.top) : ¬ Lost c := by
  rintro (h1 | ⟨h1, h2⟩ | ⟨h1, h2⟩)
  · exact h.mode h1
  · exact h.word h1 h2
  · exact h2 (h.kana (by rcases h1 with h1 | h1 <;> rw [h1] <;> simp))

/-- The modes and the list of words are the same. -/
structure Like (s t : State) : Prop where
  mode : t.mode = s.mode
  input : t.inputMode = s.inputMode
  default : t.defaultMode = s.defaultMode
  cands : t.cands = s.cands

theorem Like.refl (s : State) : Like s s := ⟨rfl, rfl, rfl, rfl⟩

theorem Like.trans {s t u : State} (h : Like s t) (h' : Like t u) : Like s u :=
  ⟨h'.mode.trans h.mode, h'.input.trans h.input, h'.default.trans h.default, h'.cands.trans h.cands⟩

theorem Like.fit {s t : State} (h : Like s t) (hs : Fit s) : Fit t where
  mode := by rw [h.mode]; exact hs.mode
  default := by rw [h.default]; exact hs.default
  kana := by rw [h.mode, h.input]; exact hs.kana
  word := by rw [h.mode, h.cands]; exact hs.word

theorem like_pushFor (s : State) (w : Str) (m : CompositionMode) : Like s (s.pushFor w m) := by
  cases m <;> exact ⟨rfl, rfl, rfl, rfl⟩

theorem like_output (e : Env) (c : Ctx) (im : InputMode) (cm : CompositionMode) :
    Like c.top (c.outputConverted e im cm).top ∧ (c.outputConverted e im cm).below = c.below := by
  unfold Ctx.outputConverted
  split
  · split <;> exact ⟨⟨rfl, rfl, rfl, rfl⟩, rfl⟩
  · exact ⟨Like.refl _, rfl⟩

theorem fit_new : Fit (State.new .hiragana .direct) :=
  ⟨by simp [State.new], rfl, fun h => absurd rfl h, fun h => by rcases h with h | h <;> cases h⟩

/-- A level which asks for a registration. -/
theorem waits_of {s : State} (hd : s.defaultMode = .direct) (hk : Kana s.inputMode) (m : CompositionMode) (hm : m ≠ .register)
    (hw : ListShown m → s.cands.current ≠ none) : Waits (s.changeModeFrom .register m) := by
  refine ⟨rfl, hd, hk, m, ?_, hm, hw⟩
  unfold State.changeModeFrom
  dsimp only
  split
  · rename_i hlen
    rw [List.getLast?_drop, if_neg (by unfold HISTORY_MAX at hlen; omega)]
    simp
  · simp

theorem enter_fit {c : Ctx} (hc : ∀ s ∈ c.below, Waits s) (hf : Fit c.top) (hk : Kana c.top.inputMode) (m : CompositionMode) (hm : m ≠ .register)
    (hw : ListShown m → c.top.cands.current ≠ none) : AllFit (c.enterRegister m) := by
  unfold Ctx.enterRegister
  split
  · refine ⟨fit_new, ?_⟩
    intro s hs
    rcases List.mem_cons.mp hs with rfl | hs
    · exact waits_of hf.default hk m hm hw
    · exact hc s hs
  · exact ⟨hf, hc⟩

theorem set_current {s : State} {cs : List Candidate} (h : cs ≠ []) : (s.setCandidates cs).cands.current ≠ none := by
  cases cs with
  | nil => exact absurd rfl h
  | cons x xs => simp [State.setCandidates, CandidateList.set, CandidateList.current]

theorem current_ne {κ α : Type} (l : CandidateList κ α) : l.current ≠ none ↔ l.cursor < l.cands.length := by
  unfold CandidateList.current
  rw [ne_eq, List.getElem?_eq_none_iff, Nat.not_le]

theorem forward_fit (p : Profile) {s : State} (hs : Fit s) (hw : s.cands.current ≠ none) :
    Always (fun t => Fit t ∧ t.inputMode = s.inputMode) (s.forward p) := by
  have hlt := (current_ne _).mp hw
  unfold State.forward CandidateList.forward usizeSub
  rw [if_pos (by omega)]
  simp only [bind, Except.bind, pure, Except.pure]
  split
  · refine Always.error
  · rename_i v hv
    apply Always.ok
    split at hv
    · cases hv
      refine ⟨⟨hs.mode, hs.default, hs.kana, fun _ => ?_⟩, rfl⟩
      rw [current_ne]; dsimp only; omega
    · cases hv
      exact ⟨⟨hs.mode, hs.default, hs.kana, fun _ => hw⟩, rfl⟩

theorem backward_fit {s : State} (hs : Fit s) (hw : s.cands.current ≠ none) : Fit s.backward := by
  have hlt := (current_ne _).mp hw
  unfold State.backward CandidateList.backward
  split
  · refine ⟨hs.mode, hs.default, hs.kana, fun _ => ?_⟩
    rw [current_ne]; dsimp only; omega
  · exact ⟨hs.mode, hs.default, hs.kana, hs.word⟩

theorem update_fit {c : Ctx} (h : AllFit c) (hl : ¬ ListShown c.top.mode) :
    Always (fun c' => AllFit c' ∧ c'.top.mode = c.top.mode ∧ c'.top.inputMode = c.top.inputMode ∧
      (c'.top.cands.cands ≠ [] → c'.top.cands.current ≠ none)) c.updateCandidateList := by
  apply Always.bind'
  intro cs _
  apply Always.pure
  refine ⟨⟨⟨h.1.mode, h.1.default, h.1.kana, fun hh => absurd hh hl⟩, h.2⟩, rfl, rfl, fun hne => set_current hne⟩

theorem updateCompletion_fit {c : Ctx} (h : AllFit c) (hl : ¬ ListShown c.top.mode) :
    Always (fun c' => AllFit c' ∧ c'.top.mode = c.top.mode ∧ c'.top.inputMode = c.top.inputMode ∧
      (c'.top.cands.cands ≠ [] → c'.top.cands.current ≠ none)) c.updateCompletionList := by
  apply Always.bind'
  intro cs _
  apply Always.pure
  refine ⟨⟨⟨h.1.mode, h.1.default, h.1.kana, fun hh => absurd hh hl⟩, h.2⟩, rfl, rfl, fun hne => set_current hne⟩

theorem output_fit (e : Env) {c : Ctx} (h : AllFit c) (im : InputMode) (cm : CompositionMode) : AllFit (c.outputConverted e im cm) := by
  obtain ⟨h1, h2⟩ := like_output e c im cm
  exact ⟨h1.fit h.1, by rw [h2]; exact h.2⟩

theorem list_fit {c : Ctx} (h : AllFit c) (hk : Kana c.top.inputMode) (hw : c.top.cands.current ≠ none) (m : CompositionMode) (hm : ListShown m) :
    AllFit (c.setCompositionMode m) :=
  ⟨⟨by
    show m ≠ .register
    rcases hm with h | h <;> rw [h] <;> simp, h.1.default, fun _ => hk, fun _ => hw⟩, h.2⟩

/-- Asking for the next word. -/
theorem next_fit (e : Env) {c : Ctx} (h : AllFit c) (hk : Kana c.top.inputMode) (cm : CompositionMode) (im : InputMode)
    (h1 : cm ≠ .register ∧ cm ≠ .completion) (h2 : cm = .compositionSelection ↔ ListShown c.top.mode) : Always AllFit (c.tryNextCandidate e cm im) := by
  unfold Ctx.tryNextCandidate
  split
  · rename_i hcm
    have hl : ¬ ListShown (c.outputConverted e im cm).top.mode := by
      rw [(like_output e c im cm).1.mode, ← h2]; exact hcm
    apply Always.bind (update_fit (output_fit e h im cm) hl)
    rintro c' ⟨h', hm, hi, hw⟩
    have hk' : Kana c'.top.inputMode := by rw [hi, (like_output e c im cm).1.input]; exact hk
    split
    · apply Always.pure
      exact enter_fit h'.2 h'.1 hk' cm h1.1 (fun hh => by rcases hh with hh | hh; exact absurd hh hcm; exact absurd hh h1.2)
    · split
      · rename_i hne
        apply Always.pure
        exact list_fit h' hk' (hw (by simpa using hne)) _ (.inl rfl)
      · exact Always.pure h'
  · rename_i hcm
    have hcm : cm = .compositionSelection := Classical.byContradiction hcm
    have hw := h.1.word (h2.mp hcm)
    apply Always.bind'
    intro n _
    split
    · exact Always.pure (enter_fit h.2 h.1 hk cm h1.1 fun _ => hw)
    · apply Always.bind (forward_fit e.prof h.1 hw)
      intro s hs
      exact Always.pure ⟨hs.1, h.2⟩

theorem nextCompletion_fit (e : Env) {c : Ctx} (h : AllFit c) (hk : Kana c.top.inputMode) (cm : CompositionMode) (im : InputMode)
    (h1 : cm ≠ .completion) (hl : ¬ ListShown c.top.mode) : Always AllFit (c.tryNextCompletion e cm im) := by
  unfold Ctx.tryNextCompletion
  rw [if_pos h1]
  have hl : ¬ ListShown (c.outputConverted e im cm).top.mode := by
    rw [(like_output e c im cm).1.mode]; exact hl
  apply Always.bind (updateCompletion_fit (output_fit e h im cm) hl)
  rintro c' ⟨h', hm, hi, hw⟩
  have hk' : Kana c'.top.inputMode := by rw [hi, (like_output e c im cm).1.input]; exact hk
  split
  · exact Always.pure h'
  · split
    · rename_i hne
      apply Always.pure
      exact list_fit h' hk' (hw (by simpa using hne)) _ (.inr rfl)
    · exact Always.pure h'

theorem delete_modes (s : State) : s.delete.1.inputMode = s.inputMode ∧ s.delete.1.defaultMode = s.defaultMode ∧ s.delete.1.cands = s.cands ∧
    (s.delete.1.mode = s.mode ∨ s.mode ≠ .direct ∧ (s.delete.1.mode = .direct ∨ s.delete.1.mode = .preComposition)) := by
  unfold State.delete
  cases hm : s.mode <;> dsimp only
  case direct => split <;> exact ⟨rfl, rfl, rfl, by first | exact .inl hm | exact .inl rfl⟩
  case preComposition =>
    split
    · exact ⟨rfl, rfl, rfl, by first | exact .inl hm | exact .inl rfl⟩
    · split
      · exact ⟨rfl, rfl, rfl, by first | exact .inl hm | exact .inl rfl⟩
      · exact ⟨rfl, rfl, rfl, .inr ⟨by simp, .inl rfl⟩⟩
  case abbreviation =>
    split
    · exact ⟨rfl, rfl, rfl, by first | exact .inl hm | exact .inl rfl⟩
    · split
      · exact ⟨rfl, rfl, rfl, by first | exact .inl hm | exact .inl rfl⟩
      · exact ⟨rfl, rfl, rfl, .inr ⟨by simp, .inl rfl⟩⟩
  case preCompositionOkurigana =>
    split <;> split <;> first | exact ⟨rfl, rfl, rfl, .inr ⟨by simp, .inr rfl⟩⟩ | exact ⟨rfl, rfl, rfl, by first | exact .inl hm | exact .inl rfl⟩
  all_goals exact ⟨rfl, rfl, rfl, by first | exact .inl hm | exact .inl rfl⟩

theorem direct_not_list : ¬ ListShown .direct := by decide

theorem pre_not_list : ¬ ListShown .preComposition := by decide

theorem delete_fit {s : State} (h : Fit s) : Fit s.delete.1 := by
  obtain ⟨h1, h2, h3, h4⟩ := delete_modes s
  rcases h4 with h4 | ⟨h4, h5⟩
  · exact Like.fit ⟨h4, h1, h2, h3⟩ h
  · refine ⟨?_, h2.trans h.default, fun _ => by rw [h1]; exact h.kana h4, ?_⟩
    · rcases h5 with h5 | h5 <;> rw [h5] <;> simp
    · rcases h5 with h5 | h5 <;> rw [h5] <;> intro hh
      · exact absurd hh direct_not_list
      · exact absurd hh pre_not_list

theorem deleteN_fit (n : Nat) {s : State} (h : Fit s) (hl : ¬ ListShown s.mode) :
    Fit (Ctx.deleteN s n) ∧ ¬ ListShown (Ctx.deleteN s n).mode ∧ (Ctx.deleteN s n).inputMode = s.inputMode := by
  induction n generalizing s with
  | zero => exact ⟨h, hl, rfl⟩
  | succ n ih =>
    obtain ⟨h1, _, _, h4⟩ := delete_modes s
    have hl' : ¬ ListShown s.delete.1.mode := by
      rcases h4 with h4 | ⟨_, h4 | h4⟩ <;> rw [h4]
      · exact hl
      · exact direct_not_list
      · exact pre_not_list
    obtain ⟨a, b, c⟩ := ih (delete_fit h) hl'
    exact ⟨a, b, c.trans h1⟩

/-- Kana are typed on the current level. -/
structure Typ (c : Ctx) : Prop where
  all : AllFit c
  kana : Kana c.top.inputMode
  list : ¬ ListShown c.top.mode

theorem Typ.like {c : Ctx} (h : Typ c) (t : State) (hl : Like c.top t) : Typ { c with top := t } :=
  ⟨⟨hl.fit h.all.1, h.all.2⟩, by show Kana t.inputMode; rw [hl.input]; exact h.kana, by show ¬ ListShown t.mode; rw [hl.mode]; exact h.list⟩

theorem Typ.push {c : Ctx} (h : Typ c) (w : Str) (m : CompositionMode) : Typ (c.mapTop (·.pushFor w m)) := h.like _ (like_pushFor _ _ _)

theorem Typ.carry {c : Ctx} (h : Typ c) (l : List Keysym) : Typ (c.setCarryOver l) := h.like _ ⟨rfl, rfl, rfl, rfl⟩

theorem Typ.clear {c : Ctx} (h : Typ c) : Typ (c.mapTop State.clearPre) := h.like _ ⟨rfl, rfl, rfl, rfl⟩

theorem Typ.output {c : Ctx} (h : Typ c) (e : Env) (im : InputMode) (cm : CompositionMode) : Typ (c.outputConverted e im cm) := by
  obtain ⟨h1, h2⟩ := like_output e c im cm
  exact ⟨output_fit e h.all im cm, by rw [h1.input]; exact h.kana, by rw [h1.mode]; exact h.list⟩

theorem Typ.autoStart {c : Ctx} (h : Typ c) (e : Env) : Always AllFit (c.autoStartHenkan e) := by
  unfold Ctx.autoStartHenkan
  split
  · exact Always.error
  · dsimp only
    split
    · rename_i w hw
      obtain ⟨h1, h2, h3⟩ := deleteN_fit w.length h.all.1 h.list
      have hf : Typ (c.mapTop fun s => (Ctx.deleteN s w.length).setPostfix w) :=
        ⟨⟨⟨h1.mode, h1.default, h1.kana, h1.word⟩, h.all.2⟩, by show Kana (Ctx.deleteN _ _).inputMode; rw [h3]; exact h.kana, h2⟩
      exact next_fit e hf.all hf.kana _ _ (by simp) ⟨fun hh => (by cases hh), fun hh => absurd hh hf.list⟩
    · exact Always.ok h.all

theorem Typ.mode {c : Ctx} (h : Typ c) (m : CompositionMode) (hm : m ≠ .register) (hl : ¬ ListShown m) : Typ (c.setCompositionMode m) :=
  ⟨⟨⟨hm, h.all.1.default, fun _ => h.kana, fun hh => absurd hh hl⟩, h.all.2⟩, h.kana, hl⟩

theorem Typ.capital {c : Ctx} (h : Typ c) (ev : KeyEvent) (m : CompositionMode) (b : Bool) : Typ (c.transitionByCapital ev m b).1 := by
  unfold Ctx.transitionByCapital
  split
  · exact (h.mode .preComposition (by simp) (by decide)).like _ ⟨rfl, rfl, rfl, rfl⟩
  · split
    · exact (h.mode .preCompositionOkurigana (by simp) (by decide)).like _ ⟨rfl, rfl, rfl, rfl⟩
    · exact h

theorem Typ.okuri {c : Ctx} (h : Typ c) (carry : List Keysym) : Always AllFit (c.startOkuriHenkan carry) := by
  unfold Ctx.startOkuriHenkan
  split
  · apply Always.bind (update_fit h.all h.list)
    rintro c' ⟨h', hm, hi, hw⟩
    have hk' : Kana c'.top.inputMode := by rw [hi]; exact h.kana
    split
    · apply Always.pure
      exact enter_fit h'.2 h'.1 hk' _ h'.1.mode h'.1.word
    · rename_i hne
      exact Always.pure (list_fit h' hk' (hw (by simpa using hne)) _ (.inl rfl))
  · exact Always.ok h.all

theorem Typ.converted {c : Ctx} (h : Typ c) (e : Env) (w : Str) (carry : List Keysym) (d : Bool) (pre : List Keysym) :
    Always AllFit (c.inputConvertedKana e w carry d pre) := by
  unfold Ctx.inputConvertedKana
  split
  · exact Always.ok ((h.push _ _).carry carry).all
  · exact ((h.push w _).carry carry).autoStart e
  · dsimp only
    apply Typ.okuri
    apply Typ.carry
    split
    · exact h.push w _
    · exact h.push w _
  · exact Always.ok h.all

theorem Typ.continuous {c : Ctx} (h : Typ c) (ev : KeyEvent) : Typ (c.inputAsContinuous ev) := by
  unfold Ctx.inputAsContinuous
  split
  · exact h.like _ ⟨rfl, rfl, rfl, rfl⟩
  · exact h.like _ ⟨rfl, rfl, rfl, rfl⟩
  · exact h.like _ ⟨rfl, rfl, rfl, rfl⟩
  · exact h

theorem Typ.finish {c : Ctx} (h : Typ c) (e : Env) : Always (fun r => AllFit r.1) (c.finishSymbol e) := by
  unfold Ctx.finishSymbol
  split
  · exact Always.bind (h.autoStart e) fun c' h' => Always.pure h'
  · exact Always.ok h.all

theorem Typ.symbol {c : Ctx} (h : Typ c) (e : Env) (ev : KeyEvent) (ch : Char) (pre : List Keysym) :
    Always (fun r => AllFit r.1) (c.symbolInput e ev ch pre) := by
  have hflush : ∀ {c : Ctx}, Typ c → ∀ im cm, Typ ((c.outputConverted e im cm).mapTop State.clearPre) := by
    intro c h im cm
    exact (h.output e im cm).like _ ⟨rfl, rfl, rfl, rfl⟩
  unfold Ctx.symbolInput
  dsimp only
  split
  · have h2 := hflush h c.top.inputMode c.top.mode
    split
    · exact (h2.like _ (like_pushFor _ _ _)).finish e
    · exact (h2.push _ _).clear.finish e
    · exact (h2.push _ _).clear.finish e
    · exact Always.ok h2.all
  · split
    · exact (h.continuous ev).finish e
    · split
      · exact ((h.capital ev _ _).continuous _).finish e
      · split
        · exact Always.bind (h.converted e _ _ _ _) fun c' h' => Always.pure h'
        · split
          · split
            · exact Always.bind ((h.capital ev _ _).converted e _ _ _ _) fun c' h' => Always.pure h'
            · exact h.finish e
          · split
            · exact ((hflush h _ _).continuous ev).finish e
            · split
              · exact ((hflush (h.capital ev _ _) _ _).continuous _).finish e
              · split
                · have h2 := hflush h c.top.inputMode c.top.mode
                  split
                  · exact (h2.like _ (like_pushFor _ _ _)).finish e
                  · exact (h2.like _ (like_pushFor _ _ _)).finish e
                  · exact (h2.like _ (like_pushFor _ _ _)).finish e
                  · exact Always.ok h2.all
                · exact Always.ok h.all

theorem Typ.rom {c : Ctx} (h : Typ c) (e : Env) (ev : KeyEvent) (pre : List Keysym) : Always (fun r => AllFit r.1) (c.romInput e ev pre) := by
  unfold Ctx.romInput
  split
  · exact Always.bind (h.converted e _ _ _ _) fun c' h' => Always.pure h'
  · split
    · exact Always.bind ((h.capital ev _ _).converted e _ _ _ _) fun c' h' => Always.pure h'
    · split
      · exact h.symbol e ev _ pre
      · exact Always.ok h.all

theorem confirm_fit (e : Env) {c : Ctx} (h : Fit c.top) : Fit (c.confirmCurrent e).top ∧ (c.confirmCurrent e).below = c.below ∧
    (c.top.cands.current ≠ none → (c.confirmCurrent e).top.mode = .direct) ∧ (c.confirmCurrent e).top.inputMode = c.top.inputMode := by
  unfold Ctx.confirmCurrent
  split
  · have hm : ∀ w, ((c.top.push w).clearUnconfirmed.resetToDefault).mode = .direct := fun w => (like_pushFor c.top w _).default.trans h.default
    refine ⟨⟨?_, (like_pushFor c.top _ _).default.trans h.default, ?_, ?_⟩, rfl, fun _ => hm _, (like_pushFor c.top _ _).input⟩
    · show ((c.top.push _).clearUnconfirmed.resetToDefault).mode ≠ _
      rw [hm]; simp
    · intro hh; exact absurd (hm _) hh
    · intro hh
      exact absurd (show ListShown ((c.top.push _).clearUnconfirmed.resetToDefault).mode from hh) (by rw [hm]; exact direct_not_list)
  · rename_i hn
    exact ⟨h, rfl, fun hh => absurd hn hh, rfl⟩

theorem char_fit (e : Env) {c : Ctx} (h : AllFit c) (ev : KeyEvent) : Always (fun r => AllFit r.1) (c.charInput e ev) := by
  have main : ∀ {c : Ctx}, AllFit c → ∀ pre, Always (fun r => AllFit r.1)
      (if hasRom2kanaConversion c.top.inputMode c.top.mode then c.romInput e ev pre
        else if ev.isAsciiInputtable then .ok (c.plainInput e ev) else .ok (c, false)) := by
    intro c h pre
    split
    · rename_i hr
      have hrm := (rom_iff c).mp hr
      refine Typ.rom ⟨h, hrm.2, ?_⟩ e ev pre
      rcases hrm.1 with hm | hm | hm <;> rw [hm] <;> decide
    · split
      · apply Always.ok
        unfold Ctx.plainInput
        split
        · split
          · split
            · exact ⟨(like_pushFor _ _ _).fit h.1, h.2⟩
            · exact ⟨(like_pushFor _ _ _).fit h.1, h.2⟩
            · exact h
          · exact h
        · split
          · exact ⟨(like_pushFor _ _ _).fit h.1, h.2⟩
          · exact h
        · exact h
      · exact Always.ok h
  unfold Ctx.charInput
  split
  · exact Always.ok h
  · dsimp only
    apply main
    split
    · obtain ⟨a, b, _⟩ := confirm_fit e h.1
      exact ⟨a, by rw [b]; exact h.2⟩
    · exact h

/-! ### Commands -/

/-- What is known of the current level while a command is executed: the modes, and whether a word is known to be there. -/
structure Known where
  mode : CompositionMode
  input : InputMode
  word : Bool

/-- The level is as is known. -/
structure Is (k : Known) (s : State) : Prop where
  mode : s.mode = k.mode
  input : s.inputMode = k.input
  default : s.defaultMode = .direct
  word : k.word = true → s.cands.current ≠ none

/-- What is known after an instruction (`none`: nothing). -/
def Known.after (k : Known) : Instruction → Option Known
  | .changeCompositionMode m => if m = .register then none else some { k with mode := m }
  | .changeInputMode m => some { k with input := m }
  | .forceKanaConvert _ | .clearUnconvertedInputs | .finishKeyEvent => some k
  | .clearUnconfirmedInputs | .confirmAs _ | .purge => some { k with word := false }
  | .confirmComposition => if k.word then some ⟨.direct, k.input, false⟩ else none
  | _ => none

/-- Typing can go on. -/
def Known.fine (k : Known) : Bool :=
  decide (k.mode ≠ .register) && (decide (k.mode = .direct) || decide (Kana k.input)) && (!decide (ListShown k.mode) || k.word)

/-- Typing can go on after the instructions of a command bound in mode `cm`. -/
def Known.goesOn (cm : CompositionMode) (k : Known) : List Instruction → Bool
  | [] => k.fine
  | [.delete] | [.confirmDirect] => k.fine
  | [.tryNextCandidate] => k.fine && decide (k.mode = cm ∧ cm ≠ .direct ∧ cm ≠ .completion)
  | [.tryNextCompletion] => k.fine && decide (k.mode = cm ∧ cm ≠ .direct ∧ ¬ ListShown cm)
  | [.tryPreviousCandidate] => k.fine
  | [.nextCandidatePointer] | [.previousCandidatePointer] => k.fine && k.word
  | i :: is =>
    match k.after i with
    | some k' => k'.goesOn cm is
    | none => false

theorem Is.fit {k : Known} {s : State} (h : Is k s) (hf : k.fine = true) : Fit s := by
  simp only [Known.fine, Bool.and_eq_true, Bool.or_eq_true, decide_eq_true_eq, Bool.not_eq_true', decide_eq_false_iff_not] at hf
  obtain ⟨⟨h1, h2⟩, h3⟩ := hf
  refine ⟨by rw [h.mode]; exact h1, h.default, ?_, ?_⟩
  · rw [h.mode, h.input]; exact fun hd => h2.resolve_left hd
  · rw [h.mode]; exact fun hl => h.word (h3.resolve_left (fun hh => hh hl))

theorem after_is (e : Env) {k k' : Known} {c : Ctx} (h : Is k c.top) (i : Instruction) (hk : k.after i = some k') (cm : CompositionMode) (im : InputMode) :
    ∃ c', c.instruction e i cm im = .ok (c', none) ∧ Is k' c'.top ∧ c'.below = c.below := by
  cases i <;> simp only [Known.after] at hk <;> try cases hk
  case changeCompositionMode m =>
    split at hk
    · cases hk
    · cases hk
      exact ⟨_, rfl, ⟨rfl, h.input, h.default, h.word⟩, rfl⟩
  case changeInputMode m => exact ⟨_, rfl, ⟨h.mode, rfl, h.default, h.word⟩, rfl⟩
  case forceKanaConvert m =>
    obtain ⟨h1, h2⟩ := like_output e c m cm
    exact ⟨_, rfl, ⟨h1.mode.trans h.mode, h1.input.trans h.input, h1.default.trans h.default, by rw [h1.cands]; exact h.word⟩, h2⟩
  case clearUnconvertedInputs => exact ⟨_, rfl, ⟨h.mode, h.input, h.default, h.word⟩, rfl⟩
  case finishKeyEvent => exact ⟨_, rfl, ⟨h.mode, h.input, h.default, h.word⟩, rfl⟩
  case clearUnconfirmedInputs => exact ⟨_, rfl, ⟨h.mode, h.input, h.default, fun h => by cases h⟩, rfl⟩
  case confirmAs m => exact ⟨_, rfl, ⟨h.mode, h.input, h.default, fun h => by cases h⟩, rfl⟩
  case purge =>
    refine ⟨_, rfl, ?_⟩
    unfold Ctx.purgeCurrent
    split <;> exact ⟨⟨h.mode, h.input, h.default, fun h => by cases h⟩, rfl⟩
  case confirmComposition =>
    split at hk
    · rename_i hw
      cases hk
      have hcur := h.word hw
      refine ⟨_, rfl, ?_⟩
      unfold Ctx.confirmCurrent
      obtain ⟨x, hx⟩ := Option.ne_none_iff_exists'.mp hcur
      rw [hx]
      exact ⟨⟨(like_pushFor c.top _ _).default.trans h.default, (like_pushFor c.top _ _).input.trans h.input,
        (like_pushFor c.top _ _).default.trans h.default, fun h => by cases h⟩, rfl⟩
    · cases hk

/-- Coming back to a level from a registration. -/
theorem back_fit {s : State} (h : Waits s) : Fit s.abortToPrevious := by
  obtain ⟨m, h1, h2, h3⟩ := h.back
  unfold State.abortToPrevious
  rw [h1]
  dsimp only
  split
  · exact ⟨by simp [State.consolidate], h.default, fun _ => h.kana, fun hh => absurd hh pre_not_list⟩
  · exact ⟨h2, h.default, fun _ => h.kana, h3⟩

theorem exit_fit (e : Env) {c : Ctx} (h : AllFit c) (w : Str) : Always AllFit (c.exitRegister e w) := by
  unfold Ctx.exitRegister
  split
  · exact Always.ok h
  · rename_i s rest hb
    have hs : Waits s := h.2 s (by rw [hb]; simp)
    have hr : ∀ t ∈ rest, Waits t := fun t ht => h.2 t (by rw [hb]; simp [ht])
    dsimp only
    split
    · exact Always.ok ⟨back_fit hs, hr⟩
    · apply Always.bind'
      intro cs _
      apply Always.pure
      have hf : Fit ({ s with mode := .direct } : State) :=
        ⟨by simp, hs.default, fun hh => absurd rfl hh, fun hh => absurd hh direct_not_list⟩
      obtain ⟨a, b, _⟩ := confirm_fit e (c := ({ c with below := rest, top := ({ s with mode := .direct } : State).addCandidates cs } : Ctx))
        ⟨hf.mode, hf.default, hf.kana, fun hh => absurd hh direct_not_list⟩
      exact ⟨a, fun t ht => hr t (Eq.mp (congrArg (t ∈ ·) b) ht)⟩

theorem command_fit (e : Env) (cm : CompositionMode) (im : InputMode) (b : Bool) (is : List Instruction) :
    ∀ {k : Known} {c : Ctx}, Is k c.top → (∀ s ∈ c.below, Waits s) → k.goesOn cm is = true →
      Always (fun r => AllFit r.1) (Ctx.runInstructions e cm im b c is) := by
  induction is with
  | nil => intro k c h hb hg; exact Always.ok ⟨h.fit hg, hb⟩
  | cons i is ih =>
    intro k c h hb hg
    have straight : ∀ k', k.after i = some k' → k'.goesOn cm is = true →
        Always (fun r => AllFit r.1) (Ctx.runInstructions e cm im b c (i :: is)) := by
      intro k' hk' hg'
      obtain ⟨c', h1, h2, h3⟩ := after_is e h i hk' cm im
      unfold Ctx.runInstructions
      rw [h1]
      exact ih h2 (by rw [h3]; exact hb) hg'
    have last : ∀ (i' : Instruction), i = i' → is = [] → Always (fun r => AllFit r.1) (c.instruction e i' cm im) →
        Always (fun r => AllFit r.1) (Ctx.runInstructions e cm im b c (i :: is)) := by
      rintro i' rfl rfl hh
      unfold Ctx.runInstructions
      apply Always.bind hh
      rintro ⟨c', o⟩ hc'
      cases o with
      | some b => exact Always.pure hc'
      | none => exact Always.ok hc'
    unfold Known.goesOn at hg
    split at hg
    · contradiction
    · rename_i heq
      cases heq
      refine last _ rfl rfl (Always.ok ⟨delete_fit (h.fit hg), hb⟩)
    · rename_i heq
      cases heq
      refine last _ rfl rfl ?_
      unfold Ctx.instruction
      dsimp only
      split
      · exact Always.bind (exit_fit e ⟨h.fit hg, hb⟩ _) fun c' h' => Always.pure h'
      · exact Always.ok ⟨h.fit hg, hb⟩
    · rename_i heq
      cases heq
      rw [Bool.and_eq_true, decide_eq_true_eq] at hg
      obtain ⟨hf, hm, hd, hc⟩ := hg
      have hfit := h.fit hf
      have hcm : c.top.mode = cm := h.mode.trans hm
      refine last _ rfl rfl ?_
      refine Always.bind (next_fit e ⟨hfit, hb⟩ (hfit.kana (by rw [hcm]; exact hd)) cm im ⟨by rw [← hcm]; exact hfit.mode, hc⟩ ?_) fun c' h' => Always.pure h'
      rw [hcm]
      exact ⟨.inl, fun hh => hh.resolve_right hc⟩
    · rename_i heq
      cases heq
      rw [Bool.and_eq_true, decide_eq_true_eq] at hg
      obtain ⟨hf, hm, hd, hc⟩ := hg
      have hfit := h.fit hf
      have hcm : c.top.mode = cm := h.mode.trans hm
      refine last _ rfl rfl ?_
      exact Always.bind (nextCompletion_fit e ⟨hfit, hb⟩ (hfit.kana (by rw [hcm]; exact hd)) cm im (fun hh => hc (.inr hh)) (by rw [hcm]; exact hc))
        fun c' h' => Always.pure h'
    · rename_i heq
      cases heq
      have hfit := h.fit hg
      refine last _ rfl rfl ?_
      unfold Ctx.instruction
      dsimp only
      split
      · exact Always.ok ⟨hfit, hb⟩
      · rename_i hsel
        have hsel : c.top.mode = .compositionSelection := Classical.byContradiction hsel
        split
        · refine Always.ok ⟨⟨by simp [Ctx.setCompositionMode, Ctx.mapTop, State.changeMode, State.changeModeFrom], hfit.default, fun _ => ?_, fun hh => ?_⟩, hb⟩
          · exact hfit.kana (by rw [hsel]; simp)
          · exact absurd hh pre_not_list
        · exact Always.ok ⟨backward_fit hfit (hfit.word (.inl hsel)), hb⟩
    · rename_i heq
      cases heq
      rw [Bool.and_eq_true] at hg
      refine last _ rfl rfl ?_
      exact Always.bind (forward_fit e.prof (h.fit hg.1) (h.word hg.2)) fun s hs => Always.pure ⟨hs.1, hb⟩
    · rename_i heq
      cases heq
      rw [Bool.and_eq_true] at hg
      refine last _ rfl rfl (Always.ok ⟨backward_fit (h.fit hg.1) (h.word hg.2), hb⟩)
    · rename_i heq
      cases heq
      split at hg
      · rename_i k' hk'; exact straight k' hk' hg
      · cases hg

/-- Every command of the shipped rules but the cancellations leaves a level on which typing can go on. -/
theorem shipped_goesOn {r : CommandRule} (h : Shipped r) (cm : CompositionMode) (im : InputMode) (hf : cm = .direct ∨ Kana im) (hr : cm ≠ .register) :
    ∀ k ∈ r cm im, Instruction.abort ∉ k.2 → Known.goesOn cm ⟨cm, im, decide (ListShown cm)⟩ k.2 = true := by
  rcases h with rfl | rfl <;> cases cm <;> first | exact absurd rfl hr | skip
  all_goals cases im <;> first | (exfalso; revert hf; decide) | decide +kernel

/-! ### Calls -/

theorem allFit_of_like {c c' : Ctx} (h : AllFit c) (ht : Like c.top c'.top) (hb : c'.below = c.below) : AllFit c' :=
  ⟨ht.fit h.1, by rw [hb]; exact h.2⟩

theorem Waits.flush {s : State} (h : Waits s) : Waits s.flushConfirmed := ⟨h.mode, h.default, h.kana, h.back⟩

theorem bottom_fit {c : Ctx} (h : AllFit c) : AllFit (c.mapBottom State.flushConfirmed) := by
  unfold Ctx.mapBottom
  split
  · rename_i hb
    exact ⟨Like.fit (s := c.top) ⟨rfl, rfl, rfl, rfl⟩ h.1, h.2⟩
  · rename_i s rest hb
    have h2 := h.2
    rw [hb] at h2
    refine ⟨h.1, fun t ht => ?_⟩
    rcases List.mem_append.mp ht with ht | ht
    · exact h2 t (List.dropLast_subset _ ht)
    · rw [List.mem_singleton.mp ht]
      exact (h2 _ (List.getLast_mem _)).flush

theorem key_fit (e : Env) {c : Ctx} (hs : Shipped c.cmds) (h : AllFit c) (ev : KeyEvent) (hu : Uncancelled c (.key ev)) :
    Always (fun r => AllFit r.1) (c.processKeyEvent e ev) := by
  unfold Ctx.processKeyEvent
  split
  · exact Always.ok h
  · unfold Ctx.processInner
    split
    · exact char_fit e h ev
    · apply Always.bind'
      intro o ho
      cases o with
      | none => exact char_fit e h ev
      | some is =>
        obtain ⟨k, hk, hm, rfl⟩ := instruction_of ho
        have hf : c.top.mode = .direct ∨ Kana c.top.inputMode := by
          by_cases hd : c.top.mode = .direct
          · exact .inl hd
          · exact .inr (h.1.kana hd)
        refine command_fit e c.top.mode c.top.inputMode (!k.2.isEmpty) k.2 ⟨rfl, rfl, h.1.default, fun hw => h.1.word (of_decide_eq_true hw)⟩ h.2
          (shipped_goesOn hs _ _ hf h.1.mode k hk (hu _ _ k hk hm))

theorem pointer_fit {s : State} (h : Fit s) (hw : s.cands.current ≠ none) (i : Nat) : Fit (s.setPointer i).1 ∧ (s.setPointer i).1.cands.current ≠ none := by
  have hc : (s.setPointer i).1.cands.current ≠ none := by
    unfold State.setPointer CandidateList.setSelectionPointer
    split
    · rename_i x hx
      show s.cands.cands[i]? ≠ none
      rw [hx]; simp
    · exact hw
  exact ⟨⟨h.mode, h.default, h.kana, fun _ => hc⟩, hc⟩

/-- Every call of an uncancelled session leaves levels on which typing can go on. -/
theorem step_fit (e : Env) {c : Ctx} (hs : Shipped c.cmds) (h : AllFit c) (op : Op) (hu : Uncancelled c op) :
    Always (fun c' => AllFit c' ∧ c'.cmds = c.cmds) (c.step e op) := by
  have hr : ∀ hp : Frame.Plain op, Always (fun c' => c'.cmds = c.cmds) (c.step e op) := fun hp =>
    ⟨fun c' hc => (((rules_frame c).step ⟨rfl, rfl, rfl⟩ op hp).out c' hc).1⟩
  have both : ∀ hp : Frame.Plain op, Always AllFit (c.step e op) → Always (fun c' => AllFit c' ∧ c'.cmds = c.cmds) (c.step e op) :=
    fun hp ha => ⟨fun c' hc => ⟨ha.out c' hc, (hr hp).out c' hc⟩⟩
  cases op with
  | key ev => exact both trivial (Always.bind (key_fit e hs h ev hu) fun r hr => Always.pure hr)
  | poll =>
    apply both trivial
    apply Always.ok
    unfold Ctx.pollOutput Ctx.retrieveOutput
    split
    · exact h
    · exact bottom_fit h
  | reset =>
    apply both trivial
    obtain ⟨hb, hl⟩ := hu
    apply Always.ok
    refine ⟨?_, by simp [Ctx.reset]⟩
    have : c.reset.top = c.top.clearAll := by simp [Ctx.reset, hb]
    rw [this]
    exact ⟨h.1.mode, h.1.default, h.1.kana, fun hh => absurd hh hl⟩
  | setInputMode m =>
    exact both trivial (Always.ok ⟨⟨h.1.mode, h.1.default, fun hd => hu.resolve_left hd, h.1.word⟩, h.2⟩)
  | setCompositionMode m => exact absurd hu id
  | selectAt i =>
    apply both trivial
    apply Always.ok
    have hw := h.1.word hu
    have hk := h.1.kana (by rcases (show ListShown c.top.mode from hu) with h | h <;> rw [h] <;> simp)
    unfold Ctx.selectCandidateAt
    dsimp only
    split
    · exact h
    split
    · exact ⟨⟨by simp [Ctx.setCompositionMode, Ctx.mapTop, State.changeMode, State.changeModeFrom], h.1.default, fun _ => hk,
        fun hh => absurd hh pre_not_list⟩, h.2⟩
    split
    · obtain ⟨hf, hc⟩ := pointer_fit h.1 hw (c.top.cands.cands.length - 1)
      exact enter_fit (c := c.mapTop fun s => (s.setPointer (c.top.cands.cands.length - 1)).1) h.2 hf hk _ (by simp) fun _ => hc
    · exact ⟨(pointer_fit h.1 hw _).1, h.2⟩
  | confirmAt i =>
    apply both trivial
    apply Always.ok
    have hw := h.1.word hu
    obtain ⟨hf, hc⟩ := pointer_fit h.1 hw i
    unfold Ctx.confirmCandidateAt
    dsimp only
    split
    · obtain ⟨a, b, _⟩ := confirm_fit e (c := { c with top := (c.top.setPointer i).1 }) hf
      exact ⟨a, by rw [b]; exact h.2⟩
    · exact ⟨hf, h.2⟩
  | setKeywords l => exact Always.ok ⟨h, rfl⟩
  | setPeriod p => exact Always.ok ⟨h, rfl⟩
  | setComma p => exact Always.ok ⟨h, rfl⟩
  | setRule a b => exact absurd hu id
  | setDictionaries d => exact Always.ok ⟨h, rfl⟩

theorem new_fit (r : CommandRule) (k : KanaBuilder) (im : InputMode) (ds : List CskkDict) : AllFit (Ctx.new r k im .direct ds) :=
  ⟨⟨by simp [Ctx.new, State.new], rfl, fun h => absurd rfl h, fun h => absurd h direct_not_list⟩, fun s hs => by cases hs⟩

theorem session_fit (e : Env) {c₀ c : Ctx} (hs : Shipped c₀.cmds) (h₀ : AllFit c₀) (h : Reach e Uncancelled c₀ c) : AllFit c ∧ c.cmds = c₀.cmds := by
  induction h with
  | init => exact ⟨h₀, rfl⟩
  | step _ hu hstep ih =>
    obtain ⟨a, b⟩ := (step_fit e (by rw [ih.2]; exact hs) ih.1 _ hu).out _ hstep
    exact ⟨a, b.trans ih.2⟩

/-- **C72.** In a session in which nothing is cancelled typing can always go on. -/
theorem never_lost (e : Env) {r : CommandRule} (hs : Shipped r) (k : KanaBuilder) (im : InputMode) (ds : List CskkDict) {c : Ctx}
    (h : Reach e Uncancelled (Ctx.new r k im .direct ds) c) : ¬ Lost c :=
  (session_fit e hs (new_fit r k im ds) h).1.1.not_lost

/-- **C72.** With the shipped rules, from a new context on, whatever keys are pressed and whatever words are chosen, in every input mode and on every
level of registrations: as long as nothing is cancelled every printable character is taken, and none goes to the application. -/
theorem all_taken (pr : Bool) {r : CommandRule} (hs : Shipped r) (k : KanaBuilder) (im : InputMode) (ds : List CskkDict) {c : Ctx}
    (h : Reach (Assets.env ⟨pr⟩) Uncancelled (Ctx.new r k im .direct ds) c) {ev : KeyEvent} (hev : Character ev) {c' : Ctx} {b : Bool}
    (hk : c.processKeyEvent (Assets.env ⟨pr⟩) ev = .ok (c', b)) : b = true := by
  obtain ⟨a, hc⟩ := session_fit _ hs (new_fit r k im ds) h
  exact character_taken pr (by rw [hc]; exact hs) a.1.default a.1.not_lost hev hk

/-- No character is a cancellation in the shipped rules, so that typing alone never leads to a state in which typing cannot go on. -/
theorem character_uncancelled {c : Ctx} (hs : Shipped c.cmds) {ev : KeyEvent} (hev : Character ev) : Uncancelled c (.key ev) := by
  intro cm im k hk hm
  have hall : ∀ r, Shipped r → ∀ cm im, ∀ k ∈ r cm im, Instruction.abort ∉ k.2 ∨ ((k.1.symbol < 0x20 ∨ 0x7e < k.1.symbol) ∨ k.1.modifiers ≠ 0) := by
    rintro r (rfl | rfl) cm im <;> cases cm <;> cases im <;> decide +kernel
  rcases hall _ hs cm im k hk with h | h
  · exact h
  · exfalso
    have hm' := (matchingKey_iff k.1 ev).mpr hm
    obtain ⟨ch, rfl, h1, h2⟩ := hev
    have hsy : k.1.symbol = ch.toNat := hm.1
    rcases h with h | h
    · rw [hsy] at h; exact h.elim (fun h => absurd h1 (Nat.not_le_of_lt h)) (fun h => absurd h2 (Nat.not_le_of_lt h))
    · apply h
      rw [hm']; unfold CommandRule.matchingKey
      split
      · show (0 : Modifier) &&& _ = 0
        exact BitVec.zero_and
      · rfl

/-! ## Where typing cannot go on -/

/-- C72, the converse: in such a state a key without a command is not taken and nothing changes (on a level which waits for a registration a checked
build stops). -/
theorem lost_handed_back (e : Env) {c : Ctx} (hl : Lost c) {ev : KeyEvent} (hn : NoCommand c ev) :
    c.processKeyEvent e ev = .ok (c, false) ∨ (c.top.mode = .register ∧ e.prof.checked = true) := by
  have hrom : hasRom2kanaConversion c.top.inputMode c.top.mode = false := by
    cases hh : hasRom2kanaConversion c.top.inputMode c.top.mode with
    | false => rfl
    | true =>
      obtain ⟨h1, h2⟩ := (rom_iff c).mp hh
      rcases hl with h | ⟨h, _⟩ | ⟨h, h'⟩
      · rw [h] at h1; rcases h1 with h1 | h1 | h1 <;> cases h1
      · rcases h with h | h <;> rw [h] at h1 <;> rcases h1 with h1 | h1 | h1 <;> cases h1
      · exact absurd h2 h'
  have hplain : c.plainInput e ev = (c, false) := by
    unfold Ctx.plainInput
    rcases hl with h | ⟨h | h, _⟩ | ⟨h | h, h'⟩ <;> rw [h]
  have hchar : c.charInput e ev = .ok (c, false) := by
    unfold Ctx.charInput
    split
    · rfl
    · dsimp only
      have hc : (if (c.top.mode = .compositionSelection ∨ c.top.mode = .completion) ∧ c.willBeProcessed ev c.top.pre = true then c.confirmCurrent e else c) = c := by
        split
        · rename_i hls
          unfold Ctx.confirmCurrent
          have : c.top.cands.current = none := by
            rcases hl with h | ⟨_, h⟩ | ⟨h, _⟩
            · rw [h] at hls; rcases hls.1 with h | h <;> cases h
            · exact h
            · rcases h with h | h <;> rw [h] at hls <;> rcases hls.1 with h | h <;> cases h
          rw [this]
        · rfl
      rw [hc, hrom, hplain]
      simp
  by_cases hr : c.top.mode = .register
  · cases hp : e.prof.checked with
    | true => exact .inr ⟨hr, rfl⟩
    | false =>
      left
      unfold Ctx.processKeyEvent
      split
      · rfl
      · unfold Ctx.processInner
        split
        · exact hchar
        · unfold CommandRule.getInstruction
          rw [if_pos hr, hp]
          exact hchar
  · left
    unfold Ctx.processKeyEvent
    split
    · rfl
    · unfold Ctx.processInner
      split
      · exact hchar
      · rw [getInstruction_none e.prof hr hn]
        exact hchar

/-! ## Examples -/

/-- Enter, the blank, Control-g and Control-j. -/
def ctrlG : KeyEvent := ⟨0x67, Modifier.CONTROL⟩
def ctrlJ : KeyEvent := ⟨0x6a, Modifier.CONTROL⟩

/-- わたし is converted and registered anew, with キ in the registration and a click into the list. -/
def visit : List Op :=
  (typed c%"Watasi  q").map .key ++ [.poll] ++ (typed c%"ki").map .key

theorem visit_uncancelled (pr : Bool) : Along (Assets.env ⟨pr⟩) Uncancelled Document.blank visit := by
  have hk : ∀ (t : List Char), (∀ ch ∈ t, 0x20 ≤ ch.toNat ∧ ch.toNat ≤ 0x7e) → ∀ (ops : List Op) (c : Ctx), Shipped c.cmds →
      (∀ c', c'.cmds = c.cmds → Along (Assets.env ⟨pr⟩) Uncancelled c' ops) →
      Along (Assets.env ⟨pr⟩) Uncancelled c ((typed t).map .key ++ ops) := by
    intro t
    induction t with
    | nil => intro _ ops c _ h; exact h c rfl
    | cons ch t ih =>
      intro ht ops c hs h
      refine ⟨character_uncancelled hs ⟨ch, rfl, ht ch List.mem_cons_self⟩, fun c' hc => ?_⟩
      have hcm : c'.cmds = c.cmds := (((rules_frame c).step ⟨rfl, rfl, rfl⟩ (.key _) trivial).out c' hc).1
      exact ih (fun x hx => ht x (List.mem_cons_of_mem _ hx)) ops c' (by rw [hcm]; exact hs) fun c'' h'' => h c'' (h''.trans hcm)
  unfold visit
  rw [List.append_assoc]
  refine hk _ (by decide) _ _ (.inl rfl) fun c hc => ?_
  refine ⟨trivial, fun c' hc' => ?_⟩
  have hcm : c'.cmds = c.cmds := (((rules_frame c).step ⟨rfl, rfl, rfl⟩ .poll trivial).out c' hc').1
  rw [← List.append_nil ((typed c%"ki").map Op.key)]
  exact hk _ (by decide) _ _ (by rw [hcm, hc]; exact .inl rfl) fun _ _ => trivial

/-- The session goes through: わたし is being registered, and キ is written for it. -/
example (pr : Bool) : (run (Assets.env ⟨pr⟩) Document.blank visit).map (fun c => c.preedit (Assets.env ⟨pr⟩)) = .ok c%"▼わたし【キ】" := by
  cases pr <;> decide +kernel

/-- What the user sees, whether typing can go on, and whether the letter `a` is taken then. -/
def outcome (pr : Bool) (ops : List Op) : R (Str × Bool × Bool) := do
  let c ← run (Assets.env ⟨pr⟩) Document.blank ops
  let r ← c.processKeyEvent (Assets.env ⟨pr⟩) ⟨0x61, 0⟩
  return (c.preedit (Assets.env ⟨pr⟩), decide (Lost c), r.2)

/-- C72, a finding: the list of words is left with `x`, and Control-g then goes back to the list, which is empty by now: an error is shown, and the
next letter goes to the application. -/
theorem cancelled_list (pr : Bool) : outcome pr ((typed c%"Watasi x").map .key ++ [.key ctrlG]) = .ok (c%"▼エラー", true, false) := by
  cases pr <;> decide +kernel

/-- … and the blank, which asks for the next word, stops a checked build. -/
theorem cancelled_list_stops :
    (run (Assets.env ⟨true⟩) Document.blank ((typed c%"Watasi x").map .key ++ [.key ctrlG, .key ⟨0x20, 0⟩])).map (·.top.mode) = .error .overflow := by
  decide +kernel

/-- C72, a finding: Control-g goes back to a reading, but not to the input mode of that time: a reading in Ascii mode, where the next letter goes to
the application. -/
theorem cancelled_mode (pr : Bool) : outcome pr ((typed c%"A").map .key ++ [.key ctrlJ] ++ (typed c%"l").map .key ++ [.key ctrlG]) = .ok (c%"あ▽", true, false) := by
  cases pr <;> decide +kernel

end Cskk.Props.Taken
