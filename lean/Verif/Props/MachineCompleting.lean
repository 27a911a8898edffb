import Verif.Props.MachineShort

/-!
# C75, seventh part: a completion is shown
-/

namespace Cskk.Props.Machine

open Spec Spec.Typing Spec.Teach Spec.Document Spec.ModeKeys Spec.Editing Spec.Machine
open Romaji KanaBuilder Navigate Convert Typing Words ShippedTyping
open Cskk.Props.Document (Uses)
open Cskk.Props.TypeOn (Shown settled)
open Cskk.Props.CompletionCycle (shipped_completing completing_skip keys_pressed)
open Cskk.Props.WordCycle (not_release)

section
variable {pr : Bool} {S : Setup} {c : Ctx} {D D' : Desk} {text : Str} {u : List Keysym} {short : Bool} {words : List Candidate} {i : Nat}

theorem Rel.completing (h : Rel pr S c D) (hp : D.phase = .completing text u short words i) :
    CompletingAt c.top D.mode text u short words i := by
  have := h.level
  rw [hp] at this
  exact this

theorem completion_shown (h : Rel pr S c D) (hp : D.phase = .completing text u short words i) {x : Candidate} (hx : words[i]? = some x) : Shown c x := by
  have hl := h.completing hp
  refine ⟨.inr hl.mode, ?_, ?_, h.base.default⟩
  · rw [hl.list, hl.position]; exact hx
  · rw [h.base.mode]; exact kanaMode_iff.mp hl.kanaMode

/-- The commands of the shipped rules. -/
theorem completing_keys (h : Rel pr S c D) (hp : D.phase = .completing text u short words i) :
    CommandIs c ⟨0xff09, 0⟩ [.nextCandidatePointer] ∧ CommandIs c ⟨0x6a, 4⟩ [.confirmComposition] ∧ CommandIs c ⟨0xff0d, 0⟩ [.confirmComposition] ∧
    CommandIs c ⟨0x67, 4⟩ [.abort] ∧ CommandIs c ⟨'.'.toNat, 0⟩ [.nextCandidatePointer] ∧ CommandIs c ⟨','.toNat, 0⟩ [.previousCandidatePointer] := by
  have hl := h.completing hp
  have hk := hl.kanaMode
  obtain ⟨g1, -, g3, g4, g5, -⟩ := shipped_completing c h.runs.uses.cases hl.mode (by rw [h.base.mode]; exact kanaMode_ne hk)
  refine ⟨g1, g3, g4, g5, ?_, ?_⟩ <;>
  · apply commandIs_of_find
    rw [hl.mode, h.base.mode]
    rcases h.runs.uses.cases with hc | hc <;> rw [hc] <;> rcases kanaMode_iff.mp hk with b | b | b <;> rw [b] <;> decide +kernel

/-- The next or the previous one. -/
theorem completing_move (h : Rel pr S c D) (hp : D.phase = .completing text u short words i) (ev : KeyEvent) (j : Nat) (hj : j < words.length)
    (hkey : c.processKeyEvent (Assets.env ⟨pr⟩) ev = .ok (moved c j, true)) : Goes pr S c ev { D with phase := .completing text u short words j } true := by
  have hl := h.completing hp
  exact ⟨_, hkey, h.with (D := D) ⟨h.base.written, h.base.mode, h.base.trail, h.base.default, h.base.history⟩
    ⟨hl.mode, hl.kanaMode, hl.pre, hl.kana, hl.raw, hl.okuri, hl.key, hl.list, rfl, hj, hl.came⟩⟩

theorem completing_next (h : Rel pr S c D) (hp : D.phase = .completing text u short words i) (ev : KeyEvent) (hr : ¬ IsRelease ev)
    (hc : CommandIs c ev [.nextCandidatePointer]) :
    Goes pr S c ev { D with phase := .completing text u short words (min (i + 1) (words.length - 1)) } true := by
  have hl := h.completing hp
  have hi := hl.cursor
  have := (completion_moves (Assets.env ⟨pr⟩) c ev hl.mode (by rw [hl.position, hl.list]; exact hl.cursor) hr).1 hc
  rw [hl.position, hl.list] at this
  exact completing_move h hp ev _ (by omega) this

theorem completing_previous (h : Rel pr S c D) (hp : D.phase = .completing text u short words i) (ev : KeyEvent) (hr : ¬ IsRelease ev)
    (hc : CommandIs c ev [.previousCandidatePointer]) : Goes pr S c ev { D with phase := .completing text u short words (i - 1) } true := by
  have hl := h.completing hp
  have hi := hl.cursor
  have := (completion_moves (Assets.env ⟨pr⟩) c ev hl.mode (by rw [hl.position, hl.list]; exact hl.cursor) hr).2 hc
  rw [hl.position] at this
  exact completing_move h hp ev _ (by omega) this

/-- The completed word becomes part of the text. -/
theorem completed_rel (h : Rel pr S c D) (hp : D.phase = .completing text u short words i) (x : Candidate) :
    Rel pr S (settled (Assets.env ⟨pr⟩) c x) (D.settleCompleted S x) :=
  settled_rel' h (a := ⟨[], [], false, false, false, []⟩) (h.completing hp).okuri x [] (.inl rfl)

theorem completing_confirm (h : Rel pr S c D) (hp : D.phase = .completing text u short words i) {x : Candidate} (hx : words[i]? = some x) (ev : KeyEvent)
    (hr : ¬ IsRelease ev) (hc : CommandIs c ev [.confirmComposition]) : Goes pr S c ev (D.settleCompleted S x) true := by
  have hl := h.completing hp
  have hcom : c.confirmCurrent (Assets.env ⟨pr⟩) = settled (Assets.env ⟨pr⟩) c x := TypeOn.confirm_settles _ (completion_shown h hp hx)
  refine ⟨_, ?_, completed_rel h hp x⟩
  rw [key_command _ _ _ _ hr (by rw [hl.mode]; decide) hc (completing_skip hl.mode ev), hl.mode]
  unfold Ctx.processInstructions Ctx.runInstructions
  simp only [Ctx.instruction, bind, Except.bind, Ctx.runInstructions, hcom]
  rfl

theorem completing_back (h : Rel pr S c D) (hp : D.phase = .completing text u short words i) {x : Candidate} (hx : words[i]? = some x) :
    Goes pr S c ⟨0xff08, 0⟩ { D.settleCompleted S x with written := (D.settleCompleted S x).written.dropLast }
      (!(D.settleCompleted S x).written.isEmpty) := by
  have hr := completed_rel h hp x
  have hw : (settled (Assets.env ⟨pr⟩) c x).top.confirmed = (D.settleCompleted S x).written := hr.base.written
  have hk := TypeOn.backspace_confirms (Assets.env ⟨pr⟩) (completion_shown h hp hx) h.runs.uses.cases
  rw [hw] at hk
  exact ⟨_, hk, hr.runs.congr rfl rfl rfl, hr.dicts, ⟨rfl, hr.base.mode, .inl rfl, rfl, by simp [settled, State.new]⟩, ⟨rfl, rfl, rfl, rfl, rfl, rfl⟩, hr.below⟩

/-- Ctrl-g. -/
theorem completing_ctrlG (h : Rel pr S c D) (hp : D.phase = .completing text u short words i) :
    Goes pr S c ⟨0x67, 4⟩ { D with phase := typing text [] short false, trail := D.trail.dropLast } true := by
  have hl := h.completing hp
  have hb := h.base
  have hkey : c.processKeyEvent (Assets.env ⟨pr⟩) ⟨0x67, 4⟩ = .ok (c.abort, true) := by
    rw [key_command _ c _ _ (by unfold IsRelease; decide) (by rw [hl.mode]; decide) (completing_keys h hp).2.2.2.1 (completing_skip hl.mode _)]
    rfl
  have hm' : (c.mapTop fun s => s.clearPre.consolidate.clearCandidateList).top.mode = .completion := hl.mode
  have hcu : (c.top.clearPre.consolidate.clearCandidateList).history = c.top.history := rfl
  have hab : c.abort = (c.mapTop fun s => s.clearPre.consolidate.clearCandidateList).mapTop State.abortToPrevious := by
    unfold Ctx.abort
    simp only [hm', reduceCtorEq, false_and, if_false]
  refine ⟨_, hkey, ?_⟩
  rw [hab]
  have g1 := last_getLast hl.came
  have hlen : c.top.history.dropLast.length ≤ 20 := by rw [List.length_dropLast]; have := hb.history; omega
  have he : ((c.mapTop fun s => s.clearPre.consolidate.clearCandidateList).mapTop State.abortToPrevious) =
      { c with top := { c.top.clearPre.consolidate.clearCandidateList with history := c.top.history.dropLast, mode := origin short } } := by
    unfold Ctx.mapTop State.abortToPrevious
    simp only [hcu, g1]
    cases short <;> rfl
  rw [he]
  refine h.with (D := D) ⟨hb.written, hb.mode, hb.trail.dropLast, hb.default, hlen⟩ (level_typing rfl hl.kanaMode rfl rfl ?_ ?_ rfl)
  · show c.top.kana ++ c.top.okuri = _
    rw [hl.kana, hl.okuri, List.append_nil]
  · show c.top.raw ++ c.top.okuri = _
    rw [hl.raw, hl.okuri, List.append_nil]

/-- A printable character while a completion is shown. -/
theorem completing_char (h : Rel pr S c D) (hp : D.phase = .completing text u short words i) {ch : Char}
    (hpr : printable ch = true) (hs : D.completingChar S text u short words i ch = some D') : Goes pr S c ⟨ch.toNat, 0⟩ D' true := by
  have hl := h.completing hp
  have hnr : ∀ k, ¬ IsRelease ⟨k, 0⟩ := by intro k; unfold IsRelease; show ¬ (0 : BitVec _).getLsbD 30 = true; decide
  have hcmd := completing_keys h hp
  unfold Desk.completingChar at hs
  split at hs
  · rename_i hx
    subst hx
    injection hs with hs; subst hs
    exact completing_next h hp _ (hnr _) hcmd.2.2.2.2.1
  rename_i hdot
  split at hs
  · rename_i hx
    subst hx
    injection hs with hs; subst hs
    exact completing_previous h hp _ (hnr _) hcmd.2.2.2.2.2
  rename_i hcomma
  cases hw : words[i]? with
  | none => rw [hw] at hs; cases hs
  | some x =>
    rw [hw] at hs
    dsimp only at hs
    have hsw := completion_shown h hp hw
    have hpr' := of_decide_eq_true hpr
    have hmod : ¬ HasOtherModifier ⟨ch.toNat, 0⟩ := (shipped_key pr ch hpr'.1 hpr'.2).modifier
    have hnc : NoCommand c ⟨ch.toNat, 0⟩ := by
      have hu := h.runs.uses
      generalize S.layout = L at hu
      cases hu with
      | default a b =>
        have hss : TypeOn.ShippedShown c Assets.defaultRomaji ['l', 'L', 'q', 'Q', '/'] TypeOn.defaultShownKeys := .default a b
        exact hss.shown hsw ch hpr'.1 hpr'.2 (by rw [hl.mode]; simp [TypeOn.defaultShownKeys, hdot, hcomma])
      | azik a b =>
        have hss : TypeOn.ShippedShown c Assets.azikRomaji ['l', 'L', '@', '{', '/'] TypeOn.azikShownKeys := .azik a b
        exact hss.shown hsw ch hpr'.1 hpr'.2 (by rw [hl.mode]; simp [TypeOn.azikShownKeys, hdot, hcomma])
    have hkey := TypeOn.key_settles (Assets.env ⟨pr⟩) hsw _ hmod ⟨hpr'.1, hpr'.2⟩ hnc
    obtain ⟨c', g1, g2⟩ := typeOn_goes (completed_rel h hp x) rfl hl.kanaMode hpr hs
    refine ⟨c', ?_, g2⟩
    rw [hkey, hl.pre]
    exact g1

end

end Cskk.Props.Machine
