import Verif.Props.MachineStale

/-!
# C75, fifth part: a word is shown
-/

namespace Cskk.Props.Machine

open Spec Spec.Typing Spec.Teach Spec.Document Spec.ModeKeys Spec.Editing Spec.Machine
open Romaji KanaBuilder Navigate Convert Typing Words ShippedTyping
open Cskk.Props.Document (Uses)
open Cskk.Props.TypeOn (Shown settled)
open Cskk.Props.WordCycle (shipped_choice not_release purgedLevel)

section
variable {pr : Bool} {S : Setup} {c : Ctx} {D D' : Desk}

theorem Rel.choosing (h : Rel pr S c D) {a : Asked} {words : List Candidate} {i : Nat} (hp : D.phase = .choosing a words i) :
    ChoosingAt c.top D.mode a words i := by
  have := h.level
  rw [hp] at this
  exact this

theorem shown_of (h : Rel pr S c D) {a : Asked} {words : List Candidate} {i : Nat} (hp : D.phase = .choosing a words i) {x : Candidate}
    (hx : words[i]? = some x) : Shown c x := by
  have hl := h.choosing hp
  refine ⟨.inl hl.mode, ?_, ?_, h.base.default⟩
  · rw [hl.cands]; exact hx
  · rw [h.base.mode]; exact kanaMode_iff.mp hl.kanaMode

/-- The shown word becomes part of the text. -/
theorem settled_rel (h : Rel pr S c D) {a : Asked} (ho : c.top.okuri = a.tail) (x : Candidate)
    (m : InputMode) (hist : List CompositionMode) (hh : Past hist []) :
    Rel pr S { settled (Assets.env ⟨pr⟩) c x with top := { (settled (Assets.env ⟨pr⟩) c x).top with history := hist, inputMode := m } }
      { D.settle S a x with mode := m } := by
  refine ⟨h.runs.congr rfl rfl rfl, ?_, ⟨?_, rfl, hh, rfl, by rcases hh with hh | hh <;> rw [hh] <;> simp⟩, ⟨rfl, rfl, rfl, rfl, rfl, rfl⟩, h.below⟩
  · show c.dicts.map _ = D.dicts.map _
    rw [h.dicts]
  · show c.top.confirmed ++ (x.output ++ (Assets.env ⟨pr⟩).kanaForm.adjust c.top.inputMode c.top.okuri) = D.written ++ (x.output ++ S.form D.mode a.tail)
    rw [h.base.written, h.base.mode, ho, h.runs.form]

theorem settled_rel' (h : Rel pr S c D) {a : Asked} (ho : c.top.okuri = a.tail) (x : Candidate)
    (hist : List CompositionMode) (hh : Past hist []) :
    Rel pr S { settled (Assets.env ⟨pr⟩) c x with top := { (settled (Assets.env ⟨pr⟩) c x).top with history := hist } } (D.settle S a x) := by
  have := settled_rel h ho x D.mode hist hh
  rw [← h.base.mode] at this
  have hd : { D.settle S a x with mode := c.top.inputMode } = D.settle S a x := by rw [h.base.mode]; rfl
  rw [hd] at this
  exact this

/-- Confirmation keys. -/
theorem confirm_goes (h : Rel pr S c D) {a : Asked} {words : List Candidate} {i : Nat} (hp : D.phase = .choosing a words i) {x : Candidate}
    (hx : words[i]? = some x) (ev : KeyEvent) (hr : ¬ IsRelease ev)
    (hc : CommandIs c ev [.confirmComposition] ∨ CommandIs c ev [.confirmComposition, .changeCompositionMode .direct]) :
    Goes pr S c ev (D.settle S a x) true := by
  have hl := h.choosing hp
  have hcom : c.confirmCurrent (Assets.env ⟨pr⟩) = settled (Assets.env ⟨pr⟩) c x := TypeOn.confirm_settles _ (shown_of h hp hx)
  rcases hc with hk | hk
  · refine ⟨_, ?_, settled_rel' h (h.choosing hp).holds.okuri x [] (.inl rfl)⟩
    rw [key_command _ _ _ _ hr (by rw [hl.mode]; decide) hk (choosing_skip hl.mode ev), hl.mode]
    unfold Ctx.processInstructions Ctx.runInstructions
    simp only [Ctx.instruction, bind, Except.bind, Ctx.runInstructions, hcom]
    rfl
  · refine ⟨_, ?_, settled_rel' h (h.choosing hp).holds.okuri x [.direct] (.inr rfl)⟩
    rw [key_command _ _ _ _ hr (by rw [hl.mode]; decide) hk (choosing_skip hl.mode ev), hl.mode]
    unfold Ctx.processInstructions Ctx.runInstructions
    simp only [Ctx.instruction, bind, Except.bind, Ctx.runInstructions, hcom]
    rfl

theorem choosing_ctrlJ (h : Rel pr S c D) {a : Asked} {words : List Candidate} {i : Nat} (hp : D.phase = .choosing a words i) {x : Candidate}
    (hx : words[i]? = some x) : Goes pr S c ⟨0x6a, 4⟩ (D.settle S a x) true := by
  have hl := h.choosing hp
  exact confirm_goes h hp hx _ not_release.2.2.1
    (shipped_choice c h.runs.uses.cases hl.mode (by rw [h.base.mode]; exact kanaMode_ne hl.kanaMode)).2

theorem choosing_enter (h : Rel pr S c D) {a : Asked} {words : List Candidate} {i : Nat} (hp : D.phase = .choosing a words i) {x : Candidate}
    (hx : words[i]? = some x) : Goes pr S c ⟨0xff0d, 0⟩ (D.settle S a x) true := by
  have hl := h.choosing hp
  have hk := hl.kanaMode
  have hb := h.base
  refine confirm_goes h hp hx _ (by unfold IsRelease; decide) ?_
  rcases h.runs.uses.cases with hc | hc
  · rcases kanaMode_iff.mp hk with h1 | h1 | h1
    all_goals first
      | exact .inl (commandIs_of_find (by rw [hl.mode, hb.mode, hc, h1]; decide +kernel))
      | exact .inr (commandIs_of_find (by rw [hl.mode, hb.mode, hc, h1]; decide +kernel))
  · rcases kanaMode_iff.mp hk with h1 | h1 | h1
    all_goals first
      | exact .inl (commandIs_of_find (by rw [hl.mode, hb.mode, hc, h1]; decide +kernel))
      | exact .inr (commandIs_of_find (by rw [hl.mode, hb.mode, hc, h1]; decide +kernel))

theorem choosing_back (h : Rel pr S c D) {a : Asked} {words : List Candidate} {i : Nat} (hp : D.phase = .choosing a words i) {x : Candidate}
    (hx : words[i]? = some x) : Goes pr S c ⟨0xff08, 0⟩ { D.settle S a x with written := (D.settle S a x).written.dropLast }
      (!(D.settle S a x).written.isEmpty) := by
  have hr := settled_rel' h (h.choosing hp).holds.okuri x [] (.inl rfl)
  have hw : (settled (Assets.env ⟨pr⟩) c x).top.confirmed = (D.settle S a x).written := hr.base.written
  have hk := TypeOn.backspace_confirms (Assets.env ⟨pr⟩) (shown_of h hp hx) h.runs.uses.cases
  rw [hw] at hk
  refine ⟨_, hk, hr.runs.congr rfl rfl rfl, hr.dicts, ⟨rfl, hr.base.mode, .inl rfl, rfl, by simp [settled, State.new]⟩, ⟨rfl, rfl, rfl, rfl, rfl, rfl⟩, hr.below⟩

/-- Ctrl-g. -/
theorem choosing_ctrlG (h : Rel pr S c D) {a : Asked} {words : List Candidate} {i : Nat} (hp : D.phase = .choosing a words i) :
    Goes pr S c ⟨0x67, 4⟩ { D with phase := typing (a.stem ++ a.tail) [] (a.short && !a.strict) false, trail := D.trail.dropLast } true := by
  have hl := h.choosing hp
  have hk := hl.kanaMode
  have hb := h.base
  have hfind : ((c.cmds c.top.mode c.top.inputMode).find? fun b => decide (b.1 = CommandRule.matchingKey ⟨0x67, 4⟩)).map (·.2) = some [.abort] := by
    rw [hl.mode, hb.mode]
    rcases h.runs.uses.cases with h | h <;> rw [h] <;> rcases kanaMode_iff.mp hk with h | h | h <;> rw [h] <;> decide +kernel
  have hkey : c.processKeyEvent (Assets.env ⟨pr⟩) ⟨0x67, 4⟩ = .ok (c.abort, true) := by
    rw [key_command _ c _ _ (by unfold IsRelease; decide) (by rw [hl.mode]; decide) (commandIs_of_find hfind) (choosing_skip hl.mode _)]
    rfl
  have hm' : (c.mapTop fun s => s.clearPre.consolidate.clearCandidateList).top.mode = .compositionSelection := hl.mode
  have hcu : (c.top.clearPre.consolidate.clearCandidateList).history = c.top.history := rfl
  have hab : c.abort = (c.mapTop fun s => s.clearPre.consolidate.clearCandidateList).mapTop State.abortToPrevious := by
    unfold Ctx.abort
    simp only [hm', reduceCtorEq, false_and, if_false]
  refine ⟨_, hkey, ?_⟩
  rw [hab]
  have g1 := last_getLast hl.came
  have hkana : c.top.kana ++ c.top.okuri = a.stem ++ a.tail := by rw [hl.holds.kana, hl.holds.okuri]
  have hraw : c.top.raw ++ c.top.okuri = a.stem ++ a.tail := by rw [hl.holds.raw, hl.holds.okuri]
  have hlen : c.top.history.dropLast.length ≤ 20 := by rw [List.length_dropLast]; have := hb.history; omega
  unfold Asked.origin at g1
  cases hst : a.strict with
  | false =>
    rw [hst] at g1
    simp only [Bool.false_eq_true, if_false] at g1
    have he : ((c.mapTop fun s => s.clearPre.consolidate.clearCandidateList).mapTop State.abortToPrevious) =
        { c with top := { c.top.clearPre.consolidate.clearCandidateList with history := c.top.history.dropLast, mode := origin a.short } } := by
      unfold Ctx.mapTop State.abortToPrevious
      simp only [hcu, g1]
      cases a.short <;> rfl
    rw [he]
    refine h.with (D := D) ⟨hb.written, hb.mode, hb.trail.dropLast, hb.default, hlen⟩ (level_typing ?_ hk rfl rfl hkana hraw rfl)
    simp
  | true =>
    rw [hst] at g1
    simp only [if_true] at g1
    have he : ((c.mapTop fun s => s.clearPre.consolidate.clearCandidateList).mapTop State.abortToPrevious) =
        { c with top := { ({ c.top.clearPre.consolidate.clearCandidateList with history := c.top.history.dropLast } : State).consolidate with
          mode := .preComposition } } := by
      unfold Ctx.mapTop State.abortToPrevious
      simp only [hcu, g1]
      rfl
    rw [he]
    refine h.with (D := D) ⟨hb.written, hb.mode, hb.trail.dropLast, hb.default, hlen⟩ (level_typing ?_ hk rfl rfl ?_ ?_ rfl)
    · simp [origin]
    · show (c.top.kana ++ c.top.okuri) ++ [] = _
      rw [List.append_nil]; exact hkana
    · show (c.top.raw ++ c.top.okuri) ++ [] = _
      rw [List.append_nil]; exact hraw

/-- A key which confirms the word and changes the input mode. -/
theorem choosing_switch (h : Rel pr S c D) {a : Asked} {words : List Candidate} {i : Nat} (hp : D.phase = .choosing a words i) {x : Candidate}
    (hw : words[i]? = some x) {ev : KeyEvent} (m : InputMode) (hr : ¬ IsRelease ev) (hc : CommandIs c ev [.confirmComposition, .changeInputMode m]) :
    Goes pr S c ev { D.settle S a x with mode := m } true := by
  have hl := h.choosing hp
  have hcom : c.confirmCurrent (Assets.env ⟨pr⟩) = settled (Assets.env ⟨pr⟩) c x := TypeOn.confirm_settles _ (shown_of h hp hw)
  refine ⟨_, ?_, settled_rel h (h.choosing hp).holds.okuri x m [] (.inl rfl)⟩
  rw [key_command _ _ _ _ hr (by rw [hl.mode]; decide) hc (choosing_skip hl.mode _), hl.mode]
  unfold Ctx.processInstructions Ctx.runInstructions
  simp only [Ctx.instruction, bind, Except.bind, Ctx.runInstructions, hcom]
  rfl

/-- A printable character while a word is shown. -/
theorem choosing_char (h : Rel pr S c D) {a : Asked} {words : List Candidate} {i : Nat} (hp : D.phase = .choosing a words i) {ch : Char}
    (hpr : printable ch = true) (hs : D.choosingChar S a words i ch = some D') : Goes pr S c ⟨ch.toNat, 0⟩ D' true := by
  have hl := h.choosing hp
  have hk := hl.kanaMode
  have hb := h.base
  have hcu : c.cmds = Assets.defaultCommands ∨ c.cmds = Assets.azikCommands := h.runs.uses.cases
  have hkm : c.top.inputMode ≠ .ascii ∧ c.top.inputMode ≠ .zenkaku := by rw [hb.mode]; exact kanaMode_ne hk
  obtain ⟨hsp, hxk⟩ := shipped_keys c hcu hl.mode hkm
  have hcur : c.top.cands.cursor = i := by rw [hl.cands]
  have hlen : c.top.cands.cands.length = words.length := by rw [hl.cands]
  have hch : Choosing c := ⟨hl.mode, by rw [hcur, hlen]; exact hl.cursor⟩
  have hnr : ∀ k, ¬ IsRelease ⟨k, 0⟩ := by intro k; unfold IsRelease; show ¬ (0 : BitVec _).getLsbD 30 = true; decide
  unfold Desk.choosingChar at hs
  split at hs
  · rename_i hx
    subst hx
    split at hs
    · rename_i hlt
      injection hs with hs; subst hs
      refine ⟨_, next_moves _ c _ hch (hnr _) hsp (by rw [hcur, hlen]; exact hlt), ?_⟩
      refine h.with (D := D) ⟨hb.written, hb.mode, hb.trail, hb.default, hb.history⟩ ⟨hl.mode, hk, ⟨hl.holds.pre, hl.holds.capital, hl.holds.kana, hl.holds.raw,
        hl.holds.okuri, hl.holds.use⟩, ?_, hlt, hl.came⟩
      show ({ c.top.cands with cursor := c.top.cands.cursor + 1 } : CandidateList CompositeKey Candidate) = _
      rw [hl.cands]
    · rename_i hlt
      have hend := next_at_end (Assets.env ⟨pr⟩) c _ hch (hnr _) hsp (by rw [hcur, hlen]; have := hl.cursor; omega) hb.history
      rw [h.depth] at hend
      split at hs
      · rename_i hd
        injection hs with hs; subst hs
        rw [if_pos (show D.waiting.length + 1 < 10 from hd)] at hend
        refine ⟨_, hend, h.runs.congr rfl rfl rfl, h.dicts, ⟨rfl, rfl, .inl rfl, rfl, by simp [registering, State.new]⟩, ⟨rfl, rfl, rfl, rfl, rfl, rfl⟩, ?_, h.below⟩
        have hne : words ≠ [] := by intro hx; have := hl.cursor; rw [hx] at this; simp at this
        refine ⟨⟨hb.written, hb.mode, hb.trail.remember hb.history _, hb.default, remember_length _ _⟩, rfl, hk, ⟨hl.holds.pre, hl.holds.capital, hl.holds.kana, hl.holds.raw,
          hl.holds.okuri, hl.holds.use⟩, hl.cands, fun _ => hl.cursor, ?_⟩
        rw [if_pos hne]
        exact suffix_remember hl.came (by simp)
      · rename_i hd
        injection hs with hs; subst hs
        rw [if_neg (show ¬ D.waiting.length + 1 < 10 from hd)] at hend
        exact ⟨_, hend, h⟩
  rename_i hnsp
  split at hs
  · rename_i hx
    obtain ⟨rfl, hpv⟩ := hx
    injection hs with hs; subst hs
    have hcmd := hxk (by rw [hb.mode]; exact (h.runs.previous _).mp hpv)
    by_cases hi : i = 0
    · rw [if_pos hi]
      refine ⟨_, previous_at_start _ c _ hl.mode (hnr _) hcmd (hcur.trans hi) hb.history, ?_⟩
      refine h.with (D := D) ⟨hb.written, hb.mode, hb.leave hl.mode, hb.default, remember_length _ _⟩ ⟨rfl, hk, hl.holds.pre, hl.holds.capital, ?_, ?_, rfl⟩
      · show c.top.kana ++ c.top.okuri = _
        rw [hl.holds.kana, hl.holds.okuri]; rfl
      · show c.top.raw ++ c.top.okuri = _
        rw [hl.holds.raw, hl.holds.okuri]; rfl
    · rw [if_neg hi]
      refine ⟨_, previous_moves _ c _ hl.mode (hnr _) hcmd (by rw [hcur]; omega), ?_⟩
      refine h.with (D := D) ⟨hb.written, hb.mode, hb.trail, hb.default, hb.history⟩ ⟨hl.mode, hk, ⟨hl.holds.pre, hl.holds.capital, hl.holds.kana, hl.holds.raw,
        hl.holds.okuri, hl.holds.use⟩, ?_, ?_, hl.came⟩
      · show ({ c.top.cands with cursor := c.top.cands.cursor - 1 } : CandidateList CompositeKey Candidate) = _
        rw [hl.cands]
      · have := hl.cursor
        omega
  rename_i hnx
  cases hw : words[i]? with
  | none => rw [hw] at hs; cases hs
  | some x =>
    rw [hw] at hs
    dsimp only at hs
    have hsw := shown_of h hp hw
    split at hs
    · rename_i hx
      subst hx
      injection hs with hs; subst hs
      have hcmd := (shipped_choice c hcu hl.mode hkm).1
      have hcu : c.top.cands.current = some x := by
        unfold CandidateList.current
        rw [hl.cands]; exact hw
      have htc : c.top.cands.toComposite = a.key := by rw [hl.cands]
      refine ⟨{ c with top := purgedLevel c.top, dicts := c.dicts.map fun (d : CskkDict) => d.purge a.key x }, ?_, h.runs.congr rfl rfl rfl, ?_,
        ⟨rfl, hb.mode, .inl rfl, hb.default, by simp [purgedLevel]⟩, ⟨rfl, rfl, rfl, rfl, rfl, rfl⟩, h.below⟩
      · rw [show (⟨'X'.toNat, 0⟩ : KeyEvent) = WordCycle.capitalX from rfl, key_command _ _ _ _ not_release.2.1 (by rw [hl.mode]; decide) hcmd (choosing_skip hl.mode _)]
        simp only [Ctx.processInstructions, Ctx.runInstructions, Ctx.instruction, Ctx.purgeCurrent, hcu, bind, Except.bind, pure, Except.pure, htc, hl.mode]
        unfold purgedLevel Ctx.mapTop Ctx.setCompositionMode State.clearAll State.clearUnconfirmed
        simp only [hl.mode]
        rfl
      · show c.dicts.map _ = D.dicts.map _
        rw [h.dicts]
    rename_i hnX
    split at hs
    · rename_i htg
      injection hs with hs; subst hs
      have hfind : ((c.cmds c.top.mode c.top.inputMode).find? fun b => decide (b.1 = CommandRule.matchingKey ⟨ch.toNat, 0⟩)).map (·.2) =
          some [.confirmComposition, .changeInputMode (ModeKey.target .kana D.mode)] := by
        rw [hl.mode, hb.mode, htg]
        have hu := h.runs.uses
        generalize S.layout = L at hu
        cases hu with
        | default a b =>
          rw [a]
          rcases kanaMode_iff.mp hk with h | h | h <;> rw [h] <;> decide +kernel
        | azik a b =>
          rw [a]
          rcases kanaMode_iff.mp hk with h | h | h <;> rw [h] <;> decide +kernel
      exact choosing_switch h hp hw _ (hnr _) (commandIs_of_find hfind)
    · rename_i htg
      have hpr' := of_decide_eq_true hpr
      have hmod : ¬ HasOtherModifier ⟨ch.toNat, 0⟩ := (shipped_key pr ch hpr'.1 hpr'.2).modifier
      have hnc : NoCommand c ⟨ch.toNat, 0⟩ := by
        have hu := h.runs.uses
        have hprev := h.runs.previous D.mode
        revert htg
        generalize S.layout = L at hu
        intro htg
        cases hu with
        | default a b =>
          have hss : TypeOn.ShippedShown c Assets.defaultRomaji ['l', 'L', 'q', 'Q', '/'] TypeOn.defaultShownKeys := .default a b
          have hnx' : ch ≠ 'x' := fun hx => hnx ⟨hx, hprev.mpr (.inl a)⟩
          have htg : ch ≠ 'q' := htg
          exact hss.shown hsw ch hpr'.1 hpr'.2 (by rw [hl.mode]; simp [TypeOn.defaultShownKeys, hnsp, hnx', hnX, htg])
        | azik a b =>
          have hss : TypeOn.ShippedShown c Assets.azikRomaji ['l', 'L', '@', '{', '/'] TypeOn.azikShownKeys := .azik a b
          have htg : ch ≠ '@' := htg
          by_cases hx : ch = 'x'
          · have hm : D.mode ≠ .hiragana := fun hy => hnx ⟨hx, hprev.mpr (.inr hy)⟩
            subst hx
            unfold NoCommand
            rw [hl.mode, hb.mode, a]
            refine noCommand_of _ [' ', 'X', '@'] _ _ ?_ 'x' (by decide) (by decide) (by decide)
            rcases kanaMode_iff.mp hk with h | h | h
            · exact absurd h hm
            · rw [h]; decide +kernel
            · rw [h]; decide +kernel
          · exact hss.shown hsw ch hpr'.1 hpr'.2 (by rw [hl.mode]; simp [TypeOn.azikShownKeys, hnsp, hx, hnX, htg])
      have hkey := TypeOn.key_settles (Assets.env ⟨pr⟩) hsw _ hmod ⟨hpr'.1, hpr'.2⟩ hnc
      obtain ⟨c', g1, g2⟩ := typeOn_goes (settled_rel' h (h.choosing hp).holds.okuri x [] (.inl rfl)) rfl hk hpr hs
      refine ⟨c', ?_, g2⟩
      rw [hkey, hl.holds.pre]
      exact g1

end

end Cskk.Props.Machine
