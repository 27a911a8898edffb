import Verif.Props.MachineReading

/-!
# C75, fourth part: okurigana
-/

namespace Cskk.Props.Machine

open Spec Spec.Typing Spec.Teach Spec.Document Spec.ModeKeys Spec.Editing Spec.Machine
open Romaji KanaBuilder Navigate Convert Typing Words ShippedTyping
open Cskk.Props.Document (Uses)

theorem ends_iff (tbl : Table) (g : Config) (u : List Keysym) (ch : Char) : ends tbl g u ch = true ↔ Ends tbl g.period g.comma u ch := by
  unfold ends Ends
  cases h1 : completed tbl (u ++ [ch.toNat]) with
  | some v =>
    obtain ⟨w, carry⟩ := v
    cases carry <;> simp
  | none =>
    cases h2 : punctuation g.period g.comma ch with
    | some _ => simp
    | none =>
      cases h3 : begins tbl (u ++ [ch.toNat]) with
      | true => simp
      | false =>
        cases h4 : completed tbl [ch.toNat] with
        | none => simp
        | some v =>
          obtain ⟨w, carry⟩ := v
          cases carry <;> simp

theorem ends_pending (tbl : Table) (ps : PeriodStyle) (cs : CommaStyle) (s : Typing) (ch : Char) (h : Ends tbl ps cs s.pending ch) :
    (typeKey tbl ps cs s ch).pending = [] := by
  obtain ⟨w, h | ⟨h1, h2, h3, h4⟩⟩ := h
  · unfold typeKey; rw [h]
  · unfold typeKey; rw [h1, h2]; simp only [h3, Bool.false_eq_true, if_false, h4]

section
variable {pr : Bool} {S : Setup} {c : Ctx} {D D' : Desk}

theorem Rel.okuri (h : Rel pr S c D) {stem tail : Str} {u : List Keysym} {b : Bool} (hp : D.phase = .okuri stem tail u b) :
    OkuriAt c.top D.mode stem tail u b := by
  have := h.level
  rw [hp] at this
  exact this

/-- A character is typed. -/
theorem type_okuri (h : Rel pr S c D) {stem tail : Str} {u : List Keysym} {b : Bool} (hp : D.phase = .okuri stem tail u b) {ch : Char}
    (hc : AsIs S.layout.tbl u ch) (hs : D.typeOkuri S stem tail u b ch = some D') : GoesTyped pr S c ⟨ch.toNat, 0⟩ D' := by
  have hl := h.okuri hp
  have hb := h.base
  obtain ⟨g1, g2⟩ := okuri_rom (Assets.env ⟨pr⟩) c S.layout.tbl _ ch h.runs.table hl.mode (by rw [hl.pre]; exact hc) (shipped_key pr ch hc.1.1 hc.1.2)
    hb.history _ rfl
  have hty : typeKey S.layout.tbl c.config.period c.config.comma ⟨[], c.top.pre, c.top.capital⟩ ch =
      typeKey S.layout.tbl S.config.period S.config.comma ⟨[], u, b⟩ ch := by
    rw [hl.pre, hl.capital, h.runs.config]
  rw [hty, hl.pre, ← h.runs.config] at g1 g2
  unfold GoesTyped
  rw [hl.pre]
  unfold Desk.typeOkuri at hs
  dsimp only at hs
  have hpend := ends_pending S.layout.tbl S.config.period S.config.comma ⟨[], u, b⟩ ch
  have hsh := typeKey_shift S.layout.tbl S.config.period S.config.comma ⟨[], u, b⟩ ch
  generalize typeKey S.layout.tbl S.config.period S.config.comma ⟨[], u, b⟩ ch = t at hs g1 g2 hpend hsh
  have huse : tail ++ rendered id t.out ≠ [] → (c.top.useOkuri || !t.out.isEmpty) = true := by
    intro hx
    by_cases htl : tail = []
    · rw [htl, List.nil_append] at hx
      have : t.out ≠ [] := by intro hy; rw [hy] at hx; exact hx rfl
      simp [this]
    · rw [hl.use htl]; rfl
  split at hs
  · rename_i hen
    have hen := (ends_iff _ _ _ _).mp hen
    obtain ⟨cs, hcs⟩ := convert_looked hs
    have hh : Holds (okurigana c t).top ⟨stem, tail ++ rendered id t.out, true, false, false, []⟩ := by
      refine ⟨hpend hen, hsh (hpend hen), hl.kana, hl.raw, ?_, huse⟩
      show c.top.okuri ++ _ = _
      rw [hl.okuri]
    have hrel : Rel pr S (okurigana c t) { D with phase := .okuri stem (tail ++ rendered id t.out) t.pending t.shift } := by
      refine h.with (D := D) ⟨hb.written, hb.mode, hb.trail, hb.default, hb.history⟩ ⟨hl.mode, hl.kanaMode, rfl, rfl, hl.kana, hl.raw, ?_, hl.stem, huse, hl.came⟩
      show c.top.okuri ++ _ = _
      rw [hl.okuri]
    refine ⟨_, g1 hen (by rw [hl.kana]; exact hl.stem) cs (by rw [holds_key hh, h.dicts]; exact hcs), ?_⟩
    exact rel_converted hrel.around (a := ⟨stem, tail ++ rendered id t.out, true, false, false, []⟩) ⟨hb.written, hb.mode, hb.trail, hb.default, hb.history⟩ hl.kanaMode hh
      hl.mode (fun _ => ⟨hl.stem, hl.came⟩) (by show Dicts.getAll c.dicts _ = _; rw [h.dicts]; exact hcs) hs
  · rename_i hen
    injection hs with hs; subst hs
    refine ⟨_, g2 (.inl fun hx => hen ((ends_iff _ _ _ _).mpr hx)), ?_⟩
    refine h.with (D := D) ⟨hb.written, hb.mode, hb.trail, hb.default, hb.history⟩ ⟨hl.mode, hl.kanaMode, rfl, rfl, hl.kana, hl.raw, ?_, hl.stem, huse, hl.came⟩
    show c.top.okuri ++ _ = _
    rw [hl.okuri]

/-- The level with the pending keys of the okurigana flushed. -/
def flushedOkuri (tbl : Table) (s : State) : State :=
  match valueOf tbl s.pre with
  | some v => { s with okuri := s.okuri ++ v.1, useOkuri := true, pre := v.2, capital := false }
  | none => s

theorem flushedOkuri_flushed (tbl : Table) {s : State} (hm : s.mode = .preCompositionOkurigana) : Flushed tbl s (flushedOkuri tbl s) := by
  unfold flushedOkuri
  cases hv : valueOf tbl s.pre with
  | some v => exact .inr (.inl ⟨hm, v.1, v.2, (valueOf_iff _ _ _).mp hv, rfl⟩)
  | none =>
    refine .inr (.inr ⟨.inr ?_, rfl⟩)
    rintro ⟨v, h⟩
    have : valueOf tbl s.pre = some v := (valueOf_iff _ _ _).mpr h
    rw [hv] at this; cases this

/-- Space in the okurigana. -/
theorem ask_okuri (h : Rel pr S c D) {stem tail : Str} {u : List Keysym} {b : Bool} (hp : D.phase = .okuri stem tail u b)
    (hs : D.askOkuri S stem tail u b = some D') : Goes pr S c ⟨0x20, 0⟩ D' true := by
  have hl := h.okuri hp
  have hb := h.base
  unfold Desk.askOkuri at hs
  have hcomp : Composing c.top := .inr (.inl hl.mode)
  have hfl := flushedOkuri_flushed S.layout.tbl hl.mode
  have hr : Base (flushedOkuri S.layout.tbl c.top) D.written D.mode D.trail ∧
      Holds (flushedOkuri S.layout.tbl c.top) ⟨stem, (⟨tail, u, b⟩ : Draft).reading S.layout.tbl, true, shiftLeft S.layout.tbl ⟨tail, u, b⟩, false,
        (⟨tail, u, b⟩ : Draft).left S.layout.tbl⟩ ∧
      (flushedOkuri S.layout.tbl c.top).mode = .preCompositionOkurigana ∧ (flushedOkuri S.layout.tbl c.top).history = c.top.history := by
    unfold flushedOkuri Draft.reading flushed Draft.left shiftLeft
    rw [hl.pre]
    cases hv : valueOf S.layout.tbl u with
    | some v =>
      refine ⟨⟨hb.written, hb.mode, hb.trail, hb.default, hb.history⟩, ⟨rfl, by simp, hl.kana, hl.raw, ?_, fun _ => rfl⟩, hl.mode, rfl⟩
      show c.top.okuri ++ v.1 = _
      rw [hl.okuri]; simp [rendered]
    | none =>
      refine ⟨⟨hb.written, hb.mode, hb.trail, hb.default, hb.history⟩, ⟨hl.pre, ?_, hl.kana, hl.raw, ?_, fun hx => hl.use (by simpa [rendered] using hx)⟩, hl.mode, rfl⟩
      · rw [hl.capital]; simp
      · rw [hl.okuri]; simp [rendered]
  obtain ⟨r1, r2, r3, r4⟩ := hr
  obtain ⟨hcmd, hskip⟩ := shipped_space c hcomp (by rw [h.base.mode]; exact kanaMode_ne hl.kanaMode) (Teach.shipped_cases h.runs.uses.shipped)
  have hrel : ¬ IsRelease (⟨0x20, 0⟩ : KeyEvent) := by unfold IsRelease; decide
  obtain ⟨cs, hcs⟩ := convert_looked hs
  have hkey := holds_key r2
  have hcs' : Dicts.getAll c.dicts (lookupKey (flushedOkuri S.layout.tbl c.top)) = .ok cs := by rw [hkey, h.dicts]; exact hcs
  have hgo : c.processKeyEvent (Assets.env ⟨pr⟩) ⟨0x20, 0⟩ = .ok (converted c (flushedOkuri S.layout.tbl c.top) cs, true) := by
    cases cs with
    | nil =>
      rw [convert_unknown _ c _ _ _ h.runs.table hcomp hrel hfl hskip hcmd hb.history hcs' (by rw [r2.kana]; exact hl.stem), hl.mode]
      unfold converted
      simp only [ne_eq, not_true_eq_false, if_false, r3]
    | cons x xs =>
      rw [convert_known _ c _ _ _ h.runs.table hcomp hrel hfl hskip hcmd hb.history x xs hcs']
      unfold converted
      rw [if_pos (by simp)]
  refine ⟨_, hgo, ?_⟩
  exact rel_converted h.around r1 hl.kanaMode r2 r3 (fun _ => ⟨hl.stem, by rw [r4]; exact hl.came⟩) (by rw [h.dicts]; exact hcs) hs

/-- A key for committing kana, in the okurigana: the kana before it are committed, the okurigana is dropped. -/
theorem commit_okuri (h : Rel pr S c D) {stem tail : Str} {u : List Keysym} {b : Bool} (hp : D.phase = .okuri stem tail u b) (ev : KeyEvent)
    (f m : InputMode) (hz : m ≠ .zenkaku) (hr : ¬ IsRelease ev) (hc : CommandIs c ev [.forceKanaConvert f, .confirmAs m, .changeCompositionMode .direct])
    (hs : ¬ Completes S.layout.tbl u ev) : Goes pr S c ev (D.commit (S.form m stem)) true := by
  have hl := h.okuri hp
  have hf : ∃ o v u' b', c.outputConverted (Assets.env ⟨pr⟩) f .preCompositionOkurigana = { c with top := { c.top with
      okuri := o, useOkuri := v, pre := u', capital := b' } } := by
    unfold Ctx.outputConverted
    cases c.kanaConv.convertGreedy c.top.pre with
    | none => exact ⟨c.top.okuri, c.top.useOkuri, c.top.pre, c.top.capital, rfl⟩
    | some v => exact ⟨c.top.okuri ++ v.1, true, v.2, if v.2.isEmpty then false else false, rfl⟩
  obtain ⟨o, v, u', b', hf⟩ := hf
  have key : ∃ c', c.processKeyEvent (Assets.env ⟨pr⟩) ev = .ok (c', true) ∧ Finished c c' (c.top.confirmed ++ S.form m stem) := by
    rw [key_command _ c ev _ hr (by rw [hl.mode]; decide) hc (ModeKeys.skip_iff c _ ev h.runs.table (by rw [hl.pre]; exact hs)), hl.mode]
    refine ⟨_, by
      simp only [Ctx.processInstructions, Ctx.runInstructions, Ctx.instruction, hf, Ctx.confirmKana, if_neg hz, Bind.bind, Except.bind,
        pure, Except.pure]
      rfl, ?_⟩
    refine ⟨⟨rfl, rfl, rfl, rfl, rfl⟩, rfl, ?_, rfl, ?_, ⟨rfl, rfl⟩, ⟨rfl, rfl, rfl⟩, rfl, rfl⟩
    · exact ModeKeys.changeMode_history _ _ h.base.history
    · show c.top.confirmed ++ (Assets.env ⟨pr⟩).kanaForm.adjust m c.top.kana = _
      rw [hl.kana, h.runs.form]
  obtain ⟨c', h1, s1⟩ := key
  exact ⟨c', h1, finished_rel h s1⟩

/-- Ctrl-j in the okurigana. -/
theorem okuri_ctrlJ (h : Rel pr S c D) {stem tail : Str} {u : List Keysym} {b : Bool} (hp : D.phase = .okuri stem tail u b) :
    Goes pr S c ⟨0x6a, 4⟩ (D.commit (S.form D.mode stem)) true := by
  have hl := h.okuri hp
  have hk := hl.kanaMode
  refine commit_okuri h hp _ D.mode D.mode (kanaMode_ne hk).2 (by unfold IsRelease; decide) (command_of h ?_) ctrl_completes
  rw [hp]
  show ((c.cmds .preCompositionOkurigana D.mode).find? _).map _ = _
  rcases h.runs.uses.cases with h | h <;> rw [h] <;> rcases kanaMode_iff.mp hk with h | h | h <;> rw [h] <;> decide +kernel

/-- A character which is no command. -/
theorem input_okuri (h : Rel pr S c D) {stem tail : Str} {u : List Keysym} {b : Bool} (hp : D.phase = .okuri stem tail u b) {ch : Char}
    (hpr : printable ch = true) (hs : D.inputOkuri S stem tail u b ch = some D') : GoesTyped pr S c ⟨ch.toNat, 0⟩ D' := by
  have hl := h.okuri hp
  unfold Desk.inputOkuri at hs
  cases hx : sense S.layout.tbl u ch with
  | itself =>
    rw [hx] at hs
    exact type_okuri h hp (sense_itself hpr hx) hs
  | capital =>
    rw [hx] at hs
    obtain ⟨hc, hab, hbg⟩ := sense_capital hx
    rw [← hl.pre] at hab hbg
    have htr : ∀ b, c.transitionByCapital ⟨ch.toNat, 0⟩ c.top.mode b = (c, false) := by
      intro b
      unfold Ctx.transitionByCapital
      rw [hl.mode]
      simp
    have hsm := Stale.small_rom (Assets.env ⟨pr⟩) c S.layout.tbl _ _ h.runs.table (capital_at (pr := pr) hc hab) (small_small hc) (htr _) hbg
      (fun _ _ => htr _)
    obtain ⟨c', g1, g2⟩ := type_okuri h hp (plain_asIs (small_plain hc) _ _) hs
    rw [small_char hc] at g1
    exact ⟨c', hsm.trans g1, g2⟩
  | unknown => rw [hx] at hs; cases hs

/-- A printable character in the okurigana. -/
theorem okuri_char (h : Rel pr S c D) {stem tail : Str} {u : List Keysym} {b : Bool} (hp : D.phase = .okuri stem tail u b) {ch : Char}
    (hpr : printable ch = true) (hs : D.okuriChar S stem tail u b ch = some D') : Goes pr S c ⟨ch.toNat, 0⟩ D' true := by
  have hl := h.okuri hp
  have hr := rom h.base hl.kanaMode (.inr (.inr hl.mode))
  unfold Desk.okuriChar at hs
  split at hs
  · rename_i hcm
    have hn := not_completes hcm
    split at hs
    · rename_i hx
      subst hx
      exact ask_okuri h hp hs
    split at hs
    · rename_i hx
      injection hs with hs; subst hs
      have hfind : ((c.cmds c.top.mode c.top.inputMode).find? fun b => decide (b.1 = CommandRule.matchingKey ⟨ch.toNat, 0⟩)).map (·.2) =
          some [.forceKanaConvert (ModeKey.target .kana D.mode), .confirmAs (ModeKey.target .kana D.mode), .changeCompositionMode .direct] := by
        rw [hl.mode, h.base.mode, hx]
        have hu := h.runs.uses
        have hk := hl.kanaMode
        generalize S.layout = L at hu
        cases hu with
        | default a b =>
          rw [a]
          rcases kanaMode_iff.mp hk with h | h | h <;> rw [h] <;> decide +kernel
        | azik a b =>
          rw [a]
          rcases kanaMode_iff.mp hk with h | h | h <;> rw [h] <;> decide +kernel
      refine commit_okuri h hp _ _ _ ?_ ?_ (commandIs_of_find hfind) ?_
      · cases D.mode <;> simp [ModeKey.target]
      · show ¬ (0 : BitVec _).getLsbD 30 = true; decide
      · rintro ⟨_, hx | hx⟩
        · rw [show completed S.layout.tbl (u ++ [(⟨ch.toNat, 0⟩ : KeyEvent).symbol]) = none from hn.1] at hx; cases hx
        · rw [show completed S.layout.tbl (u ++ [uncapitalize (⟨ch.toNat, 0⟩ : KeyEvent).symbol]) = none from hn.2] at hx; cases hx
    split at hs
    · rename_i hQ
      injection hs with hs; subst hs
      exact opener_nothing h hQ (.inr hl.mode) hl.kanaMode (by rw [hl.mode, hl.pre]; exact hcm)
    · cases hs
  · rename_i hcm
    exact goes_of_types (key_rom h hr hpr (by rw [hl.mode, hl.pre]; simpa using hcm)) (input_okuri h hp hpr hs)

theorem delete_okuri {s : State} (hm : s.mode = .preCompositionOkurigana) (hp : s.pre ≠ []) :
    s.delete = (if s.pre.dropLast = [] ∧ s.okuri = [] then { s with pre := s.pre.dropLast, mode := .preComposition } else { s with pre := s.pre.dropLast },
      true) := by
  cases s
  simp only at hm hp
  subst hm
  simp only [State.delete, ne_eq, hp, not_false_eq_true, if_true, Bool.and_eq_true, List.isEmpty_iff]

/-- BackSpace in the okurigana. -/
theorem okuri_back (h : Rel pr S c D) {stem tail : Str} {u : List Keysym} {b : Bool} (hp : D.phase = .okuri stem tail u b) (hu : u ≠ []) :
    Goes pr S c ⟨0xff08, 0⟩
      { D with phase := if u.dropLast = [] ∧ tail = [] then .reading ⟨stem, [], b⟩ else .okuri stem tail u.dropLast b } true := by
  have hl := h.okuri hp
  have hb := h.base
  have hx := Editing.backspace (Assets.env ⟨pr⟩) h.runs.uses.shipped (.inr ⟨.inr (.inl hl.mode), by rw [hb.mode]; exact kanaMode_ne hl.kanaMode⟩)
  rw [delete_okuri hl.mode (by rw [hl.pre]; exact hu), hl.pre, hl.okuri] at hx
  refine ⟨_, hx, ?_⟩
  split
  · rename_i hy
    exact h.with (D := D) ⟨hb.written, hb.mode, hb.trail, hb.default, hb.history⟩ ⟨rfl, hl.kanaMode, hy.1, hl.capital, hl.kana, hl.raw, hy.2⟩
  · exact h.with (D := D) ⟨hb.written, hb.mode, hb.trail, hb.default, hb.history⟩ ⟨hl.mode, hl.kanaMode, rfl, hl.capital, hl.kana, hl.raw, rfl, hl.stem, hl.use,
      hl.came⟩

/-- Ctrl-g in the okurigana. -/
theorem okuri_ctrlG (h : Rel pr S c D) {stem tail : Str} {u : List Keysym} {b : Bool} (hp : D.phase = .okuri stem tail u b)
    (hs : ({ D with trail := D.trail.dropLast } : Desk).back = some D') : Goes pr S c ⟨0x67, 4⟩ D' true := by
  have hl := h.okuri hp
  have hb := h.base
  refine ⟨_, giveUp h hl.kanaMode (.inr hl.mode), ?_⟩
  have g1 := last_getLast hl.came
  generalize hs1 : ({ c.top.clearUnconfirmed.clearPre.consolidate.clearCandidateList with history := c.top.history.dropLast, mode := .preComposition } : State) = s1
  have he : (c.mapTop State.clearUnconfirmed).abort = { c with top := s1.abortToPrevious } := by
    have hcu : (c.top.clearUnconfirmed.clearPre.consolidate.clearCandidateList).history = c.top.history := rfl
    unfold Ctx.abort
    have hm' : ((c.mapTop State.clearUnconfirmed).mapTop fun s => s.clearPre.consolidate.clearCandidateList).top.mode = .preCompositionOkurigana := hl.mode
    simp only [hm', reduceCtorEq, if_false]
    have h1 : (((c.mapTop State.clearUnconfirmed).mapTop fun s => s.clearPre.consolidate.clearCandidateList).mapTop State.abortToPrevious) =
        { c with top := s1 } := by
      rw [← hs1]
      unfold Ctx.mapTop State.abortToPrevious
      simp only [hcu, g1]
      rfl
    have hm1 : s1.mode = .preComposition := by rw [← hs1]
    rw [h1]
    simp only [hm1, and_self, if_true]
    rfl
  rw [he]
  have hb1 : Base s1 D.written D.mode D.trail.dropLast := by
    rw [← hs1]
    have := givenUp_base hb
    refine ⟨this.written, this.mode, hb.trail.dropLast, this.default, ?_⟩
    show c.top.history.dropLast.length ≤ 20
    rw [List.length_dropLast]; have := hb.history; omega
  exact back_goes (D := { D with trail := D.trail.dropLast }) ⟨h.runs, h.dicts, h.below⟩ hb1 (by rw [← hs1]; rfl) (by rw [← hs1]; rfl)
    (by rw [← hs1]; rfl) (by rw [← hs1]; rfl) (by rw [← hs1]; rfl) hs

end

end Cskk.Props.Machine
