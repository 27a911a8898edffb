import Verif.Props.MachineBase

/-!
# C75, second part: direct input
-/

namespace Cskk.Props.Machine

open Spec Spec.Typing Spec.Teach Spec.Document Spec.ModeKeys Spec.Editing Spec.Machine
open Romaji KanaBuilder Navigate Convert Typing Words ShippedTyping
open Cskk.Props.Document (Uses)

/-- After the key the engine stands for `D'`. -/
def Goes (pr : Bool) (S : Setup) (c : Ctx) (ev : KeyEvent) (D' : Desk) (b : Bool) : Prop :=
  ∃ c', c.processKeyEvent (Assets.env ⟨pr⟩) ev = .ok (c', b) ∧ Rel pr S c' D'

/-- The same for a key which is typed. -/
def GoesTyped (pr : Bool) (S : Setup) (c : Ctx) (ev : KeyEvent) (D' : Desk) : Prop :=
  ∃ c', c.romInput (Assets.env ⟨pr⟩) ev c.top.pre = .ok (c', true) ∧ Rel pr S c' D'

section
variable {pr : Bool} {S : Setup} {c : Ctx} {D D' : Desk}

theorem goes_of_types {ev : KeyEvent} (h : c.processKeyEvent (Assets.env ⟨pr⟩) ev = c.romInput (Assets.env ⟨pr⟩) ev c.top.pre) (ht : GoesTyped pr S c ev D') :
    Goes pr S c ev D' true := by
  obtain ⟨c', h1, h2⟩ := ht
  exact ⟨c', h.trans h1, h2⟩

theorem types_auto {ev : KeyEvent} {c1 : Ctx} {d : Draft} (h1 : Rel pr S c1 { D with phase := .reading d })
    (hx : c.romInput (Assets.env ⟨pr⟩) ev c.top.pre = (do
      let c' ← c1.autoStartHenkan (Assets.env ⟨pr⟩)
      return (c', true)))
    (hs : D.read S d = some D') : GoesTyped pr S c ev D' := by
  obtain ⟨c', h2, h3⟩ := auto_goes h1 hs
  refine ⟨c', ?_, h3⟩
  rw [hx, h2]; rfl

/-- The keys `l`, `L` and the one for katakana. -/
theorem switch_goes (h : Rel pr S c D) {u : List Keysym} {b : Bool} (hp : D.phase = .direct u b) (hk : kanaMode D.mode = true) (k : ModeKey) (ev : KeyEvent)
    (hev : (k = .ascii ∧ ev = ⟨0x6c, 0⟩) ∨ (k = .zenkaku ∧ ev = ⟨0x4c, 0⟩) ∨ (k = .kana ∧ ev = ⟨S.layout.toggle.toNat, 0⟩))
    (hn : completed S.layout.tbl (u ++ [ev.symbol]) = none ∧ completed S.layout.tbl (u ++ [uncapitalize ev.symbol]) = none) :
    Goes pr S c ev (D.switch S u k) true := by
  have hl : DirectAt c.top u b := by have := h.level; rw [hp] at this; exact this
  have hb := h.base
  have hcomp : ¬ Completes S.layout.tbl c.top.pre ev := by
    rintro ⟨_, hx | hx⟩
    · rw [hl.pre, hn.1] at hx; cases hx
    · rw [hl.pre, hn.2] at hx; cases hx
  have hdk : ModeKeys.DirectKana c := ⟨hl.mode, by rw [hb.mode]; exact kanaMode_iff.mp hk⟩
  have key : ∃ c', c.processKeyEvent (Assets.env ⟨pr⟩) ev = .ok (c', true) ∧ Switched c c' (k.target D.mode)
      (c.top.confirmed ++ S.form D.mode (pendingKana S.layout.tbl u)) := by
    rw [h.runs.form, ← hb.mode, ← hl.pre]
    have hu := h.runs.uses
    revert hev hcomp
    generalize S.layout = L at *
    intro hev hcomp
    cases hu with
    | default a b =>
      have hz : c.top.pre = [0x7a] → ev.symbol ≠ 0x71 → False := by
        intro hx hy
        apply hcomp
        rw [hx]
        rcases hev with ⟨_, he⟩ | ⟨_, he⟩ | ⟨_, he⟩
        · subst he; exact ⟨(shipped_key pr 'l' (by decide) (by decide)).modifier, .inl (by decide +kernel)⟩
        · subst he; exact ⟨(shipped_key pr 'L' (by decide) (by decide)).modifier, .inr (by decide +kernel)⟩
        · subst he; exact absurd rfl hy
      have hf : ModeKeys.defaultForm k c.top.inputMode = c.top.inputMode := by
        rcases hev with ⟨rfl, _⟩ | ⟨rfl, _⟩ | ⟨rfl, _⟩ <;> rfl
      have := ModeKeys.default_mode_keys (Assets.env ⟨pr⟩) c a b hdk k ev
        (by
          rcases hev with ⟨rfl, he⟩ | ⟨rfl, he⟩ | ⟨rfl, he⟩ <;> rw [he]
          · simp [ModeKeys.defaultKey]
          · simp [ModeKeys.defaultKey]
          · exact List.mem_singleton.mpr rfl)
        (fun hy hx => hz hx hy)
      rw [hf] at this
      exact this
    | azik a b =>
      exact ModeKeys.azik_mode_keys (Assets.env ⟨pr⟩) c a b hdk k ev
        (by
          rcases hev with ⟨rfl, he⟩ | ⟨rfl, he⟩ | ⟨rfl, he⟩ <;> rw [he]
          · simp [ModeKeys.azikKey]
          · simp [ModeKeys.azikKey]
          · exact List.mem_singleton.mpr rfl)
        (fun _ => hcomp)
  obtain ⟨c', h1, s1⟩ := key
  refine ⟨c', h1, ?_⟩
  obtain ⟨o1, o2, o3, o4, o5⟩ := s1.only
  obtain ⟨e1, e2, e3⟩ := s1.empty ⟨hl.kana, hl.raw, hl.okuri⟩
  refine ⟨h.runs.congr o3 o4 o5, o2.trans h.dicts, ⟨s1.committed.trans (by rw [hb.written]; rfl), s1.inputMode, by rw [s1.history]; exact hb.trail, s1.default.trans hb.default, ?_⟩,
    ⟨s1.mode.trans hl.mode, s1.pending.1, s1.pending.2, e1, e2, e3⟩, by rw [o1]; exact h.below⟩
  rw [s1.history]; exact hb.history

/-- A character is typed as it is. -/
theorem direct_typed (h : Rel pr S c D) {u : List Keysym} {b : Bool} (hp : D.phase = .direct u b) {ch : Char}
    (hc : AsIs S.layout.tbl u ch) : GoesTyped pr S c ⟨ch.toNat, 0⟩ (D.typeDirect S u b ch) := by
  have hl : DirectAt c.top u b := by have := h.level; rw [hp] at this; exact this
  have hb := h.base
  refine ⟨_, direct_rom _ c S.layout.tbl _ ch h.runs.table hl.mode (by rw [hl.pre]; exact hc) (shipped_key pr ch hc.1.1 hc.1.2), ?_⟩
  refine h.with (D := D) ⟨?_, hb.mode, hb.trail, hb.default, hb.history⟩ ⟨hl.mode, ?_, ?_, hl.kana, hl.raw, hl.okuri⟩
  · show c.top.confirmed ++ _ = _
    rw [hb.written, hb.mode, hl.pre, hl.capital, h.runs.form, ← h.runs.config]; rfl
  · show (typeKey _ _ _ _ _).pending = _
    rw [hl.pre, hl.capital, ← h.runs.config]; rfl
  · show (typeKey _ _ _ _ _).shift = _
    rw [hl.pre, hl.capital, ← h.runs.config]; rfl

/-- A capital letter begins a word. -/
theorem word_goes (h : Rel pr S c D) {u : List Keysym} {b : Bool} (hp : D.phase = .direct u b) (hk : kanaMode D.mode = true) {up : Char}
    (hse : sense S.layout.tbl u up = .capital) (hs : D.startWord S u b up = some D') : GoesTyped pr S c ⟨up.toNat, 0⟩ D' := by
  have hl : DirectAt c.top u b := by have := h.level; rw [hp] at this; exact this
  have hb := h.base
  obtain ⟨hc, hab, hbg⟩ := sense_capital hse
  rw [← hl.pre] at hab hbg
  have hcap := capital_at (pr := pr) hc hab
  have hq0 : Quiet c c.top.raw := by
    rw [hl.raw]
    intro kw _ hs
    exact List.suffix_nil.mp hs
  have started : ∀ w carry, Rel pr S { c with top := { inMode c.top .preComposition with
        kana := c.top.kana ++ w, raw := c.top.raw ++ w, pre := carry, capital := !carry.isEmpty } }
      { D.leave .direct with phase := .reading ⟨w, carry, !carry.isEmpty⟩ } := by
    intro w carry
    refine h.with (D := D) ⟨hb.written, hb.mode, hb.leave hl.mode, hb.default, remember_length _ _⟩ ⟨rfl, hk, rfl, rfl, ?_, ?_, hl.okuri⟩
    · show c.top.kana ++ w = w
      rw [hl.kana]; rfl
    · show c.top.raw ++ w = w
      rw [hl.raw]; rfl
  have letter : b = true → (begins S.layout.tbl (c.top.pre ++ [up.toNat + 0x20]) = false → completed S.layout.tbl [up.toNat + 0x20] = none) →
      GoesTyped pr S c ⟨up.toNat, 0⟩ (D.typeDirect S u b (small up)) := by
    intro hx hfr
    have hsm := Stale.small_rom (Assets.env ⟨pr⟩) c S.layout.tbl _ _ h.runs.table hcap (small_small hc)
      (by unfold Ctx.transitionByCapital; simp [hl.capital, hx]) hbg (fun h1 h2 => absurd (hfr h1) h2)
    obtain ⟨c', g1, g2⟩ := direct_typed h hp (plain_asIs (small_plain hc) _ _)
    rw [small_char hc] at g1
    exact ⟨c', hsm.trans g1, g2⟩
  have hcapf : ∀ x, ¬ b = true → x = b → x = false := by intro x hx hy; rw [hy]; simpa using hx
  unfold Desk.startWord at hs
  dsimp only at hs
  rw [← hl.pre] at hs
  cases h1 : completed S.layout.tbl (c.top.pre ++ [up.toNat + 0x20]) with
  | some v =>
    obtain ⟨w, carry⟩ := v
    rw [h1] at hs
    dsimp only at hs
    split at hs
    · rename_i hx
      injection hs with hs; subst hs
      rw [hl.pre]
      refine letter hx fun hy => ?_
      rw [completed_of_not_begins hy] at h1; cases h1
    · rename_i hx
      exact types_auto (started w carry) (word_starts_auto _ c _ _ _ h.runs.table hl.mode hb.history (hcapf _ hx hl.capital) hcap w carry h1) hs
  | none =>
    rw [h1] at hs
    dsimp only at hs
    split at hs
    · rename_i h2
      injection hs with hs; subst hs
      split
      · rename_i hx
        rw [hl.pre]
        exact letter hx fun hy => by rw [h2] at hy; cases hy
      · rename_i hx
        refine ⟨_, word_begins_rom _ c _ _ _ h.runs.table hl.mode hl.okuri hb.history (hcapf _ hx hl.capital) hcap h1 h2 hq0,
          h.with (D := D) ⟨hb.written, hb.mode, hb.leave hl.mode, hb.default, remember_length _ _⟩ ⟨rfl, hk, rfl, rfl, hl.kana, hl.raw, hl.okuri⟩⟩
    · rename_i h2
      have h2 : begins S.layout.tbl (c.top.pre ++ [up.toNat + 0x20]) = false := by simpa using h2
      cases h3 : completed S.layout.tbl [up.toNat + 0x20] with
      | some v =>
        obtain ⟨w, carry⟩ := v
        rw [h3] at hs
        exact types_auto (started w carry) (word_starts_fresh_auto _ c _ _ _ h.runs.table hl.mode hb.history hcap w carry h2 h3) hs
      | none =>
        rw [h3] at hs
        injection hs with hs; subst hs
        split
        · rename_i hx
          rw [hl.pre]
          exact letter hx fun _ => h3
        · rename_i hx
          have h4 : begins S.layout.tbl [up.toNat + 0x20] = true := hbg.resolve_left (by rw [h2]; simp)
          refine ⟨_, word_begins_after_rom _ c _ _ _ h.runs.table hl.mode hl.okuri hb.history (hcapf _ hx hl.capital) hcap h2 h3 h4 hq0,
            h.with (D := D) ⟨?_, hb.mode, hb.leave hl.mode, hb.default, remember_length _ _⟩ ⟨rfl, hk, rfl, rfl, hl.kana, hl.raw, hl.okuri⟩⟩
          · show c.top.confirmed ++ _ = _
            rw [hb.written, hb.mode, h.runs.form]

/-- A character which is no command. -/
theorem input_direct (h : Rel pr S c D) {u : List Keysym} {b : Bool} (hp : D.phase = .direct u b) (hk : kanaMode D.mode = true) {ch : Char}
    (hpr : printable ch = true) (hs : D.inputDirect S u b ch = some D') : GoesTyped pr S c ⟨ch.toNat, 0⟩ D' := by
  unfold Desk.inputDirect at hs
  cases hx : sense S.layout.tbl u ch with
  | itself =>
    rw [hx] at hs
    injection hs with hs; subst hs
    exact direct_typed h hp (sense_itself hpr hx)
  | capital =>
    rw [hx] at hs
    exact word_goes h hp hk hx hs
  | unknown => rw [hx] at hs; cases hs

/-- A key which opens another composition mode. -/
theorem open_goes (h : Rel pr S c D) {u : List Keysym} {b : Bool} (hp : D.phase = .direct u b) (ev : KeyEvent) (m : CompositionMode) (hrel : ¬ IsRelease ev)
    (hn : completed S.layout.tbl (u ++ [ev.symbol]) = none ∧ completed S.layout.tbl (u ++ [uncapitalize ev.symbol]) = none)
    (hf : ((c.cmds .direct D.mode).find? fun b => decide (b.1 = CommandRule.matchingKey ev)).map (·.2) = some [.changeCompositionMode m]) :
    c.processKeyEvent (Assets.env ⟨pr⟩) ev = .ok ({ c with top := inMode c.top m }, true) := by
  have hl : DirectAt c.top u b := by have := h.level; rw [hp] at this; exact this
  have hb := h.base
  have hcomp : ¬ Completes S.layout.tbl c.top.pre ev := by
    rintro ⟨_, hx | hx⟩
    · rw [hl.pre, hn.1] at hx; cases hx
    · rw [hl.pre, hn.2] at hx; cases hx
  rw [key_command _ c _ _ hrel (by rw [hl.mode]; decide) (commandIs_of_find (by rw [hl.mode, hb.mode]; exact hf))
    (ModeKeys.skip_iff c S.layout.tbl ev h.runs.table hcomp)]
  have : c.top.changeModeFrom m c.top.mode = inMode c.top m := changeModeFrom_eq _ _ _ hb.history
  show Except.ok (c.setCompositionMode m, true) = _
  unfold Ctx.setCompositionMode Ctx.mapTop State.changeMode
  show Except.ok ({ c with top := c.top.changeModeFrom m c.top.mode }, true) = _
  rw [this]

/-- The key which begins an empty reading. -/
theorem opener_goes (h : Rel pr S c D) {u : List Keysym} {b : Bool} (hp : D.phase = .direct u b) (hk : kanaMode D.mode = true)
    (hn : completed S.layout.tbl (u ++ [S.opener.toNat]) = none ∧ completed S.layout.tbl (u ++ [uncapitalize S.opener.toNat]) = none) :
    Goes pr S c ⟨S.opener.toNat, 0⟩ { D.leave .direct with phase := .reading ⟨[], u, b⟩ } true := by
  have hl : DirectAt c.top u b := by have := h.level; rw [hp] at this; exact this
  have hb := h.base
  have hf : ((c.cmds .direct D.mode).find? fun b => decide (b.1 = CommandRule.matchingKey ⟨S.opener.toNat, 0⟩)).map (·.2) =
      some [.changeCompositionMode .preComposition] := by
    rcases h.runs.opener with ⟨h1, h2⟩ | ⟨h1, h2⟩ <;> rw [h1, h2] <;> rcases kanaMode_iff.mp hk with h | h | h <;> rw [h] <;> decide +kernel
  refine ⟨_, open_goes h hp _ .preComposition (by unfold IsRelease; show ¬ (0 : BitVec _).getLsbD 30 = true; decide) hn hf, ?_⟩
  refine h.with (D := D) ⟨hb.written, hb.mode, hb.leave hl.mode, hb.default, remember_length _ _⟩ ⟨rfl, hk, hl.pre, hl.capital, hl.kana, hl.raw, hl.okuri⟩

/-- The key `/`. -/
theorem slash_goes (h : Rel pr S c D) {u : List Keysym} {b : Bool} (hp : D.phase = .direct u b) (hk : kanaMode D.mode = true)
    (hn : completed S.layout.tbl (u ++ ['/'.toNat]) = none ∧ completed S.layout.tbl (u ++ [uncapitalize '/'.toNat]) = none) :
    Goes pr S c ⟨'/'.toNat, 0⟩ { D.leave .direct with phase := .short [] u b } true := by
  have hl : DirectAt c.top u b := by have := h.level; rw [hp] at this; exact this
  have hb := h.base
  have hf : ((c.cmds .direct D.mode).find? fun b => decide (b.1 = CommandRule.matchingKey ⟨'/'.toNat, 0⟩)).map (·.2) =
      some [.changeCompositionMode .abbreviation] := by
    rcases h.runs.uses.cases with h1 | h1 <;> rw [h1] <;> rcases kanaMode_iff.mp hk with h | h | h <;> rw [h] <;> decide +kernel
  refine ⟨_, open_goes h hp _ .abbreviation (by unfold IsRelease; decide) hn hf, ?_⟩
  refine h.with (D := D) ⟨hb.written, hb.mode, hb.leave hl.mode, hb.default, remember_length _ _⟩ ⟨rfl, hk, hl.pre, hl.capital, hl.kana, hl.raw, hl.okuri⟩

theorem not_completes {L : Layout} {m : CompositionMode} {u : List Keysym} {ch : Char} (h : command L m u ch = true) :
    completed L.tbl (u ++ [ch.toNat]) = none ∧ completed L.tbl (u ++ [uncapitalize ch.toNat]) = none := by
  unfold command completes at h
  simp only [Bool.and_eq_true, Bool.not_eq_true', Bool.or_eq_false_iff, Bool.and_eq_false_iff, Option.isSome_eq_false_iff, Option.isNone_iff_eq_none] at h
  obtain ⟨_, h1, h2⟩ := h
  refine ⟨h1, ?_⟩
  rcases h2 with h2 | h2
  · rw [uncapitalize_other h2]; exact h1
  · cases hc : capital ch with
    | true => rw [uncapitalize_capital hc]; exact h2
    | false => rw [uncapitalize_other hc]; exact h1

/-- A printable character in direct input. -/
theorem direct_char (h : Rel pr S c D) {u : List Keysym} {b : Bool} (hp : D.phase = .direct u b) {ch : Char} (hpr : printable ch = true)
    (hs : D.directChar S u b ch = some D') : Goes pr S c ⟨ch.toNat, 0⟩ D' true := by
  have hl : DirectAt c.top u b := by have := h.level; rw [hp] at this; exact this
  have hb := h.base
  have hpr' := of_decide_eq_true hpr
  have asc : (D.mode = .ascii ∨ D.mode = .zenkaku) → Goes pr S c ⟨ch.toNat, 0⟩ { D with written := D.written ++ if D.mode = .ascii then [ch] else S.wide ch } true := by
    intro hm
    have hi : c.top.inputMode = .ascii ∨ c.top.inputMode = .zenkaku := by rw [hb.mode]; exact hm
    refine ⟨_, Ascii.step_direct _ c _ ch hl.mode hi (Ascii.shipped_types pr c h.runs.uses.cases hl.mode hi ch hpr'.1 hpr'.2), ?_⟩
    have := h.with (s := { c.top with confirmed := c.top.confirmed ++
        if c.top.inputMode = .ascii then [ch] else (Assets.env ⟨pr⟩).asciiForm.adjustChar ch }) (m := D.mode) (p := D.phase)
      (w := D.written ++ if D.mode = .ascii then [ch] else S.wide ch) ⟨by
        show c.top.confirmed ++ _ = _
        rw [hb.written, hb.mode, h.runs.wide], hb.mode, hb.trail, hb.default, hb.history⟩ (by
        rw [hp]
        exact ⟨hl.mode, hl.pre, hl.capital, hl.kana, hl.raw, hl.okuri⟩)
    exact this
  unfold Desk.directChar at hs
  split at hs
  · rename_i hm
    injection hs with hs; subst hs
    have := asc (.inl hm)
    rw [if_pos hm] at this
    exact this
  rename_i ha
  split at hs
  · rename_i hm
    injection hs with hs; subst hs
    have := asc (.inr hm)
    rw [if_neg ha] at this
    exact this
  rename_i hz
  have hk : kanaMode D.mode = true := by
    revert ha hz
    cases D.mode <;> simp [kanaMode]
  have hr := rom hb hk (.inl hl.mode)
  split at hs
  · rename_i hcm
    have hn : completed S.layout.tbl (u ++ [ch.toNat]) = none ∧ completed S.layout.tbl (u ++ [uncapitalize ch.toNat]) = none := not_completes hcm
    unfold Desk.commandDirect at hs
    split at hs
    · rename_i htg
      injection hs with hs; subst hs
      exact switch_goes h hp hk .kana _ (.inr (.inr ⟨rfl, by rw [htg]⟩)) hn
    split at hs
    · rename_i hx
      subst hx
      injection hs with hs; subst hs
      exact switch_goes h hp hk .ascii _ (.inl ⟨rfl, rfl⟩) hn
    split at hs
    · rename_i hx
      subst hx
      injection hs with hs; subst hs
      exact switch_goes h hp hk .zenkaku _ (.inr (.inl ⟨rfl, rfl⟩)) hn
    split at hs
    · rename_i hx
      subst hx
      injection hs with hs; subst hs
      exact opener_goes h hp hk hn
    split at hs
    · rename_i hx
      subst hx
      injection hs with hs; subst hs
      exact slash_goes h hp hk hn
    · cases hs
  · rename_i hcm
    exact goes_of_types (key_rom h hr hpr (by rw [hl.mode, hl.pre]; simpa using hcm)) (input_direct h hp hk hpr hs)

theorem delete_direct {s : State} (hm : s.mode = .direct) :
    s.delete = if s.pre ≠ [] then ({ s with pre := s.pre.dropLast }, true)
      else ({ s with confirmed := s.confirmed.dropLast }, !s.confirmed.isEmpty) := by
  cases s
  simp only at hm
  subst hm
  rfl

/-- BackSpace. -/
theorem direct_back (h : Rel pr S c D) {u : List Keysym} {b : Bool} (hp : D.phase = .direct u b) :
    Goes pr S c ⟨0xff08, 0⟩
      { D with
        written := ((⟨D.written, u, b⟩ : Draft).press S.layout.tbl S.config id .back).text
        phase := .direct ((⟨D.written, u, b⟩ : Draft).press S.layout.tbl S.config id .back).pending
          ((⟨D.written, u, b⟩ : Draft).press S.layout.tbl S.config id .back).shift }
      (!decide (D.written = [] ∧ u = [])) := by
  have hl : DirectAt c.top u b := by have := h.level; rw [hp] at this; exact this
  have hb := h.base
  have hx := Editing.backspace (Assets.env ⟨pr⟩) h.runs.uses.shipped (.inl hl.mode)
  have hd : c.top.delete = if c.top.pre ≠ [] then ({ c.top with pre := c.top.pre.dropLast }, true)
      else ({ c.top with confirmed := c.top.confirmed.dropLast }, !c.top.confirmed.isEmpty) := by
    exact delete_direct hl.mode
  rw [hd, hl.pre, hb.written] at hx
  by_cases hu : u = []
  · subst hu
    simp only [ne_eq, not_true_eq_false, if_false] at hx
    have hres : (!decide (D.written = [] ∧ ([] : List Keysym) = [])) = !D.written.isEmpty := by
      cases D.written <;> simp
    rw [hres]
    exact ⟨_, hx, h.with (D := D) ⟨rfl, hb.mode, hb.trail, hb.default, hb.history⟩ ⟨hl.mode, hl.pre, hl.capital, hl.kana, hl.raw, hl.okuri⟩⟩
  · simp only [ne_eq, hu, not_false_eq_true, if_true] at hx
    have hres : (!decide (D.written = [] ∧ u = [])) = true := by simp [hu]
    rw [hres]
    refine ⟨_, hx, ?_⟩
    simp only [Draft.press, hu, if_false]
    exact h.with (D := D) ⟨hb.written, hb.mode, hb.trail, hb.default, hb.history⟩ ⟨hl.mode, rfl, hl.capital, hl.kana, hl.raw, hl.okuri⟩

/-- What the ending keys are, in direct input. -/
theorem direct_ends (h : Rel pr S c D) {u : List Keysym} {b : Bool} (hp : D.phase = .direct u b) :
    c.processKeyEvent (Assets.env ⟨pr⟩) ⟨0x67, 4⟩ = .ok (c.abort, true) ∧
    (D.waiting = [] → c.processKeyEvent (Assets.env ⟨pr⟩) ⟨0xff0d, 0⟩ = .ok (c, false)) ∧
    (D.waiting ≠ [] → c.processKeyEvent (Assets.env ⟨pr⟩) ⟨0xff0d, 0⟩ = (c.exitRegister (Assets.env ⟨pr⟩) c.top.confirmed).map fun x => (x, true)) := by
  have hl : DirectAt c.top u b := by have := h.level; rw [hp] at this; exact this
  obtain ⟨tbl, hk, h1, h2, h3, h4, _⟩ := Registration.shipped_ends c hl.mode (Teach.shipped_cases h.runs.uses.shipped)
  have hm : c.top.mode ≠ .register := by rw [hl.mode]; decide
  have hlen := allWait_length h.below
  refine ⟨?_, ?_, ?_⟩
  · rw [key_command _ c _ _ (by unfold IsRelease; decide) hm h1 (Props.ModeKeys.skip_iff c tbl _ hk h2)]
    exact Props.Convert.single _ _ _ _ _ _ rfl
  · intro hw
    rw [hw] at hlen
    exact Registration.return_outside c tbl _ hk (List.eq_nil_of_length_eq_zero hlen) hm (by unfold IsRelease; decide) h3 h4
  · intro hw
    rw [key_command _ c _ _ (by unfold IsRelease; decide) hm h3 (Props.ModeKeys.skip_iff c tbl _ hk h4)]
    have hdep : c.depth > 1 := by
      unfold Ctx.depth
      have : D.waiting.length ≠ 0 := fun hx => hw (List.eq_nil_of_length_eq_zero hx)
      omega
    unfold Ctx.processInstructions Ctx.runInstructions Ctx.instruction
    simp only [hdep, if_true]
    cases c.exitRegister (Assets.env ⟨pr⟩) c.top.confirmed <;> rfl

/-- A level which waited is worked on again. -/
theorem waits_back {s : State} {W : Waiter} {rest : List State} {restW : List Waiter} (hruns : Runs pr c S) (hd : c.dicts = D.dicts) (hw : Waits s W)
    (hr : AllWait rest restW) (hD : D.waiting = W :: restW) (hs : D.resume = some D') :
    Rel pr S { c with below := rest, top := s.abortToPrevious } D' := by
  have hb := hw.base
  have htr := hw.came
  unfold Desk.resume at hs
  rw [hD] at hs
  dsimp only at hs
  have dl : s.history.dropLast.length ≤ 20 := by rw [List.length_dropLast]; have := hb.history; omega
  by_cases hn : W.words ≠ []
  · rw [if_pos hn] at hs htr
    injection hs with hs; subst hs
    obtain ⟨g1, g2⟩ := suffix_getLast htr
    have he : s.abortToPrevious = { s with history := s.history.dropLast, mode := .compositionSelection } := by
      unfold State.abortToPrevious
      rw [g1]; rfl
    rw [he]
    exact ⟨hruns.congr rfl rfl rfl, hd, ⟨hb.written, hb.mode, hb.trail.dropLast, hb.default, dl⟩, ⟨rfl, hw.kanaMode,
      ⟨hw.holds.pre, hw.holds.capital, hw.holds.kana, hw.holds.raw, hw.holds.okuri, hw.holds.use⟩, hw.cands, hw.cursor hn, g2⟩, hr⟩
  · rw [if_neg hn] at hs htr
    rw [List.append_nil] at htr
    by_cases hst : W.asked.strict = true
    · rw [if_pos hst] at hs
      injection hs with hs; subst hs
      unfold Asked.origin at htr
      rw [if_pos hst] at htr
      have g1 := last_getLast htr
      have he : s.abortToPrevious = { ({ s with history := s.history.dropLast } : State).consolidate with mode := .preComposition } := by
        unfold State.abortToPrevious
        rw [g1]; rfl
      rw [he]
      refine ⟨hruns.congr rfl rfl rfl, hd, ⟨hb.written, hb.mode, hb.trail.dropLast, hb.default, dl⟩, ⟨rfl, hw.kanaMode, hw.holds.pre, hw.holds.capital, ?_, ?_, rfl⟩, hr⟩
      · show s.kana ++ s.okuri = _
        rw [hw.holds.kana, hw.holds.okuri]; rfl
      · show s.raw ++ s.okuri = _
        rw [hw.holds.raw, hw.holds.okuri]; rfl
    · rw [if_neg hst] at hs
      by_cases ht : W.asked.tail = []
      · rw [if_pos ht] at hs
        injection hs with hs; subst hs
        unfold Asked.origin at htr
        rw [if_neg hst] at htr
        have g1 := last_getLast htr
        have he : s.abortToPrevious = { s with history := s.history.dropLast, mode := origin W.asked.short } := by
          unfold State.abortToPrevious
          rw [g1]
          cases W.asked.short <;> rfl
        rw [he]
        refine ⟨hruns.congr rfl rfl rfl, hd, ⟨hb.written, hb.mode, hb.trail.dropLast, hb.default, dl⟩, ?_, hr⟩
        exact level_typing rfl hw.kanaMode hw.holds.pre hw.holds.capital hw.holds.kana hw.holds.raw (hw.holds.okuri.trans ht)
      · rw [if_neg ht] at hs
        cases hs

theorem waiting_cases (h : Rel pr S c D) (hn : D.waiting ≠ []) :
    ∃ s rest W restW, c.below = s :: rest ∧ D.waiting = W :: restW ∧ Waits s W ∧ AllWait rest restW := by
  have hb := h.below
  cases hc : c.below with
  | nil => cases hd : D.waiting with
    | nil => exact absurd hd hn
    | cons W r => rw [hc, hd] at hb; exact hb.elim
  | cons s l => cases hd : D.waiting with
    | nil => exact absurd hd hn
    | cons W r => rw [hc, hd] at hb; exact ⟨s, l, W, r, rfl, rfl, hb.1, hb.2⟩

theorem resume_some (hs : D.resume = some D') : D.waiting ≠ [] := by
  intro hx
  unfold Desk.resume at hs
  rw [hx] at hs
  cases hs

/-- Back to what was done before. -/
theorem back_goes (h : Around pr S c D) {s : State} (hb : Base s D.written D.mode D.trail) (h1 : s.pre = []) (h2 : s.capital = false) (h3 : s.kana = [])
    (h4 : s.raw = []) (h5 : s.okuri = []) (hs : D.back = some D') : Rel pr S { c with top := s.abortToPrevious } D' := by
  unfold Desk.back at hs
  have dl : s.history.dropLast.length ≤ 20 := by rw [List.length_dropLast]; have := hb.history; omega
  have dt := hb.trail.dropLast
  rcases hb.trail.getLast with hg | ⟨hg1, hg2⟩
  case inr =>
    rw [hg1] at hs
    injection hs with hs; subst hs
    unfold State.abortToPrevious
    simp only [hg2, List.getLast?_singleton, reduceCtorEq, if_false]
    exact ⟨h.runs.congr rfl rfl rfl, h.dicts, ⟨hb.written, hb.mode, .inl rfl, hb.default, by simp⟩, ⟨rfl, h1, h2, h3, h4, h5⟩, h.below⟩
  rw [← hg] at hs
  unfold State.abortToPrevious
  cases hg : s.history.getLast? with
  | none =>
    rw [hg] at hs
    injection hs with hs; subst hs
    rw [List.getLast?_eq_none_iff] at hg
    exact ⟨h.runs.congr rfl rfl rfl, h.dicts, ⟨hb.written, hb.mode, by show Past s.history _; rw [hg]; rw [hg] at dt; exact dt, hb.default, hb.history⟩,
      ⟨hb.default, h1, h2, h3, h4, h5⟩, h.below⟩
  | some m =>
    rw [hg] at hs
    cases m with
    | direct =>
      injection hs with hs; subst hs
      exact ⟨h.runs.congr rfl rfl rfl, h.dicts, ⟨hb.written, hb.mode, dt, hb.default, dl⟩, ⟨rfl, h1, h2, h3, h4, h5⟩, h.below⟩
    | preComposition =>
      dsimp only at hs
      split at hs
      · rename_i hk
        injection hs with hs; subst hs
        exact ⟨h.runs.congr rfl rfl rfl, h.dicts, ⟨hb.written, hb.mode, dt, hb.default, dl⟩, ⟨rfl, hk, h1, h2, h3, h4, h5⟩, h.below⟩
      · cases hs
    | preCompositionOkurigana =>
      dsimp only at hs
      split at hs
      · rename_i hk
        injection hs with hs; subst hs
        refine ⟨h.runs.congr rfl rfl rfl, h.dicts, ⟨hb.written, hb.mode, dt, hb.default, dl⟩, ⟨rfl, hk, h1, h2, ?_, ?_, rfl⟩, h.below⟩
        · show s.kana ++ s.okuri = []
          rw [h3, h5]; rfl
        · show s.raw ++ s.okuri = []
          rw [h4, h5]; rfl
      · cases hs
    | abbreviation =>
      dsimp only at hs
      split at hs
      · rename_i hk
        injection hs with hs; subst hs
        exact ⟨h.runs.congr rfl rfl rfl, h.dicts, ⟨hb.written, hb.mode, dt, hb.default, dl⟩, ⟨rfl, hk, h1, h2, h3, h4, h5⟩, h.below⟩
      · cases hs
    | _ => cases hs

/-- Ctrl-g in direct input. -/
theorem direct_ctrlG (h : Rel pr S c D) {u : List Keysym} {b : Bool} (hp : D.phase = .direct u b)
    (hs : (if D.waiting = [] then D.back else D.resume) = some D') : Goes pr S c ⟨0x67, 4⟩ D' true := by
  have hl : DirectAt c.top u b := by have := h.level; rw [hp] at this; exact this
  refine ⟨_, (direct_ends h hp).1, ?_⟩
  have hm' : (c.mapTop fun s => s.clearPre.consolidate.clearCandidateList).top.mode = .direct := hl.mode
  by_cases hw0 : D.waiting = []
  · rw [if_pos hw0] at hs
    have hbl : c.below = [] := by
      have := allWait_length h.below
      rw [hw0] at this
      exact List.eq_nil_of_length_eq_zero this
    have he : c.abort = { c with top := c.top.clearPre.consolidate.clearCandidateList.abortToPrevious } := by
      unfold Ctx.abort
      simp only [hm', reduceCtorEq, false_and, if_false, if_true]
      unfold Ctx.abortRegister Ctx.mapTop
      simp only [hbl]
    rw [he]
    have hb := h.base
    refine back_goes h.around ⟨hb.written, hb.mode, hb.trail, hb.default, hb.history⟩ rfl rfl ?_ ?_ rfl hs
    · show c.top.kana ++ c.top.okuri = []
      rw [hl.kana, hl.okuri]; rfl
    · show c.top.raw ++ c.top.okuri = []
      rw [hl.raw, hl.okuri]; rfl
  rw [if_neg hw0] at hs
  obtain ⟨s, rest, W, restW, hb1, hb2, hw, hr⟩ := waiting_cases h hw0
  have he : c.abort = { c with below := rest, top := s.abortToPrevious } := by
    unfold Ctx.abort
    simp only [hm', reduceCtorEq, false_and, if_false, if_true]
    unfold Ctx.abortRegister Ctx.mapTop
    simp only [hb1]
  rw [he]
  exact waits_back h.runs h.dicts hw hr hb2 hs

/-- Enter in direct input. -/
theorem direct_enter (h : Rel pr S c D) {u : List Keysym} {b : Bool} (hp : D.phase = .direct u b) (hn : D.waiting ≠ [])
    (hs : (if D.written = [] then D.resume else D.register S) = some D') : Goes pr S c ⟨0xff0d, 0⟩ D' true := by
  have hl : DirectAt c.top u b := by have := h.level; rw [hp] at this; exact this
  obtain ⟨s, rest, W, restW, hb1, hb2, hw, hr⟩ := waiting_cases h hn
  have hkey := (direct_ends h hp).2.2 hn
  rw [h.base.written] at hkey
  by_cases hwr : D.written = []
  · rw [if_pos hwr] at hs
    refine ⟨{ c with below := rest, top := s.abortToPrevious }, ?_, waits_back h.runs h.dicts hw hr hb2 hs⟩
    rw [hkey, hwr]
    unfold Ctx.exitRegister
    rw [hb1]; rfl
  · rw [if_neg hwr] at hs
    unfold Desk.register at hs
    rw [hb2] at hs
    dsimp only at hs
    split at hs
    case h_2 => cases hs
    rename_i x xs hx
    injection hs with hs; subst hs
    have hreg : Ctx.registered c.dicts s D.written = .ok (x :: xs) := by
      rw [← hx, h.dicts]
      unfold Ctx.registered Asked.registers
      simp only [hw.cands, Asked.key, hw.holds.okuri]
      split
      · simp only [bind, Except.bind, Except.map, pure, Except.pure]
      · rfl
    refine ⟨{ c with
        below := rest
        top := Confirm.committed s (x.output ++ (Assets.env ⟨pr⟩).kanaForm.adjust s.inputMode s.okuri)
        dicts := c.dicts.map fun (d : CskkDict) => d.confirm x }, ?_, ?_⟩
    · rw [hkey, Teach.exit_word _ c s rest D.written x hb1 hwr hreg]; rfl
    · refine ⟨h.runs.congr rfl rfl rfl, ?_, ⟨?_, hw.base.mode, .inl rfl, hw.base.default, by simp [Confirm.committed, State.new]⟩, ⟨?_, rfl, rfl, rfl, rfl, rfl⟩, hr⟩
      · show List.map _ c.dicts = _
        rw [h.dicts]; rfl
      · show s.confirmed ++ _ = _
        rw [hw.base.written, hw.base.mode, hw.holds.okuri, ← h.runs.form]; rfl
      · show s.defaultMode = .direct
        exact hw.base.default

/-- Ctrl-j in direct input. -/
theorem direct_ctrlJ (h : Rel pr S c D) {u : List Keysym} {b : Bool} (hp : D.phase = .direct u b) :
    Goes pr S c ⟨0x6a, 4⟩ (if kanaMode D.mode then D else { D with mode := .hiragana }) true := by
  have hl : DirectAt c.top u b := by have := h.level; rw [hp] at this; exact this
  have hb := h.base
  by_cases hk : kanaMode D.mode = true
  · rw [if_pos hk]
    refine ⟨c, ?_, h⟩
    have hfind : ((c.cmds c.top.mode c.top.inputMode).find? fun b => decide (b.1 = CommandRule.matchingKey ⟨0x6a, 4⟩)).map (·.2) = some [.finishKeyEvent] := by
      rw [hl.mode, hb.mode]
      rcases h.runs.uses.cases with h | h <;> rw [h] <;> rcases kanaMode_iff.mp hk with h | h | h <;> rw [h] <;> decide +kernel
    have hcmd := commandIs_of_find hfind
    have hs : c.skipCommand ⟨0x6a, 4⟩ = false := by
      refine ModeKeys.skip_iff c S.layout.tbl _ h.runs.table ?_
      rintro ⟨hx, _⟩
      exact hx ⟨2, by decide, by decide⟩
    rw [key_command _ c _ _ (by unfold IsRelease; decide) (by rw [hl.mode]; decide) hcmd hs]
    rfl
  · rw [if_neg hk]
    have hm : c.top.inputMode = .ascii ∨ c.top.inputMode = .zenkaku := by
      rw [hb.mode]
      revert hk
      cases D.mode <;> simp [kanaMode]
    refine ⟨_, ModeKeys.back_to_kana _ c h.runs.uses.cases hl.mode hm, ?_⟩
    have := h.with (s := { c.top with inputMode := .hiragana }) (m := .hiragana) (p := D.phase) (w := D.written)
      ⟨hb.written, rfl, hb.trail, hb.default, hb.history⟩ (by
        rw [hp]
        exact ⟨hl.mode, hl.pre, hl.capital, hl.kana, hl.raw, hl.okuri⟩)
    exact this

end

end Cskk.Props.Machine
