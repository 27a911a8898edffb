import Verif.Props.MachineHanded
import Verif.Props.CompletionCycle

/-!
# C75, third part: a reading
-/

namespace Cskk.Props.Machine

open Spec Spec.Typing Spec.Teach Spec.Document Spec.ModeKeys Spec.Editing Spec.Machine
open Romaji KanaBuilder Navigate Convert Typing Words ShippedTyping
open Cskk.Props.Document (Uses)

theorem typeKey_shift (tbl : Table) (ps : PeriodStyle) (cs : CommaStyle) (s : Typing) (ch : Char) (h : (typeKey tbl ps cs s ch).pending = []) :
    (typeKey tbl ps cs s ch).shift = false := by
  unfold typeKey at h ⊢
  cases h1 : completed tbl (s.pending ++ [ch.toNat]) with
  | some v =>
    rw [h1] at h
    simp only at h ⊢
    rw [h]; simp
  | none =>
    rw [h1] at h
    cases h2 : punctuation ps cs ch with
    | some w => rfl
    | none =>
      rw [h2] at h
      simp only at h ⊢
      by_cases h3 : begins tbl (s.pending ++ [ch.toNat]) = true
      · rw [if_pos h3] at h
        simp at h
      · rw [if_neg h3] at h ⊢
        cases h4 : completed tbl [ch.toNat] with
        | some v =>
          rw [h4] at h
          simp only at h ⊢
          rw [h]; simp
        | none =>
          rw [h4] at h
          simp only at h ⊢
          by_cases h5 : begins tbl [ch.toNat] = true
          · rw [if_pos h5]
          · rw [if_neg h5]

section
variable {pr : Bool} {S : Setup} {c : Ctx} {D D' : Desk}

theorem Rel.reading (h : Rel pr S c D) {d : Draft} (hp : D.phase = .reading d) : ReadingAt c.top D.mode d := by
  have := h.level
  rw [hp] at this
  exact this

/-- A character is typed. -/
theorem read_types (h : Rel pr S c D) {d : Draft} (hp : D.phase = .reading d) {ch : Char} (hc : AsIs S.layout.tbl d.pending ch)
    (hs : D.read S (d.press S.layout.tbl S.config id (.char ch)) = some D') : GoesTyped pr S c ⟨ch.toNat, 0⟩ D' := by
  have hl := h.reading hp
  have hb := h.base
  refine types_auto ?_ (reading_rom (Assets.env ⟨pr⟩) c S.layout.tbl _ ch h.runs.table hl.mode (by rw [hl.pre]; exact hc) (shipped_key pr ch hc.1.1 hc.1.2)) hs
  rw [hl.pre, hl.capital, ← h.runs.config]
  refine h.with (D := D) ⟨hb.written, hb.mode, hb.trail, hb.default, hb.history⟩ ⟨hl.mode, hl.kanaMode, rfl, rfl, ?_, ?_, hl.okuri⟩
  · show c.top.kana ++ _ = _
    rw [hl.kana]; rfl
  · show c.top.raw ++ _ = _
    rw [hl.raw]; rfl

/-- A capital letter begins the okurigana. -/
theorem okuri_types (h : Rel pr S c D) {d : Draft} (hp : D.phase = .reading d) {up : Char}
    (hse : sense S.layout.tbl d.pending up = .capital) (hs : D.startOkuri S d up = some D') : GoesTyped pr S c ⟨up.toNat, 0⟩ D' := by
  have hl := h.reading hp
  have hb := h.base
  obtain ⟨hc, hab, hbg⟩ := sense_capital hse
  rw [← hl.pre] at hab hbg
  have hcap := capital_at (pr := pr) hc hab
  have hhome : [.preComposition] <:+ remember c.top.history c.top.mode := by
    rw [hl.mode]
    exact last_remember _ _
  have letter : (d.text = [] ∨ d.shift = true) →
      (d.text ≠ [] → begins S.layout.tbl (c.top.pre ++ [up.toNat + 0x20]) = false → completed S.layout.tbl [up.toNat + 0x20] = none) →
      D.read S (d.press S.layout.tbl S.config id (.char (small up))) = some D' → GoesTyped pr S c ⟨up.toNat, 0⟩ D' := by
    intro hx hfr hs
    have htr : ∀ b, d.text = [] ∨ b = true → c.transitionByCapital ⟨up.toNat, 0⟩ c.top.mode b = (c, false) := by
      intro b hb
      unfold Ctx.transitionByCapital
      rw [hl.mode, hl.kana]
      rcases hb with hb | hb <;> simp [hb]
    have hsm := Stale.small_rom (Assets.env ⟨pr⟩) c S.layout.tbl _ _ h.runs.table hcap (small_small hc)
      (htr _ (by rw [hl.capital]; exact hx)) hbg (fun h1 h2 => htr _ (.inl (by
        by_cases ht : d.text = []
        · exact ht
        · exact absurd (hfr ht h1) h2)))
    obtain ⟨c', g1, g2⟩ := read_types h hp (plain_asIs (small_plain hc) _ _) hs
    rw [small_char hc] at g1
    exact ⟨c', hsm.trans g1, g2⟩
  unfold Desk.startOkuri at hs
  dsimp only at hs
  split at hs
  · rename_i ht
    exact letter (.inl ht) (fun hx => absurd ht hx) hs
  rename_i hne
  have hkn : c.top.kana ≠ [] := by rw [hl.kana]; exact hne
  have hcapf : ¬ d.shift = true → c.top.capital = false := by intro hx; rw [hl.capital]; simpa using hx
  have conv : ∀ w, (D.leave .preComposition).convert ⟨d.text, w, true, false, false, []⟩ = some D' →
      (∀ r, r = { inMode c.top .preCompositionOkurigana with okuri := c.top.okuri ++ w, useOkuri := true, pre := [], capital := false } →
        ∀ cs, Dicts.getAll c.dicts (lookupKey r) = .ok cs →
          c.romInput (Assets.env ⟨pr⟩) ⟨up.toNat, 0⟩ c.top.pre = .ok (converted c r cs, true)) → GoesTyped pr S c ⟨up.toNat, 0⟩ D' := by
    intro w hs hgo
    obtain ⟨cs, hcs⟩ := convert_looked hs
    have hh : Holds { inMode c.top .preCompositionOkurigana with okuri := c.top.okuri ++ w, useOkuri := true, pre := [], capital := false }
        ⟨d.text, w, true, false, false, []⟩ := by
      refine ⟨rfl, rfl, hl.kana, hl.raw, ?_, fun _ => rfl⟩
      show c.top.okuri ++ w = w
      rw [hl.okuri]; rfl
    refine ⟨_, hgo _ rfl cs (by rw [holds_key hh, h.dicts]; exact hcs), ?_⟩
    exact rel_converted (h.left _) (a := ⟨d.text, w, true, false, false, []⟩) ⟨hb.written, hb.mode, hb.leave hl.mode, hb.default, remember_length _ _⟩ hl.kanaMode hh rfl
      (fun _ => ⟨hne, hhome⟩) (by rw [h.dicts]; exact hcs) hs
  rw [← hl.pre] at hs
  cases h1 : completed S.layout.tbl (c.top.pre ++ [up.toNat + 0x20]) with
  | some v =>
    obtain ⟨w, carry⟩ := v
    rw [h1] at hs
    dsimp only at hs
    split at hs
    · rename_i hx
      refine letter (.inr hx) (fun _ hy => ?_) hs
      rw [completed_of_not_begins hy] at h1; cases h1
    rename_i hx
    have hcp := hcapf hx
    split at hs
    · rename_i hy
      subst hy
      exact conv w hs fun r hr cs hcs => okuri_starts_rom _ c _ _ _ h.runs.table hl.mode hkn hb.history hcp hcap w h1 r hr cs hcs
    rename_i hcr
    split at hs
    · cases hs
    rename_i hpe
    injection hs with hs; subst hs
    have hcr' : (!carry.isEmpty) = true := by simpa using hcr
    refine ⟨_, okuri_sokuon_rom _ c _ _ _ h.runs.table hl.mode hkn hb.history hcp hcap w carry h1 hpe hcr,
      h.with (D := D) ⟨hb.written, hb.mode, hb.leave hl.mode, hb.default, remember_length _ _⟩
      ⟨rfl, hl.kanaMode, rfl, rfl, ?_, ?_, hl.okuri, ?_, fun hx => absurd rfl hx, hhome⟩⟩
    · show c.top.kana ++ w = _
      rw [hl.kana]
    · show c.top.raw ++ w = _
      rw [hl.raw]
    · simp [hne]
  | none =>
    rw [h1] at hs
    dsimp only at hs
    split at hs
    · rename_i h2
      split at hs
      · rename_i hx
        exact letter (.inr hx) (fun _ hy => by rw [h2] at hy; cases hy) hs
      rename_i hx
      injection hs with hs; subst hs
      exact ⟨_, okuri_begins_rom _ c _ _ _ h.runs.table hl.mode hkn hb.history (hcapf hx) hcap h1 h2,
        h.with (D := D) ⟨hb.written, hb.mode, hb.leave hl.mode, hb.default, remember_length _ _⟩
        ⟨rfl, hl.kanaMode, rfl, rfl, hl.kana, hl.raw, hl.okuri, hne, fun hx => absurd rfl hx, hhome⟩⟩
    rename_i h2
    have h2 : begins S.layout.tbl (c.top.pre ++ [up.toNat + 0x20]) = false := by simpa using h2
    cases h3 : completed S.layout.tbl [up.toNat + 0x20] with
    | some v =>
      obtain ⟨w, carry⟩ := v
      rw [h3] at hs
      dsimp only at hs
      split at hs
      · rename_i hy
        subst hy
        exact conv w hs fun r hr cs hcs => okuri_starts_fresh _ c _ _ _ h.runs.table hl.mode hkn hb.history hcap w h2 h3 r hr cs hcs
      · cases hs
    | none =>
      rw [h3] at hs
      dsimp only at hs
      split at hs
      · rename_i hx
        exact letter (.inr hx) (fun _ _ => h3) hs
      rename_i hx
      injection hs with hs; subst hs
      have h4 : begins S.layout.tbl [up.toNat + 0x20] = true := hbg.resolve_left (by rw [h2]; simp)
      refine ⟨_, okuri_begins_after_rom _ c _ _ _ h.runs.table hl.mode hkn hb.history (hcapf hx) hcap h2 h3 h4,
        h.with (D := D) ⟨hb.written, hb.mode, hb.leave hl.mode, hb.default, remember_length _ _⟩
        ⟨rfl, hl.kanaMode, rfl, rfl, ?_, ?_, hl.okuri, ?_, fun hx => absurd rfl hx, hhome⟩⟩
      · show c.top.kana ++ _ = _
        rw [hl.kana]
      · show c.top.raw ++ _ = _
        rw [hl.raw]
      · simp [hne]

/-- A character which is no command. -/
theorem input_reading (h : Rel pr S c D) {d : Draft} (hp : D.phase = .reading d) {ch : Char}
    (hpr : printable ch = true) (hs : D.inputReading S d ch = some D') : GoesTyped pr S c ⟨ch.toNat, 0⟩ D' := by
  unfold Desk.inputReading at hs
  cases hx : sense S.layout.tbl d.pending ch with
  | itself =>
    rw [hx] at hs
    exact read_types h hp (sense_itself hpr hx) hs
  | capital =>
    rw [hx] at hs
    exact okuri_types h hp hx hs
  | unknown => rw [hx] at hs; cases hs

/-- The word which was typed, with the pending keys made kana, is held by `r`. -/
structure Typed (c : Ctx) (S : Setup) (D : Desk) (r : State) (text : Str) (u : List Keysym) (short shift : Bool) : Prop where
  before : c.top.mode = origin short
  kanaMode : kanaMode D.mode = true
  flushed : Flushed S.layout.tbl c.top r
  base : Base r D.written D.mode D.trail
  holds : Holds r ⟨text, [], false, shift, short, u⟩
  mode : r.mode = origin short
  history : r.history = c.top.history

theorem Typed.composing {r : State} {text : Str} {u : List Keysym} {short shift : Bool} (t : Typed c S D r text u short shift) : Composing c.top := by
  have := t.before
  cases short
  · exact .inl this
  · exact .inr (.inr this)

theorem Typed.key {r : State} {text : Str} {u : List Keysym} {short shift : Bool} (t : Typed c S D r text u short shift) : lookupKey r = ⟨text, none⟩ := by
  rw [holds_key t.holds]
  simp [Asked.key]

/-- The pending keys of a reading become kana. -/
theorem reading_typed (h : Rel pr S c D) {d : Draft} (hp : D.phase = .reading d) :
    Typed c S D (flushedLevel S.layout.tbl c.top) (d.reading S.layout.tbl) (d.left S.layout.tbl) false (shiftLeft S.layout.tbl d) := by
  have hl := h.reading hp
  have hb := h.base
  have hr : Base (flushedLevel S.layout.tbl c.top) D.written D.mode D.trail ∧
      Holds (flushedLevel S.layout.tbl c.top) ⟨d.reading S.layout.tbl, [], false, shiftLeft S.layout.tbl d, false, d.left S.layout.tbl⟩ ∧
      (flushedLevel S.layout.tbl c.top).mode = .preComposition ∧ (flushedLevel S.layout.tbl c.top).history = c.top.history := by
    unfold flushedLevel Draft.reading flushed Draft.left shiftLeft
    rw [hl.pre]
    cases hv : valueOf S.layout.tbl d.pending with
    | some v =>
      refine ⟨⟨hb.written, hb.mode, hb.trail, hb.default, hb.history⟩, ⟨rfl, by simp, ?_, ?_, hl.okuri, fun hx => absurd rfl hx⟩, hl.mode, rfl⟩
      · show c.top.kana ++ v.1 = _
        rw [hl.kana]; simp [rendered]
      · show c.top.raw ++ v.1 = _
        rw [hl.raw]; simp [rendered]
    | none =>
      refine ⟨⟨hb.written, hb.mode, hb.trail, hb.default, hb.history⟩, ⟨hl.pre, ?_, ?_, ?_, hl.okuri, fun hx => absurd rfl hx⟩, hl.mode, rfl⟩
      · rw [hl.capital]; simp
      · rw [hl.kana]; simp [rendered]
      · rw [hl.raw]; simp [rendered]
  exact ⟨hl.mode, hl.kanaMode, flushedLevel_flushed _ hl.mode, hr.1, hr.2.1, hr.2.2.1, hr.2.2.2⟩

/-- Space with nothing typed. -/
theorem nothing_goes (h : Rel pr S c D) {r : State} {u : List Keysym} {short shift : Bool} (t : Typed c S D r [] u short shift)
    (hx : Dicts.getAll D.dicts ⟨[], none⟩ = .ok []) : Goes pr S c ⟨0x20, 0⟩ { D with phase := typing [] u short shift } true := by
  obtain ⟨hcmd, hskip⟩ := shipped_space c t.composing (by rw [h.base.mode]; exact kanaMode_ne t.kanaMode) (Teach.shipped_cases h.runs.uses.shipped)
  have hrel : ¬ IsRelease (⟨0x20, 0⟩ : KeyEvent) := by unfold IsRelease; decide
  exact ⟨_, convert_nothing _ c _ _ _ h.runs.table t.composing hrel t.flushed hskip hcmd (by rw [t.key, h.dicts]; exact hx) t.holds.kana,
    h.with (D := D) ⟨t.base.written, t.base.mode, t.base.trail, t.base.default, t.base.history⟩
      (level_typing t.mode t.kanaMode t.holds.pre t.holds.capital t.holds.kana t.holds.raw t.holds.okuri)⟩

/-- Space with a word typed. -/
theorem lookup_goes (h : Rel pr S c D) {r : State} {text : Str} {u : List Keysym} {short shift : Bool} (t : Typed c S D r text u short shift)
    (hne : text ≠ [] ∨ Dicts.getAll D.dicts ⟨[], none⟩ ≠ .ok [])
    (hs : D.convert ⟨text, [], false, shift, short, u⟩ = some D') : Goes pr S c ⟨0x20, 0⟩ D' true := by
  obtain ⟨hcmd, hskip⟩ := shipped_space c t.composing (by rw [h.base.mode]; exact kanaMode_ne t.kanaMode) (Teach.shipped_cases h.runs.uses.shipped)
  have hrel : ¬ IsRelease (⟨0x20, 0⟩ : KeyEvent) := by unfold IsRelease; decide
  have hb := h.base
  obtain ⟨cs, hcs⟩ := convert_looked hs
  have hkey := holds_key t.holds
  have hcs' : Dicts.getAll c.dicts (lookupKey r) = .ok cs := by rw [hkey, h.dicts]; exact hcs
  have hgo : c.processKeyEvent (Assets.env ⟨pr⟩) ⟨0x20, 0⟩ = .ok (converted c r cs, true) := by
    cases cs with
    | nil =>
      rw [convert_unknown _ c _ _ _ h.runs.table t.composing hrel t.flushed hskip hcmd hb.history hcs' (by
        rw [t.holds.kana]
        rcases hne with hne | hne
        · exact hne
        · intro hx
          have hx : text = [] := hx
          subst hx
          exact hne (by simpa [Asked.key] using hcs)), t.before]
      unfold converted
      simp only [ne_eq, not_true_eq_false, if_false, t.mode]
    | cons x xs =>
      rw [convert_known _ c _ _ _ h.runs.table t.composing hrel t.flushed hskip hcmd hb.history x xs hcs']
      unfold converted
      rw [if_pos (by simp)]
  refine ⟨_, hgo, ?_⟩
  exact rel_converted h.around t.base t.kanaMode t.holds t.mode nofun (by rw [h.dicts]; exact hcs) hs

/-- Tab with a word typed. -/
theorem complete_goes (h : Rel pr S c D) {r : State} {text : Str} {u : List Keysym} {short shift : Bool} (t : Typed c S D r text u short shift)
    (hs : D.complete S text u short shift = some D') : Goes pr S c ⟨0xff09, 0⟩ D' true := by
  unfold Desk.complete at hs
  split at hs
  case isFalse => cases hs
  rename_i hcp
  obtain ⟨-, d1, d2⟩ := h.runs.completes.resolve_right (by rw [hcp]; simp)
  have hb := h.base
  obtain ⟨hcmd, hskip⟩ := CompletionCycle.shipped_tab c (by rw [t.before]; cases short <;> simp [origin]) (by rw [hb.mode]; exact kanaMode_ne t.kanaMode) d1 d2
  have hrel := CompletionCycle.keys_pressed.1
  have hkey := t.key
  cases hx : Dicts.getAllComplete D.dicts ⟨text, none⟩ with
  | error _ => rw [hx] at hs; cases hs
  | ok cs =>
    rw [hx] at hs
    cases cs with
    | nil =>
      injection hs with hs; subst hs
      exact ⟨_, complete_unknown _ c _ _ _ h.runs.table t.composing hrel t.flushed hskip hcmd (by rw [hkey, h.dicts]; exact hx),
        h.with (D := D) ⟨t.base.written, t.base.mode, t.base.trail, t.base.default, t.base.history⟩
          (level_typing t.mode t.kanaMode t.holds.pre t.holds.capital t.holds.kana t.holds.raw t.holds.okuri)⟩
    | cons x xs =>
      injection hs with hs; subst hs
      refine ⟨_, complete_known _ c _ _ _ h.runs.table t.composing hrel t.flushed hskip hcmd hb.history x xs (by rw [hkey, h.dicts]; exact hx),
        h.with (D := D) ⟨t.base.written, t.base.mode, t.base.leave t.mode, t.base.default, remember_length _ _⟩
          ⟨rfl, t.kanaMode, t.holds.pre, t.holds.kana, t.holds.raw, t.holds.okuri, ?_, rfl, rfl, by simp, ?_⟩⟩
      · show (withCandidates r (x :: xs)).cands.toComposite = _
        simp only [withCandidates, hkey]
      · show _ <:+ remember r.history r.mode
        rw [t.mode]
        exact last_remember _ _

/-- Space. -/
theorem ask_goes (h : Rel pr S c D) {d : Draft} (hp : D.phase = .reading d) (hs : D.ask S d = some D') :
    Goes pr S c ⟨0x20, 0⟩ D' true := by
  unfold Desk.ask at hs
  have t := reading_typed h hp
  split at hs
  · rename_i hempty
    rw [hempty] at t
    split at hs
    · rename_i hx
      injection hs with hs; subst hs
      exact nothing_goes h t hx
    · rename_i hx
      unfold Desk.seek at hs
      rw [hempty] at hs
      exact lookup_goes h t (.inr hx) hs
  · rename_i hne
    exact lookup_goes h t (.inl hne) hs

/-- Tab in a reading. -/
theorem reading_tab (h : Rel pr S c D) {d : Draft} (hp : D.phase = .reading d)
    (hs : D.complete S (d.reading S.layout.tbl) (d.left S.layout.tbl) false (shiftLeft S.layout.tbl d) = some D') : Goes pr S c ⟨0xff09, 0⟩ D' true :=
  complete_goes h (reading_typed h hp) hs

theorem pendingKana_rendered (tbl : Table) (u : List Keysym) : pendingKana tbl u = rendered id (flushed tbl u) := by
  unfold pendingKana flushed
  cases valueOf tbl u <;> simp [rendered]

/-- The reading is written as kana. -/
theorem commit_goes (h : Rel pr S c D) {d : Draft} (hp : D.phase = .reading d) (ev : KeyEvent) (f m : InputMode)
    (hm : m ≠ .zenkaku) (hrel : ¬ IsRelease ev) (hc : CommandIs c ev [.forceKanaConvert f, .confirmAs m, .changeCompositionMode .direct])
    (hs : ¬ Completes S.layout.tbl d.pending ev) : Goes pr S c ev (D.commit (S.form m (d.reading S.layout.tbl))) true := by
  have hl := h.reading hp
  have hb := h.base
  obtain ⟨c', h1, s1⟩ := ModeKeys.commit_reading (Assets.env ⟨pr⟩) c S.layout.tbl ev f m h.runs.table hrel hl.mode hb.history hm hc
    (by rw [hl.pre]; exact hs)
  refine ⟨c', h1, ?_⟩
  obtain ⟨o1, o2, o3, o4, o5⟩ := s1.only
  obtain ⟨e1, e2, e3⟩ := s1.reading
  refine ⟨h.runs.congr o3 o4 o5, o2.trans h.dicts, ⟨s1.committed.trans ?_, s1.inputMode.trans hb.mode, ?_, s1.default.trans hb.default, ?_⟩,
    ⟨s1.mode, s1.pending.1, s1.pending.2, e1, e2, e3⟩, by rw [o1]; exact h.below⟩
  · rw [hb.written, hl.kana, hl.pre, h.runs.form, pendingKana_rendered]; rfl
  · rw [s1.history]; exact hb.leave (level_mode h.level)
  · rw [s1.history]; exact remember_length _ _

/-- A printable character in a reading. -/
theorem reading_char (h : Rel pr S c D) {d : Draft} (hp : D.phase = .reading d) {ch : Char} (hpr : printable ch = true)
    (hs : D.readingChar S d ch = some D') : Goes pr S c ⟨ch.toNat, 0⟩ D' true := by
  have hl := h.reading hp
  have hb := h.base
  have hr := rom hb hl.kanaMode (.inr (.inl hl.mode))
  unfold Desk.readingChar at hs
  split at hs
  · rename_i hcm
    have hn := not_completes hcm
    split at hs
    · rename_i hx
      subst hx
      exact ask_goes h hp hs
    split at hs
    · rename_i hx
      injection hs with hs; subst hs
      have hfind : ∃ f, ((c.cmds c.top.mode c.top.inputMode).find? fun b => decide (b.1 = CommandRule.matchingKey ⟨ch.toNat, 0⟩)).map (·.2) =
          some [.forceKanaConvert f, .confirmAs (ModeKey.target .kana D.mode), .changeCompositionMode .direct] := by
        rw [hl.mode, hb.mode, hx]
        have hu := h.runs.uses
        have hk := hl.kanaMode
        generalize S.layout = L at hu
        cases hu with
        | default a b =>
          rw [a]
          refine ⟨ModeKey.target .kana D.mode, ?_⟩
          rcases kanaMode_iff.mp hk with h | h | h <;> rw [h] <;> decide +kernel
        | azik a b =>
          rw [a]
          refine ⟨ModeKey.target .kana D.mode, ?_⟩
          rcases kanaMode_iff.mp hk with h | h | h <;> rw [h] <;> decide +kernel
      obtain ⟨f, hfind⟩ := hfind
      refine commit_goes h hp _ f _ ?_ ?_ (commandIs_of_find hfind) ?_
      · cases D.mode <;> simp [ModeKey.target]
      · unfold IsRelease; show ¬ (0 : BitVec _).getLsbD 30 = true; decide
      · rintro ⟨_, hx | hx⟩
        · rw [show completed S.layout.tbl (d.pending ++ [(⟨ch.toNat, 0⟩ : KeyEvent).symbol]) = none from hn.1] at hx; cases hx
        · rw [show completed S.layout.tbl (d.pending ++ [uncapitalize (⟨ch.toNat, 0⟩ : KeyEvent).symbol]) = none from hn.2] at hx; cases hx
    split at hs
    · rename_i hQ
      injection hs with hs; subst hs
      exact opener_nothing h hQ (.inl hl.mode) hl.kanaMode (by rw [hl.mode, hl.pre]; exact hcm)
    · cases hs
  · rename_i hcm
    exact goes_of_types (key_rom h hr hpr (by rw [hl.mode, hl.pre]; simpa using hcm)) (input_reading h hp hpr hs)

/-- Ctrl-j. -/
theorem reading_ctrlJ (h : Rel pr S c D) {d : Draft} (hp : D.phase = .reading d) :
    Goes pr S c ⟨0x6a, 4⟩ (D.commit (S.form D.mode (d.reading S.layout.tbl))) true := by
  have hl := h.reading hp
  have hb := h.base
  have hk := hl.kanaMode
  have hfind : ((c.cmds c.top.mode c.top.inputMode).find? fun b => decide (b.1 = CommandRule.matchingKey ⟨0x6a, 4⟩)).map (·.2) =
      some [.forceKanaConvert D.mode, .confirmAs D.mode, .changeCompositionMode .direct] := by
    rw [hl.mode, hb.mode]
    rcases h.runs.uses.cases with h | h <;> rw [h] <;> rcases kanaMode_iff.mp hk with h | h | h <;> rw [h] <;> decide +kernel
  refine commit_goes h hp _ D.mode D.mode (kanaMode_ne hk).2 (by unfold IsRelease; decide) (commandIs_of_find hfind) ?_
  rintro ⟨hx, _⟩
  exact hx ⟨2, by decide, by decide⟩

/-- A key whose command is to give up. -/
theorem giveUp (h : Rel pr S c D) (hk : kanaMode D.mode = true) (hm : c.top.mode = .preComposition ∨ c.top.mode = .preCompositionOkurigana) :
    c.processKeyEvent (Assets.env ⟨pr⟩) ⟨0x67, 4⟩ = .ok ((c.mapTop State.clearUnconfirmed).abort, true) := by
  have hfind : ((c.cmds c.top.mode c.top.inputMode).find? fun b => decide (b.1 = CommandRule.matchingKey ⟨0x67, 4⟩)).map (·.2) =
      some [.clearUnconfirmedInputs, .abort] := by
    rw [h.base.mode]
    rcases hm with hm | hm <;> rw [hm] <;> rcases h.runs.uses.cases with h | h <;> rw [h] <;> rcases kanaMode_iff.mp hk with h | h | h <;> rw [h] <;>
      decide +kernel
  have hskip : c.skipCommand ⟨0x67, 4⟩ = false := by
    refine ModeKeys.skip_iff c S.layout.tbl _ h.runs.table ?_
    rintro ⟨hx, _⟩
    exact hx ⟨2, by decide, by decide⟩
  rw [key_command _ c _ _ (by unfold IsRelease; decide) (by rcases hm with hm | hm <;> rw [hm] <;> decide) (commandIs_of_find hfind) hskip]
  rfl

theorem givenUp_base {s : State} {w : Str} {m : InputMode} {t : List CompositionMode} (hb : Base s w m t) :
    Base s.clearUnconfirmed.clearPre.consolidate.clearCandidateList w m t := by
  obtain ⟨h1, h2, h3, h4, h5⟩ := hb
  cases s
  exact ⟨h1, h2, h3, h4, h5⟩

/-- Ctrl-g in a reading. -/
theorem reading_ctrlG (h : Rel pr S c D) {d : Draft} (hp : D.phase = .reading d) (hs : D.back = some D') : Goes pr S c ⟨0x67, 4⟩ D' true := by
  have hl := h.reading hp
  have hb := h.base
  refine ⟨_, giveUp h hl.kanaMode (.inl hl.mode), ?_⟩
  have he : (c.mapTop State.clearUnconfirmed).abort =
      { c with top := (c.top.clearUnconfirmed.clearPre.consolidate.clearCandidateList).abortToPrevious } := by
    unfold Ctx.abort
    have hm' : ((c.mapTop State.clearUnconfirmed).mapTop fun s => s.clearPre.consolidate.clearCandidateList).top.mode = .preComposition := hl.mode
    simp only [hm', reduceCtorEq, false_and, if_false]
    rfl
  rw [he]
  exact back_goes h.around (givenUp_base hb) rfl rfl rfl rfl rfl hs

theorem delete_reading {s : State} (hm : s.mode = .preComposition) :
    s.delete = if s.pre ≠ [] then ({ s with pre := s.pre.dropLast }, true)
      else if s.kana ≠ [] then ({ s with kana := s.kana.dropLast, raw := s.raw.dropLast }, true)
      else ({ s with raw := s.raw.dropLast, mode := .direct }, true) := by
  cases s
  simp only at hm
  subst hm
  rfl

/-- BackSpace in a reading. -/
theorem reading_back (h : Rel pr S c D) {d : Draft} (hp : D.phase = .reading d) :
    Goes pr S c ⟨0xff08, 0⟩
      { D with phase := if d.Empty then .direct [] d.shift else .reading (d.press S.layout.tbl S.config id .back) } true := by
  have hl := h.reading hp
  have hb := h.base
  have hx := Editing.backspace (Assets.env ⟨pr⟩) h.runs.uses.shipped (.inr ⟨.inl hl.mode, by rw [hb.mode]; exact kanaMode_ne hl.kanaMode⟩)
  rw [delete_reading hl.mode, hl.pre, hl.kana, hl.raw] at hx
  by_cases hu : d.pending = []
  · by_cases ht : d.text = []
    · rw [if_neg (by simpa using hu), if_neg (by simpa using ht)] at hx
      rw [if_pos (show d.Empty from ⟨ht, hu⟩)]
      refine ⟨_, hx, h.with (D := D) ⟨hb.written, hb.mode, hb.trail, hb.default, hb.history⟩ ⟨rfl, hu, hl.capital, ht, ?_, hl.okuri⟩⟩
      show d.text.dropLast = []
      rw [ht]; rfl
    · rw [if_neg (by simpa using hu), if_pos ht] at hx
      rw [if_neg (show ¬ d.Empty from fun hx => ht hx.1)]
      simp only [Draft.press, hu, if_true]
      exact ⟨_, hx, h.with (D := D) ⟨hb.written, hb.mode, hb.trail, hb.default, hb.history⟩ ⟨hl.mode, hl.kanaMode, hu, hl.capital, rfl, rfl, hl.okuri⟩⟩
  · rw [if_pos hu] at hx
    rw [if_neg (show ¬ d.Empty from fun hx => hu hx.2)]
    simp only [Draft.press, hu, if_false]
    exact ⟨_, hx, h.with (D := D) ⟨hb.written, hb.mode, hb.trail, hb.default, hb.history⟩ ⟨hl.mode, hl.kanaMode, rfl, hl.capital, rfl, rfl, hl.okuri⟩⟩

end

end Cskk.Props.Machine
