import Verif.Props.MachineCompleting

/-!
# C75: the engine does what the small machine of `Spec/Machine.lean` does

One key of any kind, the line which is shown, and the finished text. Whole sessions are in `MachineUse.lean`.
-/

namespace Cskk.Props.Machine

open Spec Spec.Typing Spec.Teach Spec.Document Spec.ModeKeys Spec.Editing Spec.Machine
open Romaji KanaBuilder Navigate Convert Typing Words ShippedTyping
open Cskk.Props.Document (Uses azikLayout defaultLayout)

section
variable {pr : Bool} {S : Setup} {c : Ctx} {D D' : Desk}

/-- The key is no command in this mode, with either rule. -/
def silent (m : CompositionMode) (ev : KeyEvent) : Bool :=
  [InputMode.hiragana, .katakana, .hankakuKatakana, .zenkaku, .ascii].all fun im =>
    (decide (m ≠ .direct) && !kanaMode im) ||
      ((Assets.defaultCommands m im).all fun k => decide (k.1 ≠ CommandRule.matchingKey ev)) &&
      ((Assets.azikCommands m im).all fun k => decide (k.1 ≠ CommandRule.matchingKey ev))

/-- A key which is no command in this phase. -/
theorem not_here (h : Rel pr S c D) {ev : KeyEvent} (m : CompositionMode) (hm : Phase.doing D.phase = m) (hs : silent m ev = true)
    (hx : HasOtherModifier ev ∨ (¬ Printable ev ∧ 0xff00 ≤ ev.symbol)) : Goes pr S c ev D false := by
  refine handed_of h ev (hx.imp id fun hy => ⟨hy.1, .inr hy.2⟩) ?_
  rw [hm]
  have hk := level_kana h.level
  rw [hm] at hk
  unfold silent at hs
  have := List.all_eq_true.mp hs D.mode (by cases D.mode <;> simp)
  rw [Bool.or_eq_true, Bool.and_eq_true, Bool.and_eq_true] at this
  rcases this with ⟨h1, h2⟩ | ⟨h1, h2⟩
  · rcases hk with hk | hk
    · exact absurd hk (of_decide_eq_true h1)
    · rw [hk] at h2; cases h2
  · intro k hkm
    rcases h.runs.uses.cases with hc | hc <;> rw [hc] at hkm
    · exact of_decide_eq_true (List.all_eq_true.mp h1 k hkm)
    · exact of_decide_eq_true (List.all_eq_true.mp h2 k hkm)

/-- Tab with the AZIK rule. -/
theorem no_tab (h : Rel pr S c D) (hc : S.completes = false) (hp : Phase.doing D.phase = .preComposition ∨ Phase.doing D.phase = .abbreviation) :
    Goes pr S c ⟨0xff09, 0⟩ D false := by
  obtain ⟨-, hz⟩ := h.runs.completes.resolve_left (by rw [hc]; simp)
  refine handed_of h _ (.inr ⟨by unfold Printable; decide, by decide⟩) ?_
  have hk : kanaMode D.mode = true := (level_kana h.level).resolve_left (by rcases hp with hp | hp <;> rw [hp] <;> simp)
  rw [hz]
  rcases hp with hp | hp <;> rw [hp] <;> rcases kanaMode_iff.mp hk with b | b | b <;> rw [b] <;> decide +kernel

/-- The simple keys. -/
theorem plain_goes (h : Rel pr S c D) {k : Machine.Key} {b : Bool} (hs : D.plain S k = some (D', b)) : Goes pr S c k.event D' b := by
  unfold Desk.plain at hs
  have hmap : ∀ {o : Option Desk}, o.map (·, true) = some (D', b) → o = some D' ∧ b = true := by
    intro o ho
    cases o with
    | none => cases ho
    | some x => injection ho with ho; injection ho with h1 h2; exact ⟨by rw [h1], h2.symm⟩
  cases hp : D.phase with
  | direct u sh =>
    rw [hp] at hs
    cases k with
    | char ch =>
      dsimp only at hs
      split at hs
      · rename_i hpr
        obtain ⟨h1, rfl⟩ := hmap hs
        exact direct_char h hp hpr h1
      · cases hs
    | back =>
      dsimp only at hs
      injection hs with hs; injection hs with h1 h2
      subst h1; subst h2
      exact direct_back h hp
    | enter =>
      dsimp only at hs
      split at hs
      · rename_i hw
        injection hs with hs; injection hs with h1 h2
        subst h1; subst h2
        exact ⟨c, (direct_ends h hp).2.1 hw, h⟩
      · rename_i hw
        refine (fun hx => ?_ : ((if D.written = [] then D.resume else D.register S).map (·, true) = some (D', b)) → _) ?_
        · obtain ⟨h1, rfl⟩ := hmap hx
          exact direct_enter h hp hw h1
        · split at hs <;> rename_i hy
          · rw [if_pos hy]; exact hs
          · rw [if_neg hy]; exact hs
    | ctrlJ =>
      dsimp only at hs
      injection hs with hs; injection hs with h1 h2
      subst h1; subst h2
      have := direct_ctrlJ h hp
      rw [hp] at this
      exact this
    | ctrlG =>
      dsimp only at hs
      obtain ⟨h1, rfl⟩ := hmap hs
      exact direct_ctrlG h hp h1
    | tab =>
      dsimp only at hs
      injection hs with hs; injection hs with h1 h2
      subst h1; subst h2
      exact not_here h .direct (by rw [hp]; rfl) (by decide +kernel) (.inr (by unfold Printable; decide))
    | escape => cases hs
    | shiftTab => cases hs
    | shifted _ => cases hs
    | ctrl _ => cases hs
    | other _ => cases hs
  | reading d =>
    rw [hp] at hs
    cases k with
    | char ch =>
      dsimp only at hs
      split at hs
      · rename_i hpr
        obtain ⟨h1, rfl⟩ := hmap hs
        exact reading_char h hp hpr h1
      · cases hs
    | back =>
      dsimp only at hs
      injection hs with hs; injection hs with h1 h2
      subst h1; subst h2
      exact reading_back h hp
    | enter =>
      dsimp only at hs
      injection hs with hs; injection hs with h1 h2
      subst h1; subst h2
      exact not_here h .preComposition (by rw [hp]; rfl) (by decide +kernel) (.inr (by unfold Printable; decide))
    | ctrlJ =>
      dsimp only at hs
      injection hs with hs; injection hs with h1 h2
      subst h1; subst h2
      exact reading_ctrlJ h hp
    | ctrlG =>
      dsimp only at hs
      obtain ⟨h1, rfl⟩ := hmap hs
      exact reading_ctrlG h hp h1
    | tab =>
      dsimp only at hs
      split at hs
      · rename_i hcm
        injection hs with hs; injection hs with h1 h2
        subst h1; subst h2
        exact no_tab h (by simpa using hcm) (by rw [hp]; exact .inl rfl)
      obtain ⟨h1, rfl⟩ := hmap hs
      exact reading_tab h hp h1
    | escape => cases hs
    | shiftTab => cases hs
    | shifted _ => cases hs
    | ctrl _ => cases hs
    | other _ => cases hs
  | okuri stem tail u sh =>
    rw [hp] at hs
    cases k with
    | char ch =>
      dsimp only at hs
      split at hs
      · rename_i hpr
        obtain ⟨h1, rfl⟩ := hmap hs
        exact okuri_char h hp hpr h1
      · cases hs
    | back =>
      dsimp only at hs
      split at hs
      · cases hs
      rename_i hu
      have hb := okuri_back h hp hu
      split at hs
      · rename_i hx
        rw [if_pos hx] at hb
        injection hs with hs; injection hs with h1 h2
        subst h1; subst h2
        exact hb
      · rename_i hx
        rw [if_neg hx] at hb
        injection hs with hs; injection hs with h1 h2
        subst h1; subst h2
        exact hb
    | enter =>
      dsimp only at hs
      injection hs with hs; injection hs with h1 h2
      subst h1; subst h2
      exact not_here h .preCompositionOkurigana (by rw [hp]; rfl) (by decide +kernel) (.inr (by unfold Printable; decide))
    | ctrlJ =>
      dsimp only at hs
      injection hs with hs; injection hs with h1 h2
      subst h1; subst h2
      exact okuri_ctrlJ h hp
    | ctrlG =>
      dsimp only at hs
      obtain ⟨h1, rfl⟩ := hmap hs
      exact okuri_ctrlG h hp (by rw [hp]; exact h1)
    | tab =>
      dsimp only at hs
      injection hs with hs; injection hs with h1 h2
      subst h1; subst h2
      exact not_here h .preCompositionOkurigana (by rw [hp]; rfl) (by decide +kernel) (.inr (by unfold Printable; decide))
    | escape => cases hs
    | shiftTab => cases hs
    | shifted _ => cases hs
    | ctrl _ => cases hs
    | other _ => cases hs
  | short text u sh =>
    rw [hp] at hs
    cases k with
    | char ch =>
      dsimp only at hs
      split at hs
      · rename_i hpr
        obtain ⟨h1, rfl⟩ := hmap hs
        exact short_char h hp hpr h1
      · cases hs
    | back =>
      dsimp only at hs
      injection hs with hs; injection hs with h1 h2
      subst h1; subst h2
      exact short_back h hp
    | enter =>
      dsimp only at hs
      injection hs with hs; injection hs with h1 h2
      subst h1; subst h2
      exact short_enter h hp
    | ctrlJ =>
      dsimp only at hs
      injection hs with hs; injection hs with h1 h2
      subst h1; subst h2
      exact short_ctrlJ h hp
    | ctrlG =>
      dsimp only at hs
      injection hs with hs; injection hs with h1 h2
      subst h1; subst h2
      exact short_ctrlG h hp
    | tab =>
      dsimp only at hs
      split at hs
      · obtain ⟨h1, rfl⟩ := hmap hs
        exact short_tab h hp h1
      · rename_i hcm
        injection hs with hs; injection hs with h1 h2
        subst h1; subst h2
        exact no_tab h (by simpa using hcm) (by rw [hp]; exact .inr rfl)
    | escape => cases hs
    | shiftTab => cases hs
    | shifted _ => cases hs
    | ctrl _ => cases hs
    | other _ => cases hs
  | choosing a words i =>
    rw [hp] at hs
    cases k with
    | char ch =>
      dsimp only at hs
      split at hs
      · rename_i hpr
        obtain ⟨h1, rfl⟩ := hmap hs
        exact choosing_char h hp hpr h1
      · cases hs
    | back =>
      dsimp only at hs
      rw [Option.map_eq_some_iff] at hs
      obtain ⟨x, hx, hs⟩ := hs
      injection hs with h1 h2
      subst h1; subst h2
      exact choosing_back h hp hx
    | enter =>
      dsimp only at hs
      rw [Option.map_eq_some_iff] at hs
      obtain ⟨x, hx, hs⟩ := hs
      injection hs with h1 h2
      subst h1; subst h2
      exact choosing_enter h hp hx
    | ctrlJ =>
      dsimp only at hs
      rw [Option.map_eq_some_iff] at hs
      obtain ⟨x, hx, hs⟩ := hs
      injection hs with h1 h2
      subst h1; subst h2
      exact choosing_ctrlJ h hp hx
    | ctrlG =>
      dsimp only at hs
      injection hs with hs; injection hs with h1 h2
      subst h1; subst h2
      exact choosing_ctrlG h hp
    | tab =>
      dsimp only at hs
      injection hs with hs; injection hs with h1 h2
      subst h1; subst h2
      exact not_here h .compositionSelection (by rw [hp]; rfl) (by decide +kernel) (.inr (by unfold Printable; decide))
    | escape => cases hs
    | shiftTab => cases hs
    | shifted _ => cases hs
    | ctrl _ => cases hs
    | other _ => cases hs
  | completing text u sh words i =>
    rw [hp] at hs
    cases k with
    | char ch =>
      dsimp only at hs
      split at hs
      · rename_i hpr
        obtain ⟨h1, rfl⟩ := hmap hs
        exact completing_char h hp hpr h1
      · cases hs
    | back =>
      dsimp only at hs
      rw [Option.map_eq_some_iff] at hs
      obtain ⟨x, hx, hs⟩ := hs
      injection hs with h1 h2
      subst h1; subst h2
      exact completing_back h hp hx
    | enter =>
      dsimp only at hs
      rw [Option.map_eq_some_iff] at hs
      obtain ⟨x, hx, hs⟩ := hs
      injection hs with h1 h2
      subst h1; subst h2
      exact completing_confirm h hp hx _ (by unfold IsRelease; decide) (completing_keys h hp).2.2.1
    | ctrlJ =>
      dsimp only at hs
      rw [Option.map_eq_some_iff] at hs
      obtain ⟨x, hx, hs⟩ := hs
      injection hs with h1 h2
      subst h1; subst h2
      exact completing_confirm h hp hx _ (by unfold IsRelease; decide) (completing_keys h hp).2.1
    | ctrlG =>
      dsimp only at hs
      injection hs with hs; injection hs with h1 h2
      subst h1; subst h2
      exact completing_ctrlG h hp
    | tab =>
      dsimp only at hs
      injection hs with hs; injection hs with h1 h2
      subst h1; subst h2
      exact completing_next h hp _ (by unfold IsRelease; decide) (completing_keys h hp).1
    | escape => cases hs
    | shiftTab => cases hs
    | shifted _ => cases hs
    | ctrl _ => cases hs
    | other _ => cases hs

/-! ## Keys with Ctrl, and the others -/

/-- The keys mean the same in this mode, with either rule. -/
def alias (m : CompositionMode) (ev ev' : KeyEvent) : Bool :=
  [InputMode.hiragana, .katakana, .hankakuKatakana, .zenkaku, .ascii].all fun im =>
    (decide (m ≠ .direct) && !kanaMode im) ||
      [Assets.defaultCommands, Assets.azikCommands].all fun r =>
        let f := fun (ev : KeyEvent) => ((r m im).find? fun b => decide (b.1 = CommandRule.matchingKey ev)).map (·.2)
        (f ev).isSome && decide (f ev = f ev')

theorem goes_alias (h : Rel pr S c D) {ev ev' : KeyEvent} (m : CompositionMode) (hm : Phase.doing D.phase = m) (ha : alias m ev ev' = true)
    (hr : ¬ IsRelease ev) (hr' : ¬ IsRelease ev') (hs : ¬ Completes S.layout.tbl c.top.pre ev) (hs' : ¬ Completes S.layout.tbl c.top.pre ev') {b : Bool}
    (hg : Goes pr S c ev' D' b) : Goes pr S c ev D' b := by
  have hk := level_kana h.level
  rw [hm] at hk
  unfold alias at ha
  have := List.all_eq_true.mp ha D.mode (by cases D.mode <;> simp)
  rw [Bool.or_eq_true, Bool.and_eq_true] at this
  rcases this with ⟨h1, h2⟩ | h1
  · rcases hk with hk | hk
    · exact absurd hk (of_decide_eq_true h1)
    · rw [hk] at h2; cases h2
  · have hx : c.cmds ∈ [Assets.defaultCommands, Assets.azikCommands] := by
      rcases h.runs.uses.cases with hc | hc <;> rw [hc] <;> simp
    have := List.all_eq_true.mp h1 _ hx
    rw [Bool.and_eq_true] at this
    obtain ⟨h3, h4⟩ := this
    have h4 := of_decide_eq_true h4
    obtain ⟨is, h3⟩ := Option.isSome_iff_exists.mp h3
    rw [h3] at h4
    rw [← hm] at h3 h4
    exact same_command h (command_of h h3) (command_of h h4.symm) hr hr' hs hs' hg

theorem matching_ctrl (n : Keysym) : CommandRule.matchingKey ⟨n, 4⟩ = ⟨n, 4⟩ := by
  unfold CommandRule.matchingKey
  split
  · show KeyEvent.mk n (4#32 &&& ~~~1#32) = _
    congr 1
  · rfl

/-- The characters which are commands with Ctrl. -/
def ctrlKeys (m : CompositionMode) (im : InputMode) (toggle : Char) : List Char :=
  match m with
  | .direct => if kanaMode im then ['j', 'g', 'G', 'm', 'h', 'H', toggle] else ['j', 'g', 'm', 'h', 'H']
  | .preComposition | .preCompositionOkurigana | .compositionSelection => ['j', 'g', 'h', toggle]
  | .abbreviation => ['j', 'h', 'q']
  | .completion => ['j', 'g']
  | .register => []

theorem ctrl_handed (h : Rel pr S c D) {ch : Char} (hn : ∀ x ∈ ctrlKeys (Phase.doing D.phase) D.mode S.layout.toggle, x ≠ ch) : Goes pr S c ⟨ch.toNat, 4⟩ D false := by
  refine handed_of h _ (.inl ⟨2, by decide, by show (4#32).getLsbD 2 = true; decide⟩) ?_
  rw [matching_ctrl]
  have hkm := level_kana h.level
  have hne := doing_ne D.phase
  have key : ∀ k ∈ c.cmds (Phase.doing D.phase) D.mode, k.1.modifiers = 4 → k.1.symbol ∈ (ctrlKeys (Phase.doing D.phase) D.mode S.layout.toggle).map (·.toNat) := by
    have hu := h.runs.uses
    revert hkm hne
    generalize S.layout = L at *
    generalize Phase.doing D.phase = m
    generalize D.mode = im
    intro hkm hne
    cases hu with
    | default a b =>
      rw [a]
      cases m <;> cases im <;> first | (exact absurd rfl hne) | (exact absurd hkm (by decide)) | decide +kernel
    | azik a b =>
      rw [a]
      cases m <;> cases im <;> first | (exact absurd rfl hne) | (exact absurd hkm (by decide)) | decide +kernel
  intro k hk he
  have := key k hk (by rw [he])
  rw [he] at this
  obtain ⟨x, hx, hxe⟩ := List.mem_map.mp this
  refine hn x hx ?_
  exact Char.toNat_inj.mp hxe

/-- Ctrl with the key for katakana, where it only commits: the input mode it is committed in. -/
theorem ctrl_toggle (h : Rel pr S c D) (hp : Phase.doing D.phase = .preComposition ∨ Phase.doing D.phase = .preCompositionOkurigana) :
    CommandIs c ⟨S.layout.toggle.toNat, 4⟩ [.confirmAs (ModeKeys.ModeKey.target .halfKana D.mode), .changeCompositionMode .direct] := by
  apply command_of h
  have hk : kanaMode D.mode = true := (level_kana h.level).resolve_left (by rcases hp with hp | hp <;> rw [hp] <;> simp)
  have hu := h.runs.uses
  generalize S.layout = L at *
  cases hu with
  | default a b =>
    rw [a]
    rcases hp with hp | hp <;> rw [hp] <;> rcases kanaMode_iff.mp hk with b | b | b <;> rw [b] <;> decide +kernel
  | azik a b =>
    rw [a]
    rcases hp with hp | hp <;> rw [hp] <;> rcases kanaMode_iff.mp hk with b | b | b <;> rw [b] <;> decide +kernel

/-- A key with Ctrl. -/
theorem control_goes (h : Rel pr S c D) {ch : Char} {b : Bool} (hs : D.control S ch = some (D', b)) : Goes pr S c ⟨ch.toNat, 4⟩ D' b := by
  unfold Desk.control at hs
  have hno : ∀ (n : Keysym), ¬ IsRelease ⟨n, 0⟩ := by intro n; show ¬ (0#32).getLsbD 30 = true; decide
  have hback := high_completes h (ev := ⟨0xff08, 0⟩) c.top.pre (by decide)
  have henter := high_completes h (ev := ⟨0xff0d, 0⟩) c.top.pre (by decide)
  split at hs
  · rename_i hj
    subst hj
    exact plain_goes h (k := .ctrlJ) hs
  rename_i hj
  split at hs
  · rename_i hg
    subst hg
    exact plain_goes h (k := .ctrlG) hs
  rename_i hg
  cases hp : D.phase with
  | direct u sh =>
    rw [hp] at hs
    dsimp only at hs
    split at hs
    · rename_i hh
      refine goes_alias h .direct (by rw [hp]; rfl) ?_ ctrl_release (hno _) ctrl_completes hback (plain_goes h (k := .back) hs)
      rcases hh with rfl | rfl <;> decide +kernel
    rename_i hh
    split at hs
    · rename_i hm
      subst hm
      exact goes_alias h .direct (by rw [hp]; rfl) (by decide +kernel) ctrl_release (hno _) ctrl_completes henter (plain_goes h (k := .enter) hs)
    rename_i hm
    split at hs
    · rename_i hG
      obtain ⟨hk, rfl⟩ := hG
      have hgo := plain_goes h (k := .ctrlG) hs
      have hf : ∀ ch ∈ ['G', 'g'], CommandIs c ⟨ch.toNat, 4⟩ [.abort] := by
        intro ch hch
        apply command_of h
        rw [hp]
        dsimp only [Phase.doing]
        have : ch = 'G' ∨ ch = 'g' := by simpa using hch
        rcases this with rfl | rfl <;> rcases h.runs.uses.cases with hc | hc <;> rw [hc] <;> rcases kanaMode_iff.mp hk with b | b | b <;> rw [b] <;> decide +kernel
      exact same_command h (hf 'G' (by simp)) (hf 'g' (by simp)) ctrl_release ctrl_release ctrl_completes ctrl_completes hgo
    rename_i hG
    split at hs
    · rename_i ht
      obtain ⟨hk, rfl⟩ := ht
      injection hs with hs; injection hs with h1 h2
      subst h1; subst h2
      have hl : DirectAt c.top u sh := by have := h.level; rw [hp] at this; exact this
      have hb := h.base
      have hcmd : ∃ last, (last = .clearUnconfirmedInputs ∨ last = .clearUnconvertedInputs) ∧
          CommandIs c ⟨S.layout.toggle.toNat, 4⟩ [.forceKanaConvert (S.aside D.mode), .changeInputMode (ModeKeys.ModeKey.target .halfKana D.mode), last] := by
        have hu := h.runs.uses
        have ha := h.runs.aside
        have key : ∃ last, (last = .clearUnconfirmedInputs ∨ last = .clearUnconvertedInputs) ∧
            ((c.cmds .direct D.mode).find? fun b => decide (b.1 = CommandRule.matchingKey ⟨S.layout.toggle.toNat, 4⟩)).map (·.2) =
              some [.forceKanaConvert (S.aside D.mode), .changeInputMode (ModeKeys.ModeKey.target .halfKana D.mode), last] := by
          generalize S.layout = L at *
          cases hu with
          | default a b =>
            rw [a] at ha ⊢
            have ha : ∀ m, S.aside m = if m = .katakana then .hiragana else m := by
              rcases ha with ⟨_, ha⟩ | ⟨ha, _⟩
              · exact ha
              · exact absurd ha commands_differ
            rw [ha]
            refine ⟨.clearUnconfirmedInputs, .inl rfl, ?_⟩
            rcases kanaMode_iff.mp hk with b | b | b <;> rw [b] <;> decide +kernel
          | azik a b =>
            rw [a] at ha ⊢
            have ha : ∀ m, S.aside m = m := by
              rcases ha with ⟨ha, _⟩ | ⟨_, ha⟩
              · exact absurd ha.symm commands_differ
              · exact ha
            rw [ha]
            refine ⟨.clearUnconvertedInputs, .inr rfl, ?_⟩
            rcases kanaMode_iff.mp hk with b | b | b <;> rw [b] <;> decide +kernel
        obtain ⟨last, h1, h2⟩ := key
        exact ⟨last, h1, command_of h (by rw [hp]; exact h2)⟩
      obtain ⟨last, hlast, hcmd⟩ := hcmd
      obtain ⟨c', g1, s1⟩ := ModeKeys.switch_mode (Assets.env ⟨pr⟩) c S.layout.tbl _ _ _ last h.runs.table ctrl_release hl.mode hlast hcmd ctrl_completes
      refine ⟨c', g1, ?_⟩
      rw [hl.pre] at s1
      obtain ⟨o1, o2, o3, o4, o5⟩ := s1.only
      obtain ⟨e1, e2, e3⟩ := s1.empty ⟨hl.kana, hl.raw, hl.okuri⟩
      refine ⟨h.runs.congr o3 o4 o5, o2.trans h.dicts, ⟨s1.committed.trans ?_, s1.inputMode, by rw [s1.history]; exact hb.trail, s1.default.trans hb.default, ?_⟩,
        ⟨s1.mode.trans hl.mode, s1.pending.1, s1.pending.2, e1, e2, e3⟩, by rw [o1]; exact h.below⟩
      · rw [hb.written, h.runs.form]
      · rw [s1.history]; exact hb.history
    rename_i ht
    injection hs with hs; injection hs with h1 h2
    subst h1; subst h2
    apply ctrl_handed h
    rw [hp]
    intro x hx hxe
    subst hxe
    simp only [Phase.doing, ctrlKeys] at hx
    split at hx <;> simp_all
  | reading d =>
    rw [hp] at hs
    dsimp only at hs
    have hl := h.reading hp
    split at hs
    · rename_i hh
      subst hh
      exact goes_alias h .preComposition (by rw [hp]; rfl) (by decide +kernel) ctrl_release (hno _) ctrl_completes hback (plain_goes h (k := .back) hs)
    rename_i hh
    split at hs
    · rename_i ht
      subst ht
      injection hs with hs; injection hs with h1 h2
      subst h1; subst h2
      have := commit_only h _ ctrl_release (ctrl_toggle h (by rw [hp]; exact .inl rfl)) ctrl_completes
      rw [if_neg (by cases D.mode <;> simp [ModeKeys.ModeKey.target]), hl.kana] at this
      exact this
    rename_i ht
    injection hs with hs; injection hs with h1 h2
    subst h1; subst h2
    apply ctrl_handed h
    rw [hp]
    intro x hx hxe
    subst hxe
    simp [Phase.doing, ctrlKeys] at hx
    simp_all
  | okuri stem tail u sh =>
    rw [hp] at hs
    dsimp only at hs
    have hl := h.okuri hp
    split at hs
    · rename_i hh
      subst hh
      exact goes_alias h .preCompositionOkurigana (by rw [hp]; rfl) (by decide +kernel) ctrl_release (hno _) ctrl_completes hback (plain_goes h (k := .back) hs)
    rename_i hh
    split at hs
    · rename_i ht
      subst ht
      injection hs with hs; injection hs with h1 h2
      subst h1; subst h2
      have := commit_only h _ ctrl_release (ctrl_toggle h (by rw [hp]; exact .inr rfl)) ctrl_completes
      rw [if_neg (by cases D.mode <;> simp [ModeKeys.ModeKey.target]), hl.kana] at this
      exact this
    rename_i ht
    injection hs with hs; injection hs with h1 h2
    subst h1; subst h2
    apply ctrl_handed h
    rw [hp]
    intro x hx hxe
    subst hxe
    simp [Phase.doing, ctrlKeys] at hx
    simp_all
  | short text u sh =>
    rw [hp] at hs
    dsimp only at hs
    have hl := h.short hp
    split at hs
    · rename_i hh
      subst hh
      exact goes_alias h .abbreviation (by rw [hp]; rfl) (by decide +kernel) ctrl_release (hno _) ctrl_completes hback (plain_goes h (k := .back) hs)
    rename_i hh
    split at hs
    · rename_i ht
      subst ht
      injection hs with hs; injection hs with h1 h2
      subst h1; subst h2
      have hcmd : CommandIs c ⟨'q'.toNat, 4⟩ [.confirmAs .zenkaku, .changeCompositionMode .direct] := by
        apply command_of h
        rw [hp]
        dsimp only [Phase.doing]
        rcases h.runs.uses.cases with hc | hc <;> rw [hc] <;> rcases kanaMode_iff.mp hl.kanaMode with b | b | b <;> rw [b] <;> decide +kernel
      have := commit_only h _ ctrl_release hcmd ctrl_completes
      rw [if_pos rfl, hl.kana] at this
      exact this
    rename_i ht
    injection hs with hs; injection hs with h1 h2
    subst h1; subst h2
    apply ctrl_handed h
    rw [hp]
    intro x hx hxe
    subst hxe
    simp [Phase.doing, ctrlKeys] at hx
    simp_all
  | choosing a words i =>
    rw [hp] at hs
    dsimp only at hs
    have hl := h.choosing hp
    split at hs
    · rename_i hh
      subst hh
      exact goes_alias h .compositionSelection (by rw [hp]; rfl) (by decide +kernel) ctrl_release (hno _) ctrl_completes hback (plain_goes h (k := .back) hs)
    rename_i hh
    split at hs
    · rename_i ht
      subst ht
      rw [Option.map_eq_some_iff] at hs
      obtain ⟨x, hx, hs⟩ := hs
      injection hs with h1 h2
      subst h1; subst h2
      refine choosing_switch h hp hx _ ctrl_release (command_of h ?_)
      rw [hp]
      dsimp only [Phase.doing]
      have hk : kanaMode D.mode = true := hl.kanaMode
      have hu := h.runs.uses
      generalize S.layout = L at *
      cases hu with
      | default a b =>
        rw [a]
        rcases kanaMode_iff.mp hk with b | b | b <;> rw [b] <;> decide +kernel
      | azik a b =>
        rw [a]
        rcases kanaMode_iff.mp hk with b | b | b <;> rw [b] <;> decide +kernel
    rename_i ht
    injection hs with hs; injection hs with h1 h2
    subst h1; subst h2
    apply ctrl_handed h
    rw [hp]
    intro x hx hxe
    subst hxe
    simp [Phase.doing, ctrlKeys] at hx
    simp_all
  | completing text u sh words i =>
    rw [hp] at hs
    dsimp only at hs
    injection hs with hs; injection hs with h1 h2
    subst h1; subst h2
    apply ctrl_handed h
    rw [hp]
    intro x hx hxe
    subst hxe
    simp [Phase.doing, ctrlKeys] at hx
    simp_all

theorem mode_completing (h : Rel pr S c D) {text : Str} {u : List Keysym} {short : Bool} {words : List Candidate} {i : Nat}
    (hp : D.phase = .completing text u short words i) : CommandIs c ⟨0xff09, 1⟩ [.previousCandidatePointer] := by
  apply command_of h
  have hk := (h.completing hp).kanaMode
  rw [hp]
  dsimp only [Phase.doing]
  rcases h.runs.uses.cases with hc | hc <;> rw [hc] <;> rcases kanaMode_iff.mp hk with b | b | b <;> rw [b] <;> decide +kernel

/-- **C75, one key.** -/
theorem press_goes (h : Rel pr S c D) {k : Machine.Key} {b : Bool} (hs : D.press S k = some (D', b)) : Goes pr S c k.event D' b := by
  have hesc := high_completes h (ev := ⟨0xff1b, 0⟩) c.top.pre (by decide)
  cases k with
  | char ch => exact plain_goes h (k := .char ch) hs
  | back => exact plain_goes h (k := .back) hs
  | enter => exact plain_goes h (k := .enter) hs
  | ctrlJ => exact plain_goes h (k := .ctrlJ) hs
  | ctrlG => exact plain_goes h (k := .ctrlG) hs
  | tab => exact plain_goes h (k := .tab) hs
  | escape =>
    unfold Desk.press at hs
    cases hp : D.phase <;> rw [hp] at hs <;> dsimp only at hs
    case choosing =>
      exact goes_alias h .compositionSelection (by rw [hp]; rfl) (by decide +kernel) (by unfold IsRelease; decide) (by unfold IsRelease; decide) hesc
        ctrl_completes (plain_goes h (k := .ctrlG) hs)
    case completing =>
      exact goes_alias h .completion (by rw [hp]; rfl) (by decide +kernel) (by unfold IsRelease; decide) (by unfold IsRelease; decide) hesc
        ctrl_completes (plain_goes h (k := .ctrlG) hs)
    all_goals
      injection hs with hs; injection hs with h1 h2
      subst h1; subst h2
    case direct => exact not_here h .direct (by rw [hp]; rfl) (by decide +kernel) (.inr (by unfold Printable; decide))
    case reading => exact not_here h .preComposition (by rw [hp]; rfl) (by decide +kernel) (.inr (by unfold Printable; decide))
    case short => exact not_here h .abbreviation (by rw [hp]; rfl) (by decide +kernel) (.inr (by unfold Printable; decide))
    case okuri => exact not_here h .preCompositionOkurigana (by rw [hp]; rfl) (by decide +kernel) (.inr (by unfold Printable; decide))
  | shiftTab =>
    unfold Desk.press at hs
    cases hp : D.phase <;> rw [hp] at hs <;> dsimp only at hs <;> injection hs with hs <;> injection hs with h1 h2 <;> subst h1 <;> subst h2
    case completing => exact completing_previous h hp _ (by unfold IsRelease; decide) (mode_completing h hp)
    case direct => exact not_here h .direct (by rw [hp]; rfl) (by decide +kernel) (.inr (by unfold Printable; decide))
    case reading => exact not_here h .preComposition (by rw [hp]; rfl) (by decide +kernel) (.inr (by unfold Printable; decide))
    case short => exact not_here h .abbreviation (by rw [hp]; rfl) (by decide +kernel) (.inr (by unfold Printable; decide))
    case okuri => exact not_here h .preCompositionOkurigana (by rw [hp]; rfl) (by decide +kernel) (.inr (by unfold Printable; decide))
    case choosing => exact not_here h .compositionSelection (by rw [hp]; rfl) (by decide +kernel) (.inr (by unfold Printable; decide))
  | shifted ch =>
    unfold Desk.press at hs
    dsimp only at hs
    split at hs
    · rename_i hc
      obtain ⟨c', g1, g2⟩ := plain_goes h (k := .char ch) hs
      refine ⟨c', ?_, g2⟩
      rw [← g1]
      have hno : ∀ (m : BitVec 32), m = 0 ∨ m = 1 → ¬ HasOtherModifier ⟨ch.toNat, m⟩ := by
        rintro m hm ⟨i, hi, hx⟩
        have hx : m.getLsbD i = true := hx
        rcases hm with rfl | rfl
        · simp at hx
        · have hx : (1#32).getLsbD i = true := hx
          rw [BitVec.getLsbD_one] at hx
          simp at hx
          exact hi hx
      exact ShiftKey.shifted_letter _ c _ _ _ (by simpa [capital] using hc) (hno _ (.inr rfl)) (hno _ (.inl rfl))
    · cases hs
  | ctrl ch =>
    unfold Desk.press at hs
    dsimp only at hs
    split at hs
    · exact control_goes h hs
    · cases hs
  | other ev =>
    unfold Desk.press at hs
    dsimp only at hs
    split at hs
    · rename_i hu
      injection hs with hs; injection hs with h1 h2
      subst h1; subst h2
      exact useless_handed h hu
    · cases hs

/-! ## The line which is shown -/

/-- How pending keys are written. -/
def names (pr : Bool) (l : List Keysym) : Str := (l.map (Assets.env ⟨pr⟩).keysymName).flatten

theorem unconverted_names (s : State) : (s.unconverted (Assets.env ⟨pr⟩)).getD [] = names pr s.pre := by
  unfold State.unconverted names
  cases s.pre <;> simp

theorem okuri_form (s : State) (m : InputMode) :
    (if s.okuri.isEmpty then none else some ((Assets.env ⟨pr⟩).kanaForm.adjust m s.okuri)).getD [] = (Assets.env ⟨pr⟩).kanaForm.adjust m s.okuri := by
  cases h : s.okuri with
  | nil => simp [ModeKeys.adjust_nil]
  | cons x l => simp

theorem level_shown {s : State} {w : Str} {m : InputMode} {p : Phase} (hf : S.form = (Assets.env ⟨pr⟩).kanaForm.adjust) {t : List CompositionMode} (hb : Base s w m t) (hl : Level s m p) :
    s.preeditString (Assets.env ⟨pr⟩) s.inputMode = w ++ p.shown S (names pr) m := by
  unfold State.preeditString State.preeditDetail Phase.shown
  rw [hb.mode, hf]
  cases p with
  | direct u b =>
    have hl : DirectAt s u b := hl
    simp only [hl.mode, unconverted_names, hb.written, hl.pre]
  | reading d =>
    have hl : ReadingAt s m d := hl
    simp only [hl.mode, unconverted_names, hb.written, hl.pre, hl.kana, List.append_assoc]
  | okuri stem tail u b =>
    have hl : OkuriAt s m stem tail u b := hl
    simp only [hl.mode, unconverted_names, hb.written, hl.pre, hl.kana, List.append_assoc, okuri_form]
    rw [hl.okuri]
  | choosing a words i =>
    have hl : ChoosingAt s m a words i := hl
    simp only [hl.mode, hb.written, List.append_assoc, okuri_form]
    rw [hl.holds.okuri]
    have : s.cands.current = words[i]? := by unfold CandidateList.current; rw [hl.cands]
    rw [this, List.getElem?_eq_getElem hl.cursor]
    rfl
  | short text u sh =>
    have hl : ShortAt s m text u sh := hl
    simp only [hl.mode, unconverted_names, hb.written, hl.pre, hl.kana, List.append_assoc]
  | completing text u sh words i =>
    have hl : CompletingAt s m text u sh words i := hl
    simp only [hl.mode, hb.written, List.append_assoc]
    have : s.cands.current = words[i]? := by unfold CandidateList.current; rw [hl.list, hl.position]
    rw [this, List.getElem?_eq_getElem hl.cursor]
    simp [hl.okuri]

theorem waiter_shown {s : State} {W : Waiter} (hf : S.form = (Assets.env ⟨pr⟩).kanaForm.adjust) (h : Waits s W) :
    s.preeditString (Assets.env ⟨pr⟩) s.inputMode = W.shown S := by
  unfold State.preeditString State.preeditDetail Waiter.shown
  rw [h.base.mode, hf]
  simp only [h.mode, h.holds.kana, h.holds.okuri]
  by_cases ht : W.asked.tail = []
  · simp [ht, ModeKeys.adjust_nil]
  · have hu := h.holds.use ht
    cases hst : W.asked.strict with
    | true => rw [hst] at hu; simp [ht, hu]
    | false => rw [hst] at hu; simp [ht, hu]

theorem waiting_shown (hf : S.form = (Assets.env ⟨pr⟩).kanaForm.adjust) (l : List State) (r : List Waiter) (h : AllWait l r) (acc : Str) (n : Nat) :
    l.reverse.foldl (fun (acc : Str × Nat) s =>
      let result := acc.1 ++ s.preeditString (Assets.env ⟨pr⟩) s.inputMode
      if s.mode = .register then (result ++ c%"【", acc.2 + 1) else (result, acc.2)) (acc, n) =
    (acc ++ (r.reverse.map fun W => W.shown S ++ c%"【").flatten, n + r.length) := by
  induction l generalizing r with
  | nil => cases r with
    | nil => simp
    | cons _ _ => exact h.elim
  | cons s l ih => cases r with
    | nil => exact h.elim
    | cons W r =>
      rw [List.reverse_cons, List.foldl_append, ih r h.2]
      simp only [List.foldl_cons, List.foldl_nil, h.1.mode, if_true, waiter_shown hf h.1]
      simp [Nat.add_assoc]

/-- **C75, the screen.** -/
theorem screen_shown (h : Rel pr S c D) : c.preedit (Assets.env ⟨pr⟩) = D.screen S (names pr) := by
  unfold Ctx.preedit Ctx.states Desk.screen
  simp only [List.foldl_append, waiting_shown h.runs.form _ _ h.below, List.foldl_cons, List.foldl_nil, Nat.zero_add, List.nil_append,
    level_shown h.runs.form h.base h.level]
  have : c.top.mode ≠ .register := by
    have := h.level
    cases hp : D.phase with
    | direct u b => rw [hp] at this; rw [(show DirectAt c.top u b from this).mode]; decide
    | reading d => rw [hp] at this; rw [(show ReadingAt c.top D.mode d from this).mode]; decide
    | okuri stem tail u b => rw [hp] at this; rw [(show OkuriAt c.top D.mode stem tail u b from this).mode]; decide
    | choosing a words i => rw [hp] at this; rw [(show ChoosingAt c.top D.mode a words i from this).mode]; decide
    | short text u sh => rw [hp] at this; rw [(show ShortAt c.top D.mode text u sh from this).mode]; decide
    | completing text u sh words i => rw [hp] at this; rw [(show CompletingAt c.top D.mode text u sh words i from this).mode]; decide
  rw [if_neg this]

/-! ## The finished text -/

theorem allWait_last {l : List State} {r : List Waiter} (h : AllWait l r) :
    l.getLast?.map (·.confirmed) = r.getLast?.map (·.written) := by
  induction l generalizing r with
  | nil => cases r with
    | nil => rfl
    | cons _ _ => exact h.elim
  | cons s l ih => cases r with
    | nil => exact h.elim
    | cons W r =>
      cases l with
      | nil => cases r with
        | nil => simp [h.1.base.written]
        | cons _ _ => exact h.2.elim
      | cons s' l => cases r with
        | nil => exact h.2.elim
        | cons W' r =>
          have := ih h.2
          simpa [List.getLast?_cons_cons] using this

theorem allWait_flush {l : List State} {r : List Waiter} (h : AllWait l r) (h1 : l ≠ []) (h2 : r ≠ []) :
    AllWait (l.dropLast ++ [(l.getLast h1).flushConfirmed]) (r.dropLast ++ [{ r.getLast h2 with written := [] }]) := by
  induction l generalizing r with
  | nil => exact absurd rfl h1
  | cons s l ih => cases r with
    | nil => exact h.elim
    | cons W r =>
      cases l with
      | nil => cases r with
        | nil =>
          obtain ⟨⟨b1, b2, b3, b4, b5⟩, w2, w3, w4, w5, w6, w7⟩ := h.1
          exact ⟨⟨⟨rfl, b2, b3, b4, b5⟩, w2, w3, ⟨w4.pre, w4.capital, w4.kana, w4.raw, w4.okuri, w4.use⟩, w5, w6, w7⟩, trivial⟩
        | cons _ _ => exact h.2.elim
      | cons s' l => cases r with
        | nil => exact h.2.elim
        | cons W' r =>
          have := ih h.2 (by simp) (by simp)
          simp only [List.dropLast_cons_cons, List.getLast_cons_cons, List.cons_append]
          exact ⟨h.1, this⟩

theorem allWait_id {l : List State} {r : List Waiter} (h : AllWait l r) (h2 : r ≠ []) (hw : (r.getLast h2).written = []) :
    AllWait l (r.dropLast ++ [{ r.getLast h2 with written := [] }]) := by
  have : r.dropLast ++ [{ r.getLast h2 with written := [] }] = r := by
    have e : ({ r.getLast h2 with written := [] } : Waiter) = r.getLast h2 := by
      cases hx : r.getLast h2
      rw [hx] at hw
      simp only at hw ⊢
      rw [hw]
    rw [e, List.dropLast_concat_getLast]
  rw [this]; exact h

theorem level_flush {s : State} {m : InputMode} {p : Phase} (hl : Level s m p) : Level s.flushConfirmed m p := by
  cases p with
  | direct u b => exact ⟨hl.mode, hl.pre, hl.capital, hl.kana, hl.raw, hl.okuri⟩
  | reading d =>
    have hl : ReadingAt s m d := hl
    exact ⟨hl.mode, hl.kanaMode, hl.pre, hl.capital, hl.kana, hl.raw, hl.okuri⟩
  | okuri stem tail u b =>
    have hl : OkuriAt s m stem tail u b := hl
    exact ⟨hl.mode, hl.kanaMode, hl.pre, hl.capital, hl.kana, hl.raw, hl.okuri, hl.stem, hl.use, hl.came⟩
  | choosing a words i =>
    have hl : ChoosingAt s m a words i := hl
    obtain ⟨h1, h2, h3, h4, h5, h6⟩ := hl
    exact ⟨h1, h2, ⟨h3.pre, h3.capital, h3.kana, h3.raw, h3.okuri, h3.use⟩, h4, h5, h6⟩
  | short text u sh =>
    have hl : ShortAt s m text u sh := hl
    exact ⟨hl.mode, hl.kanaMode, hl.pre, hl.capital, hl.kana, hl.raw, hl.okuri⟩
  | completing text u sh words i =>
    have hl : CompletingAt s m text u sh words i := hl
    exact ⟨hl.mode, hl.kanaMode, hl.pre, hl.kana, hl.raw, hl.okuri, hl.key, hl.list, hl.position, hl.cursor, hl.came⟩

/-- **C75, a poll.** -/
theorem poll_goes (h : Rel pr S c D) : c.pollOutput.2.getD [] = D.output ∧ Rel pr S c.pollOutput.1 D.taken := by
  have hout : c.bottom.confirmed = D.output := by
    unfold Ctx.bottom Desk.output
    have := allWait_last h.below
    cases hl : c.below.getLast? with
    | none =>
      rw [hl] at this
      cases hr : D.waiting.getLast? with
      | none => exact h.base.written
      | some W => rw [hr] at this; cases this
    | some s =>
      rw [hl] at this
      cases hr : D.waiting.getLast? with
      | none => rw [hr] at this; cases this
      | some W =>
        rw [hr] at this
        injection this
  unfold Ctx.pollOutput Ctx.retrieveOutput
  by_cases he : c.bottom.confirmed = []
  · rw [if_pos (by simp [he])]
    refine ⟨by rw [← hout, he]; rfl, ?_⟩
    show Rel pr S c D.taken
    unfold Desk.taken
    rw [he] at hout
    cases hw : D.waiting with
    | nil =>
      have hb := h.base
      have : D.written = [] := by
        unfold Desk.output at hout
        rw [hw] at hout
        exact hout.symm
      refine ⟨h.runs, h.dicts, ⟨hb.written.trans this, hb.mode, hb.trail, hb.default, hb.history⟩, h.level, ?_⟩
      have := h.below
      rw [hw] at this
      exact this
    | cons W l =>
      refine ⟨h.runs, h.dicts, h.base, h.level, ?_⟩
      refine allWait_id (by have := h.below; rw [hw] at this; exact this) (by simp) ?_
      unfold Desk.output at hout
      rw [hw, List.getLast?_eq_some_getLast (by simp)] at hout
      exact hout.symm
  · rw [if_neg (by simp [he])]
    refine ⟨hout, ?_⟩
    show Rel pr S (c.mapBottom State.flushConfirmed) D.taken
    unfold Desk.taken Ctx.mapBottom
    have hbel := h.below
    have hb := h.base
    cases hc : c.below with
    | nil => cases hw : D.waiting with
      | nil =>
        refine ⟨h.runs.congr rfl rfl rfl, h.dicts, ⟨rfl, hb.mode, hb.trail, hb.default, hb.history⟩, level_flush h.level, ?_⟩
        trivial
      | cons W l => rw [hc, hw] at hbel; exact hbel.elim
    | cons s rest => cases hw : D.waiting with
      | nil => rw [hc, hw] at hbel; exact hbel.elim
      | cons W l =>
        rw [hc, hw] at hbel
        exact ⟨h.runs.congr rfl rfl rfl, h.dicts, hb, h.level, allWait_flush hbel _ _⟩

end

end Cskk.Props.Machine
