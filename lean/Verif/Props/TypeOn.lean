import Verif.Props.ShippedTyping
import Verif.Props.WordCycle

/-!
# C63: typing on while a candidate is shown confirms it
-/

namespace Cskk.Props.TypeOn
open Spec Spec.Typing Romaji KanaBuilder Navigate Convert Typing Words ShippedTyping

/-- Candidate `x` is shown, as a conversion (`▼`) or a completion (`■`), in a kana input mode, on a level that starts in direct input. -/
structure Shown (c : Ctx) (x : Candidate) : Prop where
  mode : c.top.mode = .compositionSelection ∨ c.top.mode = .completion
  current : c.top.cands.cands[c.top.cands.cursor]? = some x
  kana : c.top.inputMode = .hiragana ∨ c.top.inputMode = .katakana ∨ c.top.inputMode = .hankakuKatakana
  default : c.top.defaultMode = .direct

/-- The candidate has been confirmed: it is committed with what follows it, every dictionary is told, the level is as new. -/
def settled (e : Env) (c : Ctx) (x : Candidate) : Ctx :=
  { c with
    top := { State.new c.top.inputMode .direct with
      confirmed := c.top.confirmed ++ (x.output ++ e.kanaForm.adjust c.top.inputMode c.top.okuri) }
    dicts := c.dicts.map fun (d : CskkDict) => d.confirm x }

theorem confirm_settles (e : Env) {c : Ctx} {x : Candidate} (h : Shown c x) : c.confirmCurrent e = settled e c x := by
  rw [Confirm.confirmCurrent_commits e c x h.current (by rcases h.mode with h | h <;> simp [h])]
  simp only [settled, Confirm.committed, h.default]

theorem settled_rom (e : Env) {c : Ctx} {x : Candidate} (h : Shown c x) : RomajiMode (settled e c x) := ⟨.inl rfl, h.kana⟩

/-- A printable key without modifiers which is no command while the candidate is shown: the candidate is confirmed, and the key
is typed after it. -/
theorem key_settles (e : Env) {c : Ctx} {x : Candidate} (h : Shown c x) (ev : KeyEvent) (hmod : ¬ HasOtherModifier ev)
    (hpr : Printable ev) (hc : NoCommand c ev) :
    c.processKeyEvent e ev = (settled e c x).romInput e ev c.top.pre := by
  have hrel : ¬ IsRelease ev := fun hr => hmod ⟨30, by decide, hr⟩
  have hrom : hasRom2kanaConversion c.top.inputMode c.top.mode = false := by
    rcases h.mode with h | h <;> rw [h] <;> rfl
  have hw : c.willBeProcessed ev c.top.pre = true := by
    unfold Ctx.willBeProcessed
    rw [hrom, (WillProcess.printable_iff ev).mpr hpr]
    simp
  rw [WillProcess.process_no_command e c ev (by rcases h.mode with h | h <;> rw [h] <;> decide) hrel hc]
  unfold Ctx.charInput
  rw [(modifierless_iff ev).mpr hmod]
  simp only [Bool.not_true, Bool.false_eq_true, if_false, h.mode, hw, true_and, if_true, confirm_settles e h,
    (WillProcess.rom_iff _).mpr (settled_rom e h)]

/-- **C63.** Typing a key while a candidate is shown, with no pending keys, does exactly what confirming the candidate and then typing the key
does, unless the key is a command while the candidate is shown, or would be one afterwards. -/
theorem typing_on (e : Env) {c : Ctx} {x : Candidate} (h : Shown c x) (tbl : Table) (hk : c.kanaConv = ofTable tbl)
    (hpre : c.top.pre = []) (ev : KeyEvent) (hmod : ¬ HasOtherModifier ev) (hpr : Printable ev) (hc : NoCommand c ev)
    (hc' : completed tbl [ev.symbol] ≠ none ∨ completed tbl [uncapitalize ev.symbol] ≠ none ∨ NoCommand (settled e c x) ev) :
    c.processKeyEvent e ev = (settled e c x).processKeyEvent e ev := by
  have hrel : ¬ IsRelease ev := fun hr => hmod ⟨30, by decide, hr⟩
  have hrom := settled_rom e h
  rw [key_settles e h ev hmod hpr hc, hpre, show ([] : List Keysym) = (settled e c x).top.pre from rfl,
    ← WillProcess.charInput_rom e _ ev hrom hmod]
  rcases or_assoc.mpr hc' with hc' | hc'
  · have h1 : Modifier.contains ev.modifiers Modifier.RELEASE = false := by
      rw [← Bool.not_eq_true, contains_release]; exact hrel
    unfold Ctx.processKeyEvent Ctx.processInner
    rw [h1]
    have hs : (settled e c x).skipCommand ev = true := by
      unfold Ctx.skipCommand
      rw [(WillProcess.rom_iff _).mpr hrom, (modifierless_iff ev).mpr hmod, show (settled e c x).kanaConv = ofTable tbl from hk]
      unfold combineRaw combineLower
      rw [nonPartial_eq, nonPartial_eq, show (settled e c x).top.pre = [] from rfl]
      simp only [Bool.true_and, List.nil_append, Bool.or_eq_true, Option.isSome_iff_ne_none]
      exact hc'.symm
    rw [hs]; rfl
  · exact (WillProcess.process_no_command e _ ev (by show CompositionMode.direct ≠ _; decide) hrel hc').symm

/-- **C63.** Typing a text without capital letters while a candidate is shown: the candidate is committed and what the text spells after
it. Only the first key must be no command while the candidate is shown, the others no command in direct input. -/
theorem typing_on_text (e : Env) {c : Ctx} {x : Candidate} (h : Shown c x) (tbl : Table) (hk : c.kanaConv = ofTable tbl)
    (hpre : c.top.pre = []) (ev : KeyEvent) (ch : Char) (l : List (KeyEvent × Char))
    (hp : ∀ y ∈ (ev, ch) :: l, Plain y.2 ∧ Key e y.1 y.2) (hc : NoCommand c ev)
    (hu : Undisturbed tbl (settled e c x)
      (typeKey tbl c.config.period c.config.comma ⟨[], [], false⟩ ch).pending l) :
    c.processKeyEvents e (ev :: l.map Prod.fst) =
      .ok (directly e (settled e c x) (typeText tbl c.config.period c.config.comma ⟨[], [], false⟩ (ch :: l.map Prod.snd))) := by
  obtain ⟨h1, h2⟩ := hp (ev, ch) (by simp)
  have hkey : c.processKeyEvent e ev =
      .ok (directly e (settled e c x) (typeKey tbl c.config.period c.config.comma ⟨[], [], false⟩ ch), true) := by
    rw [key_settles e h ev h2.modifier (by unfold Printable; rw [h2.symbol]; exact ⟨h1.1, h1.2.1⟩) hc, hpre]
    exact direct_rom e (settled e c x) tbl ev ch hk rfl (plain_asIs h1 _ _) h2
  rw [Ascii.pke_cons e c _ ev _ true hkey]
  rw [typing_direct e (directly e (settled e c x) _) tbl l hk (settled_rom e h) rfl (fun y hy => hp y (by simp [hy]))]
  · simp only [typeText, List.foldl_cons]
    show Except.ok (directly e _ (typeText tbl c.config.period c.config.comma
      ⟨[], (typeKey tbl c.config.period c.config.comma ⟨[], [], false⟩ ch).pending,
        (typeKey tbl c.config.period c.config.comma ⟨[], [], false⟩ ch).shift⟩ (l.map Prod.snd))) = _
    rw [show List.foldl (typeKey tbl c.config.period c.config.comma) (typeKey tbl c.config.period c.config.comma
        ⟨[], [], false⟩ ch) (l.map Prod.snd) = typeText tbl c.config.period c.config.comma (typeKey tbl
        c.config.period c.config.comma ⟨[], [], false⟩ ch) (l.map Prod.snd) from rfl]
    rw [typeText_out tbl c.config.period c.config.comma (typeKey tbl c.config.period c.config.comma ⟨[], [], false⟩ ch).out]
    simp [directly, rendered_append, typeText]
  · exact undisturbed_congr tbl (settled e c x) (directly e (settled e c x) _) rfl rfl rfl rfl _ _ hu

/-! ## The shipped rules -/

/-- The printable keys which are commands while a candidate is shown, with the default rule. -/
def defaultShownKeys : CompositionMode → List Char
  | .compositionSelection => [' ', 'x', 'X', 'q']
  | _ => ['.', ',']

/-- The same with the AZIK rule. -/
def azikShownKeys : CompositionMode → List Char
  | .compositionSelection => [' ', 'x', 'X', '@']
  | _ => ['.', ',']

/-- One of the shipped rules is in use: its table, the keys which are commands in direct input, and those which are while a candidate is shown. -/
inductive ShippedShown (c : Ctx) : Table → List Char → (CompositionMode → List Char) → Prop where
  | default (h1 : c.cmds = Assets.defaultCommands) (h2 : c.kanaConv = Assets.defaultKana) :
      ShippedShown c Assets.defaultRomaji ['l', 'L', 'q', 'Q', '/'] defaultShownKeys
  | azik (h1 : c.cmds = Assets.azikCommands) (h2 : c.kanaConv = Assets.azikKana) :
      ShippedShown c Assets.azikRomaji ['l', 'L', '@', '{', '/'] azikShownKeys

theorem ShippedShown.kana {c : Ctx} {tbl : Table} {ks : List Char} {ss : CompositionMode → List Char} (h : ShippedShown c tbl ks ss) :
    c.kanaConv = ofTable tbl := by
  cases h with
  | default _ h => exact h
  | azik _ h => exact h

theorem ShippedShown.shown {c : Ctx} {tbl : Table} {ks : List Char} {ss : CompositionMode → List Char} (h : ShippedShown c tbl ks ss)
    {x : Candidate} (hs : Shown c x) (ch : Char) (h1 : 0x20 ≤ ch.toNat) (h2 : ch.toNat ≤ 0x7e) (hl : ch ∉ ss c.top.mode) :
    NoCommand c ⟨ch.toNat, 0⟩ := by
  unfold NoCommand
  have hm := hs.mode
  have hi := hs.kana
  cases h with
  | default h =>
    rw [h]
    refine noCommand_of _ (defaultShownKeys c.top.mode) _ _ ?_ ch h1 h2 hl
    rcases hm with a | a <;> rw [a] <;> rcases hi with b | b | b <;> rw [b] <;> decide +kernel
  | azik h =>
    rw [h]
    refine noCommand_of _ (azikShownKeys c.top.mode) _ _ ?_ ch h1 h2 hl
    rcases hm with a | a <;> rw [a] <;> rcases hi with b | b | b <;> rw [b] <;> decide +kernel

theorem ShippedShown.direct {c : Ctx} {tbl : Table} {ks : List Char} {ss : CompositionMode → List Char} (h : ShippedShown c tbl ks ss)
    (e : Env) {x : Candidate} (hs : Shown c x) (ch : Char) (h1 : 0x20 ≤ ch.toNat) (h2 : ch.toNat ≤ 0x7e) (hl : ch ∉ ks) :
    NoCommand (settled e c x) ⟨ch.toNat, 0⟩ := by
  apply shipped_noCommand _ (settled_rom e hs) ch h1 h2
  cases h with
  | default h => exact .inl ⟨h, hl⟩
  | azik h => exact .inr ⟨h, hl⟩

/-- **C63 with the shipped rules.** A text spelled while a candidate is shown is committed after the candidate. The first
letter must be no command while a candidate is shown, and the others no command in direct input. -/
theorem shipped_typing_on (p : Bool) {c : Ctx} {x : Candidate} (hs : Shown c x) {tbl : Table} {ks : List Char}
    {ss : CompositionMode → List Char} (h : ShippedShown c tbl ks ss) (hpre : c.top.pre = []) (ch : Char) (t : Str) (ws : List Str)
    (hch : ch ∉ ss c.top.mode) (hpl : ∀ y ∈ ch :: t, Plain y) (ht : ∀ y ∈ t, y ∉ ks) (hsp : Spells tbl [] (ch :: t) ws) :
    ∃ c', c.processKeyEvents (Assets.env ⟨p⟩) (typed (ch :: t)) = .ok c' ∧ c'.top.pre = [] ∧ c'.top.mode = .direct ∧
      c'.below = c.below ∧ c'.dicts = c.dicts.map (fun (d : CskkDict) => d.confirm x) ∧
      c'.top.confirmed = c.top.confirmed ++ (x.output ++ (Assets.env ⟨p⟩).kanaForm.adjust c.top.inputMode c.top.okuri) ++
        (ws.map ((Assets.env ⟨p⟩).kanaForm.adjust c.top.inputMode)).flatten := by
  obtain ⟨b', hb, hf⟩ := spells_text tbl c.config.period c.config.comma _ _ ws hsp [] false
  have := typing_on_text (Assets.env ⟨p⟩) hs tbl h.kana hpre ⟨ch.toNat, 0⟩ ch (t.map fun ch => ((⟨ch.toNat, 0⟩ : KeyEvent), ch))
    (by
      intro y hy
      rcases List.mem_cons.mp hy with rfl | hy
      · exact ⟨hpl ch (by simp), shipped_key p ch (hpl ch (by simp)).1 (hpl ch (by simp)).2.1⟩
      · obtain ⟨d, hd, rfl⟩ := List.mem_map.mp hy
        have := hpl d (by simp [hd])
        exact ⟨this, shipped_key p d this.1 this.2.1⟩)
    (h.shown hs ch (hpl ch (by simp)).1 (hpl ch (by simp)).2.1 hch)
    (by
      apply undisturbed_of_noCommand
      intro y hy
      obtain ⟨d, hd, rfl⟩ := List.mem_map.mp hy
      have := hpl d (by simp [hd])
      exact h.direct _ hs d this.1 this.2.1 (ht d hd))
  rw [← typed_pairs, pairs_snd, hb] at this
  refine ⟨_, this, rfl, rfl, rfl, rfl, ?_⟩
  simp [directly, settled, rendered_kana]
  rfl

/-- **C63, shipped rules.** Backspace while a candidate is shown confirms it and deletes the last character of the committed text. -/
theorem backspace_confirms (e : Env) {c : Ctx} {x : Candidate} (hs : Shown c x)
    (hr : c.cmds = Assets.defaultCommands ∨ c.cmds = Assets.azikCommands) :
    c.processKeyEvent e ⟨0xff08, 0⟩ =
      .ok ({ settled e c x with top := { (settled e c x).top with confirmed := (settled e c x).top.confirmed.dropLast } },
        !(settled e c x).top.confirmed.isEmpty) := by
  have hc : CommandIs c ⟨0xff08, 0⟩ [.confirmComposition, .delete] := by
    apply commandIs_of_find
    have hi := hs.kana
    rcases hr with h | h <;> rw [h] <;> rcases hs.mode with a | a <;> rw [a] <;>
      rcases hi with b | b | b <;> rw [b] <;> decide +kernel
  have hsk : c.skipCommand ⟨0xff08, 0⟩ = false := by
    unfold Ctx.skipCommand
    rw [show hasRom2kanaConversion c.top.inputMode c.top.mode = false by rcases hs.mode with h | h <;> rw [h] <;> rfl]
    simp
  rw [key_command e c _ _ (by simp [IsRelease]) (by rcases hs.mode with h | h <;> rw [h] <;> decide) hc hsk]
  unfold Ctx.processInstructions Ctx.runInstructions
  simp only [Ctx.instruction, bind, Except.bind, Ctx.runInstructions, confirm_settles e hs]
  rfl

/-! ## Deviations -/

/-- **Finding.** With the default rule `l`, `/`, `L` and `Q` — which in direct input switch to ASCII, abbreviation and full-width
input and start a reading — are typed as characters after the candidate while a conversion is shown: the input mode does not change. -/
theorem mode_keys_typed (p : Bool) {c : Ctx} {x : Candidate} (hs : Shown c x) (hc : c.cmds = Assets.defaultCommands)
    (hk : c.kanaConv = Assets.defaultKana) (hpre : c.top.pre = []) (ch : Char) (hch : ch ∈ ['l', '/', 'L', 'Q']) :
    c.processKeyEvent (Assets.env ⟨p⟩) ⟨ch.toNat, 0⟩ =
      .ok ({ settled (Assets.env ⟨p⟩) c x with top := { (settled (Assets.env ⟨p⟩) c x).top with
        confirmed := (settled (Assets.env ⟨p⟩) c x).top.confirmed ++ [ch] } }, true) := by
  have hsh : ShippedShown c Assets.defaultRomaji ['l', 'L', 'q', 'Q', '/'] defaultShownKeys := .default hc hk
  have hp : 0x20 ≤ ch.toNat ∧ ch.toNat ≤ 0x7e ∧ ch ∉ defaultShownKeys c.top.mode := by
    rcases hs.mode with h | h <;> rw [h] <;> revert hch <;> revert ch <;> decide +kernel
  rw [key_settles _ hs _ (by rintro ⟨i, _, hb⟩; simp at hb) ⟨hp.1, hp.2.1⟩ (hsh.shown hs ch hp.1 hp.2.1 hp.2.2), hpre]
  have hx : (Assets.env ⟨p⟩).xkb.toChar ch.toNat = some ch := (shipped_key p ch hp.1 hp.2.1).char
  have ht : completed Assets.defaultRomaji [ch.toNat] = none ∧ completed Assets.defaultRomaji [uncapitalize ch.toNat] = none ∧
      begins Assets.defaultRomaji [ch.toNat] = false ∧ begins Assets.defaultRomaji [uncapitalize ch.toNat] = false ∧
      ch ≠ '.' ∧ ch ≠ ',' := by clear hx hp; revert ch; decide +kernel
  obtain ⟨t1, t2, t3, t4, t5⟩ := ht
  have hd : (settled (Assets.env ⟨p⟩) c x).kanaConv = ofTable Assets.defaultRomaji := hk
  have hpr : KeyEvent.isAsciiInputtable ⟨ch.toNat, 0⟩ = true := (WillProcess.printable_iff _).mpr ⟨hp.1, hp.2.1⟩
  have hm : (settled (Assets.env ⟨p⟩) c x).top.mode = .direct := rfl
  have hf := flush_direct (Assets.env ⟨p⟩) (settled (Assets.env ⟨p⟩) c x) _ hd
  have hv : valueOf Assets.defaultRomaji (settled (Assets.env ⟨p⟩) c x).top.pre = none := by
    show valueOf Assets.defaultRomaji [] = none; decide +kernel
  have hdi : directly (Assets.env ⟨p⟩) (settled (Assets.env ⟨p⟩) c x) ⟨[], [], false⟩ = settled (Assets.env ⟨p⟩) c x := by
    simp [directly, rendered]; rfl
  unfold flushed at hf
  rw [hv, hdi] at hf
  unfold Ctx.romInput Ctx.symbolInput
  simp only [hd, combineRaw, combineLower, nonPartial_eq, continue_eq, continueLower_eq, List.nil_append, t1, t2, t3, t4, ite_self,
    KeyEvent.symbolChar, hx, punctuation_eq, punctuation_none t5, Bool.and_false, Bool.false_eq_true, if_false, hpr, if_true, hm, hf]
  clear hf hdi hv hsh hx
  generalize settled (Assets.env ⟨p⟩) c x = d at hm hd ⊢
  simp [Ctx.finishSymbol, Ctx.mapTop, State.push, State.pushFor, hm, hd]

/-- The candidate shown is 缶, for かん; `pre` is pending. -/
def shownCan (pre : List Keysym) : Ctx :=
  { kan with top := { inMode (withCandidates { kan.top with kana := c%"かん", raw := c%"かん", pre := pre }
      [⟨c%"かん", none, false, c%"缶", none, c%"缶"⟩, ⟨c%"かん", none, false, c%"感", some c%"心", c%"感"⟩]) .compositionSelection with
        history := [.direct, .preComposition] } }

/-- The hypotheses are met. -/
theorem shownCan_shown (pre : List Keysym) : Shown (shownCan pre) ⟨c%"かん", none, false, c%"缶", none, c%"缶"⟩ :=
  ⟨.inl rfl, rfl, .inl rfl, rfl⟩

/-- `kekkonsiki` typed on commits 缶 and then けっこんしき. -/
example (p : Bool) : ∃ c', (shownCan []).processKeyEvents (Assets.env ⟨p⟩) (typed c%"kekkonsiki") = .ok c' ∧
    c'.top.confirmed = c%"を缶けっこんしき" := by
  obtain ⟨c', h1, _, _, _, _, h2⟩ := shipped_typing_on p (shownCan_shown []) (.default rfl rfl) rfl 'k' c%"ekkonsiki" _
    (by decide) (by decide +kernel) (by decide) kekkonsiki
  refine ⟨c', h1, h2.trans ?_⟩
  cases p <;> decide +kernel

/-- **Finding.** Keys pending when the conversion starts, which no kana ends with, are neither shown nor dropped while candidates are shown: the next
key goes on with them. `K a n k` space `i` commits 缶 and then き, although confirming with Ctrl-j first gives い. -/
theorem pending_goes_on (p : Bool) :
    ((kan.processKeyEvents (Assets.env ⟨p⟩) (typed c%"k ")).toOption.map (·.preedit (Assets.env ⟨p⟩))) = some c%"を▼缶" ∧
    ((kan.processKeyEvents (Assets.env ⟨p⟩) (typed c%"k i")).toOption.map fun c => c.pollOutput.2) = some (some c%"を缶き") ∧
    ((kan.processKeyEvents (Assets.env ⟨p⟩) (typed c%"k " ++ [WordCycle.ctrlJ] ++ typed c%"i")).toOption.map fun c => c.pollOutput.2) =
      some (some c%"を缶い") := by
  cases p <;> decide +kernel

end Cskk.Props.TypeOn
