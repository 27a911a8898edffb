import Verif.Props.MachineOkuri

/-!
# C75: keys which were pending when a word was asked for

They are still there while the word is shown, but no longer when it has become part of the text: a key which is typed then is looked up together with them.
-/

namespace Cskk.Props.Machine

open Spec Spec.Typing Spec.Teach Spec.Document Spec.ModeKeys Spec.Editing Spec.Machine
open Romaji KanaBuilder Navigate Convert Typing Words ShippedTyping

/-- The context with other pending keys. -/
def stale (c : Ctx) (u : List Keysym) : Ctx := { c with top := { c.top with pre := u } }

theorem stale_kana (e : Env) (c : Ctx) (u : List Keysym) (k : Str) (carry : List Keysym) (did : Bool) (p : List Keysym)
    (hm : c.top.mode = .direct ∨ c.top.mode = .preComposition) :
    (stale c u).inputConvertedKana e k carry did p = c.inputConvertedKana e k carry did p := by
  obtain ⟨below, ⟨im, m, dm, hist, pre, raw, kana, ok, cands, co, conf, cap, use⟩, cmds, kc, dicts, cfg⟩ := c
  rcases hm with hm | hm
  · have hm : m = .direct := hm
    subst hm; rfl
  · have hm : m = .preComposition := hm
    subst hm; rfl

theorem stale_transition (c : Ctx) (u : List Keysym) (ev : KeyEvent) (i : CompositionMode) (b : Bool) :
    (stale c u).transitionByCapital ev i b = (stale (c.transitionByCapital ev i b).1 u, (c.transitionByCapital ev i b).2) := by
  unfold Ctx.transitionByCapital
  have hk : (stale c u).top.kana = c.top.kana := rfl
  rw [hk]
  split
  · rfl
  split
  · rfl
  · rfl

theorem transition_mode (c : Ctx) (ev : KeyEvent) (b : Bool) (hm : c.top.mode = .direct) :
    (c.transitionByCapital ev .direct b).1.top.mode = .direct ∨ (c.transitionByCapital ev .direct b).1.top.mode = .preComposition := by
  unfold Ctx.transitionByCapital
  split
  · exact .inr rfl
  split
  · rename_i h; simp at h
  · exact .inl hm

theorem transition_conv (c : Ctx) (ev : KeyEvent) (i : CompositionMode) (b : Bool) : (c.transitionByCapital ev i b).1.kanaConv = c.kanaConv := by
  unfold Ctx.transitionByCapital
  split
  · rfl
  split
  · rfl
  · rfl

theorem transition_pre (c : Ctx) (ev : KeyEvent) (i : CompositionMode) (b : Bool) : (c.transitionByCapital ev i b).1.top.pre = c.top.pre := by
  unfold Ctx.transitionByCapital
  split
  · rfl
  split
  · rfl
  · rfl

theorem stale_flush (e : Env) (c : Ctx) (tbl : Table) (u : List Keysym) (im : InputMode) (m : CompositionMode) (hk : c.kanaConv = ofTable tbl)
    (h0 : valueOf tbl c.top.pre = none) (hu : valueOf tbl u = none) :
    ((stale c u).outputConverted e im m).mapTop State.clearPre = (c.outputConverted e im m).mapTop State.clearPre := by
  unfold Ctx.outputConverted
  rw [show (stale c u).kanaConv = c.kanaConv from rfl, show (stale c u).top.pre = u from rfl, hk, greedy_eq, greedy_eq, h0, hu]
  rfl

/-- A key completes kana with keys which were pending when the word was asked for: they are still there. -/
theorem romInput_stale (e : Env) (c : Ctx) (tbl : Table) (u : List Keysym) (ev : KeyEvent) (hk : c.kanaConv = ofTable tbl) (hm : c.top.mode = .direct)
    (h : (completed tbl (u ++ [ev.symbol])).isSome = true ∨ (ev.isUpper = true ∧ (completed tbl (u ++ [uncapitalize ev.symbol])).isSome = true)) :
    (stale c u).romInput e ev u = c.romInput e ev u := by
  have hk' : (stale c u).kanaConv = ofTable tbl := hk
  have hm' : (stale c u).top.mode = .direct := hm
  have hcap : (stale c u).top.capital = c.top.capital := rfl
  unfold Ctx.romInput
  rw [hk, hk', nonPartial_eq, show combineRaw ev u = u ++ [ev.symbol] from rfl]
  cases h1 : completed tbl (u ++ [ev.symbol]) with
  | some v => dsimp only; rw [stale_kana _ _ _ _ _ _ _ (.inl hm)]
  | none =>
    dsimp only
    rw [nonPartial_eq, show combineLower ev u = u ++ [uncapitalize ev.symbol] from rfl]
    cases h2 : (if ev.isUpper = true then completed tbl (u ++ [uncapitalize ev.symbol]) else none) with
    | some v =>
      dsimp only
      rw [hm, hm', hcap, stale_transition]
      dsimp only
      rw [stale_kana _ _ _ _ _ _ _ (transition_mode c ev _ hm)]
    | none =>
      rcases h with h | ⟨h, h'⟩
      · rw [h1] at h; cases h
      · rw [if_pos h] at h2; rw [h2] at h'; cases h'

/-- A key within an entry (neither its first nor its last key) begins another entry, completes nothing alone and is no full stop or comma; these are no entries, nor are capital letters. -/
def middleOk (tbl : Table) : Bool :=
  (tbl.all fun x => (x.1.dropLast.drop 1).all (fun k => (completed tbl [k]).isNone && begins tbl [k] && decide (k ≠ 0x2e) && decide (k ≠ 0x2c)) &&
      (decide (x.1.length ≠ 1) || x.1.all fun k => !decide (0x41 ≤ (k : Nat) ∧ (k : Nat) ≤ 0x5a))) &&
    (valueOf tbl ['.'.toNat]).isNone && (valueOf tbl [','.toNat]).isNone

theorem shipped_middleOk {c : Ctx} {L : Layout} (h : Cskk.Props.Document.Uses c L) : middleOk L.tbl = true := by
  cases h with
  | default a b =>
    show middleOk Assets.defaultRomaji = true
    decide +kernel
  | azik a b =>
    show middleOk Assets.azikRomaji = true
    decide +kernel

theorem single_capital {tbl : Table} (ht : middleOk tbl = true) {ch : Char} (hc : capital ch = true) : completed tbl ([] ++ [ch.toNat]) = none := by
  unfold middleOk at ht
  rw [Bool.and_eq_true, Bool.and_eq_true, List.all_eq_true] at ht
  have hv : valueOf tbl [ch.toNat] = none := by
    unfold valueOf
    rw [Option.map_eq_none_iff, List.find?_eq_none]
    intro x hx hy
    have hy : x.1 = [ch.toNat] := of_decide_eq_true hy
    have := ht.1.1 x (List.mem_reverse.mp hx)
    rw [Bool.and_eq_true, hy] at this
    have h2 := this.2
    simp only [List.all_cons, List.all_nil, Bool.and_true] at h2
    rw [show decide (0x41 ≤ ch.toNat ∧ ch.toNat ≤ 0x5a) = true from hc] at h2
    simp at h2
  unfold completed
  split
  · rfl
  · exact hv

/-- A key which only goes on with pending keys. -/
theorem middle_key {tbl : Table} (ht : middleOk tbl = true) {u : List Keysym} {k : Keysym} (hu : u ≠ []) (hb : begins tbl (u ++ [k]) = true)
    (hc : completed tbl (u ++ [k]) = none) : completed tbl [k] = none ∧ begins tbl [k] = true ∧ k ≠ 0x2e ∧ k ≠ 0x2c := by
  unfold middleOk at ht
  rw [Bool.and_eq_true, Bool.and_eq_true, List.all_eq_true] at ht
  have hex : extendable tbl (u ++ [k]) = true := by
    cases he : extendable tbl (u ++ [k]) with
    | true => rfl
    | false =>
      unfold completed at hc
      rw [he] at hc
      simp only [Bool.false_eq_true, if_false] at hc
      unfold begins at hb
      rw [List.any_eq_true] at hb
      obtain ⟨x, hx, hp⟩ := hb
      unfold extendable at he
      rw [List.any_eq_false] at he
      have := he x hx
      rw [hp] at this
      simp only [Bool.true_and, Bool.not_eq_true', decide_eq_false_iff_not, Classical.not_not] at this
      unfold valueOf at hc
      rw [Option.map_eq_none_iff, List.find?_eq_none] at hc
      exact absurd (decide_eq_true this) (hc x (List.mem_reverse.mpr hx))
  unfold extendable at hex
  rw [List.any_eq_true] at hex
  obtain ⟨x, hx, hp⟩ := hex
  rw [Bool.and_eq_true, Bool.not_eq_true', decide_eq_false_iff_not] at hp
  obtain ⟨t, h1⟩ := List.isPrefixOf_iff_prefix.mp hp.1
  have hte : t ≠ [] := by
    rintro rfl
    exact hp.2 (by rw [← h1, List.append_nil])
  have hmem : k ∈ x.1.dropLast.drop 1 := by
    rw [← h1, List.dropLast_append_of_ne_nil hte]
    cases u with
    | nil => exact absurd rfl hu
    | cons a u => simp
  have := List.all_eq_true.mp (Bool.and_eq_true _ _ ▸ ht.1.1 x hx).1 k hmem
  simp only [Bool.and_eq_true, Option.isNone_iff_eq_none, decide_eq_true_eq] at this
  exact ⟨this.1.1.1, this.1.1.2, this.1.2, this.2⟩

/-- `CapitalAt.romInput` for keys which are not those of the level. -/
theorem capital_rom {e : Env} {tbl : Table} {u : List Keysym} {ev : KeyEvent} {k : Keysym} (h : CapitalAt e tbl u ev k) (c : Ctx) (hk : c.kanaConv = ofTable tbl) :
    c.romInput e ev u =
      match completed tbl (u ++ [k]) with
      | some v => do
        let (c', did) := c.transitionByCapital ev c.top.mode c.top.capital
        let c' ← c'.inputConvertedKana e v.1 v.2 did u
        return (c', true)
      | none =>
        if begins tbl (u ++ [k]) then
          ((c.transitionByCapital ev c.top.mode c.top.capital).1.inputAsContinuous ⟨k, ev.modifiers⟩).finishSymbol e
        else
          match completed tbl [k] with
          | some v => do
            let (c', did) := c.transitionByCapital ev c.top.mode false
            let c' ← c'.inputConvertedKana e v.1 v.2 did u
            return (c', true)
          | none =>
            if begins tbl [k] then
              ((((c.transitionByCapital ev c.top.mode c.top.capital).1.outputConverted e c.top.inputMode c.top.mode).mapTop
                State.clearPre).inputAsContinuous ⟨k, ev.modifiers⟩).finishSymbol e
            else c.romInput e ev u := by
  obtain ⟨ch, hch, hn⟩ := h.char
  have h0' : begins tbl [ev.symbol] = false := h.absent.2
  have h0 : completed tbl [ev.symbol] = none := completed_of_not_begins h0'
  have h1' : begins tbl (u ++ [ev.symbol]) = false := h.absent.1
  have h1 : completed tbl (u ++ [ev.symbol]) = none := completed_of_not_begins h1'
  unfold Ctx.romInput
  simp only [hk, combineRaw, combineLower, nonPartial_eq, h1, h.isUpper, h.uncapitalize, if_true]
  cases completed tbl (u ++ [k]) with
  | some v => rfl
  | none =>
    simp only [KeyEvent.symbolChar, hch]
    unfold Ctx.symbolInput
    simp only [punctuation_eq, punctuation_none hn, hk, continue_eq, continueLower_eq, h1', h.uncapitalize,
      h.isUpper, Bool.true_and, h.toLower, Bool.false_eq_true, if_false, combineRaw, combineLower, nonPartial_eq,
      List.nil_append, h0, h0', if_true]
    cases begins tbl (u ++ [k]) with
    | true => rfl
    | false =>
      simp only [Bool.false_eq_true, if_false]
      cases completed tbl [k] with
      | some v => rfl
      | none =>
        simp only []
        cases begins tbl [k] <;> rfl

theorem ctx_eta (c : Ctx) (hp : c.top.pre = []) (hc : c.top.capital = false) : c.mapTop State.clearPre = c := by
  obtain ⟨below, ⟨im, m, dm, hist, pre, raw, kana, ok, cands, co, conf, cap, use⟩, cmds, kc, dicts, cfg⟩ := c
  have hp : pre = [] := hp
  have hc : cap = false := hc
  subst hp hc
  rfl

theorem flush_nothing (e : Env) (c : Ctx) (tbl : Table) (im : InputMode) (m : CompositionMode) (hk : c.kanaConv = ofTable tbl) (hp : c.top.pre = [])
    (h0 : valueOf tbl [] = none) : c.outputConverted e im m = c := by
  unfold Ctx.outputConverted
  rw [hk, greedy_eq, hp, h0]

/-- The pending keys are forgotten. -/
theorem forget_itself (e : Env) (c : Ctx) (tbl : Table) (u : List Keysym) (ch : Char) (hk : c.kanaConv = ofTable tbl) (hm : c.top.mode = .direct)
    (hp : c.top.pre = []) (hcap : c.top.capital = false) (h0 : valueOf tbl [] = none) (ht : middleOk tbl = true) (hu : u ≠ [])
    (hn : completed tbl (u ++ [ch.toNat]) = none) (ha : AsIs tbl u ch) (ha0 : AsIs tbl [] ch) (hev : Typing.Key e ⟨ch.toNat, 0⟩ ch) :
    c.romInput e ⟨ch.toNat, 0⟩ u = c.romInput e ⟨ch.toNat, 0⟩ [] := by
  obtain ⟨f1, f2, f3, f4⟩ := ha.facts 0 hn
  have hchar := hev.char
  have hfl : ∀ im m, (c.outputConverted e im m).mapTop State.clearPre = c := by
    intro im m
    rw [flush_nothing e c tbl im m hk hp h0, ctx_eta c hp hcap]
  have hpunct : punctuation c.config.period c.config.comma ch ≠ none → completed tbl [ch.toNat] = none := by
    intro hx
    have hd : ch = '.' ∨ ch = ',' := by
      apply Classical.byContradiction
      intro hy
      rw [not_or] at hy
      exact hx (punctuation_none hy)
    unfold middleOk at ht
    rw [Bool.and_eq_true, Bool.and_eq_true] at ht
    have hv : valueOf tbl [ch.toNat] = none := by
      rcases hd with hd | hd <;> rw [hd]
      · simpa using ht.1.2
      · simpa using ht.2
    unfold completed
    split
    · rfl
    · exact hv
  unfold Ctx.romInput
  simp only [hk, combineRaw, combineLower, nonPartial_eq, hn, f1, List.nil_append]
  simp only [KeyEvent.symbolChar, hchar]
  cases h4 : completed tbl [ch.toNat] with
  | some v =>
    have hpn : punctuation c.config.period c.config.comma ch = none := by
      apply Classical.byContradiction
      intro hx
      rw [hpunct hx] at h4; cases h4
    have hbu : begins tbl (u ++ [ch.toNat]) = false := by
      cases hb : begins tbl (u ++ [ch.toNat]) with
      | false => rfl
      | true => rw [(middle_key ht hu hb hn).1] at h4; cases h4
    unfold Ctx.symbolInput
    simp only [punctuation_eq, hpn, hk, continue_eq, combineRaw, combineLower, nonPartial_eq, continueLower_eq, List.nil_append, f2, hbu, h4,
        Bool.false_eq_true, if_false]
    simp only [Ctx.inputConvertedKana, hm]
  | none =>
    have g := f3 h4
    obtain ⟨g1, g2, g3, g4⟩ := ha0.facts 0 h4
    simp only [g, ite_self]
    unfold Ctx.symbolInput
    simp only [punctuation_eq, hm, hfl]
    cases h2 : punctuation c.config.period c.config.comma ch with
    | some w => rfl
    | none =>
      simp only [List.nil_append] at g2
      simp only [hk, continue_eq, combineRaw, combineLower, nonPartial_eq, continueLower_eq, List.nil_append, f2, g2, h4, g,
        Bool.false_eq_true, if_false]
      cases h3 : begins tbl (u ++ [ch.toNat]) with
      | true => rw [(middle_key ht hu h3 hn).2.1]
      | false =>
        simp only [Bool.false_eq_true, if_false]
        cases h5 : begins tbl [ch.toNat] <;> simp

section
variable {pr : Bool} {S : Setup} {c : Ctx} {D D' : Desk}

/-- A character which is typed after a word which was shown while the keys `u` were pending. -/
theorem typeOn_goes (h : Rel pr S c D) (hp : D.phase = .direct [] false) (hk : kanaMode D.mode = true) {u : List Keysym} {ch : Char}
    (hpr : printable ch = true) (hs : D.typeOn S u ch = some D') :
    ∃ c', c.romInput (Assets.env ⟨pr⟩) ⟨ch.toNat, 0⟩ u = .ok (c', true) ∧ Rel pr S c' D' := by
  have hl : DirectAt c.top [] false := by
    have := h.level
    rw [hp] at this
    exact this
  have hpr' := of_decide_eq_true hpr
  have hup : (⟨ch.toNat, 0⟩ : KeyEvent).isUpper = capital ch := by
    unfold KeyEvent.isUpper capital
    show (decide (0x41 ≤ ch.toNat) && decide (ch.toNat ≤ 0x5a)) = _
    rw [Bool.decide_and]
  have ht := shipped_middleOk h.runs.uses
  have hnil := h.runs.uses.shipped.table.2
  unfold Desk.typeOn at hs
  split at hs
  · rename_i hu
    have hrel : Rel pr S (stale c u) { D with phase := .direct u false } :=
      ⟨h.runs.congr rfl rfl rfl, h.dicts, ⟨h.base.written, h.base.mode, h.base.trail, h.base.default, h.base.history⟩,
        ⟨hl.mode, rfl, hl.capital, hl.kana, hl.raw, hl.okuri⟩, h.below⟩
    obtain ⟨c', g1, g2⟩ := input_direct hrel (u := u) (b := false) rfl hk hpr (hs := show ({ D with phase := .direct u false } : Desk).inputDirect S u false ch = some D' from hs)
    refine ⟨c', ?_, g2⟩
    rw [← g1]
    rcases hu with rfl | hu
    · rw [show stale c [] = c by rw [← hl.pre]; rfl, hl.pre]
    · refine (romInput_stale _ c S.layout.tbl u ⟨ch.toNat, 0⟩ h.runs.table hl.mode ?_).symm
      rw [hup]
      show _ ∨ (_ ∧ (completed S.layout.tbl (u ++ [uncapitalize ch.toNat])).isSome = true)
      unfold completes at hu
      rw [Bool.or_eq_true, Bool.and_eq_true] at hu
      rcases hu with hu | ⟨hc, hu⟩
      · exact .inl hu
      · exact .inr ⟨hc, by rw [uncapitalize_capital hc]; exact hu⟩
  rename_i hu
  rw [not_or] at hu
  obtain ⟨hu, hnc⟩ := hu
  unfold completes at hnc
  rw [Bool.or_eq_true, not_or, Bool.and_eq_true, not_and] at hnc
  have hn1 : completed S.layout.tbl (u ++ [ch.toNat]) = none := by simpa using hnc.1
  have hn2 : capital ch = true → completed S.layout.tbl (u ++ [ch.toNat + 0x20]) = none := fun hc => by simpa using hnc.2 hc
  cases hse : sense S.layout.tbl [] ch with
  | unknown =>
    rw [if_neg (by rw [hse]; simp)] at hs
    unfold Desk.inputDirect at hs
    rw [hse] at hs
    cases hs
  | itself =>
    rw [if_neg (by rw [hse]; simp)] at hs
    obtain ⟨c', g1, g2⟩ := input_direct h hp hk hpr hs
    refine ⟨c', ?_, g2⟩
    rw [← g1, hl.pre]
    have ha0 := sense_itself hpr hse
    refine forget_itself _ c S.layout.tbl u ch h.runs.table hl.mode hl.pre hl.capital hnil ht hu hn1 ⟨hpr', ?_⟩ ha0 (shipped_key pr ch hpr'.1 hpr'.2)
    have no : ∀ k, completed S.layout.tbl (u ++ [k]) = none → begins S.layout.tbl [k] = false → begins S.layout.tbl (u ++ [k]) = false := by
      intro k hx hy
      cases hb : begins S.layout.tbl (u ++ [k]) with
      | false => rfl
      | true => rw [(middle_key ht hu hb hx).2.1] at hy; cases hy
    cases hc : capital ch with
    | false => exact .inr (.inl (plain_of hpr hc))
    | true =>
      rcases ha0.2 with hx | hx | hx
      · exact absurd (single_capital ht hc) hx
      · exact .inr (.inl hx)
      · refine .inr (.inr ⟨no _ hn1 hx.2.1, hx.2.1, ?_, hx.2.2.2⟩)
        rw [uncapitalize_capital hc]
        rw [uncapitalize_capital hc] at hx
        exact no _ (hn2 hc) hx.2.2.2
  | capital =>
    obtain ⟨hc, hab, hbg⟩ := sense_capital hse
    have hbg : begins S.layout.tbl [ch.toNat + 0x20] = true := by
      rcases hbg with hx | hx <;> exact hx
    have hab' : begins S.layout.tbl (u ++ [ch.toNat]) = false := by
      cases hb : begins S.layout.tbl (u ++ [ch.toNat]) with
      | false => rfl
      | true => rw [(middle_key ht hu hb hn1).2.1] at hab; cases hab.2
    have hcu := capital_at (pr := pr) hc ⟨hab', hab.2⟩
    have hc0 := capital_at (pr := pr) (u := []) hc hab
    have hr := capital_rom hcu c h.runs.table
    have hr0 := capital_rom hc0 c h.runs.table
    rw [hn2 hc] at hr
    simp only [List.nil_append, hbg, if_true] at hr0
    simp only [hbg, if_true, hl.capital, hl.mode] at hr hr0
    split at hs
    · rename_i hx
      obtain ⟨-, hg, h3⟩ := hx
      injection hs with hs; subst hs
      have hg : begins S.layout.tbl (u ++ [ch.toNat + 0x20]) = false := by
        unfold goesOn at hg
        rw [hc, Bool.true_and, Bool.or_eq_false_iff] at hg
        exact hg.2
      rw [hg, h3] at hr
      simp only [Bool.false_eq_true, if_false] at hr
      rw [← hl.mode, transition_direct _ c S.layout.tbl _ _ hl.mode h.base.history (by rw [hl.pre]; exact hc0) _ rfl] at hr
      dsimp only at hr
      rw [flush_nothing _ _ S.layout.tbl _ _ (by exact h.runs.table) (by exact hl.pre) hnil] at hr
      have hrel : Rel pr S { c with top := { inMode c.top .preComposition with pre := [ch.toNat + 0x20], capital := false } }
          { D.leave .direct with phase := .reading ⟨[], [ch.toNat + 0x20], false⟩ } :=
        h.with (D := D) ⟨h.base.written, h.base.mode, h.base.leave hl.mode, h.base.default, remember_length _ _⟩ ⟨rfl, hk, rfl, rfl, hl.kana, hl.raw, hl.okuri⟩
      refine ⟨_, hr.trans ?_, hrel⟩
      have he : (Ctx.mapTop { c with top := { inMode c.top .preComposition with capital := true } } State.clearPre).inputAsContinuous ⟨ch.toNat + 0x20, 0⟩ =
          { c with top := { inMode c.top .preComposition with pre := [ch.toNat + 0x20], capital := false } } := by
        simp [Ctx.inputAsContinuous, Ctx.mapTop, State.clearPre, inMode, Ctx.setUnconverted, nextUnprocessedState, h.runs.table, continue_eq, hbg, combineRaw]
      refine (congrArg (Ctx.finishSymbol (Assets.env ⟨pr⟩)) he).trans (quiet_ok (Assets.env ⟨pr⟩) _ rfl (by exact hl.okuri) ?_)
      show Quiet _ c.top.raw
      rw [hl.raw]
      intro kw _ hs
      exact List.suffix_nil.mp hs
    · rename_i hx
      obtain ⟨c', g1, g2⟩ := input_direct h hp hk hpr hs
      refine ⟨c', ?_, g2⟩
      rw [← g1, hl.pre, hr, hr0]
      cases hg : begins S.layout.tbl (u ++ [ch.toNat + 0x20]) with
      | true =>
        rw [(middle_key ht hu hg (hn2 hc)).1]
        rfl
      | false =>
        have h3 : completed S.layout.tbl [ch.toNat + 0x20] ≠ none := by
          intro h3
          refine hx ⟨hse, ?_, h3⟩
          unfold goesOn
          rw [hab', hg]; simp
        cases h4 : completed S.layout.tbl [ch.toNat + 0x20] with
        | none => exact absurd h4 h3
        | some v =>
          simp only [Bool.false_eq_true, if_false]
          rw [← hl.mode, transition_direct _ c S.layout.tbl _ _ hl.mode h.base.history (by rw [hl.pre]; exact hc0) _ rfl]
          rfl

end

end Cskk.Props.Machine
