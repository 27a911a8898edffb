import Verif.Props.Convert
import Verif.Props.WillProcess
import Verif.Props.Ascii
import Verif.Spec.Typing

/-!
# C25: what typing in the kana modes writes
-/

namespace Cskk.Props.Typing
open Spec Spec.Typing Romaji KanaBuilder

/-! ## The trie answers what scanning the table answers -/

theorem valueOf_iff (tbl : Table) (k : List Keysym) (v : Conv) : valueOf tbl k = some v ↔ Entry tbl k v := by
  unfold valueOf Entry
  rw [Option.map_eq_some_iff]
  constructor
  · rintro ⟨⟨k', v'⟩, h, rfl⟩
    rw [List.find?_eq_some_iff_append] at h
    obtain ⟨hk, as, bs, he, hn⟩ := h
    simp only [decide_eq_true_eq] at hk
    subst hk
    refine ⟨bs.reverse, as.reverse, ?_, ?_⟩
    · have := congrArg List.reverse he
      simpa using this
    · intro x hx
      have := hn x (by simpa using hx)
      simpa using this
  · rintro ⟨pre, post, rfl, h⟩
    refine ⟨(k, v), ?_, rfl⟩
    rw [List.find?_eq_some_iff_append]
    refine ⟨by simp, post.reverse, pre.reverse, by simp, ?_⟩
    intro x hx
    have := h x (by simpa using hx)
    simpa using this

theorem extendable_iff (tbl : Table) (k : List Keysym) : extendable tbl k = true ↔ Extendable tbl k := by
  unfold extendable Extendable
  simp only [List.any_eq_true, Bool.and_eq_true, List.isPrefixOf_iff_prefix, Bool.not_eq_true', decide_eq_false_iff_not]
  constructor
  · rintro ⟨x, hx, ⟨s, hs⟩, hn⟩
    refine ⟨x, hx, s, ?_, hs.symm⟩
    rintro rfl
    exact hn (by simpa using hs.symm)
  · rintro ⟨x, hx, s, hs, he⟩
    refine ⟨x, hx, ⟨s, he.symm⟩, ?_⟩
    rw [he]; simpa using hs

theorem greedy_eq (tbl : Table) (k : List Keysym) : (ofTable tbl).convertGreedy k = valueOf tbl k := by
  apply Option.ext
  intro v
  rw [convert_greedy_iff, valueOf_iff]

theorem nonPartial_eq (tbl : Table) (k : List Keysym) : (ofTable tbl).convertNonPartial k = completed tbl k := by
  apply Option.ext
  intro v
  rw [convert_non_partial_iff, ← valueOf_iff, ← extendable_iff]
  unfold completed
  cases extendable tbl k <;> simp

theorem continue_eq (tbl : Table) (ev : KeyEvent) (u : List Keysym) :
    (ofTable tbl).canContinue ev u = begins tbl (u ++ [ev.symbol]) := by
  rw [Bool.eq_iff_iff, can_continue_iff]
  unfold begins
  simp only [List.any_eq_true, List.isPrefixOf_iff_prefix]
  constructor
  · rintro ⟨x, hx, s, h⟩; exact ⟨x, hx, s, h.symm⟩
  · rintro ⟨x, hx, s, h⟩; exact ⟨x, hx, s, h.symm⟩

theorem continueLower_eq (tbl : Table) (ev : KeyEvent) (u : List Keysym) :
    (ofTable tbl).canContinueLower ev u = begins tbl (u ++ [uncapitalize ev.symbol]) := by
  rw [Bool.eq_iff_iff, can_continue_lower_iff]
  unfold begins
  simp only [List.any_eq_true, List.isPrefixOf_iff_prefix]
  constructor
  · rintro ⟨x, hx, s, h⟩; exact ⟨x, hx, s, h.symm⟩
  · rintro ⟨x, hx, s, h⟩; exact ⟨x, hx, s, h.symm⟩

theorem punctuation_eq (ps : PeriodStyle) (cs : CommaStyle) (ch : Char) :
    convertPeriods ch ps cs = punctuation ps cs ch := by
  unfold convertPeriods punctuation
  cases ps <;> cases cs <;> simp

/-! ## One key -/

theorem plain_not_upper {ch : Char} (h : Plain ch) (m) : KeyEvent.isUpper ⟨ch.toNat, m⟩ = false := by
  have := h.2.2
  rw [← Bool.not_eq_true]
  intro hu
  apply this
  simp only [KeyEvent.isUpper, Bool.and_eq_true] at hu
  exact ⟨of_decide_eq_true hu.1, of_decide_eq_true hu.2⟩

theorem plain_uncapitalize {ch : Char} (h : Plain ch) : uncapitalize ch.toNat = ch.toNat := by
  unfold uncapitalize KEY_A KEY_Z
  rw [if_neg h.2.2]

/-- The event is the character itself: no modifier but SHIFT, and the key map gives the character. -/
structure Key (e : Env) (ev : KeyEvent) (ch : Char) : Prop where
  symbol : ev.symbol = ch.toNat
  modifier : ¬ HasOtherModifier ev
  char : e.xkb.toChar ev.symbol = some ch

theorem plain_key (e : Env) (c : Ctx) (tbl : Table) (ev : KeyEvent) (ch : Char) (hk : c.kanaConv = ofTable tbl)
    (hr : RomajiMode c) (hev : Key e ev ch)
    (hc : completed tbl (c.top.pre ++ [ch.toNat]) ≠ none ∨ NoCommand c ev) :
    c.processKeyEvent e ev = c.romInput e ev c.top.pre := by
  have hrel : ¬ IsRelease ev := fun hr => hev.modifier ⟨30, by decide, hr⟩
  rw [← WillProcess.charInput_rom e c ev hr hev.modifier]
  rcases hc with hc | hc
  · have h1 : Modifier.contains ev.modifiers Modifier.RELEASE = false := by
      rw [← Bool.not_eq_true, contains_release]; exact hrel
    unfold Ctx.processKeyEvent Ctx.processInner
    rw [h1]
    have hs : c.skipCommand ev = true := by
      unfold Ctx.skipCommand
      rw [(WillProcess.rom_iff c).mpr hr, (modifierless_iff ev).mpr hev.modifier, hk]
      unfold combineRaw
      rw [nonPartial_eq tbl (c.top.pre ++ [ev.symbol]), hev.symbol]
      cases h : completed tbl (c.top.pre ++ [ch.toNat]) with
      | none => exact absurd h hc
      | some v => simp
    rw [hs]; rfl
  · exact WillProcess.process_no_command e c ev (WillProcess.rom_mode hr) hrel hc

theorem rendered_append (f : Str → Str) (a b : List Piece) : rendered f (a ++ b) = rendered f a ++ rendered f b := by
  induction a with
  | nil => rfl
  | cons x a ih => cases x <;> simp [rendered, ih]

/-- A direct level after typing: what was written is committed. -/
def directly (e : Env) (c : Ctx) (s : Typing) : Ctx :=
  { c with top := { c.top with
      confirmed := c.top.confirmed ++ rendered (e.kanaForm.adjust c.top.inputMode) s.out
      pre := s.pending
      capital := s.shift } }

theorem flush_direct (e : Env) (c : Ctx) (tbl : Table) (hk : c.kanaConv = ofTable tbl) :
    (c.outputConverted e c.top.inputMode .direct).mapTop State.clearPre =
      directly e c ⟨flushed tbl c.top.pre, [], false⟩ := by
  unfold Ctx.outputConverted flushed
  rw [hk, greedy_eq]
  cases valueOf tbl c.top.pre with
  | none => simp [Ctx.mapTop, State.clearPre, directly, rendered]
  | some v => simp [Ctx.mapTop, State.clearPre, directly, rendered, Ctx.setCarryOver, State.pushFor]

theorem value_mem {tbl : Table} {k : List Keysym} {v : Conv} (h : valueOf tbl k = some v) : ∃ x ∈ tbl, x.1 = k := by
  obtain ⟨a, b, h, _⟩ := (valueOf_iff tbl k v).mp h
  exact ⟨(k, v), by rw [h]; simp, rfl⟩

theorem completed_of_not_begins {tbl : Table} {k : List Keysym} (h : begins tbl k = false) : completed tbl k = none := by
  unfold completed
  split
  · rfl
  · cases hv : valueOf tbl k with
    | none => rfl
    | some v =>
      obtain ⟨x, hx, hk⟩ := value_mem hv
      unfold begins at h
      rw [List.any_eq_false] at h
      exact absurd (by rw [hk]; simp) (h x hx)

/-- The character is typed as it is: it completes an entry, or it is no capital letter, or neither it nor its small letter occurs in an entry here. -/
def AsIs (tbl : Table) (u : List Keysym) (ch : Char) : Prop :=
  (0x20 ≤ ch.toNat ∧ ch.toNat ≤ 0x7e) ∧
    (completed tbl (u ++ [ch.toNat]) ≠ none ∨ Plain ch ∨
      (begins tbl (u ++ [ch.toNat]) = false ∧ begins tbl [ch.toNat] = false ∧ begins tbl (u ++ [uncapitalize ch.toNat]) = false ∧
        begins tbl [uncapitalize ch.toNat] = false))

theorem plain_asIs {ch : Char} (h : Plain ch) (tbl : Table) (u : List Keysym) : AsIs tbl u ch := ⟨⟨h.1, h.2.1⟩, .inr (.inl h)⟩

/-- What the engine asks of a character which is typed as it is. -/
theorem AsIs.facts {tbl : Table} {u : List Keysym} {ch : Char} (h : AsIs tbl u ch) (mods : Modifier) (h1 : completed tbl (u ++ [ch.toNat]) = none) :
    (if (⟨ch.toNat, mods⟩ : KeyEvent).isUpper = true then completed tbl (u ++ [uncapitalize ch.toNat]) else none) = none ∧
    ((⟨ch.toNat, mods⟩ : KeyEvent).isUpper && begins tbl (u ++ [uncapitalize ch.toNat])) = false ∧
    (completed tbl [ch.toNat] = none → completed tbl [uncapitalize ch.toNat] = none) ∧
    (begins tbl [ch.toNat] = false → begins tbl [uncapitalize ch.toNat] = false) := by
  rcases h.2 with h | h | ⟨a, b, c, d⟩
  · exact absurd h1 h
  · rw [plain_not_upper h mods, plain_uncapitalize h]
    exact ⟨rfl, rfl, id, id⟩
  · refine ⟨?_, by rw [c, Bool.and_false], fun _ => completed_of_not_begins d, fun _ => d⟩
    rw [completed_of_not_begins c]
    split <;> rfl

/-- One character in direct kana input, once it is no command. -/
theorem direct_rom (e : Env) (c : Ctx) (tbl : Table) (ev : KeyEvent) (ch : Char) (hk : c.kanaConv = ofTable tbl)
    (hm : c.top.mode = .direct) (hp : AsIs tbl c.top.pre ch) (hev : Key e ev ch) :
    c.romInput e ev c.top.pre =
      .ok (directly e c (typeKey tbl c.config.period c.config.comma ⟨[], c.top.pre, c.top.capital⟩ ch), true) := by
  obtain ⟨sym, mods⟩ := ev
  obtain ⟨rfl, hmod, hchar⟩ := hev
  unfold Ctx.romInput typeKey
  simp only [hk, combineRaw, combineLower, nonPartial_eq]
  cases h1 : completed tbl (c.top.pre ++ [ch.toNat]) with
  | some v =>
    simp [Ctx.inputConvertedKana, hm, Ctx.appendConverted, Ctx.setCarryOver, Ctx.mapTop, State.push, State.pushFor,
      directly, rendered, Bind.bind, Except.bind, pure, Except.pure]
    cases v.2 <;> simp
  | none =>
    obtain ⟨f1, f2, f3, f4⟩ := hp.facts mods h1
    simp only [f1, KeyEvent.symbolChar, hchar]
    unfold Ctx.symbolInput
    simp only [punctuation_eq]
    cases h2 : punctuation c.config.period c.config.comma ch with
    | some w =>
      simp only [hm, flush_direct e c tbl hk]
      simp [directly, hm, Ctx.appendConverted, Ctx.mapTop, State.push, State.pushFor, Ctx.finishSymbol, rendered,
        rendered_append]
    | none =>
      simp only [hk, continue_eq, combineRaw, combineLower, nonPartial_eq, continueLower_eq, List.nil_append, f2,
        Bool.false_eq_true, if_false]
      cases h3 : begins tbl (c.top.pre ++ [ch.toNat]) with
      | true =>
        simp [Ctx.inputAsContinuous, hm, Ctx.setUnconverted, Ctx.mapTop, Ctx.finishSymbol, directly, rendered, hk,
          nextUnprocessedState, continue_eq, h3, combineRaw]
      | false =>
        simp only [Bool.false_eq_true, if_false]
        cases h4 : completed tbl [ch.toNat] with
        | some v =>
          simp [Ctx.inputConvertedKana, hm, Ctx.appendConverted, Ctx.setCarryOver, Ctx.mapTop, State.push, State.pushFor,
            directly, rendered, Bind.bind, Except.bind, pure, Except.pure]
          cases v.2 <;> simp
        | none =>
          simp only [f3 h4, hm, flush_direct e c tbl hk]
          cases h5 : begins tbl [ch.toNat] with
          | true =>
            simp [Ctx.inputAsContinuous, hm, Ctx.setUnconverted, Ctx.mapTop, Ctx.finishSymbol, directly, hk,
              nextUnprocessedState, continue_eq, h5, combineRaw]
          | false =>
            have ha : KeyEvent.isAsciiInputtable ⟨ch.toNat, mods⟩ = true :=
              (WillProcess.printable_iff _).mpr hp.1
            simp [f4 h5, ha, directly, hm, Ctx.mapTop, State.push, State.pushFor, Ctx.finishSymbol, rendered, rendered_append]

/-- One character in direct kana input. -/
theorem direct_key (e : Env) (c : Ctx) (tbl : Table) (ev : KeyEvent) (ch : Char) (hk : c.kanaConv = ofTable tbl)
    (hr : RomajiMode c) (hm : c.top.mode = .direct) (hp : Plain ch) (hev : Key e ev ch)
    (hc : completed tbl (c.top.pre ++ [ch.toNat]) ≠ none ∨ NoCommand c ev) :
    c.processKeyEvent e ev =
      .ok (directly e c (typeKey tbl c.config.period c.config.comma ⟨[], c.top.pre, c.top.capital⟩ ch), true) := by
  rw [plain_key e c tbl ev ch hk hr hev hc, direct_rom e c tbl ev ch hk hm (plain_asIs hp _ _) hev]

/-! ## Texts -/

theorem typeKey_out (tbl : Table) (ps : PeriodStyle) (cs : CommaStyle) (o : List Piece) (u : List Keysym) (b : Bool)
    (ch : Char) :
    typeKey tbl ps cs ⟨o, u, b⟩ ch =
      ⟨o ++ (typeKey tbl ps cs ⟨[], u, b⟩ ch).out, (typeKey tbl ps cs ⟨[], u, b⟩ ch).pending,
        (typeKey tbl ps cs ⟨[], u, b⟩ ch).shift⟩ := by
  unfold typeKey
  cases completed tbl (u ++ [ch.toNat]) with
  | some v => simp
  | none =>
    cases punctuation ps cs ch <;> simp
    split
    · simp
    · cases completed tbl [ch.toNat] <;> simp
      split <;> simp

theorem typeKey_pending (tbl : Table) (ps : PeriodStyle) (cs : CommaStyle) (o : List Piece) (u : List Keysym) (b : Bool)
    (ch : Char) : (typeKey tbl ps cs ⟨o, u, b⟩ ch).pending = (typeKey tbl ps cs ⟨[], u, false⟩ ch).pending := by
  unfold typeKey
  cases completed tbl (u ++ [ch.toNat]) with
  | some v => simp
  | none =>
    cases punctuation ps cs ch <;> simp
    split
    · simp
    · cases completed tbl [ch.toNat] <;> simp
      split <;> simp

theorem typeText_out (tbl : Table) (ps : PeriodStyle) (cs : CommaStyle) (o : List Piece) (u : List Keysym) (b : Bool)
    (t : Str) :
    typeText tbl ps cs ⟨o, u, b⟩ t =
      ⟨o ++ (typeText tbl ps cs ⟨[], u, b⟩ t).out, (typeText tbl ps cs ⟨[], u, b⟩ t).pending,
        (typeText tbl ps cs ⟨[], u, b⟩ t).shift⟩ := by
  induction t generalizing o u b with
  | nil => simp [typeText]
  | cons ch t ih =>
    simp only [typeText, List.foldl_cons] at ih ⊢
    rw [typeKey_out, ih, ih (typeKey tbl ps cs ⟨[], u, b⟩ ch).out]
    simp

/-- Every key of the text, typed after the pending keys `u`, either completes an entry of the table or is no command of
the rule in the current modes. (A key which completes an entry is never taken as a command.) -/
def Undisturbed (tbl : Table) (c : Ctx) (u : List Keysym) : List (KeyEvent × Char) → Prop
  | [] => True
  | x :: l => (completed tbl (u ++ [x.2.toNat]) ≠ none ∨ NoCommand c x.1) ∧
      Undisturbed tbl c (typeKey tbl c.config.period c.config.comma ⟨[], u, false⟩ x.2).pending l

theorem undisturbed_of_noCommand (tbl : Table) (c : Ctx) (u : List Keysym) (l : List (KeyEvent × Char))
    (h : ∀ x ∈ l, NoCommand c x.1) : Undisturbed tbl c u l := by
  induction l generalizing u with
  | nil => trivial
  | cons x l ih => exact ⟨Or.inr (h x (by simp)), ih _ fun y hy => h y (by simp [hy])⟩

theorem undisturbed_congr (tbl : Table) (c c' : Ctx) (h1 : c'.cmds = c.cmds) (h2 : c'.top.mode = c.top.mode)
    (h3 : c'.top.inputMode = c.top.inputMode) (h4 : c'.config = c.config) (u : List Keysym)
    (l : List (KeyEvent × Char)) (h : Undisturbed tbl c u l) : Undisturbed tbl c' u l := by
  induction l generalizing u with
  | nil => trivial
  | cons x l ih =>
    refine ⟨?_, ?_⟩
    · rcases h.1 with h | h
      · exact Or.inl h
      · refine Or.inr ?_
        unfold NoCommand at h ⊢
        rw [h1, h2, h3]; exact h
    · rw [h4]; exact ih _ h.2

/-- **C25.** Typing in direct kana input: the context after a text is given by the transducer of the specification, which
scans the table. What is written is appended to the committed text, kana in the form of the input mode. -/
theorem typing_direct (e : Env) (c : Ctx) (tbl : Table) (l : List (KeyEvent × Char)) (hk : c.kanaConv = ofTable tbl)
    (hr : RomajiMode c) (hm : c.top.mode = .direct) (hp : ∀ x ∈ l, Plain x.2 ∧ Key e x.1 x.2)
    (hc : Undisturbed tbl c c.top.pre l) :
    c.processKeyEvents e (l.map Prod.fst) =
      .ok (directly e c
        (typeText tbl c.config.period c.config.comma ⟨[], c.top.pre, c.top.capital⟩ (l.map Prod.snd))) := by
  induction l generalizing c with
  | nil => simp [Ctx.processKeyEvents, typeText, directly, rendered]
  | cons x l ih =>
    have h := direct_key e c tbl x.1 x.2 hk hr hm (hp x (by simp)).1 (hp x (by simp)).2 hc.1
    rw [List.map_cons, Ascii.pke_cons e c _ x.1 _ true h, ih]
    · simp only [List.map_cons, typeText, List.foldl_cons]
      rw [show List.foldl (typeKey tbl c.config.period c.config.comma) (typeKey tbl c.config.period c.config.comma
        ⟨[], c.top.pre, c.top.capital⟩ x.2) (l.map Prod.snd) = typeText tbl c.config.period c.config.comma (typeKey tbl
        c.config.period c.config.comma ⟨[], c.top.pre, c.top.capital⟩ x.2) (l.map Prod.snd) from rfl, typeText_out]
      simp [directly, rendered_append, typeText]
    · exact hk
    · exact hr
    · exact hm
    · exact fun y hy => hp y (by simp [hy])
    · apply undisturbed_congr tbl c (directly e c _) rfl rfl rfl rfl
      show Undisturbed tbl c (typeKey tbl c.config.period c.config.comma ⟨[], c.top.pre, c.top.capital⟩ x.2).pending l
      rw [typeKey_pending]; exact hc.2

/-! ## Spelling -/

theorem typeText_append (tbl : Table) (ps : PeriodStyle) (cs : CommaStyle) (s : Typing) (a b : Str) :
    typeText tbl ps cs s (a ++ b) = typeText tbl ps cs (typeText tbl ps cs s a) b := by
  simp [typeText]

theorem punctuation_none {ps : PeriodStyle} {cs : CommaStyle} {ch : Char} (h : ch ≠ '.' ∧ ch ≠ ',') :
    punctuation ps cs ch = none := by
  simp [punctuation, h.1, h.2]

theorem completed_of_extendable {tbl : Table} {k : List Keysym} (h : extendable tbl k = true) : completed tbl k = none := by
  simp [completed, h]

theorem begins_of_extendable {tbl : Table} {k : List Keysym} (h : extendable tbl k = true) : begins tbl k = true := by
  unfold extendable at h
  unfold begins
  rw [List.any_eq_true] at h ⊢
  obtain ⟨x, hx, h⟩ := h
  exact ⟨x, hx, (Bool.and_eq_true_iff.mp h).1⟩

/-- Keys which only begin entries become pending. -/
theorem pending_grows (tbl : Table) (ps : PeriodStyle) (cs : CommaStyle) (o : List Piece) (u : List Keysym) (b : Bool)
    (p : Str) (h : ∃ x ∈ tbl, ∃ s, s ≠ [] ∧ x.1 = u ++ p.map Char.toNat ++ s) (hd : ∀ ch ∈ p, ch ≠ '.' ∧ ch ≠ ',') :
    typeText tbl ps cs ⟨o, u, b⟩ p = ⟨o, u ++ p.map Char.toNat, b⟩ := by
  induction p generalizing u with
  | nil => simp [typeText]
  | cons ch p ih =>
    obtain ⟨x, hx, s, hs, he⟩ := h
    have hext : extendable tbl (u ++ [ch.toNat]) = true :=
      (extendable_iff _ _).mpr ⟨x, hx, p.map Char.toNat ++ s, by simp [hs], by simp [he]⟩
    have hstep : typeKey tbl ps cs ⟨o, u, b⟩ ch = ⟨o, u ++ [ch.toNat], b⟩ := by
      unfold typeKey
      simp [completed_of_extendable hext, punctuation_none (hd ch (by simp)), begins_of_extendable hext]
    have := ih (u ++ [ch.toNat]) ⟨x, hx, s, hs, by simp [he]⟩ fun y hy => hd y (by simp [hy])
    simp only [typeText, List.foldl_cons] at this ⊢
    rw [hstep, this]
    simp

/-- A text which spells kana writes exactly these. -/
theorem spells_text (tbl : Table) (ps : PeriodStyle) (cs : CommaStyle) (u : List Keysym) (t : Str) (ws : List Str)
    (h : Spells tbl u t ws) (o : List Piece) (b : Bool) :
    ∃ b', typeText tbl ps cs ⟨o, u, b⟩ t = ⟨o ++ ws.map .kana, [], b'⟩ ∧ ((ws ≠ [] ∨ b = false) → b' = false) := by
  induction h generalizing o b with
  | done => exact ⟨b, by simp [typeText], by simp⟩
  | piece u p t w carry ws hp hv hx hd ht ih =>
    have hp' : p = p.dropLast ++ [p.getLast hp] := (List.dropLast_concat_getLast hp).symm
    obtain ⟨x, hx1, hx2⟩ := value_mem hv
    obtain ⟨b', hb, hf⟩ := ih (o ++ [.kana w]) (b && !carry.isEmpty)
    have hf' : b' = false := by
      apply hf
      cases ht with
      | done => right; simp
      | piece => left; simp
      | short => left; simp
    refine ⟨b', ?_, fun _ => hf'⟩
    rw [typeText_append, hp', typeText_append, pending_grows tbl ps cs o u b p.dropLast
      ⟨x, hx1, [(p.getLast hp).toNat], by simp, by rw [hx2, List.append_assoc]; congr 1; conv => lhs; rw [hp']
                                                   simp⟩ hd]
    have hk : u ++ (p.dropLast).map Char.toNat ++ [(p.getLast hp).toNat] = u ++ p.map Char.toNat := by
      rw [List.append_assoc]; congr 1; conv => rhs; rw [hp']
      simp
    have hstep : typeText tbl ps cs ⟨o, u ++ (p.dropLast).map Char.toNat, b⟩ [p.getLast hp] =
        ⟨o ++ [.kana w], carry, b && !carry.isEmpty⟩ := by
      simp only [typeText, List.foldl_cons, List.foldl_nil, typeKey, hk, completed, hx, hv, Bool.false_eq_true, if_false]
    rw [hstep, hb]
    simp
  | short u p t ch w carry ws hv hx hb hd hc hc' hn ht ih =>
    obtain ⟨b', hb', hf⟩ := ih (o ++ [.kana w]) false
    refine ⟨b', ?_, fun _ => hf (Or.inr rfl)⟩
    have hpre : typeText tbl ps cs ⟨o, u, b⟩ p = ⟨o, u ++ p.map Char.toNat, b⟩ := by
      by_cases hp : p = []
      · subst hp; simp [typeText]
      · obtain ⟨x, hx1, s, hs, he⟩ := (extendable_iff _ _).mp (hx hp)
        exact pending_grows tbl ps cs o u b p ⟨x, hx1, s, hs, he⟩ hd
    rw [typeText_append, hpre]
    simp only [typeText, List.foldl_cons] at hb' ⊢
    have h1 : typeKey tbl ps cs ⟨o, u ++ p.map Char.toNat, b⟩ ch = ⟨o ++ [.kana w], [ch.toNat], false⟩ := by
      simp only [typeKey, completed_of_not_begins hb, punctuation_none hn, hb, hc, hc', flushed, hv, Bool.false_eq_true,
        if_false, if_true]
    have h2 : typeKey tbl ps cs ⟨o ++ [.kana w], [], false⟩ ch = ⟨o ++ [.kana w], [ch.toNat], false⟩ := by
      simp [typeKey, punctuation_none hn, hc, hc']
    rw [h1]
    rw [h2] at hb'
    rw [hb']
    simp

theorem rendered_kana (f : Str → Str) (ws : List Str) : rendered f (ws.map .kana) = (ws.map f).flatten := by
  induction ws with
  | nil => rfl
  | cons w ws ih => simp [rendered, ih]

/-- **C25.** Typing a text which spells kana in direct input commits exactly these kana, in the form of the input mode;
nothing is pending afterwards. -/
theorem spelled_direct (e : Env) (c : Ctx) (tbl : Table) (l : List (KeyEvent × Char)) (ws : List Str)
    (hk : c.kanaConv = ofTable tbl) (hr : RomajiMode c) (hm : c.top.mode = .direct)
    (hp : ∀ x ∈ l, Plain x.2 ∧ Key e x.1 x.2) (hc : Undisturbed tbl c c.top.pre l)
    (hs : Spells tbl c.top.pre (l.map Prod.snd) ws) :
    ∃ c', c.processKeyEvents e (l.map Prod.fst) = .ok c' ∧ c'.top.pre = [] ∧ c'.top.mode = .direct ∧
      c'.below = c.below ∧ c'.dicts = c.dicts ∧
      c'.top.confirmed = c.top.confirmed ++ (ws.map (e.kanaForm.adjust c.top.inputMode)).flatten := by
  obtain ⟨b', hb, hf⟩ := spells_text tbl c.config.period c.config.comma _ _ ws hs [] c.top.capital
  refine ⟨_, typing_direct e c tbl l hk hr hm hp hc, ?_⟩
  rw [hb]
  refine ⟨rfl, hm, rfl, rfl, ?_⟩
  simp [directly, rendered_kana]

/-! ## Typing a reading (`▽`) -/

/-- A level in which a reading is typed, after typing: what was written is appended to the reading. -/
def reading (c : Ctx) (s : Typing) : Ctx :=
  { c with top := { c.top with
      kana := c.top.kana ++ rendered id s.out
      raw := c.top.raw ++ rendered id s.out
      pre := s.pending
      capital := s.shift } }

/-- No keyword of the configuration which starts the conversion is at the end of the reading (unless it is all of it). -/
def Quiet (c : Ctx) (r : Str) : Prop := ∀ kw ∈ c.config.keywords, kw <:+ r → kw = r

theorem flush_reading (e : Env) (c : Ctx) (tbl : Table) (im : InputMode) (hk : c.kanaConv = ofTable tbl) :
    (c.outputConverted e im .preComposition).mapTop State.clearPre = reading c ⟨flushed tbl c.top.pre, [], false⟩ := by
  unfold Ctx.outputConverted flushed
  rw [hk, greedy_eq]
  cases valueOf tbl c.top.pre with
  | none => simp [Ctx.mapTop, State.clearPre, reading, rendered]
  | some v => simp [Ctx.mapTop, State.clearPre, reading, rendered, Ctx.setCarryOver, State.pushFor]

/-- One character in a reading, once it is no command. -/
theorem reading_rom (e : Env) (c : Ctx) (tbl : Table) (ev : KeyEvent) (ch : Char) (hk : c.kanaConv = ofTable tbl)
    (hm : c.top.mode = .preComposition) (hp : AsIs tbl c.top.pre ch) (hev : Key e ev ch) :
    c.romInput e ev c.top.pre = (do
      let c' ← (reading c (typeKey tbl c.config.period c.config.comma ⟨[], c.top.pre, c.top.capital⟩ ch)).autoStartHenkan e
      return (c', true)) := by
  obtain ⟨sym, mods⟩ := ev
  obtain ⟨rfl, hmod, hchar⟩ := hev
  have hconv : ∀ v : Conv, (c.inputConvertedKana e v.1 v.2 false c.top.pre) =
      (reading c ⟨[.kana v.1], v.2, c.top.capital && !v.2.isEmpty⟩).autoStartHenkan e := by
    intro v
    simp only [Ctx.inputConvertedKana, hm, Ctx.setCarryOver, Ctx.mapTop, State.push, State.pushFor, reading, rendered, id,
      List.append_nil]
    cases v.2 <;> simp
  have hfin : ∀ s : Typing, (reading c s).finishSymbol e = (do
      let c' ← (reading c s).autoStartHenkan e
      return (c', true)) := by
    intro s
    simp [Ctx.finishSymbol, reading, hm]
  unfold Ctx.romInput typeKey
  simp only [hk, combineRaw, combineLower, nonPartial_eq]
  cases h1 : completed tbl (c.top.pre ++ [ch.toNat]) with
  | some v => simp only [hconv, List.nil_append]
  | none =>
    obtain ⟨f1, f2, f3, f4⟩ := hp.facts mods h1
    simp only [f1, KeyEvent.symbolChar, hchar]
    unfold Ctx.symbolInput
    simp only [punctuation_eq]
    cases h2 : punctuation c.config.period c.config.comma ch with
    | some w =>
      simp only [hm, flush_reading e c tbl _ hk]
      rw [← hfin]
      simp [reading, hm, Ctx.mapTop, State.push, State.pushFor, State.clearPre, rendered, rendered_append]
    | none =>
      simp only [hk, continue_eq, combineRaw, combineLower, nonPartial_eq, continueLower_eq, List.nil_append, f2,
        Bool.false_eq_true, if_false]
      cases h3 : begins tbl (c.top.pre ++ [ch.toNat]) with
      | true =>
        simp only [if_true]
        rw [← hfin]
        simp [Ctx.inputAsContinuous, hm, Ctx.setUnconverted, Ctx.mapTop, reading, rendered, hk,
          nextUnprocessedState, continue_eq, h3, combineRaw]
      | false =>
        simp only [Bool.false_eq_true, if_false]
        cases h4 : completed tbl [ch.toNat] with
        | some v => simp only [hconv]
        | none =>
          simp only [f3 h4, hm, flush_reading e c tbl _ hk]
          cases h5 : begins tbl [ch.toNat] with
          | true =>
            simp only [if_true]
            rw [← hfin]
            simp [Ctx.inputAsContinuous, hm, Ctx.setUnconverted, Ctx.mapTop, reading, hk,
              nextUnprocessedState, continue_eq, h5, combineRaw]
          | false =>
            have ha : KeyEvent.isAsciiInputtable ⟨ch.toNat, mods⟩ = true :=
              (WillProcess.printable_iff _).mpr hp.1
            simp only [f4 h5, Bool.false_eq_true, if_false]
            rw [← hfin]
            simp [ha, reading, hm, Ctx.mapTop, State.push, State.pushFor, rendered, rendered_append]

theorem reading_key_start (e : Env) (c : Ctx) (tbl : Table) (ev : KeyEvent) (ch : Char) (hk : c.kanaConv = ofTable tbl)
    (hr : RomajiMode c) (hm : c.top.mode = .preComposition) (hp : Plain ch) (hev : Key e ev ch)
    (hc : completed tbl (c.top.pre ++ [ch.toNat]) ≠ none ∨ NoCommand c ev) :
    c.processKeyEvent e ev = (do
      let c' ← (reading c (typeKey tbl c.config.period c.config.comma ⟨[], c.top.pre, c.top.capital⟩ ch)).autoStartHenkan e
      return (c', true)) := by
  rw [plain_key e c tbl ev ch hk hr hev hc, reading_rom e c tbl ev ch hk hm (plain_asIs hp _ _) hev]

theorem autoStart_quiet (e : Env) (c : Ctx) (hm : c.top.mode = .preComposition) (ho : c.top.okuri = [])
    (hq : Quiet c c.top.raw) : c.autoStartHenkan e = .ok c := by
  have hkey : c.top.compositeKey.toComposite = c.top.raw := by simp [State.compositeKey, ho]
  unfold Ctx.autoStartHenkan
  have : (c.config.keywords.find? fun suffix => !decide (c.top.raw = suffix) && Ctx.endsWith c.top.raw suffix) = none := by
    rw [List.find?_eq_none]
    intro kw hkw h
    simp only [Bool.and_eq_true, Bool.not_eq_true', decide_eq_false_iff_not, Ctx.endsWith, List.isSuffixOf_iff_suffix] at h
    exact h.1 (hq kw hkw h.2).symm
  simp only [hm, ne_eq, not_true_eq_false, if_false, hkey, this]

/-- One character of a reading, if no keyword starts the conversion. -/
theorem reading_key (e : Env) (c : Ctx) (tbl : Table) (ev : KeyEvent) (ch : Char) (hk : c.kanaConv = ofTable tbl)
    (hr : RomajiMode c) (hm : c.top.mode = .preComposition) (ho : c.top.okuri = []) (hp : Plain ch) (hev : Key e ev ch)
    (hc : completed tbl (c.top.pre ++ [ch.toNat]) ≠ none ∨ NoCommand c ev)
    (hq : Quiet c (c.top.raw ++ rendered id
      (typeKey tbl c.config.period c.config.comma ⟨[], c.top.pre, c.top.capital⟩ ch).out)) :
    c.processKeyEvent e ev =
      .ok (reading c (typeKey tbl c.config.period c.config.comma ⟨[], c.top.pre, c.top.capital⟩ ch), true) := by
  rw [reading_key_start e c tbl ev ch hk hr hm hp hev hc,
    autoStart_quiet e (reading c (typeKey tbl c.config.period c.config.comma ⟨[], c.top.pre, c.top.capital⟩ ch)) hm ho hq]
  rfl

/-- **C25.** Typing a reading: what is written, as hiragana in every input mode, is appended to the reading. -/
theorem typing_reading (e : Env) (c : Ctx) (tbl : Table) (l : List (KeyEvent × Char)) (hk : c.kanaConv = ofTable tbl)
    (hr : RomajiMode c) (hm : c.top.mode = .preComposition) (ho : c.top.okuri = [])
    (hp : ∀ x ∈ l, Plain x.2 ∧ Key e x.1 x.2) (hc : Undisturbed tbl c c.top.pre l)
    (hq : ∀ q, q <+: l.map Prod.snd → Quiet c (c.top.raw ++ rendered id
      (typeText tbl c.config.period c.config.comma ⟨[], c.top.pre, c.top.capital⟩ q).out)) :
    c.processKeyEvents e (l.map Prod.fst) =
      .ok (reading c
        (typeText tbl c.config.period c.config.comma ⟨[], c.top.pre, c.top.capital⟩ (l.map Prod.snd))) := by
  induction l generalizing c with
  | nil => simp [Ctx.processKeyEvents, typeText, reading, rendered]
  | cons x l ih =>
    have h := reading_key e c tbl x.1 x.2 hk hr hm ho (hp x (by simp)).1 (hp x (by simp)).2 hc.1
      (hq [x.2] (by simp))
    have hcat : ∀ t : Str, typeText tbl c.config.period c.config.comma ⟨[], c.top.pre, c.top.capital⟩ (x.2 :: t) =
      typeText tbl c.config.period c.config.comma (typeKey tbl c.config.period c.config.comma
        ⟨[], c.top.pre, c.top.capital⟩ x.2) t := fun t => rfl
    rw [List.map_cons, Ascii.pke_cons e c _ x.1 _ true h, ih]
    · rw [List.map_cons, hcat]
      generalize typeKey tbl c.config.period c.config.comma ⟨[], c.top.pre, c.top.capital⟩ x.2 = s
      obtain ⟨o, u, b⟩ := s
      rw [typeText_out tbl _ _ o u b]
      simp [reading, rendered_append]
    · exact hk
    · exact hr
    · exact hm
    · exact ho
    · exact fun y hy => hp y (by simp [hy])
    · apply undisturbed_congr tbl c (reading c _) rfl rfl rfl rfl
      show Undisturbed tbl c (typeKey tbl c.config.period c.config.comma ⟨[], c.top.pre, c.top.capital⟩ x.2).pending l
      rw [typeKey_pending]; exact hc.2
    · intro q hpre
      have := hq (x.2 :: q) (by simpa using hpre)
      rw [hcat] at this
      revert this
      generalize typeKey tbl c.config.period c.config.comma ⟨[], c.top.pre, c.top.capital⟩ x.2 = s
      obtain ⟨o, u, b⟩ := s
      rw [typeText_out tbl _ _ o u b]
      simp [reading, rendered_append, Quiet]

theorem spells_prefix (tbl : Table) (ps : PeriodStyle) (cs : CommaStyle) (u : List Keysym) (t : Str) (ws : List Str)
    (h : Spells tbl u t ws) (o : List Piece) (b : Bool) (q : Str) (hq : q <+: t) :
    ∃ v, v <+: ws ∧ (typeText tbl ps cs ⟨o, u, b⟩ q).out = o ++ v.map .kana := by
  induction h generalizing o b q with
  | done =>
    rw [List.prefix_nil.mp hq]
    exact ⟨[], List.prefix_refl _, by simp [typeText]⟩
  | piece u p t w carry ws hp hv hx hd ht ih =>
    have hp' : p = p.dropLast ++ [p.getLast hp] := (List.dropLast_concat_getLast hp).symm
    obtain ⟨x, hx1, hx2⟩ := value_mem hv
    by_cases hlen : p.length ≤ q.length
    · obtain ⟨q', rfl⟩ := List.prefix_of_prefix_length_le (List.prefix_append p t) hq hlen
      have hq' : q' <+: t := by simpa using hq
      obtain ⟨v, hv1, hv2⟩ := ih (o ++ [.kana w]) (b && !carry.isEmpty) q' hq'
      refine ⟨w :: v, by simpa using hv1, ?_⟩
      have : typeText tbl ps cs ⟨o, u, b⟩ p = ⟨o ++ [.kana w], carry, b && !carry.isEmpty⟩ := by
        conv => lhs; rw [hp']
        rw [typeText_append, pending_grows tbl ps cs o u b p.dropLast
          ⟨x, hx1, [(p.getLast hp).toNat], by simp, by rw [hx2, List.append_assoc]; congr 1; conv => lhs; rw [hp']
                                                       simp⟩ hd]
        have hk : u ++ (p.dropLast).map Char.toNat ++ [(p.getLast hp).toNat] = u ++ p.map Char.toNat := by
          rw [List.append_assoc]; congr 1; conv => rhs; rw [hp']
          simp
        simp only [typeText, List.foldl_cons, List.foldl_nil, typeKey, hk, completed, hx, hv, Bool.false_eq_true, if_false]
      rw [typeText_append, this, hv2]
      simp
    · have hlt : q.length < p.length := Nat.lt_of_not_le hlen
      obtain ⟨r, hr⟩ := List.prefix_of_prefix_length_le hq (List.prefix_append p t) (Nat.le_of_lt hlt)
      have hr0 : r ≠ [] := by rintro rfl; simp at hr; rw [hr] at hlt; exact Nat.lt_irrefl _ hlt
      refine ⟨[], List.nil_prefix, ?_⟩
      rw [pending_grows tbl ps cs o u b q ⟨x, hx1, r.map Char.toNat, by simpa using hr0, by rw [hx2, ← hr]; simp⟩]
      · simp
      · intro ch hch
        apply hd ch
        rw [← hr, List.dropLast_append_of_ne_nil hr0]
        simp [hch]
  | short u p t ch w carry ws hv hx hb hd hc hc' hn ht ih =>
    by_cases hlen : p.length + 1 ≤ q.length
    · obtain ⟨q', rfl⟩ := List.prefix_of_prefix_length_le (List.prefix_append p (ch :: t)) hq (by omega)
      cases q' with
      | nil => exact absurd hlen (by simp)
      | cons ch' q' =>
        have hq' : ch' :: q' <+: ch :: t := (List.prefix_append_right_inj p).mp hq
        have : ch' = ch := (List.cons_prefix_cons.mp hq').1
        subst this
        obtain ⟨v, hv1, hv2⟩ := ih (o ++ [.kana w]) false (ch' :: q') hq'
        refine ⟨w :: v, by simpa using hv1, ?_⟩
        have hpre : typeText tbl ps cs ⟨o, u, b⟩ p = ⟨o, u ++ p.map Char.toNat, b⟩ := by
          by_cases hp : p = []
          · subst hp; simp [typeText]
          · obtain ⟨x, hx1, s, hs, he⟩ := (extendable_iff _ _).mp (hx hp)
            exact pending_grows tbl ps cs o u b p ⟨x, hx1, s, hs, he⟩ hd
        rw [typeText_append, hpre]
        have h1 : typeKey tbl ps cs ⟨o, u ++ p.map Char.toNat, b⟩ ch' = ⟨o ++ [.kana w], [ch'.toNat], false⟩ := by
          simp only [typeKey, completed_of_not_begins hb, punctuation_none hn, hb, hc, hc', flushed, hv,
            Bool.false_eq_true, if_false, if_true]
        have h2 : typeKey tbl ps cs ⟨o ++ [.kana w], [], false⟩ ch' = ⟨o ++ [.kana w], [ch'.toNat], false⟩ := by
          simp [typeKey, punctuation_none hn, hc, hc']
        simp only [typeText, List.foldl_cons] at hv2 ⊢
        rw [h1]
        rw [h2] at hv2
        rw [hv2]
        simp
    · have hle : q.length ≤ p.length := by omega
      obtain ⟨r, hr⟩ := List.prefix_of_prefix_length_le hq (List.prefix_append p (ch :: t)) hle
      refine ⟨[], List.nil_prefix, ?_⟩
      by_cases hp : p = []
      · subst hp
        have : q = [] := by simpa using hle
        subst this; simp [typeText]
      · obtain ⟨x, hx1, s, hs, he⟩ := (extendable_iff _ _).mp (hx hp)
        rw [pending_grows tbl ps cs o u b q ⟨x, hx1, r.map Char.toNat ++ s, by simp [hs], by rw [he, ← hr]; simp⟩]
        · simp
        · intro ch hch
          exact hd ch (by rw [← hr]; simp [hch])

/-- **C25.** Typing a text which spells kana while composing appends exactly these kana to the reading. -/
theorem spelled_reading (e : Env) (c : Ctx) (tbl : Table) (l : List (KeyEvent × Char)) (ws : List Str)
    (hk : c.kanaConv = ofTable tbl) (hr : RomajiMode c) (hm : c.top.mode = .preComposition) (ho : c.top.okuri = [])
    (hp : ∀ x ∈ l, Plain x.2 ∧ Key e x.1 x.2) (hc : Undisturbed tbl c c.top.pre l)
    (hs : Spells tbl c.top.pre (l.map Prod.snd) ws) (hq : ∀ v, v <+: ws → Quiet c (c.top.raw ++ v.flatten)) :
    ∃ b, c.processKeyEvents e (l.map Prod.fst) =
      .ok { c with top := { c.top with kana := c.top.kana ++ ws.flatten, raw := c.top.raw ++ ws.flatten, pre := [],
                                       capital := b } } ∧ (ws ≠ [] → b = false) := by
  obtain ⟨b', hb, hf⟩ := spells_text tbl c.config.period c.config.comma _ _ ws hs [] c.top.capital
  refine ⟨b', ?_, fun h => hf (Or.inl h)⟩
  rw [typing_reading e c tbl l hk hr hm ho hp hc, hb]
  · simp [reading, rendered_kana]
  · intro q hpre
    obtain ⟨v, hv1, hv2⟩ := spells_prefix tbl c.config.period c.config.comma _ _ ws hs [] c.top.capital q hpre
    rw [hv2, List.nil_append, rendered_kana]
    simpa using hq v hv1

end Cskk.Props.Typing
