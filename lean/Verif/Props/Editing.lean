import Verif.Spec.Editing
import Verif.Props.Delete
import Verif.Props.Teach
import Verif.Props.WordCycle

/-!
# C73: typing with corrections
-/

namespace Cskk.Props.Editing
open Spec Spec.Typing Spec.Editing Typing Words ShippedTyping Romaji Convert

/-- BackSpace is the command Delete in both shipped rules. -/
theorem backspace (e : Env) {c : Ctx} {tbl : Table} {ks : CompositionMode → List Char} (h : Shipped c tbl ks)
    (hm : c.top.mode = .direct ∨ ((c.top.mode = .preComposition ∨ c.top.mode = .preCompositionOkurigana ∨
      c.top.mode = .abbreviation) ∧ c.top.inputMode ≠ .ascii ∧ c.top.inputMode ≠ .zenkaku)) :
    c.processKeyEvent e ⟨0xff08, 0⟩ = .ok ({ c with top := c.top.delete.1 }, c.top.delete.2) := by
  have hrel : Modifier.contains (KeyEvent.mk 0xff08 0).modifiers Modifier.RELEASE = false := by decide
  have hab : ∀ x ∈ tbl, 0xff08 ∉ x.1 := by cases h <;> decide +kernel
  have hnone : ∀ ks, c.kanaConv.convertNonPartial (ks ++ [0xff08]) = none := by
    intro ks
    cases hv : c.kanaConv.convertNonPartial (ks ++ [0xff08]) with
    | none => rfl
    | some v =>
      rw [h.kana] at hv
      obtain ⟨pre, post, he, _⟩ := ((Romaji.convert_non_partial_iff _ _ _).mp hv).1
      exact absurd (by simp) (hab (ks ++ [0xff08], v) (by rw [he]; simp))
  have hskip : c.skipCommand ⟨0xff08, 0⟩ = false := by
    unfold Ctx.skipCommand KanaBuilder.combineLower KanaBuilder.combineRaw
    have hu : KanaBuilder.uncapitalize 0xff08 = 0xff08 := by decide
    simp only [hu, hnone]
    simp
  have hreg : c.top.mode ≠ .register := by rcases hm with h | ⟨h | h | h, _⟩ <;> rw [h] <;> simp
  have hget : c.cmds.getInstruction e.prof ⟨0xff08, 0⟩ c.top.inputMode c.top.mode = .ok (some [.delete]) := by
    unfold CommandRule.getInstruction
    rw [if_neg hreg]
    have hc : c.cmds = Assets.defaultCommands ∨ c.cmds = Assets.azikCommands := by
      cases h with
      | default a b => exact .inl a
      | azik a b => exact .inr a
    rcases hc with hc | hc <;> rw [hc] <;>
    rcases hm with h | ⟨h | h | h, h1, h2⟩ <;> rw [h] <;>
      cases him : c.top.inputMode <;>
      first
      | exact absurd him h1
      | exact absurd him h2
      | decide +kernel
  unfold Ctx.processKeyEvent Ctx.processInner
  rw [hrel, hskip]
  simp only [Bool.false_eq_true, if_false]
  rw [hget]
  rfl

/-- Keys do not distinguish a character from its key. -/
theorem char_key (pr : Bool) {ch : Char} (h : Plain ch) : Key (Assets.env ⟨pr⟩) (Stroke.char ch).key ch := shipped_key pr ch h.1 h.2.1

/-! ## Direct input -/

/-- The level with the line `d` as its committed text. -/
def committed (c : Ctx) (d : Draft) : Ctx := { c with top := { c.top with confirmed := d.text, pre := d.pending, capital := d.shift } }

/-- The line of a level in direct input. -/
def lineOf (c : Ctx) : Draft := ⟨c.top.confirmed, c.top.pre, c.top.capital⟩

/-- **C73, one key.** In direct input a key edits the line; it is taken, unless it is BackSpace and nothing is there. -/
theorem direct_stroke (pr : Bool) {c : Ctx} {tbl : Table} {ks : CompositionMode → List Char} (h : Shipped c tbl ks) (hr : RomajiMode c)
    (hm : c.top.mode = .direct) (s : Stroke) (hs : Plainly ks .direct [s]) :
    c.processKeyEvent (Assets.env ⟨pr⟩) s.key =
      .ok (committed c ((lineOf c).press tbl c.config ((Assets.env ⟨pr⟩).kanaForm.adjust c.top.inputMode) s),
        match s with
        | .char _ => true
        | .back => !decide (lineOf c).Empty) := by
  cases s with
  | char ch =>
    obtain ⟨hp, hc⟩ := hs ch (by simp)
    rw [direct_key (Assets.env ⟨pr⟩) c tbl _ ch h.kana hr hm hp (char_key pr hp) (.inr (h.noCommand hr ch hp.1 hp.2.1 (by rw [hm]; exact hc)))]
    rfl
  | back =>
    show c.processKeyEvent _ ⟨0xff08, 0⟩ = _
    rw [backspace _ h (.inl hm)]
    have hd : c.top.delete = if c.top.pre ≠ [] then ({ c.top with pre := c.top.pre.dropLast }, true)
        else ({ c.top with confirmed := c.top.confirmed.dropLast }, !c.top.confirmed.isEmpty) := by
      unfold State.delete; simp only [hm]
    rw [hd]
    unfold committed lineOf Draft.press Draft.Empty
    by_cases hp : c.top.pre = []
    · simp only [hp, ne_eq, not_true_eq_false, if_false, if_true, and_true]
      congr 2
      cases c.top.confirmed <;> rfl
    · simp [hp]

/-- **C73.** In direct input: any keys, characters and BackSpaces in any order, make of the line what the editor of the specification makes of it, and
change nothing else. -/
theorem direct_edited (pr : Bool) {tbl : Table} {ks : CompositionMode → List Char} (l : List Stroke) {c : Ctx} (h : Shipped c tbl ks)
    (hr : RomajiMode c) (hm : c.top.mode = .direct) (hl : Plainly ks .direct l) :
    c.processKeyEvents (Assets.env ⟨pr⟩) (l.map Stroke.key) =
      .ok (committed c ((lineOf c).presses tbl c.config ((Assets.env ⟨pr⟩).kanaForm.adjust c.top.inputMode) l)) := by
  induction l generalizing c with
  | nil => rfl
  | cons s l ih =>
    have h1 := direct_stroke pr h hr hm s (fun ch hch => hl ch (by rw [List.mem_singleton] at hch; rw [hch]; simp))
    rw [List.map_cons, Ascii.pke_cons _ c _ s.key _ _ h1, ih]
    · rfl
    · cases h with
      | default a b => exact .default a b
      | azik a b => exact .azik a b
    · exact hr
    · exact hm
    · exact fun ch hch => hl ch (List.mem_cons_of_mem _ hch)

/-! ## A reading -/

/-- The level with the line `d` as its reading. -/
def drafted (c : Ctx) (d : Draft) : Ctx := { c with top := { c.top with kana := d.text, raw := d.text, pre := d.pending, capital := d.shift } }

/-- **C73, one key of a reading.** -/
theorem reading_stroke (pr : Bool) {c : Ctx} {tbl : Table} {ks : CompositionMode → List Char} (h : Shipped c tbl ks) (hr : RomajiMode c)
    (hm : c.top.mode = .preComposition) (ho : c.top.okuri = []) (d : Draft) (s : Stroke) (hs : Plainly ks .preComposition [s])
    (hd : d.Stays tbl c.config [s]) :
    (drafted c d).processKeyEvent (Assets.env ⟨pr⟩) s.key = .ok (drafted c (d.press tbl c.config id s), true) := by
  have h' : Shipped (drafted c d) tbl ks := by
    cases h with
    | default a b => exact .default a b
    | azik a b => exact .azik a b
  cases s with
  | char ch =>
    obtain ⟨hp, hc⟩ := hs ch (by simp)
    rw [reading_key (Assets.env ⟨pr⟩) (drafted c d) tbl _ ch h'.kana hr hm ho hp (char_key pr hp)
      (.inr (h'.noCommand hr ch hp.1 hp.2.1 (by show ch ∉ ks c.top.mode; rw [hm]; exact hc))) hd.1]
    rfl
  | back =>
    show (drafted c d).processKeyEvent _ ⟨0xff08, 0⟩ = _
    have hkm : c.top.inputMode ≠ .ascii ∧ c.top.inputMode ≠ .zenkaku := by
      obtain ⟨_, h | h | h⟩ := hr <;> rw [h] <;> decide
    rw [backspace _ h' (.inr ⟨.inl hm, hkm⟩)]
    have hne := hd.1
    unfold State.delete drafted Draft.press
    unfold Draft.Empty at hne
    simp only [hm]
    by_cases hp : d.pending = []
    · have : d.text ≠ [] := fun ht => hne ⟨ht, hp⟩
      simp [hp, this]
    · simp [hp]

/-- **C73.** While a reading is typed: any keys, characters and BackSpaces, make of it what the editor makes of it, as long as it stays a reading;
nothing else changes. -/
theorem reading_edited (pr : Bool) {tbl : Table} {ks : CompositionMode → List Char} {c : Ctx} (h : Shipped c tbl ks)
    (hr : RomajiMode c) (hm : c.top.mode = .preComposition) (ho : c.top.okuri = []) (l : List Stroke) (d : Draft) (hl : Plainly ks .preComposition l)
    (hd : d.Stays tbl c.config l) :
    (drafted c d).processKeyEvents (Assets.env ⟨pr⟩) (l.map Stroke.key) = .ok (drafted c (d.presses tbl c.config id l)) := by
  induction l generalizing d with
  | nil => rfl
  | cons s l ih =>
    have h1 := reading_stroke pr h hr hm ho d s (fun ch hch => hl ch (by rw [List.mem_singleton] at hch; rw [hch]; simp)) ⟨hd.1, trivial⟩
    rw [List.map_cons, Ascii.pke_cons _ _ _ s.key _ _ h1, ih _ (fun ch hch => hl ch (List.mem_cons_of_mem _ hch)) hd.2]
    rfl

/-- BackSpace where nothing is left: the reading is given up, one is in direct input again, and nothing else changes. -/
theorem emptied (pr : Bool) {tbl : Table} {ks : CompositionMode → List Char} {c : Ctx} (h : Shipped c tbl ks)
    (hr : RomajiMode c) (hm : c.top.mode = .preComposition) (d : Draft) (hd : d.Empty) :
    (drafted c d).processKeyEvent (Assets.env ⟨pr⟩) Stroke.back.key =
      .ok ({ drafted c d with top := { (drafted c d).top with mode := .direct } }, true) := by
  have h' : Shipped (drafted c d) tbl ks := by
    cases h with
    | default a b => exact .default a b
    | azik a b => exact .azik a b
  have hkm : c.top.inputMode ≠ .ascii ∧ c.top.inputMode ≠ .zenkaku := by
    obtain ⟨_, h | h | h⟩ := hr <;> rw [h] <;> decide
  show (drafted c d).processKeyEvent _ ⟨0xff08, 0⟩ = _
  rw [backspace _ h' (.inr ⟨.inl hm, hkm⟩)]
  obtain ⟨h1, h2⟩ := hd
  unfold State.delete drafted
  simp [hm, h1, h2]

/-! ## Words -/

theorem shipped_congr {c c' : Ctx} {tbl : Table} {ks : CompositionMode → List Char} (h : Shipped c tbl ks) (h1 : c'.cmds = c.cmds)
    (h2 : c'.kanaConv = c.kanaConv) : Shipped c' tbl ks := by
  cases h with
  | default a b => exact .default (h1.trans a) (h2.trans b)
  | azik a b => exact .azik (h1.trans a) (h2.trans b)

/-- The capital letter opens a reading. -/
theorem opens (pr : Bool) {c : Ctx} {tbl : Table} {ks : CompositionMode → List Char} (h : Shipped c tbl ks) (hf : Fresh c) (up : Char) (l : List Stroke)
    (d : Draft) (hw : Corrected tbl ks c.config up l d) :
    c.processKeyEvent (Assets.env ⟨pr⟩) ⟨up.toNat, 0⟩ = .ok (drafted (opened c) (begun tbl c.config up), true) := by
  obtain ⟨c1, c2, hU, hcu⟩ := hw.capital
  have hlon : (Char.ofNat (up.toNat + 0x20)).toNat = up.toNat + 0x20 := by
    have hv : (up.toNat + 0x20).isValidChar := Or.inl (by omega)
    have h0 : Char.ofNat (up.toNat + 0x20) = Char.ofNatAux (up.toNat + 0x20) hv := dif_pos hv
    have h1 : (Char.ofNatAux (up.toNat + 0x20) hv).val.toNat = up.toNat + 0x20 := rfl
    rw [h0]; exact h1
  have hnc := h.noCommand hf.rom up (by omega) (by omega) (by rw [hf.mode]; exact hcu)
  have hst := hw.stays.1
  rw [capital_types (Assets.env ⟨pr⟩) c tbl ⟨up.toNat, 0⟩ (Char.ofNat (up.toNat + 0x20)) h.kana hf.rom hf.mode hf.okuri hf.history hf.capital hf.pre
    (shipped_capital pr c tbl ks h up (Char.ofNat (up.toNat + 0x20)) hlon.symm (by rw [hlon]; omega) hU)
    (.inr ⟨by rw [hlon]; exact hw.begins, hnc⟩)
    (by constructor <;> (intro hh; rw [hh] at hlon; revert hlon; show ¬ (_ = _); simp; omega))
    (by unfold Quiet; rw [hf.raw]; exact hst)]
  unfold reading drafted begun Draft.press opened inMode
  simp [hf.kana, hf.raw]

/-- **C73.** A word typed with corrections, up to the conversion key: the reading is the line of the editor. -/
theorem word_edited (pr : Bool) {c : Ctx} {tbl : Table} {ks : CompositionMode → List Char} (h : Shipped c tbl ks) (hf : Fresh c) (up : Char)
    (l : List Stroke) (d : Draft) (hw : Corrected tbl ks c.config up l d) :
    c.processKeyEvents (Assets.env ⟨pr⟩) (⟨up.toNat, 0⟩ :: l.map Stroke.key) = .ok (drafted (opened c) d) := by
  rw [Ascii.pke_cons _ c _ _ _ true (opens pr h hf up l d hw),
    reading_edited pr (c := opened c) (shipped_congr h rfl rfl) ⟨.inr (.inl rfl), hf.rom.2⟩ rfl hf.okuri l (begun tbl c.config up) hw.plain hw.stays.2]
  exact congrArg (fun d => Except.ok (drafted (opened c) d)) hw.line

/-- The level after the conversion key, before the words are looked up. -/
def asked (c : Ctx) (tbl : Table) (d : Draft) : State :=
  match valueOf tbl d.pending with
  | some v => { (drafted (opened c) d).top with kana := d.text ++ v.1, raw := d.text ++ v.1, pre := v.2, capital := false }
  | none => (drafted (opened c) d).top

theorem asked_flushed (c : Ctx) (tbl : Table) (d : Draft) : Flushed tbl (drafted (opened c) d).top (asked c tbl d) := by
  unfold asked
  cases hv : valueOf tbl d.pending with
  | some v => exact .inl ⟨rfl, v.1, v.2, (valueOf_iff _ _ _).mp hv, rfl⟩
  | none =>
    refine .inr (.inr ⟨.inr ?_, rfl⟩)
    rintro ⟨v, h⟩
    have : valueOf tbl d.pending = some v := (valueOf_iff _ _ _).mpr h
    rw [hv] at this; cases this

theorem asked_level (c : Ctx) (tbl : Table) (d : Draft) (hf : Fresh c) :
    (asked c tbl d).raw = d.reading tbl ∧ (asked c tbl d).okuri = [] ∧ (asked c tbl d).inputMode = c.top.inputMode ∧
    (asked c tbl d).defaultMode = c.top.defaultMode ∧ (asked c tbl d).confirmed = c.top.confirmed ∧ (asked c tbl d).pre = d.left tbl ∧
    lookupKey (asked c tbl d) = ⟨d.reading tbl, none⟩ := by
  have h3 := hf.okuri
  unfold asked Draft.reading Draft.left flushed lookupKey
  cases hv : valueOf tbl d.pending <;> simp [drafted, opened, inMode, h3, rendered]

/-- **C73.** A word typed with corrections and converted with `n + 1` blanks: the word number `n` of those the dictionaries have for the line of the
editor is shown, as if the line had been typed without a mistake. -/
theorem word_corrected (pr : Bool) {c : Ctx} {tbl : Table} {ks : CompositionMode → List Char} (h : Shipped c tbl ks) (hf : Fresh c) (up : Char)
    (l : List Stroke) (d : Draft) (hw : Corrected tbl ks c.config up l d) (cs : List Candidate)
    (hcs : Dicts.getAll c.dicts ⟨d.reading tbl, none⟩ = .ok cs) (n : Nat) (hn : n < cs.length) :
    c.processKeyEvents (Assets.env ⟨pr⟩) (⟨up.toNat, 0⟩ :: l.map Stroke.key ++ List.replicate (n + 1) ⟨0x20, 0⟩) =
      .ok (WordCycle.choosing (drafted (opened c) d) (asked c tbl d) cs n) := by
  rw [WordCycle.processKeyEvents_append _ _ _ _ _ (word_edited pr h hf up l d hw)]
  have hkm : c.top.inputMode ≠ .ascii ∧ c.top.inputMode ≠ .zenkaku := by
    obtain ⟨_, h | h | h⟩ := hf.rom <;> rw [h] <;> decide
  have hready : WordCycle.Ready tbl (drafted (opened c) d) (asked c tbl d) := by
    refine ⟨Or.inl rfl, hkm, ?_, asked_flushed c tbl d, remember_length _ _⟩
    cases h with
    | default a b => exact .inl ⟨a, b, rfl⟩
    | azik a b => exact .inr ⟨a, b, rfl⟩
  exact WordCycle.spaces (Assets.env ⟨pr⟩) hready (by rw [(asked_level c tbl d hf).2.2.2.2.2.2]; exact hcs) n hn

/-- **C73.** Only the line counts: two ways of typing which end with the same line leave the same context, whatever mistakes were made on the way. -/
theorem same_line (pr : Bool) {c : Ctx} {tbl : Table} {ks : CompositionMode → List Char} (h : Shipped c tbl ks) (hf : Fresh c) (up up' : Char)
    (l l' : List Stroke) (d : Draft) (hw : Corrected tbl ks c.config up l d) (hw' : Corrected tbl ks c.config up' l' d) :
    c.processKeyEvents (Assets.env ⟨pr⟩) (⟨up.toNat, 0⟩ :: l.map Stroke.key) =
      c.processKeyEvents (Assets.env ⟨pr⟩) (⟨up'.toNat, 0⟩ :: l'.map Stroke.key) := by
  rw [word_edited pr h hf up l d hw, word_edited pr h hf up' l' d hw']

/-! ## Examples -/

instance (tbl : Table) (g : Config) : ∀ (l : List Stroke) (d : Draft), Decidable (d.Stays tbl g l)
  | [], _ => isTrue trivial
  | .back :: l, d =>
    have := instDecidableStays tbl g l (d.press tbl g id .back)
    inferInstanceAs (Decidable (¬ d.Empty ∧ _))
  | .char ch :: l, d =>
    have := instDecidableStays tbl g l (d.press tbl g id (.char ch))
    inferInstanceAs (Decidable ((∀ kw ∈ g.keywords, kw <:+ (d.press tbl g id (.char ch)).text → kw = (d.press tbl g id (.char ch)).text) ∧ _))

theorem plainly_check {ks : CompositionMode → List Char} {m : CompositionMode} {l : List Stroke}
    (h : (l.all fun
      | .char ch => decide (Plain ch ∧ ch ∉ ks m)
      | .back => true) = true) : Plainly ks m l := by
  intro ch hch
  have := List.all_eq_true.mp h _ hch
  exact of_decide_eq_true this

/-- `W a r BackSpace t a s u BackSpace s i` -/
def watasi : List Stroke := chars c%"ar" ++ [.back] ++ chars c%"tasu" ++ [.back] ++ chars c%"si"

/-- わたし with two mistakes. -/
theorem watasi_corrected : Corrected Assets.defaultRomaji defaultCommandKeys Config.default 'W' watasi ⟨c%"わたし", [], false⟩ where
  capital := by decide
  begins := by decide +kernel
  plain := plainly_check (by decide)
  stays := by decide +kernel
  line := by decide +kernel

/-- … and without. -/
theorem watasi_straight : Corrected Assets.defaultRomaji defaultCommandKeys Config.default 'W' (chars c%"atasi") ⟨c%"わたし", [], false⟩ where
  capital := by decide
  begins := by decide +kernel
  plain := plainly_check (by decide)
  stays := by decide +kernel
  line := by decide +kernel

/-- A line in direct input: `k a BackSpace k i n BackSpace s u` writes きす. -/
example : (⟨[], [], false⟩ : Draft).presses Assets.defaultRomaji Config.default id (chars c%"ka" ++ [.back] ++ chars c%"kin" ++ [.back] ++ chars c%"su") =
    ⟨c%"きす", [], false⟩ := by decide +kernel

end Cskk.Props.Editing
