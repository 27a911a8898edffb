import Verif.Spec.Machine
import Verif.Props.Document
import Verif.Props.Editing
import Verif.Props.Stale

/-!
# C75, first part: how a state of the engine stands for a state of the machine
-/

namespace Cskk.Props.Machine

open Spec Spec.Typing Spec.Teach Spec.Document Spec.ModeKeys Spec.Editing Spec.Machine
open Romaji KanaBuilder Navigate Convert Typing Words ShippedTyping
open Cskk.Props.Document (Uses)

/-- The engine has the shipped rule, the configuration and the writing forms of the setup. -/
structure Runs (pr : Bool) (c : Ctx) (S : Setup) : Prop where
  uses : Uses c S.layout
  config : S.config = c.config
  form : S.form = (Assets.env ⟨pr⟩).kanaForm.adjust
  wide : S.wide = (Assets.env ⟨pr⟩).asciiForm.adjustChar
  previous : ∀ m, S.previous m = true ↔ c.cmds = Assets.defaultCommands ∨ m = .hiragana
  opener : (c.cmds = Assets.defaultCommands ∧ S.opener = 'Q') ∨ (c.cmds = Assets.azikCommands ∧ S.opener = '{')
  completes : (S.completes = true ∧ c.cmds = Assets.defaultCommands ∧ c.kanaConv = Assets.defaultKana) ∨ (S.completes = false ∧ c.cmds = Assets.azikCommands)
  aside : (c.cmds = Assets.defaultCommands ∧ ∀ m, S.aside m = if m = .katakana then .hiragana else m) ∨ (c.cmds = Assets.azikCommands ∧ ∀ m, S.aside m = m)

theorem commands_differ : Assets.defaultCommands ≠ Assets.azikCommands := by
  intro h
  have := congrArg (fun r : CommandRule => ((r .direct .hiragana).find? fun b => decide (b.1 = CommandRule.matchingKey ⟨'{'.toNat, 0⟩)).isSome) h
  revert this
  decide +kernel

theorem Runs.congr {pr : Bool} {c c' : Ctx} {S : Setup} (h : Runs pr c S) (h1 : c'.cmds = c.cmds) (h2 : c'.kanaConv = c.kanaConv)
    (h3 : c'.config = c.config) : Runs pr c' S :=
  ⟨h.uses.congr h1 h2, by rw [h3]; exact h.config, h.form, h.wide, by rw [h1]; exact h.previous,
    by rw [h1]; exact h.opener, by rw [h1, h2]; exact h.completes, by rw [h1]; exact h.aside⟩

theorem Runs.table {pr : Bool} {c : Ctx} {S : Setup} (h : Runs pr c S) : c.kanaConv = ofTable S.layout.tbl := h.uses.shipped.kana

/-- What was done before is `t`; whether direct input was done before that makes no difference. -/
def Past (h t : List CompositionMode) : Prop := h = t ∨ h = .direct :: t

/-- What every level has. -/
structure Base (s : State) (w : Str) (m : InputMode) (t : List CompositionMode) : Prop where
  written : s.confirmed = w
  mode : s.inputMode = m
  trail : Past s.history t
  default : s.defaultMode = .direct
  history : s.history.length ≤ 20

theorem Past.remember {h t : List CompositionMode} (hp : Past h t) (hl : h.length ≤ 20) (m : CompositionMode) : Past (remember h m) (remember t m) := by
  rcases hp with rfl | rfl
  · exact .inl rfl
  · simp only [List.length_cons] at hl
    unfold Spec.remember
    by_cases hx : t.length = 19
    · refine .inl ?_
      simp [hx]
    · refine .inr ?_
      have h1 : (CompositionMode.direct :: t ++ [m]).length - 20 = 0 := by simp; omega
      have h2 : (t ++ [m]).length - 20 = 0 := by simp; omega
      rw [h1, h2]; rfl

theorem Past.dropLast {h t : List CompositionMode} (hp : Past h t) : Past h.dropLast t.dropLast := by
  rcases hp with rfl | rfl
  · exact .inl rfl
  · cases t with
    | nil => exact .inl rfl
    | cons x t => exact .inr rfl

theorem Past.getLast {h t : List CompositionMode} (hp : Past h t) : h.getLast? = t.getLast? ∨ (t = [] ∧ h = [.direct]) := by
  rcases hp with rfl | rfl
  · exact .inl rfl
  · cases t with
    | nil => exact .inr ⟨rfl, rfl⟩
    | cons x t => exact .inl (by simp [List.getLast?_cons_cons])

theorem Base.leave {s : State} {w : Str} {im : InputMode} {t : List CompositionMode} (hb : Base s w im t) {m : CompositionMode} (hm : s.mode = m) :
    Past (remember s.history s.mode) (remember t m) := by
  rw [hm]
  exact hb.trail.remember hb.history m

/-- The mode in which the word was typed. -/
def origin (short : Bool) : CompositionMode := if short then .abbreviation else .preComposition

/-- The level has the word which is asked for. -/
structure Holds (s : State) (a : Asked) : Prop where
  pre : s.pre = a.pending
  capital : s.capital = a.shift
  kana : s.kana = a.stem
  raw : s.raw = a.stem
  okuri : s.okuri = a.tail
  use : a.tail ≠ [] → s.useOkuri = a.strict

structure DirectAt (s : State) (u : List Keysym) (b : Bool) : Prop where
  mode : s.mode = .direct
  pre : s.pre = u
  capital : s.capital = b
  kana : s.kana = []
  raw : s.raw = []
  okuri : s.okuri = []

structure ReadingAt (s : State) (m : InputMode) (d : Draft) : Prop where
  mode : s.mode = .preComposition
  kanaMode : kanaMode m = true
  pre : s.pre = d.pending
  capital : s.capital = d.shift
  kana : s.kana = d.text
  raw : s.raw = d.text
  okuri : s.okuri = []

structure OkuriAt (s : State) (m : InputMode) (stem tail : Str) (u : List Keysym) (b : Bool) : Prop where
  mode : s.mode = .preCompositionOkurigana
  kanaMode : kanaMode m = true
  pre : s.pre = u
  capital : s.capital = b
  kana : s.kana = stem
  raw : s.raw = stem
  okuri : s.okuri = tail
  stem : stem ≠ []
  use : tail ≠ [] → s.useOkuri = true
  came : [.preComposition] <:+ s.history

structure ShortAt (s : State) (m : InputMode) (text : Str) (u : List Keysym) (shift : Bool) : Prop where
  mode : s.mode = .abbreviation
  kanaMode : kanaMode m = true
  pre : s.pre = u
  capital : s.capital = shift
  kana : s.kana = text
  raw : s.raw = text
  okuri : s.okuri = []

structure CompletingAt (s : State) (m : InputMode) (text : Str) (u : List Keysym) (short : Bool) (words : List Candidate) (i : Nat) : Prop where
  mode : s.mode = .completion
  kanaMode : kanaMode m = true
  pre : s.pre = u
  kana : s.kana = text
  raw : s.raw = text
  okuri : s.okuri = []
  key : s.cands.toComposite = ⟨text, none⟩
  list : s.cands.cands = words
  position : s.cands.cursor = i
  cursor : i < words.length
  came : [origin short] <:+ s.history

structure ChoosingAt (s : State) (m : InputMode) (a : Asked) (words : List Candidate) (i : Nat) : Prop where
  mode : s.mode = .compositionSelection
  kanaMode : kanaMode m = true
  holds : Holds s a
  cands : s.cands = ⟨a.key, i, words⟩
  cursor : i < words.length
  came : [a.origin] <:+ s.history

/-- A level on which one works. -/
def Level (s : State) (m : InputMode) : Phase → Prop
  | .direct u b => DirectAt s u b
  | .reading d => ReadingAt s m d
  | .okuri stem tail u b => OkuriAt s m stem tail u b
  | .short text u shift => ShortAt s m text u shift
  | .choosing a words i => ChoosingAt s m a words i
  | .completing text u short words i => CompletingAt s m text u short words i

/-- The level on which a word was typed, or an abbreviation. -/
theorem level_typing {s : State} {m : InputMode} {w : Str} {u : List Keysym} {short shift : Bool} (h1 : s.mode = origin short) (hk : kanaMode m = true)
    (h2 : s.pre = u) (h3 : s.capital = shift) (h4 : s.kana = w) (h5 : s.raw = w) (h6 : s.okuri = []) : Level s m (typing w u short shift) := by
  cases short with
  | true => exact ⟨h1, hk, h2, h3, h4, h5, h6⟩
  | false => exact ⟨h1, hk, h2, h3, h4, h5, h6⟩

/-- A level which waits. -/
structure Waits (s : State) (W : Waiter) : Prop where
  base : Base s W.written W.mode W.trail
  mode : s.mode = .register
  kanaMode : kanaMode W.mode = true
  holds : Holds s W.asked
  cands : s.cands = ⟨W.asked.key, W.i, W.words⟩
  cursor : W.words ≠ [] → W.i < W.words.length
  came : [W.asked.origin] ++ (if W.words ≠ [] then [.compositionSelection] else []) <:+ s.history

/-- All which wait. -/
def AllWait : List State → List Waiter → Prop
  | [], [] => True
  | s :: l, W :: r => Waits s W ∧ AllWait l r
  | _, _ => False

/-- The engine stands for the machine. -/
structure Rel (pr : Bool) (S : Setup) (c : Ctx) (D : Desk) : Prop where
  runs : Runs pr c S
  dicts : c.dicts = D.dicts
  base : Base c.top D.written D.mode D.trail
  level : Level c.top D.mode D.phase
  below : AllWait c.below D.waiting

theorem allWait_length {l : List State} {r : List Waiter} (h : AllWait l r) : l.length = r.length := by
  induction l generalizing r with
  | nil => cases r with
    | nil => rfl
    | cons _ _ => exact h.elim
  | cons s l ih => cases r with
    | nil => exact h.elim
    | cons W r => simp [ih h.2]

theorem Rel.depth {pr : Bool} {S : Setup} {c : Ctx} {D : Desk} (h : Rel pr S c D) : c.depth = D.waiting.length + 1 := by
  unfold Ctx.depth
  rw [← allWait_length h.below]

theorem kanaMode_iff {m : InputMode} : kanaMode m = true ↔ m = .hiragana ∨ m = .katakana ∨ m = .hankakuKatakana := by
  cases m <;> simp [kanaMode]

theorem kanaMode_ne {m : InputMode} (h : kanaMode m = true) : m ≠ .ascii ∧ m ≠ .zenkaku := by
  cases m <;> simp [kanaMode] at h ⊢

theorem rom {c : Ctx} {w : Str} {m : InputMode} {t : List CompositionMode} (hb : Base c.top w m t) (hk : kanaMode m = true)
    (hm : c.top.mode = .direct ∨ c.top.mode = .preComposition ∨ c.top.mode = .preCompositionOkurigana) : RomajiMode c :=
  ⟨hm, by rw [hb.mode]; exact kanaMode_iff.mp hk⟩

theorem suffix_remember {x h : List CompositionMode} {m : CompositionMode} (hx : x <:+ h) (hl : x.length < 20) : x ++ [m] <:+ remember h m := by
  obtain ⟨t, rfl⟩ := hx
  unfold remember
  have : t ++ x ++ [m] = t ++ (x ++ [m]) := by simp
  rw [this, List.drop_append_of_le_length (by simp; omega)]
  exact List.suffix_append _ _

theorem last_remember (h : List CompositionMode) (m : CompositionMode) : [m] <:+ remember h m := suffix_remember (x := []) List.nil_suffix (by decide)

theorem suffix_getLast {x h : List CompositionMode} {m : CompositionMode} (hx : x ++ [m] <:+ h) : h.getLast? = some m ∧ x <:+ h.dropLast := by
  obtain ⟨t, rfl⟩ := hx
  rw [← List.append_assoc]
  simp

theorem last_getLast {h : List CompositionMode} {m : CompositionMode} (hx : [m] <:+ h) : h.getLast? = some m := (suffix_getLast (x := []) hx).1

theorem origin_false : origin false = .preComposition := rfl
theorem origin_true : origin true = .abbreviation := rfl

theorem holds_key {s : State} {a : Asked} (h : Holds s a) : lookupKey s = a.key := by
  unfold lookupKey Asked.key
  rw [h.raw, h.okuri]
  by_cases ht : a.tail = []
  · simp [ht]
  · simp [ht, h.use ht]

/-- What is the same on all levels. -/
structure Around (pr : Bool) (S : Setup) (c : Ctx) (D : Desk) : Prop where
  runs : Runs pr c S
  dicts : c.dicts = D.dicts
  below : AllWait c.below D.waiting

theorem Rel.around {pr : Bool} {S : Setup} {c : Ctx} {D : Desk} (h : Rel pr S c D) : Around pr S c D := ⟨h.runs, h.dicts, h.below⟩

theorem Rel.left {pr : Bool} {S : Setup} {c : Ctx} {D : Desk} (h : Rel pr S c D) (m : CompositionMode) : Around pr S c (D.leave m) :=
  ⟨h.runs, h.dicts, h.below⟩

/-- A word was looked up: the engine follows the machine. -/
theorem rel_converted {pr : Bool} {S : Setup} {c : Ctx} {D D' : Desk} (h : Around pr S c D) {r : State} {a : Asked} {cs : List Candidate}
    (hb : Base r D.written D.mode D.trail) (hk : kanaMode D.mode = true) (hh : Holds r a) (hm : r.mode = a.origin)
    (hst : a.strict = true → a.stem ≠ [] ∧ [.preComposition] <:+ r.history)
    (hcs : Dicts.getAll c.dicts a.key = .ok cs) (hD : D.convert a = some D') : Rel pr S (converted c r cs) D' := by
  unfold Desk.convert at hD
  rw [h.dicts] at hcs
  rw [hcs] at hD
  unfold converted
  cases cs with
  | nil =>
    have hdep : c.depth = D.waiting.length + 1 := by unfold Ctx.depth; rw [← allWait_length h.below]
    dsimp only at hD
    split at hD
    · rename_i hlt
      rw [if_neg (by simp), if_pos (by rw [hdep]; exact hlt)]
      injection hD with hD
      subst hD
      refine ⟨h.runs.congr rfl rfl rfl, h.dicts, ⟨rfl, rfl, .inl rfl, rfl, by simp [registering, State.new]⟩, ⟨rfl, rfl, rfl, rfl, rfl, rfl⟩, ?_, h.below⟩
      exact ⟨⟨hb.written, hb.mode, hb.leave hm, hb.default, remember_length _ _⟩, rfl, hk, ⟨hh.pre, hh.capital, hh.kana, hh.raw, hh.okuri, hh.use⟩,
        by show (withCandidates r []).cands = _; simp only [withCandidates, holds_key hh], fun hx => absurd rfl hx, by
          simp only [ne_eq, not_true_eq_false, if_false, List.append_nil]; rw [← hm]; exact last_remember _ _⟩
    · rename_i hlt
      rw [if_neg (by simp), if_neg (by rw [hdep]; exact hlt)]
      split at hD
      · rename_i hs
        injection hD with hD; subst hD
        obtain ⟨h2, ht⟩ := hst hs
        unfold Asked.origin at hm
        rw [if_pos hs] at hm
        exact ⟨h.runs.congr rfl rfl rfl, h.dicts, ⟨hb.written, hb.mode, hb.trail, hb.default, hb.history⟩,
          ⟨hm, hk, hh.pre, hh.capital, hh.kana, hh.raw, hh.okuri, h2, fun hx => (hh.use hx).trans hs, ht⟩, h.below⟩
      rename_i hs
      split at hD
      · rename_i htl
        injection hD with hD; subst hD
        unfold Asked.origin at hm
        rw [if_neg hs] at hm
        exact ⟨h.runs.congr rfl rfl rfl, h.dicts, ⟨hb.written, hb.mode, hb.trail, hb.default, hb.history⟩,
          level_typing hm hk hh.pre hh.capital hh.kana hh.raw (hh.okuri.trans htl), h.below⟩
      · cases hD
  | cons x xs =>
    injection hD with hD
    subst hD
    rw [if_pos (by simp)]
    refine ⟨h.runs.congr rfl rfl rfl, h.dicts, ⟨hb.written, hb.mode, hb.leave hm, hb.default, remember_length _ _⟩, ?_, h.below⟩
    exact ⟨rfl, hk, ⟨hh.pre, hh.capital, hh.kana, hh.raw, hh.okuri, hh.use⟩,
        by show (withCandidates r (x :: xs)).cands = _; simp only [withCandidates, holds_key hh], by simp, by rw [← hm]; exact last_remember _ _⟩

/-- Only the topmost level changed. -/
theorem Rel.with {pr : Bool} {S : Setup} {c : Ctx} {D : Desk} (h : Rel pr S c D) {s : State} {w : Str} {m : InputMode} {p : Phase} {t : List CompositionMode} (hb : Base s w m t)
    (hl : Level s m p) : Rel pr S { c with top := s } { D with written := w, mode := m, phase := p, trail := t } :=
  ⟨h.runs.congr rfl rfl rfl, h.dicts, hb, hl, h.below⟩

/-- The key of a printable character which is no command of the mode. -/
theorem Rel.noCommand {pr : Bool} {S : Setup} {c : Ctx} {D : Desk} (h : Rel pr S c D) (hr : RomajiMode c) {ch : Char}
    (hp : printable ch = true) (hl : ch ∉ S.layout.commands c.top.mode) : NoCommand c ⟨ch.toNat, 0⟩ := by
  have := of_decide_eq_true hp
  exact h.runs.uses.shipped.noCommand hr ch this.1 this.2 hl

/-- A capital letter with which no entry goes on. -/
theorem capital_at {pr : Bool} {tbl : Table} {u : List Keysym} {up : Char} (hc : capital up = true)
    (hf : begins tbl (u ++ [up.toNat]) = false ∧ begins tbl [up.toNat] = false) :
    CapitalAt (Assets.env ⟨pr⟩) tbl u ⟨up.toNat, 0⟩ (up.toNat + 0x20) := by
  have h := of_decide_eq_true hc
  have h1 : 0x20 ≤ up.toNat := by omega
  have h2 : up.toNat ≤ 0x7e := by omega
  refine ⟨?_, rfl, (shipped_key pr up h1 h2).modifier, ⟨up, (shipped_key pr up h1 h2).char, ?_⟩, hf⟩
  · exact ⟨by show 0x61 ≤ up.toNat + 0x20; omega, by show up.toNat + 0x20 ≤ 0x7a; omega⟩
  · refine ⟨fun hx => ?_, fun hx => ?_⟩
    all_goals subst hx; revert h; decide

theorem uncapitalize_capital {up : Char} (hc : capital up = true) : uncapitalize up.toNat = up.toNat + 0x20 := by
  unfold uncapitalize KEY_A KEY_Z
  exact if_pos (of_decide_eq_true hc)

theorem uncapitalize_other {ch : Char} (hc : capital ch = false) : uncapitalize ch.toNat = ch.toNat := by
  unfold uncapitalize KEY_A KEY_Z
  exact if_neg (of_decide_eq_false hc)

theorem small_char {up : Char} (hc : capital up = true) : (small up).toNat = up.toNat + 0x20 :=
  Document.small_toNat up (of_decide_eq_true hc).2

theorem small_plain {up : Char} (hc : capital up = true) : Plain (small up) := by
  have h := of_decide_eq_true hc
  unfold Plain
  rw [small_char hc]
  omega

theorem small_small {pr : Bool} {up : Char} (hc : capital up = true) : Stale.Small (Assets.env ⟨pr⟩) ⟨up.toNat, 0⟩ (up.toNat + 0x20) := by
  have h := small_plain hc
  have h' := of_decide_eq_true hc
  have := shipped_key pr (small up) h.1 h.2.1
  rw [small_char hc] at this
  refine ⟨small up, this.char, ?_, ?_⟩ <;>
  · intro hx
    have := congrArg Char.toNat hx
    rw [small_char hc] at this
    revert this
    have : up.toNat + 0x20 ≥ 0x61 := by omega
    intro h2
    rw [h2] at this
    revert this; decide

theorem plain_of {ch : Char} (hp : printable ch = true) (hc : capital ch = false) : Plain ch := by
  have h1 := of_decide_eq_true hp
  have h2 := of_decide_eq_false hc
  exact ⟨h1.1, h1.2, h2⟩

theorem sense_itself {tbl : Table} {u : List Keysym} {ch : Char} (hp : printable ch = true) (h : sense tbl u ch = .itself) : AsIs tbl u ch := by
  refine ⟨of_decide_eq_true hp, ?_⟩
  unfold sense at h
  split at h
  · rename_i hx
    rw [Bool.or_eq_true] at hx
    rcases hx with hx | hx
    · exact .inr (.inl (plain_of hp (by simpa using hx)))
    · exact .inl (by intro hn; rw [hn] at hx; cases hx)
  rename_i hc
  split at h
  · cases h
  rename_i h1
  split at h
  · cases h
  rename_i h2
  simp only [Bool.or_eq_true, not_or, Bool.not_eq_true] at h1 h2 hc
  have hcap : capital ch = true := by simpa using hc.1
  rw [uncapitalize_capital hcap]
  exact .inr (.inr ⟨h1.1, h1.2, h2.1, h2.2⟩)

theorem sense_capital {tbl : Table} {u : List Keysym} {ch : Char} (h : sense tbl u ch = .capital) :
    capital ch = true ∧ (begins tbl (u ++ [ch.toNat]) = false ∧ begins tbl [ch.toNat] = false) ∧
      (begins tbl (u ++ [ch.toNat + 0x20]) = true ∨ begins tbl [ch.toNat + 0x20] = true) := by
  unfold sense at h
  split at h
  · cases h
  rename_i hc
  split at h
  · cases h
  rename_i h1
  split at h
  case isFalse => cases h
  rename_i h2
  simp only [Bool.or_eq_true, not_or, Bool.not_eq_true] at h1 h2 hc
  exact ⟨by simpa using hc.1, h1, h2⟩

/-- A character which is no command is typed. -/
theorem key_rom {pr : Bool} {S : Setup} {c : Ctx} {D : Desk} (h : Rel pr S c D) (hr : RomajiMode c) {ch : Char} (hp : printable ch = true)
    (hcm : command S.layout c.top.mode c.top.pre ch = false) :
    c.processKeyEvent (Assets.env ⟨pr⟩) ⟨ch.toNat, 0⟩ = c.romInput (Assets.env ⟨pr⟩) ⟨ch.toNat, 0⟩ c.top.pre := by
  have hp' := of_decide_eq_true hp
  have hmod := (shipped_key pr ch hp'.1 hp'.2).modifier
  have hrel : ¬ IsRelease (⟨ch.toNat, 0⟩ : KeyEvent) := fun hr => hmod ⟨30, by decide, hr⟩
  rw [← WillProcess.charInput_rom _ c _ hr hmod]
  unfold command at hcm
  rw [Bool.and_eq_false_iff] at hcm
  rcases hcm with hcm | hcm
  · exact WillProcess.process_no_command _ c _ (WillProcess.rom_mode hr) hrel (h.noCommand hr hp (by simpa using hcm))
  · have h1 : Modifier.contains (0 : Modifier) Modifier.RELEASE = false := by decide
    unfold Ctx.processKeyEvent Ctx.processInner
    simp only [h1]
    have hs : c.skipCommand ⟨ch.toNat, 0⟩ = true := by
      unfold Ctx.skipCommand
      rw [(WillProcess.rom_iff c).mpr hr, (modifierless_iff _).mpr hmod, h.runs.table]
      unfold combineRaw combineLower
      rw [nonPartial_eq, nonPartial_eq]
      unfold completes at hcm
      simp only [Bool.not_eq_false', Bool.or_eq_true, Bool.and_eq_true] at hcm
      simp only [Bool.true_and, Bool.or_eq_true]
      rcases hcm with hx | ⟨hc, hx⟩
      · exact .inr hx
      · refine .inl ?_
        show (completed _ (c.top.pre ++ [uncapitalize ch.toNat])).isSome = true
        rw [uncapitalize_capital hc]; exact hx
    rw [hs]; rfl

theorem convert_looked {D D' : Desk} {a : Asked} (hD : D.convert a = some D') : ∃ cs, Dicts.getAll D.dicts a.key = .ok cs := by
  unfold Desk.convert at hD
  cases hx : Dicts.getAll D.dicts a.key with
  | error _ => rw [hx] at hD; cases hD
  | ok cs => exact ⟨cs, rfl⟩

/-- The level with the pending keys flushed. -/
def flushedLevel (tbl : Table) (s : State) : State :=
  match valueOf tbl s.pre with
  | some v => { s with kana := s.kana ++ v.1, raw := s.raw ++ v.1, pre := v.2, capital := false }
  | none => s

theorem flushedLevel_flushed (tbl : Table) {s : State} (hm : s.mode = .preComposition) : Flushed tbl s (flushedLevel tbl s) := by
  unfold flushedLevel
  cases hv : valueOf tbl s.pre with
  | some v => exact .inl ⟨hm, v.1, v.2, (valueOf_iff _ _ _).mp hv, rfl⟩
  | none =>
    refine .inr (.inr ⟨.inr ?_, rfl⟩)
    rintro ⟨v, h⟩
    have : valueOf tbl s.pre = some v := (valueOf_iff _ _ _).mpr h
    rw [hv] at this; cases this

theorem deleteN_erased (s : State) (n : Nat) (hm : s.mode = .preComposition) (hkr : s.kana = s.raw) (hn : n ≤ s.raw.length) :
    Ctx.deleteN s n = { s with
      kana := (erased ⟨s.raw, s.pre, s.capital⟩ n).text, raw := (erased ⟨s.raw, s.pre, s.capital⟩ n).text, pre := (erased ⟨s.raw, s.pre, s.capital⟩ n).pending } := by
  unfold erased
  by_cases hl : s.pre.length ≤ n
  · rw [deleteN_pending s n hm hl, deleteN_eq { s with pre := [] } _ hm rfl hkr (by show n - _ ≤ s.raw.length; omega)]
    simp only [Nat.sub_eq_zero_of_le hl, List.take_zero]
  · have key : ∀ n (s : State), s.mode = .preComposition → n < s.pre.length → Ctx.deleteN s n = { s with pre := s.pre.take (s.pre.length - n) } := by
      intro n
      induction n with
      | zero =>
        intro s _ _
        unfold Ctx.deleteN
        rw [Nat.sub_zero, List.take_length]
      | succ n ih =>
        intro s hm hl
        have hp : s.pre ≠ [] := by intro hx; rw [hx] at hl; simp at hl
        have hd : s.delete.1 = { s with pre := s.pre.dropLast } := by
          simp [State.delete, hm, hp]
        rw [Ctx.deleteN, hd, ih { s with pre := s.pre.dropLast } hm (by simp only [List.length_dropLast]; omega)]
        have : s.pre.dropLast.take (s.pre.dropLast.length - n) = s.pre.take (s.pre.length - (n + 1)) := by
          rw [List.length_dropLast, List.dropLast_eq_take, List.take_take]
          congr 1; omega
        simp only [this]
    rw [key n s hm (by omega), show n - s.pre.length = 0 by omega, Nat.sub_zero, List.take_length]
    cases s; simp_all

/-- A reading which ends with a keyword, with any keys pending. -/
theorem autoStart_erased (e : Env) (c1 : Ctx) (tbl : Table) (hk : c1.kanaConv = ofTable tbl) (hm1 : c1.top.mode = .preComposition)
    (ho : c1.top.okuri = []) (hh : c1.top.history.length ≤ 20) (stem kw : Str)
    (hkana : c1.top.kana = stem ++ kw) (hraw : c1.top.raw = stem ++ kw) (hstem : stem ≠ [])
    (k₁ k₂ : List Str) (hks : c1.config.keywords = k₁ ++ kw :: k₂) (hfirst : ∀ x ∈ k₁, x <:+ stem ++ kw → x = stem ++ kw)
    (d : Draft) (hd : d = erased ⟨stem ++ kw, c1.top.pre, c1.top.capital⟩ kw.length)
    (r : State) (hrs : r = flushedLevel tbl { c1.top with pre := d.pending, kana := d.text, raw := d.text, okuri := kw, useOkuri := false })
    (cs : List Candidate) (hx : Dicts.getAll c1.dicts ⟨r.raw, none⟩ = .ok cs) :
    c1.autoStartHenkan e = .ok (converted c1 r cs) := by
  have hwne : d.text ≠ [] := by
    rw [hd]
    intro hx
    have := congrArg List.length hx
    have h1 : 0 < stem.length := List.length_pos_iff.mpr hstem
    simp only [erased, List.length_take, List.length_append, List.length_nil] at this
    omega
  have hkey : c1.top.compositeKey.toComposite = stem ++ kw := by
    simp [State.compositeKey, ho, hraw]
  have hfind : (c1.config.keywords.find? fun suffix => !decide (stem ++ kw = suffix) &&
      Ctx.endsWith (stem ++ kw) suffix) = some kw := by
    rw [List.find?_eq_some_iff_append]
    refine ⟨?_, k₁, k₂, hks, ?_⟩
    · simp [Ctx.endsWith, hstem]
    · intro x hx
      cases hd : Ctx.endsWith (stem ++ kw) x with
      | false => simp
      | true =>
        have := hfirst x hx (List.isSuffixOf_iff_suffix.mp hd)
        simp [this]
  generalize hr0 : ({ c1.top with pre := d.pending, kana := d.text, raw := d.text, okuri := kw, useOkuri := false } : State) = r0 at hrs
  have htop : (c1.mapTop fun s => (Ctx.deleteN s kw.length).setPostfix kw) = { c1 with top := r0 } := by
    unfold Ctx.mapTop
    simp only
    rw [deleteN_erased _ _ hm1 (by rw [hkana, hraw]) (by rw [hraw, List.length_append]; omega), hraw, ← hd, ← hr0]
    rfl
  unfold Ctx.autoStartHenkan
  simp only [hkey, hm1, ne_eq, not_true_eq_false, if_false, hfind, htop]
  have hm0 : r0.mode = .preComposition := by rw [← hr0]; exact hm1
  have hflush : Flushed tbl r0 r := by rw [hrs]; exact flushedLevel_flushed tbl hm0
  have hf : r.mode = r0.mode ∧ r.useOkuri = r0.useOkuri ∧ r.history = r0.history ∧ (r.kana = [] → r0.kana = []) := by
    rw [hrs]
    unfold flushedLevel
    cases valueOf tbl r0.pre with
    | some v => exact ⟨rfl, rfl, rfl, fun h => (List.append_eq_nil_iff.mp h).1⟩
    | none => exact ⟨rfl, rfl, rfl, id⟩
  have hmr : r.mode = .preComposition := hf.1.trans hm0
  have hout : ∀ im, Ctx.outputConverted e { c1 with top := r0 } im .preComposition = { c1 with top := r } := by
    intro im
    have := outputConverted_eq e { c1 with top := r0 } tbl hk r hflush im
    rwa [show ({ c1 with top := r0 } : Ctx).top.mode = .preComposition from hm0] at this
  have hlk : lookupKey r = ⟨r.raw, none⟩ := by
    unfold lookupKey
    rw [hf.2.1, ← hr0]; simp
  have hre : r.kana.isEmpty = false := by
    rw [← Bool.not_eq_true, List.isEmpty_iff]
    intro hx
    have := hf.2.2.2 hx
    rw [← hr0] at this
    exact hwne this
  have hhr : r.history.length ≤ 20 := by rw [hf.2.2.1, ← hr0]; exact hh
  simp only [Ctx.tryNextCandidate, ne_eq, reduceCtorEq, not_false_eq_true, if_true, hout, Ctx.updateCandidateList,
    compositeKey_eq, hlk, hx, Bind.bind, Except.bind, pure, Except.pure, Ctx.mapTop, setCandidates_eq]
  have hkana : ∀ cs, (withCandidates r cs).kana.isEmpty = false := fun _ => hre
  cases cs with
  | nil =>
    have hl' : (withCandidates r []).cands.cands.isEmpty = true := rfl
    simp only [hkana, hl', Bool.not_false, Bool.and_self, if_true]
    rw [enterRegister_eq]
    · simp only [converted, ne_eq, not_true_eq_false, if_false, hmr]
      rfl
    · exact hhr
  | cons x xs =>
    have hl' : (withCandidates r (x :: xs)).cands.cands.isEmpty = false := rfl
    simp only [hl', Bool.and_false, Bool.false_eq_true, if_false, Bool.not_false, if_true, Ctx.setCompositionMode,
      State.changeMode, Ctx.mapTop]
    rw [changeModeFrom_eq]
    · rfl
    · exact hhr

/-- A reading to which something was typed. -/
theorem auto_goes {pr : Bool} {S : Setup} {c : Ctx} {D D' : Desk} {d : Draft} (h : Rel pr S c { D with phase := .reading d })
    (hs : D.read S d = some D') : ∃ c', c.autoStartHenkan (Assets.env ⟨pr⟩) = .ok c' ∧ Rel pr S c' D' := by
  have hl : ReadingAt c.top D.mode d := h.level
  have hb := h.base
  unfold Desk.read at hs
  cases hfd : S.config.keywords.find? fun kw => !decide (d.text = kw) && kw.isSuffixOf d.text with
  | none =>
    rw [hfd] at hs
    injection hs with hs; subst hs
    rw [List.find?_eq_none] at hfd
    refine ⟨c, autoStart_quiet _ c hl.mode hl.okuri ?_, h⟩
    rw [hl.raw]
    intro kw hkw hsuf
    rw [← h.runs.config] at hkw
    have := hfd kw hkw
    rw [List.isSuffixOf_iff_suffix.mpr hsuf] at this
    simp only [Bool.and_true, Bool.not_eq_true', decide_eq_false_iff_not, Classical.not_not] at this
    exact this.symm
  | some kw =>
    rw [hfd] at hs
    dsimp only at hs
    unfold Desk.seek at hs
    · rw [List.find?_eq_some_iff_append] at hfd
      obtain ⟨hkw, k₁, k₂, hks, hfirst⟩ := hfd
      rw [Bool.and_eq_true, Bool.not_eq_true', decide_eq_false_iff_not] at hkw
      obtain ⟨hne, hsuf⟩ := hkw
      obtain ⟨stem, hstem⟩ := List.isSuffixOf_iff_suffix.mp hsuf
      obtain ⟨cs, hcs⟩ := convert_looked hs
      have hsne : stem ≠ [] := by
        intro hx
        rw [hx] at hstem
        exact hne hstem.symm
      generalize hde : erased d kw.length = d' at *
      have hd' : d' = erased ⟨stem ++ kw, c.top.pre, c.top.capital⟩ kw.length := by rw [← hde, hstem, hl.pre, hl.capital]
      generalize hr : flushedLevel S.layout.tbl { c.top with pre := d'.pending, kana := d'.text, raw := d'.text, okuri := kw, useOkuri := false } = r
      have hsh : c.top.capital = d'.shift := by rw [hd']; rfl
      have hh : Holds r ⟨d'.reading S.layout.tbl, kw, false, shiftLeft S.layout.tbl d', false, d'.left S.layout.tbl⟩ := by
        rw [← hr]
        unfold flushedLevel Draft.reading Draft.left shiftLeft flushed
        dsimp only
        cases valueOf S.layout.tbl d'.pending with
        | some v => exact ⟨rfl, by simp, by simp [rendered], by simp [rendered], rfl, fun _ => rfl⟩
        | none => exact ⟨rfl, by simp [hsh], by simp [rendered], by simp [rendered], rfl, fun _ => rfl⟩
      have hf : r.confirmed = c.top.confirmed ∧ r.inputMode = c.top.inputMode ∧ r.defaultMode = c.top.defaultMode ∧ r.history = c.top.history ∧ r.mode = c.top.mode := by
        rw [← hr]
        unfold flushedLevel
        dsimp only
        split <;> exact ⟨rfl, rfl, rfl, rfl, rfl⟩
      have hcs' : Dicts.getAll c.dicts ⟨r.raw, none⟩ = .ok cs := by
        rw [h.dicts, hh.raw]
        simpa [Asked.key] using hcs
      refine ⟨_, autoStart_erased _ c S.layout.tbl h.runs.table hl.mode hl.okuri hb.history stem kw
        (by rw [hl.kana, hstem]) (by rw [hl.raw, hstem]) hsne k₁ k₂ (by rw [← h.runs.config]; exact hks)
        (by
          intro x hx hsx
          have := hfirst x hx
          rw [Bool.not_eq_true', hstem.symm, List.isSuffixOf_iff_suffix.mpr hsx] at this
          simp only [Bool.and_true, Bool.not_eq_false', decide_eq_true_eq] at this
          exact this.symm) d' hd' r hr.symm cs hcs', ?_⟩
      refine rel_converted (D := D) ⟨h.runs, h.dicts, h.below⟩ (a := ⟨d'.reading S.layout.tbl, kw, false, shiftLeft S.layout.tbl d', false, d'.left S.layout.tbl⟩)
        ⟨hf.1.trans hb.written, hf.2.1.trans hb.mode, by rw [hf.2.2.2.1]; exact hb.trail, hf.2.2.1.trans hb.default, by rw [hf.2.2.2.1]; exact hb.history⟩ hl.kanaMode
        hh (hf.2.2.2.2.trans hl.mode) nofun (by rw [h.dicts]; exact hcs) hs

end Cskk.Props.Machine
