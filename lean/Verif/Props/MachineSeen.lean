import Verif.Spec.MachineSeen
import Verif.Props.MachineAnswers

/-!
# C75, C32: all which can be seen

`all_seen`: at any time in a session the details of every level, the reading to be converted, and the announcement of every key event are the machine's.
`unannounced`, `empty_promises`: the keys of which the announcement and the machine's answer differ.
-/

namespace Cskk.Props.Machine

open Spec Spec.Typing Spec.Teach Spec.Document Spec.ModeKeys Spec.Editing Spec.Machine
open Romaji KanaBuilder Navigate Convert Typing Words ShippedTyping
open Cskk.Props.Document (Uses azikLayout defaultLayout)

section
variable {pr : Bool} {c : Ctx} {Z Z' : Seat} {S : Setup} {D : Desk}

theorem unconverted_part (s : State) : s.unconverted (Assets.env ⟨pr⟩) = if s.pre = [] then none else some (names pr s.pre) := by
  unfold State.unconverted names
  cases s.pre <;> simp

theorem okuri_part (w : Str) (m : InputMode) :
    (if w.isEmpty then none else some ((Assets.env ⟨pr⟩).kanaForm.adjust m w)) = (part w).map ((Assets.env ⟨pr⟩).kanaForm.adjust m) := by
  unfold part
  cases w <;> simp

theorem level_detail {s : State} {w : Str} {m : InputMode} {p : Phase} (hf : S.form = (Assets.env ⟨pr⟩).kanaForm.adjust) {t : List CompositionMode}
    (hb : Base s w m t) (hl : Level s m p) : s.preeditDetail (Assets.env ⟨pr⟩) s.inputMode = p.detail S (names pr) w m := by
  unfold State.preeditDetail Phase.detail
  rw [hb.mode, hf]
  cases p with
  | direct u b =>
    have hl : DirectAt s u b := hl
    simp only [hl.mode, unconverted_part, hb.written, hl.pre]
  | reading d =>
    have hl : ReadingAt s m d := hl
    simp only [hl.mode, unconverted_part, hb.written, hl.pre, hl.kana, hl.okuri]
    rfl
  | okuri stem tail u b =>
    have hl : OkuriAt s m stem tail u b := hl
    simp only [hl.mode, unconverted_part, hb.written, hl.pre, hl.kana, hl.okuri, okuri_part]
  | choosing a words i =>
    have hl : ChoosingAt s m a words i := hl
    have : s.cands.current = words[i]? := by unfold CandidateList.current; rw [hl.cands]
    simp only [hl.mode, hb.written, hl.holds.okuri, okuri_part, this]
  | short text u sh =>
    have hl : ShortAt s m text u sh := hl
    simp only [hl.mode, unconverted_part, hb.written, hl.pre, hl.kana, hl.okuri]
    rfl
  | completing text u sh words i =>
    have hl : CompletingAt s m text u sh words i := hl
    have : s.cands.current = words[i]? := by unfold CandidateList.current; rw [hl.list, hl.position]
    simp only [hl.mode, hb.written, hl.okuri, hl.kana, this]
    rfl

theorem waiter_detail {s : State} {W : Waiter} (hf : S.form = (Assets.env ⟨pr⟩).kanaForm.adjust) (h : Waits s W) :
    s.preeditDetail (Assets.env ⟨pr⟩) s.inputMode = W.detail S := by
  unfold State.preeditDetail Waiter.detail
  rw [h.base.mode, hf]
  simp only [h.mode, h.base.written, h.holds.kana, h.holds.okuri, okuri_part]
  by_cases ht : W.asked.tail = []
  · simp [part, ht]
  · rw [h.holds.use ht]

theorem waiting_detail (hf : S.form = (Assets.env ⟨pr⟩).kanaForm.adjust) (l : List State) (r : List Waiter) (h : AllWait l r) :
    (l.map fun s => s.preeditDetail (Assets.env ⟨pr⟩) s.inputMode) = r.map fun W => W.detail S := by
  induction l generalizing r with
  | nil => cases r with
    | nil => rfl
    | cons _ _ => exact h.elim
  | cons s l ih => cases r with
    | nil => exact h.elim
    | cons W r => simp only [List.map_cons, ih r h.2, waiter_detail hf h.1]

/-- The details. -/
theorem detail_seen (h : Rel pr S c D) : c.preeditDetail (Assets.env ⟨pr⟩) = D.detail S (names pr) := by
  unfold Ctx.preeditDetail Ctx.states Desk.detail
  rw [List.map_append, List.map_reverse, waiting_detail h.runs.form _ _ h.below, ← List.map_reverse]
  simp only [List.map_cons, List.map_nil, level_detail h.runs.form h.base h.level]

/-- The reading. -/
theorem reading_seen (h : Rel pr S c D) : c.top.compositeKey.toComposite = D.phase.reads := by
  have hl := h.level
  have hr : c.top.compositeKey.toComposite = c.top.raw := by unfold State.compositeKey; split <;> rfl
  rw [hr]
  unfold Phase.reads
  cases hp : D.phase with
  | direct u b => rw [hp] at hl; exact (show DirectAt c.top u b from hl).raw
  | reading d => rw [hp] at hl; exact (show ReadingAt c.top D.mode d from hl).raw
  | okuri stem tail u b => rw [hp] at hl; exact (show OkuriAt c.top D.mode stem tail u b from hl).raw
  | choosing a words i => rw [hp] at hl; exact (show ChoosingAt c.top D.mode a words i from hl).holds.raw
  | short text u sh => rw [hp] at hl; exact (show ShortAt c.top D.mode text u sh from hl).raw
  | completing text u sh words i => rw [hp] at hl; exact (show CompletingAt c.top D.mode text u sh words i from hl).raw

theorem matching_folded (ev : KeyEvent) : CommandRule.matchingKey ev = folded ev := by
  unfold CommandRule.matchingKey folded
  by_cases hu : 0x41 ≤ ev.symbol ∧ ev.symbol ≤ 0x5a
  · rw [if_pos hu, if_pos ((isUpper_iff ev).mpr hu)]
    rfl
  · rw [if_neg hu, if_neg (fun hn => hu ((isUpper_iff ev).mp hn))]

/-- The command keys of the shipped rules, written out. -/
def named (azik : Bool) (m : InputMode) : CompositionMode → List Machine.Key
  | .direct =>
    [.back, .enter, .ctrlG, .ctrlJ, .ctrl 'h', .ctrl 'H', .ctrl 'm'] ++
      if kanaMode m then (if azik then [.char 'l', .char 'L', .char '@', .char '{', .char '/'] else [.char 'l', .char 'L', .char 'q', .char 'Q', .char '/']) ++
        [.ctrl 'G', .ctrl (if azik then '@' else 'q')] else []
  | .preComposition =>
    [.back, .ctrlG, .ctrlJ, .ctrl 'h', .ctrl (if azik then '@' else 'q')] ++ (if azik then [.char ' ', .char '@'] else [.char ' ', .char 'q', .char 'Q']) ++
      if azik then [] else [.tab]
  | .preCompositionOkurigana =>
    [.back, .ctrlG, .ctrlJ, .ctrl 'h', .ctrl (if azik then '@' else 'q')] ++ if azik then [.char ' ', .char '@'] else [.char ' ', .char 'q', .char 'Q']
  | .abbreviation => [.back, .ctrlJ, .ctrl 'h', .ctrl 'q', .char ' '] ++ if azik then [] else [.tab]
  | .compositionSelection =>
    [.back, .enter, .escape, .ctrlG, .ctrlJ, .ctrl 'h', .ctrl (if azik then '@' else 'q'), .char (if azik then '@' else 'q'), .char ' ', .char 'X'] ++
      if !azik || decide (m = .hiragana) then [.char 'x'] else []
  | .completion => [.back, .enter, .escape, .tab, .shiftTab, .ctrlG, .ctrlJ, .char '.', .char ',']
  | .register => []

theorem commands_written (azik : Bool) (g : Config) (p : Phase) (m : InputMode) : p.commands (shipped pr azik g) m = named azik m p.doing := by
  cases azik <;> cases m <;> cases p <;> rfl

/-- The command keys of the shipped rules. -/
theorem commands_named (azik : Bool) (cm : CompositionMode) (m : InputMode) (hk : cm = .direct ∨ kanaMode m = true) (hr : cm ≠ .register) :
    (∀ b ∈ commandsOf azik cm m, b.1 ∈ (named azik m cm).map Key.event) ∧
    (∀ k ∈ named azik m cm, k.event ∈ (commandsOf azik cm m).map (·.1)) := by
  revert hk hr
  cases azik <;> cases m <;> cases cm <;> decide +kernel

theorem command_announced (azik : Bool) (g : Config) (p : Phase) (m : InputMode) (hk : p.doing = .direct ∨ kanaMode m = true) (ev : KeyEvent) :
    ((commandsOf azik p.doing m).find? fun e => decide (e.1 = CommandRule.matchingKey ev)).isSome =
    (p.commands (shipped pr azik g) m).any fun k => decide (k.event = folded ev) := by
  obtain ⟨h1, h2⟩ := commands_named azik p.doing m hk (doing_ne p)
  rw [commands_written]
  rw [matching_folded, Bool.eq_iff_iff, List.find?_isSome, List.any_eq_true]
  constructor
  · rintro ⟨b, hb, hx⟩
    obtain ⟨k, hk1, hk2⟩ := List.mem_map.mp (h1 b hb)
    exact ⟨k, hk1, by rw [hk2]; exact hx⟩
  · rintro ⟨k, hk1, hx⟩
    obtain ⟨b, hb1, hb2⟩ := List.mem_map.mp (h2 k hk1)
    exact ⟨b, hb1, by rw [hb2]; exact hx⟩

/-- The announcements. -/
theorem announced (h : At pr c Z) (ev : KeyEvent) :
    c.willProcess (Assets.env ⟨pr⟩) ev = .ok (Z.desk.announces (shipped pr Z.azik Z.config) ev) := by
  have hm := level_mode h.rel.level
  have hk := level_kana h.rel.level
  unfold Ctx.willProcess CommandRule.getInstruction
  rw [if_neg (by rw [hm]; exact doing_ne _), hm, h.rel.base.mode, h.cmds]
  simp only [bind, Except.bind, pure, Except.pure, Option.isSome_map, command_announced (pr := pr) Z.azik Z.config _ _ hk]
  congr 1
  unfold Desk.announces
  congr 1
  unfold Desk.types
  have htbl := h.rel.runs.table
  rw [htbl, continue_eq, continue_eq]
  have hmod : ev.isModifierlessInput = decide (ev.modifiers &&& ~~~1#32 = 0) := rfl
  rw [hmod]
  congr 1
  have hasc : ev.isAsciiInputtable = decide (0x20 ≤ ev.symbol ∧ ev.symbol ≤ 0x7e) := by
    unfold KeyEvent.isAsciiInputtable KEY_space KEY_asciitilde; simp
  rw [hasc]
  have hl := h.rel.level
  unfold Desk.typed
  cases hp : Z.desk.phase with
  | direct u b =>
    rw [hp] at hl
    rw [(show DirectAt c.top u b from hl).pre]
    cases Z.desk.mode <;> simp [hasRom2kanaConversion, Phase.doing, kanaMode]
  | reading d =>
    rw [hp] at hl
    have hl : ReadingAt c.top Z.desk.mode d := hl
    rw [hl.pre]
    have := hl.kanaMode
    revert this
    cases Z.desk.mode <;> simp [hasRom2kanaConversion, Phase.doing, kanaMode]
  | okuri stem tail u b =>
    rw [hp] at hl
    have hl : OkuriAt c.top Z.desk.mode stem tail u b := hl
    rw [hl.pre]
    have := hl.kanaMode
    revert this
    cases Z.desk.mode <;> simp [hasRom2kanaConversion, Phase.doing, kanaMode]
  | choosing a words i => cases Z.desk.mode <;> simp [hasRom2kanaConversion, Phase.doing, kanaMode]
  | short text u sh => cases Z.desk.mode <;> simp [hasRom2kanaConversion, Phase.doing, kanaMode]
  | completing text u sh words i => cases Z.desk.mode <;> simp [hasRom2kanaConversion, Phase.doing, kanaMode]

/-- A key which is held with other modifiers, or is no character, is only announced if it is a command. -/
theorem announced_command (h : At pr c Z) {ev : KeyEvent} (hx : HasOtherModifier ev ∨ (¬ Printable ev ∧ (ev.symbol < 0x100 ∨ 0xff00 ≤ ev.symbol))) :
    Z.desk.announces (shipped pr Z.azik Z.config) ev = (named Z.azik Z.desk.mode Z.desk.phase.doing).any fun k => decide (k.event = folded ev) := by
  unfold Desk.announces
  rw [commands_written]
  suffices hs : Z.desk.types (shipped pr Z.azik Z.config) ev = false by rw [hs, Bool.or_false]
  unfold Desk.types
  rw [Bool.and_eq_false_iff]
  by_cases hmod : HasOtherModifier ev
  · left
    rw [show decide (ev.modifiers &&& ~~~1#32 = 0) = ev.isModifierlessInput from rfl, ← Bool.not_eq_true, modifierless_iff]
    exact fun hn => hn hmod
  · right
    obtain ⟨hpr, hr⟩ := hx.resolve_left hmod
    have hA := table_ascii h.rel hr
    cases hty : Z.desk.typed with
    | none => exact decide_eq_false hpr
    | some u =>
      have hb : ∀ u, begins (shipped pr Z.azik Z.config).layout.tbl (u ++ [ev.symbol]) = false := by
        intro u
        rw [← continue_eq, ← h.rel.runs.table, ← Bool.not_eq_true]
        exact fun hn => hpr (hA u hn)
      simp only [hb u, show begins _ [ev.symbol] = false from hb [], Bool.or_self]

theorem event_ctrl (ch : Char) : HasOtherModifier (Key.ctrl ch).event := ⟨2, by decide, by show (4#32).getLsbD 2 = true; decide⟩

theorem folded_ctrl (ch : Char) : folded (Key.ctrl ch).event = (Key.ctrl ch).event := by
  show folded ⟨ch.toNat, 4⟩ = ⟨ch.toNat, 4⟩
  unfold folded
  split
  · show (⟨ch.toNat, 4#32 &&& ~~~1#32⟩ : KeyEvent) = _
    rw [show 4#32 &&& ~~~1#32 = 4#32 from by decide]
    rfl
  · rfl

/-- The character which is typed with Ctrl. -/
def ctrlChar : Machine.Key → Option Char
  | .ctrl x => some x
  | .ctrlG => some 'g'
  | .ctrlJ => some 'j'
  | _ => none

theorem ctrlChar_iff (k : Machine.Key) (ch : Char) (hk : ∀ ev, k ≠ .other ev) : k.event = (Key.ctrl ch).event ↔ ctrlChar k = some ch := by
  have hne : ∀ x : Char, (Key.ctrl x).event = (Key.ctrl ch).event ↔ some x = some ch := by
    intro x
    constructor
    · intro hx; rw [Char.toNat_inj.mp (congrArg KeyEvent.symbol hx)]
    · intro hx; injection hx with hx; rw [hx]
  have h0 : ∀ ev : KeyEvent, ev.modifiers ≠ 4 → (ev = (Key.ctrl ch).event ↔ none = some ch) := by
    intro ev hk
    exact ⟨fun hx => absurd (congrArg KeyEvent.modifiers hx) hk, fun hx => by cases hx⟩
  cases k with
  | ctrl x => exact hne x
  | ctrlG => exact hne 'g'
  | ctrlJ => exact hne 'j'
  | other ev => exact absurd rfl (hk ev)
  | char x => exact h0 _ (by show ¬ (0#32 = 4#32); decide)
  | shifted x => exact h0 _ (by show ¬ (1#32 = 4#32); decide)
  | _ => exact h0 _ (by decide)

/-- The keys with Ctrl which are commands. -/
theorem ctrl_announced (h : At pr c Z) (ch : Char) :
    Z.desk.announces (shipped pr Z.azik Z.config) (Key.ctrl ch).event = ((named Z.azik Z.desk.mode Z.desk.phase.doing).filterMap ctrlChar).contains ch := by
  rw [announced_command h (.inl (event_ctrl ch)), folded_ctrl, Bool.eq_iff_iff, List.any_eq_true, List.contains_iff_mem, List.mem_filterMap]
  have ho : ∀ k ∈ named Z.azik Z.desk.mode Z.desk.phase.doing, ∀ ev, k ≠ .other ev := by
    have : ∀ k ∈ named Z.azik Z.desk.mode Z.desk.phase.doing, (match k with | .other _ => false | _ => true) = true := by
      generalize Z.desk.phase.doing = cm
      generalize Z.desk.mode = m
      generalize Z.azik = azik
      cases azik <;> cases m <;> cases cm <;> decide +kernel
    rintro k hk ev rfl
    exact absurd (this _ hk) (by simp)
  exact ⟨fun ⟨k, h1, h2⟩ => ⟨k, h1, (ctrlChar_iff k ch (ho k h1)).mp (of_decide_eq_true h2)⟩,
    fun ⟨k, h1, h2⟩ => ⟨k, h1, decide_eq_true ((ctrlChar_iff k ch (ho k h1)).mpr h2)⟩⟩

theorem high_printable {ev : KeyEvent} (hn : 0xff00 ≤ ev.symbol) : ¬ Printable ev := by
  intro hx
  exact absurd (Nat.le_trans hn hx.2) (by decide)

/-- The other keys which are commands. -/
theorem named_announced (h : At pr c Z) (k : Machine.Key) (hk : k ∈ [Key.back, Key.enter, Key.tab, Key.escape, Key.shiftTab]) :
    Z.desk.announces (shipped pr Z.azik Z.config) k.event = (named Z.azik Z.desk.mode Z.desk.phase.doing).contains k := by
  have hs : 0xff00 ≤ k.event.symbol := by revert k; decide
  rw [announced_command h (.inr ⟨high_printable hs, .inr hs⟩)]
  have hr := doing_ne Z.desk.phase
  generalize Z.desk.phase.doing = cm at hr ⊢
  generalize Z.desk.mode = m
  generalize Z.azik = azik
  revert k
  cases azik <;> cases m <;> cases cm <;> decide +kernel

theorem useless_announced (h : At pr c Z) {ev : KeyEvent} (hu : useless ev = true) : Z.desk.announces (shipped pr Z.azik Z.config) ev = false := by
  have hn := useless_noCommand h.rel hu
  rw [announced_command h (useless_plain hu), ← commands_written (pr := pr) Z.azik Z.config, ← command_announced Z.azik Z.config _ _ (level_kana h.rel.level),
    ← level_mode h.rel.level, ← h.rel.base.mode, ← h.cmds]
  rw [← Bool.not_eq_true, List.find?_isSome]
  rintro ⟨k, hk, hx⟩
  exact hn k hk ((matchingKey_iff _ _).mp (of_decide_eq_true hx))

theorem ctrl_named (azik : Bool) (m : InputMode) (cm : CompositionMode) (hr : cm ≠ .register) :
    ((named azik m cm).filterMap ctrlChar).contains 'g' = !decide (cm = .abbreviation) ∧
    ((named azik m cm).filterMap ctrlChar).contains 'j' = true ∧
    ((named azik m cm).filterMap ctrlChar).contains 'h' = !decide (cm = .completion) ∧
    (named azik m cm).contains .back = true ∧
    (named azik m cm).contains .enter = decide (cm = .direct ∨ cm = .compositionSelection ∨ cm = .completion) ∧
    (named azik m cm).contains .tab = decide (cm = .completion ∨ (azik = false ∧ (cm = .preComposition ∨ cm = .abbreviation))) ∧
    (named azik m cm).contains .escape = decide (cm = .compositionSelection ∨ cm = .completion) ∧
    (named azik m cm).contains .shiftTab = decide (cm = .completion) := by
  revert hr
  cases azik <;> cases m <;> cases cm <;> decide +kernel

/-- The answer of the simple keys. -/
theorem plain_taken (h : At pr c Z) {k : Machine.Key} {D' : Desk} {b : Bool} (hc : k.character = false)
    (hs : Z.desk.plain (shipped pr Z.azik Z.config) k = some (D', b)) :
    b = (Z.desk.announces (shipped pr Z.azik Z.config) k.event && !Z.desk.idle (shipped pr Z.azik Z.config) k) := by
  obtain ⟨n1, n2, n3, n4, n5, n6, n7, n8⟩ := ctrl_named Z.azik Z.desk.mode Z.desk.phase.doing (doing_ne _)
  have hG : Z.desk.announces (shipped pr Z.azik Z.config) Key.ctrlG.event = !decide (Z.desk.phase.doing = .abbreviation) := (ctrl_announced h 'g').trans n1
  have hJ : Z.desk.announces (shipped pr Z.azik Z.config) Key.ctrlJ.event = true := (ctrl_announced h 'j').trans n2
  have hB := (named_announced h .back (by simp)).trans n4
  have hE := (named_announced h .enter (by simp)).trans n5
  have hT := (named_announced h .tab (by simp)).trans n6
  have hcomp : (shipped pr Z.azik Z.config).completes = !Z.azik := rfl
  unfold Desk.idle
  unfold Desk.plain at hs
  cases k with
  | back =>
    rw [hB]
    cases hp : Z.desk.phase with
    | direct u sh =>
      rw [hp] at hs
      simp only [Option.some.injEq, Prod.mk.injEq] at hs
      rw [← hs.2]
      cases Z.desk.written <;> cases u <;> simp
    | choosing a words i =>
      rw [hp] at hs
      simp only [Option.map_eq_some_iff, Prod.mk.injEq] at hs
      obtain ⟨x, h1, h2, h3⟩ := hs
      rw [← h3]
      dsimp only
      rw [h1]
      simp
    | completing text u sh words i =>
      rw [hp] at hs
      simp only [Option.map_eq_some_iff, Prod.mk.injEq] at hs
      obtain ⟨x, h1, h2, h3⟩ := hs
      rw [← h3]
      dsimp only
      rw [h1]
      simp
    | okuri stem tail u sh =>
      rw [hp] at hs
      dsimp only at hs
      split at hs
      · cases hs
      · split at hs <;> (simp only [Option.some.injEq, Prod.mk.injEq] at hs; rw [← hs.2]; rfl)
    | reading d => rw [hp] at hs; simp only [Option.some.injEq, Prod.mk.injEq] at hs; rw [← hs.2]; rfl
    | short text u sh => rw [hp] at hs; simp only [Option.some.injEq, Prod.mk.injEq] at hs; rw [← hs.2]; rfl
  | enter =>
    rw [hE]
    cases hp : Z.desk.phase with
    | direct u sh =>
      rw [hp] at hs
      dsimp only at hs
      by_cases hw : Z.desk.waiting = []
      · rw [if_pos hw] at hs
        simp only [Option.some.injEq, Prod.mk.injEq] at hs
        rw [← hs.2]
        simp [hw]
      · rw [if_neg hw] at hs
        have hb : b = true := by
          split at hs <;> (rw [Option.map_eq_some_iff] at hs; obtain ⟨x, h1, h2⟩ := hs; injection h2 with h2 h3; exact h3.symm)
        rw [hb]
        simp [hw, Phase.doing]
    | choosing a words i =>
      rw [hp] at hs
      simp only [Option.map_eq_some_iff, Prod.mk.injEq] at hs
      obtain ⟨x, h1, h2, h3⟩ := hs
      rw [← h3]
      simp [Phase.doing]
    | completing text u sh words i =>
      rw [hp] at hs
      simp only [Option.map_eq_some_iff, Prod.mk.injEq] at hs
      obtain ⟨x, h1, h2, h3⟩ := hs
      rw [← h3]
      simp [Phase.doing]
    | okuri stem tail u sh => rw [hp] at hs; simp only [Option.some.injEq, Prod.mk.injEq] at hs; rw [← hs.2]; rfl
    | reading d => rw [hp] at hs; simp only [Option.some.injEq, Prod.mk.injEq] at hs; rw [← hs.2]; rfl
    | short text u sh => rw [hp] at hs; simp only [Option.some.injEq, Prod.mk.injEq] at hs; rw [← hs.2]; rfl
  | ctrlJ =>
    rw [hJ]
    have hb : b = true := by
      cases hp : Z.desk.phase <;> rw [hp] at hs <;> dsimp only at hs <;>
        first
        | (injection hs with hs; injection hs with _ hs; exact hs.symm)
        | (rw [Option.map_eq_some_iff] at hs; obtain ⟨x, h1, h2⟩ := hs; injection h2 with h2 h3; exact h3.symm)
    rw [hb]
    cases hp : Z.desk.phase <;> simp
  | ctrlG =>
    rw [hG]
    cases hp : Z.desk.phase with
    | short text u sh => rw [hp] at hs; simp only [Option.some.injEq, Prod.mk.injEq] at hs; rw [← hs.2]; rfl
    | _ =>
      have hb : b = true := by
        rw [hp] at hs; dsimp only at hs
        first
        | (injection hs with hs; injection hs with _ hs; exact hs.symm)
        | (rw [Option.map_eq_some_iff] at hs; obtain ⟨x, h1, h2⟩ := hs; injection h2 with h2 h3; exact h3.symm)
      rw [hb]
      simp [Phase.doing]
  | tab =>
    rw [hT]
    cases hp : Z.desk.phase with
    | reading d =>
      rw [hp, hcomp] at hs
      dsimp only at hs
      cases hz : Z.azik with
      | true => rw [hz] at hs; simp only [Bool.not_true, Bool.not_false, if_true, Option.some.injEq, Prod.mk.injEq] at hs; rw [← hs.2]; simp [Phase.doing]
      | false =>
        rw [hz] at hs
        rw [if_neg (by simp)] at hs
        rw [Option.map_eq_some_iff] at hs; obtain ⟨x, h1, h2⟩ := hs; injection h2 with h2 h3; rw [← h3]; simp [Phase.doing]
    | short text u sh =>
      rw [hp, hcomp] at hs
      dsimp only at hs
      cases hz : Z.azik with
      | true => rw [hz, if_neg (by simp)] at hs; simp only [Option.some.injEq, Prod.mk.injEq] at hs; rw [← hs.2]; simp [Phase.doing]
      | false =>
        rw [hz, if_pos (by simp)] at hs
        rw [Option.map_eq_some_iff] at hs; obtain ⟨x, h1, h2⟩ := hs; injection h2 with h2 h3; rw [← h3]; simp [Phase.doing]
    | _ =>
      rw [hp] at hs
      dsimp only at hs
      injection hs with hs; injection hs with _ hs
      rw [← hs]
      simp [Phase.doing]
  | char ch => cases hc
  | shifted ch => cases hc
  | _ => exfalso; cases hp : Z.desk.phase <;> rw [hp] at hs <;> cases hs

/-- The characters which are commands with Ctrl. -/
def controls (azik : Bool) (m : InputMode) : CompositionMode → List Char
  | .direct => ['g', 'j', 'h', 'H', 'm'] ++ if kanaMode m then ['G', if azik then '@' else 'q'] else []
  | .preComposition | .preCompositionOkurigana | .compositionSelection => ['g', 'j', 'h', if azik then '@' else 'q']
  | .abbreviation => ['j', 'h', 'q']
  | .completion => ['g', 'j']
  | .register => []

theorem controls_named (azik : Bool) (m : InputMode) (cm : CompositionMode) : (named azik m cm).filterMap ctrlChar = controls azik m cm := by
  cases azik <;> cases m <;> cases cm <;> rfl

theorem control_announced (h : At pr c Z) (ch : Char) :
    Z.desk.announces (shipped pr Z.azik Z.config) (Key.ctrl ch).event = (controls Z.azik Z.desk.mode Z.desk.phase.doing).contains ch := by
  rw [ctrl_announced h, controls_named]

/-- The answer of the keys with Ctrl. -/
theorem control_taken (h : At pr c Z) {ch : Char} {D' : Desk} {b : Bool} (hs : Z.desk.control (shipped pr Z.azik Z.config) ch = some (D', b)) :
    b = (Z.desk.announces (shipped pr Z.azik Z.config) (Key.ctrl ch).event && !Z.desk.idle (shipped pr Z.azik Z.config) (.ctrl ch)) := by
  obtain ⟨n1, n2, n3, n4, n5, n6, n7, n8⟩ := ctrl_named Z.azik Z.desk.mode Z.desk.phase.doing (doing_ne _)
  have hB := (named_announced h .back (by simp)).trans n4
  have hE := (named_announced h .enter (by simp)).trans n5
  have hto : (shipped pr Z.azik Z.config).layout.toggle = if Z.azik then '@' else 'q' := by cases Z.azik <;> rfl
  unfold Desk.control at hs
  by_cases hj : ch = 'j'
  · rw [if_pos hj] at hs
    subst hj
    have := plain_taken h (k := .ctrlJ) rfl hs
    rw [this]
    congr 2
  rw [if_neg hj] at hs
  by_cases hg : ch = 'g'
  · rw [if_pos hg] at hs
    subst hg
    have := plain_taken h (k := .ctrlG) rfl hs
    rw [this]
    congr 2
  rw [if_neg hg] at hs
  rw [control_announced h]
  cases hp : Z.desk.phase with
  | direct u sh =>
    rw [hp] at hs hE
    dsimp only at hs
    have hdo : (Phase.direct u sh).doing = .direct := rfl
    rw [hdo]
    by_cases hh : ch = 'h' ∨ ch = 'H'
    · rw [if_pos hh] at hs
      have := plain_taken h (k := .back) rfl hs
      rw [this, hB]
      unfold Desk.idle
      rw [hp]
      rcases hh with rfl | rfl <;> simp [controls]
    rw [if_neg hh] at hs
    by_cases hm : ch = 'm'
    · rw [if_pos hm] at hs
      subst hm
      have := plain_taken h (k := .enter) rfl hs
      rw [this, hE]
      unfold Desk.idle
      rw [hp]
      simp [controls, Phase.doing]
    rw [if_neg hm] at hs
    have hid : Z.desk.idle (shipped pr Z.azik Z.config) (.ctrl ch) = false := by
      unfold Desk.idle
      rw [hp]
      simp only [not_or] at hh
      simp [hm, hh.1, hh.2]
    rw [hid, Bool.not_false, Bool.and_true]
    by_cases hG : kanaMode Z.desk.mode = true ∧ ch = 'G'
    · rw [if_pos hG] at hs
      have := plain_taken h (k := .ctrlG) rfl hs
      rw [this, show Key.ctrlG.event = (Key.ctrl 'g').event from rfl, control_announced h, hp]
      unfold Desk.idle
      rw [hp]
      simp [controls, hG, hdo]
    rw [if_neg hG, hto] at hs
    by_cases ht : kanaMode Z.desk.mode = true ∧ ch = if Z.azik then '@' else 'q'
    · rw [if_pos ht] at hs
      injection hs with hs; injection hs with _ hs
      rw [← hs]
      simp [controls, ht.1, ← ht.2]
    · rw [if_neg ht] at hs
      injection hs with hs; injection hs with _ hs
      rw [← hs]
      simp only [not_or] at hh
      unfold controls
      cases hk : kanaMode Z.desk.mode with
      | false => simp [hg, hj, hm, hh.1, hh.2]
      | true =>
        simp only [hk, true_and] at hG ht
        simp [hg, hj, hm, hh.1, hh.2, hG, ht]
  | completing text u sh words i =>
    rw [hp] at hs
    dsimp only at hs
    injection hs with hs; injection hs with _ hs
    rw [← hs]
    simp [controls, Phase.doing, hg, hj]
  | choosing a words i =>
    rw [hp] at hs
    dsimp only at hs
    have hdo : (Phase.choosing a words i).doing = .compositionSelection := rfl
    rw [hdo]
    by_cases hh : ch = 'h'
    · rw [if_pos hh] at hs
      have := plain_taken h (k := .back) rfl hs
      rw [this, hB]
      unfold Desk.idle
      rw [hp, hh]
      simp [controls]
    rw [if_neg hh, hto] at hs
    have hid : Z.desk.idle (shipped pr Z.azik Z.config) (.ctrl ch) = false := by
      unfold Desk.idle
      rw [hp]
      simp [hh]
    rw [hid, Bool.not_false, Bool.and_true]
    by_cases ht : ch = if Z.azik then '@' else 'q'
    · rw [if_pos ht, Option.map_eq_some_iff] at hs
      obtain ⟨x, h1, h2⟩ := hs
      injection h2 with h2 h3
      rw [← h3]
      simp [controls, ← ht]
    · rw [if_neg ht] at hs
      injection hs with hs; injection hs with _ hs
      rw [← hs]
      simp [controls, hg, hj, hh, ht]
  | reading d =>
    rw [hp] at hs
    dsimp only at hs
    have hdo : (Phase.reading d).doing = .preComposition := rfl
    rw [hdo]
    have hid : Z.desk.idle (shipped pr Z.azik Z.config) (.ctrl ch) = false := by
      unfold Desk.idle
      rw [hp]
    rw [hid, Bool.not_false, Bool.and_true]
    by_cases hh : ch = 'h'
    · rw [if_pos hh] at hs
      have := plain_taken h (k := .back) rfl hs
      rw [this, hB]
      unfold Desk.idle
      rw [hp, hh]
      simp [controls]
    rw [if_neg hh, hto] at hs
    by_cases ht : ch = if Z.azik then '@' else 'q'
    · rw [if_pos ht] at hs
      injection hs with hs; injection hs with _ hs
      rw [← hs]
      simp [controls, ← ht]
    · rw [if_neg ht] at hs
      injection hs with hs; injection hs with _ hs
      rw [← hs]
      simp [controls, hg, hj, hh, ht]
  | okuri stem tail u sh =>
    rw [hp] at hs
    dsimp only at hs
    have hdo : (Phase.okuri stem tail u sh).doing = .preCompositionOkurigana := rfl
    rw [hdo]
    have hid : Z.desk.idle (shipped pr Z.azik Z.config) (.ctrl ch) = false := by
      unfold Desk.idle
      rw [hp]
    rw [hid, Bool.not_false, Bool.and_true]
    by_cases hh : ch = 'h'
    · rw [if_pos hh] at hs
      have := plain_taken h (k := .back) rfl hs
      rw [this, hB]
      unfold Desk.idle
      rw [hp, hh]
      simp [controls]
    rw [if_neg hh, hto] at hs
    by_cases ht : ch = if Z.azik then '@' else 'q'
    · rw [if_pos ht] at hs
      injection hs with hs; injection hs with _ hs
      rw [← hs]
      simp [controls, ← ht]
    · rw [if_neg ht] at hs
      injection hs with hs; injection hs with _ hs
      rw [← hs]
      simp [controls, hg, hj, hh, ht]
  | short text u sh =>
    rw [hp] at hs
    dsimp only at hs
    have hdo : (Phase.short text u sh).doing = .abbreviation := rfl
    rw [hdo]
    have hid : Z.desk.idle (shipped pr Z.azik Z.config) (.ctrl ch) = false := by
      unfold Desk.idle
      rw [hp]
    rw [hid, Bool.not_false, Bool.and_true]
    by_cases hh : ch = 'h'
    · rw [if_pos hh] at hs
      have := plain_taken h (k := .back) rfl hs
      rw [this, hB]
      unfold Desk.idle
      rw [hp, hh]
      simp [controls]
    rw [if_neg hh] at hs
    by_cases ht : ch = 'q'
    · rw [if_pos ht] at hs
      injection hs with hs; injection hs with _ hs
      rw [← hs]
      simp [controls, ht]
    · rw [if_neg ht] at hs
      injection hs with hs; injection hs with _ hs
      rw [← hs]
      simp [controls, hj, hh, ht]

/-- The machine's answers: a key is taken if it is a character (with or without Shift), or if it is announced and there is something to be done. -/
theorem taken_exactly (h : At pr c Z) {k : Machine.Key} {D' : Desk} {b : Bool} (hs : Z.desk.press (shipped pr Z.azik Z.config) k = some (D', b)) :
    b = (k.character || (Z.desk.announces (shipped pr Z.azik Z.config) k.event && !Z.desk.idle (shipped pr Z.azik Z.config) k)) := by
  obtain ⟨n1, n2, n3, n4, n5, n6, n7, n8⟩ := ctrl_named Z.azik Z.desk.mode Z.desk.phase.doing (doing_ne _)
  have hX := (named_announced h .escape (by simp)).trans n7
  have hY := (named_announced h .shiftTab (by simp)).trans n8
  have hchar : ∀ ch, Z.desk.plain (shipped pr Z.azik Z.config) (.char ch) = some (D', b) → b = true := by
    intro ch hs
    unfold Desk.plain at hs
    cases hp : Z.desk.phase <;> rw [hp] at hs <;> dsimp only at hs <;> split at hs <;>
      first
      | (cases hs; done)
      | (rw [Option.map_eq_some_iff] at hs; obtain ⟨x, h1, h2⟩ := hs; injection h2 with h2 h3; exact h3.symm)
  unfold Desk.press at hs
  cases k with
  | char ch => exact hchar ch hs
  | shifted ch =>
    dsimp only at hs
    split at hs
    · exact hchar ch hs
    · cases hs
  | ctrl ch =>
    dsimp only at hs
    split at hs
    · exact control_taken h hs
    · cases hs
  | other ev =>
    dsimp only at hs
    split at hs
    · rename_i hu
      injection hs with hs; injection hs with _ hs
      rw [← hs, show (Key.other ev).event = ev from rfl, useless_announced h hu]
      rfl
    · cases hs
  | escape =>
    rw [hX]
    cases hp : Z.desk.phase with
    | choosing a words i =>
      rw [hp] at hs
      have := plain_taken h (k := .ctrlG) rfl hs
      rw [this, show Key.ctrlG.event = (Key.ctrl 'g').event from rfl, control_announced h, hp]
      unfold Desk.idle
      rw [hp]
      rfl
    | completing text u sh words i =>
      rw [hp] at hs
      have := plain_taken h (k := .ctrlG) rfl hs
      rw [this, show Key.ctrlG.event = (Key.ctrl 'g').event from rfl, control_announced h, hp]
      unfold Desk.idle
      rw [hp]
      rfl
    | _ =>
      rw [hp] at hs
      injection hs with hs; injection hs with _ hs
      rw [← hs]
      rfl
  | shiftTab =>
    rw [hY]
    cases hp : Z.desk.phase <;> rw [hp] at hs <;> injection hs with hs <;> injection hs with _ hs <;> rw [← hs] <;> unfold Desk.idle <;> rw [hp] <;> simp [Phase.doing, Key.character]
  | _ => exact plain_taken h rfl hs

end

end Cskk.Props.Machine

namespace Cskk.Props.Machine

open Spec Spec.Machine

/-- **C75, the rest of what can be seen.** After every history of which the machine knows, the details of every level, the reading which is to be converted and
the announcement of every key event are the machine's. -/
theorem all_seen (pr azik : Bool) (g : Config) (m : InputMode) (ds : List CskkDict) (l : List Act) (Z : Seat) (got : List (Answer × View))
    (h : (start azik g m ds).use (shipped pr) (names pr) l = some (Z, got)) :
    ∃ c, observe (Assets.env ⟨pr⟩) (fresh azik g m ds) l = .ok (c, got) ∧
      c.preeditDetail (Assets.env ⟨pr⟩) = Z.desk.detail (shipped pr Z.azik Z.config) (names pr) ∧
      c.top.compositeKey.toComposite = Z.desk.phase.reads ∧
      ∀ ev, c.willProcess (Assets.env ⟨pr⟩) ev = .ok (Z.desk.announces (shipped pr Z.azik Z.config) ev) := by
  obtain ⟨c, h1, h2⟩ := use_goes l (fresh_at pr azik g m ds) h
  exact ⟨c, h1, detail_seen h2.rel, reading_seen h2.rel, announced h2⟩

/-- **C32.** After every history of which the machine knows, and for every key of which it knows: what is announced (`w`) and what is answered (`b`) differ exactly if a
character is not announced (then it is taken nevertheless), or if Enter, BackSpace, or a key for them is announced and there is nothing to be done (then it is handed back). -/
theorem foresight (pr azik : Bool) (g : Config) (m : InputMode) (ds : List CskkDict) (l : List Act) (Z : Seat) (got : List (Answer × View))
    (h : (start azik g m ds).use (shipped pr) (names pr) l = some (Z, got)) :
    ∃ c, observe (Assets.env ⟨pr⟩) (fresh azik g m ds) l = .ok (c, got) ∧
      ∀ k D' b, Z.desk.press (shipped pr Z.azik Z.config) k = some (D', b) →
        ∃ c' w, c.processKeyEvent (Assets.env ⟨pr⟩) k.event = .ok (c', b) ∧ c.willProcess (Assets.env ⟨pr⟩) k.event = .ok w ∧
          (w ≠ b ↔ (w = false ∧ b = true ∧ k.character = true) ∨
            (w = true ∧ b = false ∧ k.character = false ∧ Z.desk.idle (shipped pr Z.azik Z.config) k = true)) := by
  obtain ⟨c, h1, h2⟩ := use_goes l (fresh_at pr azik g m ds) h
  refine ⟨c, h1, fun k D' b hk => ?_⟩
  have hact : Z.act (shipped pr) (.key k) = some ({ Z with desk := D' }, .taken b) := by
    unfold Seat.act
    dsimp only
    rw [hk]; rfl
  obtain ⟨g0, c1, g1, g2⟩ := act_goes h2 hact
  have hans : ∃ c', c.processKeyEvent (Assets.env ⟨pr⟩) k.event = .ok (c', b) := by
    unfold answered at g0
    dsimp only at g0
    cases hp : c.processKeyEvent (Assets.env ⟨pr⟩) k.event with
    | error e => rw [hp] at g0; cases g0
    | ok r =>
      rw [hp] at g0
      injection g0 with g0
      injection g0 with g0
      exact ⟨r.1, by rw [← g0]⟩
  obtain ⟨c', hc'⟩ := hans
  refine ⟨c', _, hc', announced h2 k.event, ?_⟩
  have ht := taken_exactly h2 hk
  generalize Z.desk.announces (shipped pr Z.azik Z.config) k.event = w at *
  generalize Z.desk.idle (shipped pr Z.azik Z.config) k = i at *
  generalize k.character = ch at *
  subst ht
  cases w <;> cases i <;> cases ch <;> decide

/-! ## Sessions in which all of it occurs -/

/-- The details, the reading, and which of the keys are announced, with the default rule. -/
def toldMore (l : List Act) (ks : List Machine.Key) : Option (List StateInfo × Str × List Bool) :=
  ((start false Config.default .hiragana shelf).use (shipped true) (names true) l).map fun r =>
    (r.1.desk.detail (shipped true r.1.azik r.1.config) (names true), r.1.desk.phase.reads,
      ks.map fun k => r.1.desk.announces (shipped true r.1.azik r.1.config) k.event)

/-- The word has no okurigana in the dictionary: it is registered. The level below shows the reading and the okurigana; in the registration `k` is pending: `a` and Ctrl-g
are announced, a capital letter, a digit, Space and Tab are not. -/
theorem registration_details : toldMore (keys c%"aKaKik") [.char 'a', .ctrlG, .char 'K', .shifted 'K', .char '1', .char ' ', .tab] =
    some ([.register c%"あ" c%"か" (some c%"き") none, .direct [] (some c%"k")], [], [true, true, false, false, false, false, false]) := by decide +kernel

/-- A shown word: every character is announced; Tab is not. -/
theorem shown_details : toldMore (keys c%"Ka ") [.char 'K', .char '1', .enter, .tab] =
    some ([.compositionSelection [] c%"化" none none], c%"か", [true, true, true, false]) := by decide +kernel

/-- The hypotheses of `foresight` are met by keys of both kinds: `K` in direct input is taken and not announced, Enter is announced and not taken. -/
theorem foresight_met : toldMore [] [.char 'K', .enter, .back] = some ([.direct [] none], [], [false, true, true]) ∧
    ((start false Config.default .hiragana shelf).desk.press (shipped true false Config.default) (.char 'K')).map (·.2) = some true ∧
    ((start false Config.default .hiragana shelf).desk.press (shipped true false Config.default) .enter).map (·.2) = some false ∧
    ((start false Config.default .hiragana shelf).desk.press (shipped true false Config.default) .back).map (·.2) = some false := by
  refine ⟨by decide +kernel, by decide +kernel, by decide +kernel, by decide +kernel⟩

end Cskk.Props.Machine
