import Verif.Props.Machine
import Verif.Props.Lists

/-!
# C75: sessions

`use_refines`: whatever the application does from a new context — keys, polls, words of the list chosen by number, the input mode, the configuration, the
rule and the dictionaries changed, in any order, any number of them — as long as the machine knows what happens, the engine answers with the same, and the
same is seen: the line, the input mode, what is being done, the list of words and the cursor in it; and the dictionaries are the machine's.
-/

namespace Cskk.Props.Machine

open Spec Spec.Typing Spec.Teach Spec.Document Spec.ModeKeys Spec.Editing Spec.Machine
open Romaji KanaBuilder Navigate Convert Typing Words ShippedTyping
open Cskk.Props.Document (Uses azikLayout defaultLayout)
open Cskk.Props.TypeOn (Shown settled)
open Cskk.Props.Lists (Good TopOk)

/-- The machine for a shipped rule and a configuration. -/
def shipped (pr azik : Bool) (g : Config) : Setup :=
  ⟨if azik then azikLayout else defaultLayout, g, (Assets.env ⟨pr⟩).kanaForm.adjust, (Assets.env ⟨pr⟩).asciiForm.adjustChar,
    fun m => !azik || decide (m = .hiragana), if azik then '{' else 'Q', !azik,
    fun m => if !azik && decide (m = .katakana) then .hiragana else m⟩

/-- The commands of a shipped rule. -/
def commandsOf (azik : Bool) : CommandRule := if azik then Assets.azikCommands else Assets.defaultCommands

/-- The table of a shipped rule. -/
def kanaOf (azik : Bool) : KanaBuilder := if azik then Assets.azikKana else Assets.defaultKana

theorem runs_shipped (pr azik : Bool) (c : Ctx) (h1 : c.cmds = commandsOf azik) (h2 : c.kanaConv = kanaOf azik) :
    Runs pr c (shipped pr azik c.config) := by
  refine ⟨?_, rfl, rfl, rfl, ?_, ?_, ?_, ?_⟩
  · cases azik
    · exact .default h1 h2
    · exact .azik h1 h2
  · intro m
    cases azik
    · exact ⟨fun _ => .inl h1, fun _ => rfl⟩
    · refine ⟨fun hm => .inr (by simpa [shipped] using hm), ?_⟩
      rintro (hm | hm)
      · exact absurd (hm.symm.trans h1) commands_differ
      · simp [shipped, hm]
  · cases azik
    · exact .inl ⟨h1, rfl⟩
    · exact .inr ⟨h1, rfl⟩
  · cases azik
    · exact .inl ⟨rfl, h1, h2⟩
    · exact .inr ⟨rfl, h1⟩
  · cases azik
    · exact .inl ⟨h1, fun m => by cases m <;> rfl⟩
    · exact .inr ⟨h1, fun m => rfl⟩

/-- A new context with a shipped rule and a configuration. -/
def fresh (azik : Bool) (g : Config) (m : InputMode) (ds : List CskkDict) : Ctx :=
  { Ctx.new (commandsOf azik) (kanaOf azik) m .direct ds with config := g }

/-- The machine at the start. -/
def start (azik : Bool) (g : Config) (m : InputMode) (ds : List CskkDict) : Seat := ⟨azik, g, [], m, .direct [] false, [], ds, []⟩

/-- The call an act is. -/
def call : Act → Op
  | .key k => .key k.event
  | .poll => .poll
  | .select n => .selectAt n
  | .confirm n => .confirmAt n
  | .setMode m => .setInputMode m
  | .reset => .reset
  | .setKeywords l => .setKeywords l
  | .setPeriod p => .setPeriod p
  | .setComma p => .setComma p
  | .setRule azik => .setRule (commandsOf azik) (kanaOf azik)
  | .setDictionaries ds => .setDictionaries ds

/-- What the engine answers. -/
def answered (e : Env) (c : Ctx) : Act → R Answer
  | .key k => do
    let r ← c.processKeyEvent e k.event
    return .taken r.2
  | .poll => .ok (.text (c.pollOutput.2.getD []))
  | .select n => .ok (.taken (c.selectCandidateAt n).2)
  | .confirm n => .ok (.taken (c.confirmCandidateAt e n).2)
  | _ => .ok .nothing

/-- What is seen of the engine. -/
def seen (e : Env) (c : Ctx) : View := ⟨c.preedit e, c.top.inputMode, c.top.mode, c.candidates, c.cursorPosition⟩

/-- What the application gets and sees when the engine is used. -/
def observe (e : Env) (c : Ctx) : List Act → R (Ctx × List (Answer × View))
  | [] => .ok (c, [])
  | x :: l => do
    let ans ← answered e c x
    let c ← c.step e (call x)
    let (c', rest) ← observe e c l
    return (c', (ans, seen e c) :: rest)

/-- The engine stands for the machine with its rule and its configuration, and no list is left over. -/
structure At (pr : Bool) (c : Ctx) (Z : Seat) : Prop where
  rel : Rel pr (shipped pr Z.azik Z.config) c Z.desk
  cmds : c.cmds = commandsOf Z.azik
  kana : c.kanaConv = kanaOf Z.azik
  config : c.config = Z.config
  good : Good c

/-- The settings can be read off the machine's. -/
theorem runs_rule {pr azik : Bool} {g : Config} {c : Ctx} (h : Runs pr c (shipped pr azik g)) :
    c.cmds = commandsOf azik ∧ c.kanaConv = kanaOf azik ∧ c.config = g := by
  have hu := h.uses
  have hd : defaultLayout.toggle = 'q' := rfl
  have hz : azikLayout.toggle = '@' := rfl
  refine ⟨?_, ?_, h.config.symm⟩
  · generalize hL : (shipped pr azik g).layout = L at hu
    cases hu with
    | default a b =>
      cases azik
      · exact a
      · exact absurd (congrArg Layout.toggle hL) (by show ¬ azikLayout.toggle = defaultLayout.toggle; decide)
    | azik a b =>
      cases azik
      · exact absurd (congrArg Layout.toggle hL) (by show ¬ defaultLayout.toggle = azikLayout.toggle; decide)
      · exact a
  · generalize hL : (shipped pr azik g).layout = L at hu
    cases hu with
    | default a b =>
      cases azik
      · exact b
      · exact absurd (congrArg Layout.toggle hL) (by show ¬ azikLayout.toggle = defaultLayout.toggle; decide)
    | azik a b =>
      cases azik
      · exact absurd (congrArg Layout.toggle hL) (by show ¬ defaultLayout.toggle = azikLayout.toggle; decide)
      · exact b

theorem At.of {pr : Bool} {c : Ctx} {Z : Seat} (h : Rel pr (shipped pr Z.azik Z.config) c Z.desk) (hg : Good c) : At pr c Z :=
  ⟨h, (runs_rule h.runs).1, (runs_rule h.runs).2.1, (runs_rule h.runs).2.2, hg⟩

theorem fresh_at (pr azik : Bool) (g : Config) (m : InputMode) (ds : List CskkDict) : At pr (fresh azik g m ds) (start azik g m ds) :=
  ⟨⟨runs_shipped pr azik (fresh azik g m ds) rfl rfl, rfl, ⟨rfl, rfl, .inl rfl, rfl, by simp [fresh, Ctx.new, State.new]⟩, ⟨rfl, rfl, rfl, rfl, rfl, rfl⟩, trivial⟩,
    rfl, rfl, rfl, TopOk.none rfl, fun s hs => by cases hs⟩

/-! ## No list is left over -/

theorem commandsOf_tidy (azik : Bool) : TidyRule (commandsOf azik) := by
  cases azik
  · exact Lists.shipped_tidy.1
  · exact Lists.shipped_tidy.2

/-- Only Enter and Ctrl-m in direct input end a registration. -/
theorem register_keys (azik : Bool) : ∀ cm im, ∀ k ∈ commandsOf azik cm im, Instruction.confirmDirect ∈ k.2 →
    cm = .direct ∧ k.2 = [.confirmDirect] ∧ (k.1 = ⟨0xff0d, 0⟩ ∨ k.1 = ⟨0x6d, 4⟩) := by
  cases azik <;> intro cm im <;> cases cm <;> cases im <;> decide +kernel

section
variable {pr : Bool} {c : Ctx} {Z Z' : Seat}

/-- A key of the machine registers no word which asks for the word of a number. -/
theorem press_ordinary (h : At pr c Z) {k : Machine.Key} {r : Desk × Bool} (hs : Z.desk.press (shipped pr Z.azik Z.config) k = some r) :
    Ordinary (Assets.env ⟨pr⟩) c (.key k.event) := by
  intro is hi
  unfold CommandRule.getInstruction at hi
  rw [if_neg (by rw [level_mode h.rel.level]; exact doing_ne _)] at hi
  injection hi with hi
  rw [Option.map_eq_some_iff] at hi
  obtain ⟨b, h1, rfl⟩ := hi
  have hmem := List.mem_of_find?_eq_some h1
  have hkey : b.1 = CommandRule.matchingKey k.event := by simpa using List.find?_some h1
  rw [h.cmds] at hmem
  by_cases hcd : Instruction.confirmDirect ∈ b.2
  · obtain ⟨g1, g2, g3⟩ := register_keys _ _ _ b hmem hcd
    rw [g2]
    refine ⟨fun _ hx => ?_, fun c' _ => trivial⟩
    have hev : k.event = ⟨0xff0d, 0⟩ ∨ k.event = ⟨0x6d, 4⟩ := by
      rw [hkey] at g3
      unfold CommandRule.matchingKey at g3
      split at g3
      · rename_i hu
        rw [KeyEvent.isUpper] at hu
        have hsy : k.event.symbol = 0xff0d ∨ k.event.symbol = 0x6d := g3.imp (congrArg KeyEvent.symbol) (congrArg KeyEvent.symbol)
        rcases hsy with g3 | g3 <;> rw [g3] at hu <;> exact absurd hu (by decide)
      · exact g3
    have hph : ∃ u b, Z.desk.phase = .direct u b := by
      have := level_mode h.rel.level
      rw [g1] at this
      cases hp : Z.desk.phase <;> rw [hp] at this <;> first | exact ⟨_, _, rfl⟩ | cases this
    obtain ⟨u, sh, hph⟩ := hph
    have henter : Z.desk.plain (shipped pr Z.azik Z.config) .enter = some r := by
      have hch : ∀ ch : Char, printable ch = true → ch.toNat ≠ 0xff0d := by
        intro ch hp hx
        have := of_decide_eq_true hp
        omega
      cases k with
      | enter => exact hs
      | char ch =>
        exfalso
        unfold Desk.press at hs
        dsimp only at hs
        unfold Desk.plain at hs
        rw [hph] at hs
        dsimp only at hs
        split at hs
        · rename_i hp
          rcases hev with hev | hev
          · exact hch ch hp (congrArg KeyEvent.symbol hev)
          · exact absurd (congrArg KeyEvent.modifiers hev) (by show ¬ (0#32 = 4#32); decide)
        · cases hs
      | shifted ch =>
        exfalso
        rcases hev with hev | hev
        · exact absurd (congrArg KeyEvent.modifiers hev) (by show ¬ (1#32 = 0#32); decide)
        · exact absurd (congrArg KeyEvent.modifiers hev) (by show ¬ (1#32 = 4#32); decide)
      | ctrl ch =>
        unfold Desk.press at hs
        dsimp only at hs
        rcases hev with hev | hev
        · exact absurd (congrArg KeyEvent.modifiers hev) (by show ¬ (4#32 = 0#32); decide)
        · have hm : ch = 'm' := Char.toNat_inj.mp (congrArg KeyEvent.symbol hev)
          subst hm
          rw [if_pos (by decide)] at hs
          unfold Desk.control at hs
          rw [if_neg (by decide), if_neg (by decide), hph] at hs
          dsimp only at hs
          rw [if_neg (by decide), if_pos rfl] at hs
          exact hs
      | other ev =>
        unfold Desk.press at hs
        dsimp only at hs
        rcases hev with hev | hev <;> (change ev = _ at hev; subst hev; rw [if_neg (by decide)] at hs; cases hs)
      | _ => rcases hev with hev | hev <;> exact absurd hev (by decide)
    obtain ⟨⟨x1, -⟩, s, x2, x3⟩ := hx
    unfold Desk.plain at henter
    rw [hph] at henter
    dsimp only at henter
    have hbel := h.rel.below
    cases hw : Z.desk.waiting with
    | nil =>
      rw [hw] at hbel
      cases hb : c.below with
      | nil => rw [hb] at x2; cases x2
      | cons s l => rw [hb] at hbel; exact hbel.elim
    | cons W rest =>
      cases hb : c.below with
      | nil => rw [hb] at x2; cases x2
      | cons s' l =>
        rw [hb] at x2
        injection x2 with x2
        subst x2
        rw [hb, hw] at hbel
        rw [h.rel.base.written] at x1 x3
        rw [hw, if_neg (by simp)] at henter
        split at henter
        · rename_i hwr
          rw [hwr] at x1
          revert x1; decide
        · unfold Desk.register at henter
          rw [hw] at henter
          dsimp only at henter
          have hreg : W.asked.registers Z.desk.dicts Z.desk.written = .ok [] := by
            rw [← x3, h.rel.dicts]
            unfold Ctx.registered Asked.registers
            simp only [hbel.1.cands, Asked.key, hbel.1.holds.okuri]
            split
            · simp only [bind, Except.bind, Except.map, pure, Except.pure]
            · rfl
          rw [hreg] at henter
          cases henter
  · exact Lists.plainly_of _ _ _ _ hcd c

/-! ## The list -/

/-- The list and the cursor are the machine's. -/
theorem list_seen (h : At pr c Z) : c.candidates = Z.desk.phase.list.1 ∧ c.cursorPosition = Z.desk.phase.list.2 := by
  have hmode := level_mode h.rel.level
  have hno : ¬ Offering Z.desk.phase.doing → c.candidates = [] ∧ c.cursorPosition = none := by
    intro hx
    rw [← hmode] at hx
    have := h.good.1.gone hx
    unfold Ctx.candidates Ctx.cursorPosition
    rw [this]
    exact ⟨rfl, rfl⟩
  cases hp : Z.desk.phase with
  | direct u b => rw [hp] at hno; exact hno (by unfold Offering; simp [Phase.doing])
  | reading d => rw [hp] at hno; exact hno (by unfold Offering; simp [Phase.doing])
  | short text u shift => rw [hp] at hno; exact hno (by unfold Offering; simp [Phase.doing])
  | okuri stem tail u b => rw [hp] at hno; exact hno (by unfold Offering; simp [Phase.doing])
  | choosing a words i =>
    have hl := h.rel.choosing hp
    unfold Ctx.candidates Ctx.cursorPosition
    rw [hl.cands]
    refine ⟨rfl, ?_⟩
    have := hl.cursor
    cases words with
    | nil => simp at this
    | cons x l => rfl
  | completing text u short words i =>
    have hl := h.rel.completing hp
    unfold Ctx.candidates Ctx.cursorPosition
    rw [hl.list, hl.position]
    refine ⟨rfl, ?_⟩
    have := hl.cursor
    cases words with
    | nil => simp at this
    | cons x l => rfl

/-- All which is seen. -/
theorem view_seen (h : At pr c Z) : seen (Assets.env ⟨pr⟩) c = Z.desk.view (shipped pr Z.azik Z.config) (names pr) := by
  unfold seen Desk.view
  rw [screen_shown h.rel, h.rel.base.mode, level_mode h.rel.level, (list_seen h).1, (list_seen h).2]

theorem pointer_set (s : State) {n : Nat} {words : List Candidate} (hw : s.cands.cands = words) (hn : n < words.length) :
    s.setPointer n = ({ s with cands := { s.cands with cursor := n } }, true) := by
  have hx : s.cands.cands[n]? = some (words[n]) := by rw [hw, List.getElem?_eq_getElem hn]
  unfold State.setPointer CandidateList.setSelectionPointer
  rw [hx]

theorem pointer_kept (s : State) {n : Nat} {words : List Candidate} (hw : s.cands.cands = words) (hn : words[n]? = none) : s.setPointer n = (s, false) := by
  have hx : s.cands.cands[n]? = none := by rw [hw, hn]
  unfold State.setPointer CandidateList.setSelectionPointer
  rw [hx]

/-- The cursor on another word of the list. -/
theorem choosing_at {S : Setup} {D : Desk} (h : Rel pr S c D) {a : Asked} {words : List Candidate} {i : Nat} (hp : D.phase = .choosing a words i) {n : Nat}
    (hn : n < words.length) : Rel pr S { c with top := { c.top with cands := { c.top.cands with cursor := n } } } { D with phase := .choosing a words n } := by
  have hl := h.choosing hp
  have hb := h.base
  refine h.with (D := D) ⟨hb.written, hb.mode, hb.trail, hb.default, hb.history⟩ ⟨hl.mode, hl.kanaMode, ⟨hl.holds.pre, hl.holds.capital, hl.holds.kana, hl.holds.raw,
        hl.holds.okuri, hl.holds.use⟩, ?_, hn, hl.came⟩
  show ({ c.top.cands with cursor := n } : CandidateList CompositeKey Candidate) = _
  rw [hl.cands]

theorem completing_at {S : Setup} {D : Desk} (h : Rel pr S c D) {text : Str} {u : List Keysym} {short : Bool} {words : List Candidate} {i : Nat}
    (hp : D.phase = .completing text u short words i) {n : Nat} (hn : n < words.length) :
    Rel pr S { c with top := { c.top with cands := { c.top.cands with cursor := n } } } { D with phase := .completing text u short words n } := by
  have hl := h.completing hp
  exact h.with (D := D) ⟨h.base.written, h.base.mode, h.base.trail, h.base.default, h.base.history⟩
    ⟨hl.mode, hl.kanaMode, hl.pre, hl.kana, hl.raw, hl.okuri, hl.key, hl.list, rfl, hn, hl.came⟩

theorem list_gone (h : At pr c Z) (hx : Z.desk.phase.list.1 = []) : c.top.cands.cands = [] := (list_seen h).1.trans hx

/-- A word is chosen by its number. -/
theorem select_goes (h : At pr c Z) {n : Int} {D' : Desk} {b : Bool} (hs : Z.desk.select n = some (D', b)) :
    (c.selectCandidateAt n).2 = b ∧ Rel pr (shipped pr Z.azik Z.config) (c.selectCandidateAt n).1 D' := by
  have hgone : Z.desk.phase.list.1 = [] → some (Z.desk, false) = some (D', b) →
      (c.selectCandidateAt n).2 = b ∧ Rel pr (shipped pr Z.azik Z.config) (c.selectCandidateAt n).1 D' := by
    intro hx hs
    injection hs with hs; injection hs with h1 h2
    subst h1; subst h2
    unfold Ctx.selectCandidateAt
    rw [list_gone h hx]
    exact ⟨rfl, h.rel⟩
  unfold Desk.select at hs
  cases hp : Z.desk.phase with
  | direct u b => rw [hp] at hs hgone; exact hgone rfl hs
  | reading d => rw [hp] at hs hgone; exact hgone rfl hs
  | short text u shift => rw [hp] at hs hgone; exact hgone rfl hs
  | okuri stem tail u b => rw [hp] at hs hgone; exact hgone rfl hs
  | choosing a words i =>
    rw [hp] at hs
    dsimp only at hs
    have hl := h.rel.choosing hp
    have hb := h.rel.base
    have hi := hl.cursor
    have hcands : c.top.cands.cands = words := by rw [hl.cands]
    unfold Ctx.selectCandidateAt
    rw [hcands]
    dsimp only
    rw [if_neg (by omega)]
    split at hs
    · rename_i hn
      injection hs with hs; injection hs with h1 h2
      subst h1; subst h2
      rw [if_pos hn]
      refine ⟨rfl, h.rel.with (D := Z.desk) ⟨hb.written, hb.mode, ?_, hb.default, ?_⟩ ⟨rfl, hl.kanaMode, hl.holds.pre, hl.holds.capital, ?_, ?_, rfl⟩⟩
      · have hch := changeModeFrom_eq (c.top.consolidate.clearCandidateList) .preComposition c.top.mode hb.history
        show Past ((c.top.consolidate.clearCandidateList).changeModeFrom .preComposition c.top.mode).history _
        rw [hch]
        exact hb.leave hl.mode
      · have hch := changeModeFrom_eq (c.top.consolidate.clearCandidateList) .preComposition c.top.mode hb.history
        show ((c.top.consolidate.clearCandidateList).changeModeFrom .preComposition c.top.mode).history.length ≤ 20
        rw [hch]
        exact remember_length _ _
      · show c.top.kana ++ c.top.okuri = _
        rw [hl.holds.kana, hl.holds.okuri]; rfl
      · show c.top.raw ++ c.top.okuri = _
        rw [hl.holds.raw, hl.holds.okuri]; rfl
    · rename_i hn
      rw [if_neg hn]
      split at hs
      · rename_i hlt
        injection hs with hs; injection hs with h1 h2
        subst h1; subst h2
        rw [if_neg (by omega)]
        refine ⟨rfl, ?_⟩
        have hlt' : n.toNat < words.length := by omega
        unfold Ctx.mapTop
        dsimp only
        rw [pointer_set c.top hcands hlt']
        exact choosing_at h.rel hp hlt'
      · rename_i hlt
        have hlast : words.length - 1 < words.length := by omega
        have hr := choosing_at h.rel hp hlast
        have hl' := hr.choosing rfl
        rw [if_pos (by omega)]
        unfold Ctx.mapTop
        dsimp only
        rw [pointer_set c.top hcands hlast]
        unfold Ctx.enterRegister
        have hdep := hr.depth
        have hdep : ({ c with top := { c.top with cands := { c.top.cands with cursor := words.length - 1 } } } : Ctx).depth = Z.desk.waiting.length + 1 := hdep
        rw [hdep]
        split at hs
        · rename_i hd
          injection hs with hs; injection hs with h1 h2
          subst h1; subst h2
          rw [if_pos (show Z.desk.waiting.length + 1 < STACK_MAX from hd)]
          refine ⟨rfl, hr.runs.congr rfl rfl rfl, hr.dicts, ⟨rfl, rfl, .inl rfl, rfl, by simp [State.new]⟩, ⟨rfl, rfl, rfl, rfl, rfl, rfl⟩, ?_, hr.below⟩
          have hne : words ≠ [] := by intro hx; rw [hx] at hi; simp at hi
          refine ⟨⟨hb.written, hb.mode, ?_, hb.default, ?_⟩, rfl, hl.kanaMode, ⟨hl.holds.pre, hl.holds.capital, hl.holds.kana, hl.holds.raw,
            hl.holds.okuri, hl.holds.use⟩, hl'.cands, fun _ => hlast, ?_⟩
          · have hch := changeModeFrom_eq ({ c.top with cands := { c.top.cands with cursor := words.length - 1 } } : State) .register .compositionSelection hb.history
            exact (congrArg State.history hch) ▸ hb.trail.remember hb.history _
          · have hch := changeModeFrom_eq ({ c.top with cands := { c.top.cands with cursor := words.length - 1 } } : State) .register .compositionSelection hb.history
            exact Nat.le_trans (Nat.le_of_eq (congrArg (fun s : State => s.history.length) hch)) (remember_length _ _)
          · have hch := changeModeFrom_eq ({ c.top with cands := { c.top.cands with cursor := words.length - 1 } } : State) .register .compositionSelection hb.history
            rw [if_pos hne]
            refine List.IsSuffix.trans (suffix_remember hl.came (by simp)) ?_
            exact (congrArg State.history hch) ▸ List.suffix_refl _
        · rename_i hd
          injection hs with hs; injection hs with h1 h2
          subst h1; subst h2
          rw [if_neg (show ¬ Z.desk.waiting.length + 1 < STACK_MAX from hd)]
          exact ⟨rfl, hr⟩
  | completing text u short words i =>
    rw [hp] at hs
    dsimp only at hs
    have hl := h.rel.completing hp
    split at hs
    · rename_i hn
      injection hs with hs; injection hs with h1 h2
      subst h1; subst h2
      unfold Ctx.selectCandidateAt
      rw [hl.list]
      dsimp only
      have hi := hl.cursor
      rw [if_neg (by omega), if_neg (by omega), if_neg (by omega)]
      have hlt' : n.toNat < words.length := by omega
      unfold Ctx.mapTop
      dsimp only
      rw [pointer_set c.top hl.list hlt']
      exact ⟨rfl, completing_at h.rel hp hlt'⟩
    · cases hs

/-- A word is confirmed by its number. -/
theorem confirm_at_goes (h : At pr c Z) (n : Nat) :
    (c.confirmCandidateAt (Assets.env ⟨pr⟩) n).2 = (Z.desk.confirm (shipped pr Z.azik Z.config) n).2 ∧
      Rel pr (shipped pr Z.azik Z.config) (c.confirmCandidateAt (Assets.env ⟨pr⟩) n).1 (Z.desk.confirm (shipped pr Z.azik Z.config) n).1 := by
  have hgone : ∀ D' : Desk, Z.desk.phase.list.1 = [] → (c.confirmCandidateAt (Assets.env ⟨pr⟩) n).2 = false ∧
      Rel pr (shipped pr Z.azik Z.config) (c.confirmCandidateAt (Assets.env ⟨pr⟩) n).1 Z.desk := by
    intro _ hx
    unfold Ctx.confirmCandidateAt
    rw [pointer_kept c.top (list_gone h hx) rfl]
    exact ⟨rfl, h.rel⟩
  unfold Desk.confirm
  cases hp : Z.desk.phase with
  | direct u b => rw [hp] at hgone; exact hgone Z.desk rfl
  | reading d => rw [hp] at hgone; exact hgone Z.desk rfl
  | short text u shift => rw [hp] at hgone; exact hgone Z.desk rfl
  | okuri stem tail u b => rw [hp] at hgone; exact hgone Z.desk rfl
  | choosing a words i =>
    dsimp only
    have hl := h.rel.choosing hp
    have hcands : c.top.cands.cands = words := by rw [hl.cands]
    unfold Ctx.confirmCandidateAt
    cases hw : words[n]? with
    | none =>
      rw [pointer_kept c.top hcands hw]
      exact ⟨rfl, h.rel⟩
    | some x =>
      have hlt : n < words.length := (List.getElem?_eq_some_iff.mp hw).1
      rw [pointer_set c.top hcands hlt]
      have hr := choosing_at h.rel hp hlt
      refine ⟨rfl, ?_⟩
      have := settled_rel' hr (a := a) (hr.choosing rfl).holds.okuri x [] (.inl rfl)
      dsimp only
      rw [if_pos rfl, TypeOn.confirm_settles _ (shown_of hr rfl hw)]
      exact this
  | completing text u short words i =>
    dsimp only
    have hl := h.rel.completing hp
    unfold Ctx.confirmCandidateAt
    cases hw : words[n]? with
    | none =>
      rw [pointer_kept c.top hl.list hw]
      exact ⟨rfl, h.rel⟩
    | some x =>
      have hlt : n < words.length := (List.getElem?_eq_some_iff.mp hw).1
      rw [pointer_set c.top hl.list hlt]
      have hr := completing_at h.rel hp hlt
      refine ⟨rfl, ?_⟩
      have := completed_rel hr rfl x
      dsimp only
      rw [if_pos rfl, TypeOn.confirm_settles _ (completion_shown hr rfl hw)]
      exact this

/-! ## The other calls -/

theorem set_mode_goes {S : Setup} {D D' : Desk} (h : Rel pr S c D) {m : InputMode} (hs : D.setMode m = some D') : Rel pr S (c.setInputMode m) D' := by
  have hb := h.base
  have hl := h.level
  unfold Desk.setMode at hs
  have hbase : Base (c.setInputMode m).top D.written m D.trail := ⟨hb.written, rfl, hb.trail, hb.default, hb.history⟩
  have hother : ∀ p, D.phase = p → Level (c.setInputMode m).top m p → (⟨D.written, m, p, D.waiting, D.dicts, D.trail⟩ : Desk) = D' → Rel pr S (c.setInputMode m) D' := by
    intro p hp hl hs
    subst hs
    exact ⟨h.runs.congr rfl rfl rfl, h.dicts, hbase, hl, h.below⟩
  cases hp : D.phase with
  | direct u b =>
    rw [hp] at hs hl
    exact hother _ hp ⟨hl.mode, hl.pre, hl.capital, hl.kana, hl.raw, hl.okuri⟩ (Option.some.inj hs)
  | reading d =>
    rw [hp] at hs hl
    dsimp only at hs
    split at hs
    · rename_i hk
      exact hother _ hp ⟨hl.mode, hk, hl.pre, hl.capital, hl.kana, hl.raw, hl.okuri⟩ (Option.some.inj hs)
    · cases hs
  | short text u shift =>
    rw [hp] at hs hl
    dsimp only at hs
    split at hs
    · rename_i hk
      exact hother _ hp ⟨hl.mode, hk, hl.pre, hl.capital, hl.kana, hl.raw, hl.okuri⟩ (Option.some.inj hs)
    · cases hs
  | okuri stem tail u b =>
    rw [hp] at hs hl
    dsimp only at hs
    split at hs
    · rename_i hk
      exact hother _ hp ⟨hl.mode, hk, hl.pre, hl.capital, hl.kana, hl.raw, hl.okuri, hl.stem, hl.use, hl.came⟩ (Option.some.inj hs)
    · cases hs
  | choosing a words i =>
    rw [hp] at hs hl
    dsimp only at hs
    split at hs
    · rename_i hk
      exact hother _ hp ⟨hl.mode, hk, ⟨hl.holds.pre, hl.holds.capital, hl.holds.kana, hl.holds.raw, hl.holds.okuri, hl.holds.use⟩, hl.cands, hl.cursor, hl.came⟩ (Option.some.inj hs)
    · cases hs
  | completing text u short words i =>
    rw [hp] at hs hl
    dsimp only at hs
    split at hs
    · rename_i hk
      exact hother _ hp ⟨hl.mode, hk, hl.pre, hl.kana, hl.raw, hl.okuri, hl.key, hl.list, hl.position, hl.cursor, hl.came⟩ (Option.some.inj hs)
    · cases hs

theorem reset_goes {S : Setup} {D D' : Desk} (h : Rel pr S c D) (hs : D.reset = some D') : Rel pr S c.reset D' := by
  have hb := h.base
  have hl := h.level
  have hbel := h.below
  unfold Desk.reset at hs
  split at hs
  · rename_i hw
    rw [hw] at hbel
    have hnil : c.below = [] := by
      cases hc : c.below with
      | nil => rfl
      | cons s l => rw [hc] at hbel; exact hbel.elim
    have he : c.reset = { c with below := [], top := c.top.clearAll } := by
      unfold Ctx.reset
      rw [hnil]; rfl
    rw [he]
    have hbase : Base c.top.clearAll [] D.mode [] := ⟨rfl, hb.mode, .inl rfl, hb.default, by simp [State.clearAll]⟩
    cases hp : D.phase with
    | direct u b =>
      rw [hp] at hs hl
      injection hs with hs; subst hs
      exact ⟨h.runs.congr rfl rfl rfl, h.dicts, hbase, ⟨hl.mode, rfl, rfl, rfl, rfl, rfl⟩, by rw [hw]; trivial⟩
    | reading d =>
      rw [hp] at hs hl
      injection hs with hs; subst hs
      exact ⟨h.runs.congr rfl rfl rfl, h.dicts, hbase, ⟨hl.mode, hl.kanaMode, rfl, rfl, rfl, rfl, rfl⟩, by rw [hw]; trivial⟩
    | short text u shift =>
      rw [hp] at hs hl
      injection hs with hs; subst hs
      exact ⟨h.runs.congr rfl rfl rfl, h.dicts, hbase, ⟨hl.mode, hl.kanaMode, rfl, rfl, rfl, rfl, rfl⟩, by rw [hw]; trivial⟩
    | okuri stem tail u b => rw [hp] at hs; cases hs
    | choosing a words i => rw [hp] at hs; cases hs
    | completing text u short words i => rw [hp] at hs; cases hs
  · cases hs

/-- The engine has been given other settings: nothing else changes. -/
theorem resettled {c c' : Ctx} {S S' : Setup} {D D' : Desk} (h : Rel pr S c D) (hr : Runs pr c' S') (hd : c'.dicts = D'.dicts) (h1 : c'.top = c.top) (h2 : c'.below = c.below)
    (h3 : D'.written = D.written) (h4 : D'.mode = D.mode) (h5 : D'.phase = D.phase) (h6 : D'.waiting = D.waiting) (h7 : D'.trail = D.trail) : Rel pr S' c' D' :=
  ⟨hr, hd, by rw [h1, h3, h4, h7]; exact h.base, by rw [h1, h4, h5]; exact h.level, by rw [h2, h6]; exact h.below⟩

/-- **C75, one act.** -/
theorem act_goes (h : At pr c Z) {x : Act} {ans : Answer} (hs : Z.act (shipped pr) x = some (Z', ans)) :
    answered (Assets.env ⟨pr⟩) c x = .ok ans ∧ ∃ c', c.step (Assets.env ⟨pr⟩) (call x) = .ok c' ∧ At pr c' Z' := by
  have hgood : ∀ c', Ordinary (Assets.env ⟨pr⟩) c (call x) → c.step (Assets.env ⟨pr⟩) (call x) = .ok c' → Good c' :=
    fun c' ho hst => Lists.step_good _ c c' _ h.good (by rw [h.cmds]; exact commandsOf_tidy _) ho hst
  cases x with
  | key k =>
    unfold Seat.act at hs
    simp only [Option.map_eq_some_iff] at hs
    obtain ⟨⟨D1, b⟩, hk, hs⟩ := hs
    injection hs with h1 h2
    subst h1; subst h2
    obtain ⟨c1, g1, g2⟩ := press_goes h.rel hk
    have hst : c.step (Assets.env ⟨pr⟩) (call (.key k)) = .ok c1 := by
      show (do let r ← c.processKeyEvent (Assets.env ⟨pr⟩) k.event; return r.1 : R Ctx) = _
      rw [g1]; rfl
    refine ⟨?_, c1, hst, ?_⟩
    · show (do let r ← c.processKeyEvent (Assets.env ⟨pr⟩) k.event; return Answer.taken r.2 : R Answer) = _
      rw [g1]; rfl
    · exact .of g2 (hgood _ (press_ordinary h hk) hst)
  | poll =>
    injection hs with hs; injection hs with h1 h2
    subst h1; subst h2
    obtain ⟨p1, p2⟩ := poll_goes h.rel
    exact ⟨by show Except.ok (Answer.text _) = _; rw [p1], _, rfl, .of p2 (hgood _ trivial rfl)⟩
  | select n =>
    unfold Seat.act at hs
    simp only [Option.map_eq_some_iff] at hs
    obtain ⟨⟨D1, b⟩, hk, hs⟩ := hs
    injection hs with h1 h2
    subst h1; subst h2
    obtain ⟨g1, g2⟩ := select_goes h hk
    exact ⟨by show Except.ok (Answer.taken _) = _; rw [g1], _, rfl, .of g2 (hgood _ trivial rfl)⟩
  | confirm n =>
    injection hs with hs; injection hs with h1 h2
    subst h1; subst h2
    obtain ⟨g1, g2⟩ := confirm_at_goes h n
    exact ⟨by show Except.ok (Answer.taken _) = _; rw [g1], _, rfl, .of g2 (hgood _ trivial rfl)⟩
  | setMode m =>
    unfold Seat.act at hs
    simp only [Option.map_eq_some_iff] at hs
    obtain ⟨D1, hk, hs⟩ := hs
    injection hs with h1 h2
    subst h1; subst h2
    exact ⟨rfl, _, rfl, .of (set_mode_goes h.rel hk) (hgood _ trivial rfl)⟩
  | reset =>
    unfold Seat.act at hs
    simp only [Option.map_eq_some_iff] at hs
    obtain ⟨D1, hk, hs⟩ := hs
    injection hs with h1 h2
    subst h1; subst h2
    exact ⟨rfl, _, rfl, .of (reset_goes h.rel hk) (hgood _ trivial rfl)⟩
  | setKeywords l =>
    injection hs with hs; injection hs with h1 h2
    subst h1; subst h2
    have hcfg : ({ c.config with keywords := l } : Config) = { Z.config with keywords := l } := by rw [h.config]
    refine ⟨rfl, _, rfl, resettled h.rel ?_ h.rel.dicts rfl rfl rfl rfl rfl rfl rfl, h.cmds, h.kana, hcfg, hgood _ trivial rfl⟩
    rw [← hcfg]
    exact runs_shipped pr Z.azik { c with config := { c.config with keywords := l } } h.cmds h.kana
  | setPeriod p =>
    injection hs with hs; injection hs with h1 h2
    subst h1; subst h2
    have hcfg : ({ c.config with period := p } : Config) = { Z.config with period := p } := by rw [h.config]
    refine ⟨rfl, _, rfl, resettled h.rel ?_ h.rel.dicts rfl rfl rfl rfl rfl rfl rfl, h.cmds, h.kana, hcfg, hgood _ trivial rfl⟩
    rw [← hcfg]
    exact runs_shipped pr Z.azik { c with config := { c.config with period := p } } h.cmds h.kana
  | setComma p =>
    injection hs with hs; injection hs with h1 h2
    subst h1; subst h2
    have hcfg : ({ c.config with comma := p } : Config) = { Z.config with comma := p } := by rw [h.config]
    refine ⟨rfl, _, rfl, resettled h.rel ?_ h.rel.dicts rfl rfl rfl rfl rfl rfl rfl, h.cmds, h.kana, hcfg, hgood _ trivial rfl⟩
    rw [← hcfg]
    exact runs_shipped pr Z.azik { c with config := { c.config with comma := p } } h.cmds h.kana
  | setRule azik =>
    injection hs with hs; injection hs with h1 h2
    subst h1; subst h2
    refine ⟨rfl, _, rfl, resettled h.rel ?_ h.rel.dicts rfl rfl rfl rfl rfl rfl rfl, rfl, rfl, h.config, hgood _ (commandsOf_tidy azik) rfl⟩
    dsimp only
    rw [← h.config]
    exact runs_shipped pr azik { c with cmds := commandsOf azik, kanaConv := kanaOf azik } rfl rfl
  | setDictionaries ds =>
    injection hs with hs; injection hs with h1 h2
    subst h1; subst h2
    exact ⟨rfl, _, rfl, resettled h.rel (h.rel.runs.congr rfl rfl rfl) rfl rfl rfl rfl rfl rfl rfl rfl, h.cmds, h.kana, h.config, hgood _ trivial rfl⟩

/-- Many acts. -/
theorem use_goes (l : List Act) : ∀ {c : Ctx} {Z Z' : Seat} {got : List (Answer × View)}, At pr c Z → Z.use (shipped pr) (names pr) l = some (Z', got) →
    ∃ c', observe (Assets.env ⟨pr⟩) c l = .ok (c', got) ∧ At pr c' Z' := by
  induction l with
  | nil =>
    intro c Z Z' got h hs
    injection hs with hs; injection hs with h1 h2
    subst h1; subst h2
    exact ⟨c, rfl, h⟩
  | cons x l ih =>
    intro c Z Z' got h hs
    unfold Seat.use at hs
    cases hx : Z.act (shipped pr) x with
    | none => rw [hx] at hs; cases hs
    | some r =>
      rw [hx] at hs
      obtain ⟨Z1, ans⟩ := r
      simp only [Option.bind_some, Option.map_eq_some_iff] at hs
      obtain ⟨⟨Z2, rest⟩, hu, hs⟩ := hs
      injection hs with h1 h2
      dsimp only at h1 h2
      subst h1; subst h2
      obtain ⟨g0, c1, g1, g2⟩ := act_goes h hx
      obtain ⟨c2, g3, g4⟩ := ih g2 hu
      refine ⟨c2, ?_, g4⟩
      unfold observe
      rw [g0, g1]
      simp only [bind, Except.bind, g3, pure, Except.pure, view_seen g2]

end

/-- **C75.** The engine refines the machine: for every shipped rule, configuration, input mode, dictionaries and history of calls of which the machine says
what is seen, the engine does not fail, answers the same and shows the same; in the end the dictionaries, the levels and the settings are the machine's. -/
theorem use_refines (pr azik : Bool) (g : Config) (m : InputMode) (ds : List CskkDict) (l : List Act) (Z : Seat) (got : List (Answer × View))
    (h : (start azik g m ds).use (shipped pr) (names pr) l = some (Z, got)) :
    ∃ c, observe (Assets.env ⟨pr⟩) (fresh azik g m ds) l = .ok (c, got) ∧ c.dicts = Z.desk.dicts ∧ c.config = Z.config ∧
      seen (Assets.env ⟨pr⟩) c = Z.desk.view (shipped pr Z.azik Z.config) (names pr) ∧ c.depth = Z.desk.waiting.length + 1 := by
  obtain ⟨c, h1, h2⟩ := use_goes l (fresh_at pr azik g m ds) h
  exact ⟨c, h1, h2.rel.dicts, h2.config, view_seen h2, h2.rel.depth⟩

/-! ## Sessions in which all of it occurs -/

/-- Characters typed. -/
def keys (t : Str) : List Act := t.map fun ch => .key (.char ch)

/-- A small user dictionary. -/
def shelf : List CskkDict :=
  [⟨true, .user ⟨[(c%"おくr", ⟨c%"おくr", true, [([], [⟨c%"送", none⟩])]⟩)], [(c%"か", ⟨c%"か", false, [([], [⟨c%"化", none⟩, ⟨c%"下", none⟩])]⟩)]⟩ false⟩]

/-- What the machine says, with the default rule, from the start: the answers, the lines and the input modes. -/
def told (l : List Act) : Option (List (Answer × Str × InputMode)) :=
  ((start false Config.default .hiragana shelf).use (shipped true) (names true) l).map fun r => r.2.map fun x => (x.1, x.2.line, x.2.mode)

/-- A conversion is given up with `x`, the reading is changed, a word is registered; in the registration a word is converted by the full stop after it. -/
def session : List Act := keys c%"kaKa x" ++ [.key .back] ++ keys c%"a kaKa." ++ [.key .enter, .poll, .key .enter, .poll]

/-- The machine says what is seen in it. -/
theorem session_seen : told session =
    some (([c%"k", c%"か", c%"か▽k", c%"か▽か", c%"か▼化", c%"か▽か", c%"か▽", c%"か▽あ", c%"▼あ【】", c%"▼あ【k】", c%"▼あ【か】", c%"▼あ【か▽k】", c%"▼あ【か▽か】",
      c%"▼あ【か▼化。】", c%"▼あ【か化。】"].map (Answer.taken true, ·, .hiragana)) ++
      [(.text c%"か", c%"▼あ【か化。】", .hiragana), (.taken true, c%"か化。", .hiragana), (.text c%"か化。", [], .hiragana)]) := by
  decide +kernel

/-- So this is what the engine does. -/
theorem session_done : ∃ c got, observe (Assets.env ⟨true⟩) (fresh false Config.default .hiragana shelf) session = .ok (c, got) ∧
    got.getLast?.map (·.1) = some (.text c%"か化。") := by
  have h := session_seen
  unfold told at h
  rw [Option.map_eq_some_iff] at h
  obtain ⟨⟨Z, got⟩, h1, h2⟩ := h
  obtain ⟨c, h3, _⟩ := use_refines true false Config.default .hiragana shelf session Z got h1
  refine ⟨c, got, h3, ?_⟩
  have h4 : (got.map fun x => (x.1, x.2.line, x.2.mode)).getLast?.map (·.1) = some (.text c%"か化。") := by
    rw [show (got.map fun x => (x.1, x.2.line, x.2.mode)) = _ from h2]
    decide +kernel
  rw [List.getLast?_map] at h4
  cases hg : got.getLast? with
  | none => rw [hg] at h4; cases h4
  | some x => rw [hg] at h4; exact h4

/-- Okurigana, typing on, a word registered for a reading no dictionary has, and it is found the next time. -/
def session' : List Act :=
  keys c%"OkuRunnNo no" ++ [.key .enter] ++ keys c%"No " ++ [.key .ctrlJ, .poll] ++ keys c%"OkuRu" ++ [.key .ctrlG] ++ keys c%"q" ++ [.poll]

theorem session_seen' : (told session').map (·.map (·.2.1)) =
    some [c%"▽お", c%"▽おk", c%"▽おく", c%"▽おく*r", c%"▼送る", c%"送るn", c%"送るん", c%"送るん▽n", c%"送るん▽の", c%"▼の【】", c%"▼の【n】", c%"▼の【の】", c%"送るんの",
      c%"送るんの▽n", c%"送るんの▽の", c%"送るんの▼の", c%"送るんのの", [], c%"▽お", c%"▽おk", c%"▽おく", c%"▽おく*r", c%"▼送る", c%"▽おくる", c%"オクル", []] := by
  decide +kernel

/-- An empty reading is opened, a word completed, the completion given up and chosen; an abbreviation is registered, and completed. -/
def session'' : List Act :=
  keys c%"Qk" ++ [.key .back] ++ keys c%"ka" ++ [.key .tab, .key .tab, .key .ctrlG, .key .tab] ++ keys c%".,.n" ++ [.key .back, .poll] ++
    keys c%"/a*" ++ [.key .ctrlG, .key .back] ++ keys c%"T lA" ++ [.key .enter] ++ keys c%"/a" ++ [.key .tab, .key .enter, .poll]

theorem session_seen'' : (told session'').map (·.map fun x => (x.1, x.2.1)) =
    some ([c%"▽", c%"▽k", c%"▽", c%"▽k", c%"▽か", c%"■化", c%"■下", c%"▽か", c%"■化", c%"■下", c%"■化", c%"■下", c%"下n", c%"下"].map (.taken true, ·) ++ [(.text c%"下", [])] ++
      [c%"▽", c%"▽a", c%"▽a*"].map (.taken true, ·) ++ [(.taken false, c%"▽a*")] ++
      [c%"▽a", c%"▽aT", c%"▼aT【】", c%"▼aT【】", c%"▼aT【A】", c%"A", c%"A▽", c%"A▽a", c%"A■A", c%"AA"].map (.taken true, ·) ++ [(.text c%"AA", [])]) := by
  decide +kernel

/-- Keys with Shift and with Ctrl, Escape, a key which is released and a function key. -/
def control : List Act :=
  [.key (.shifted 'K')] ++ keys c%"a" ++ [.key (.other ⟨0x61, 0x40000000⟩), .key (.other ⟨0xffbe, 0⟩), .key .escape, .key .tab, .key .tab, .key .shiftTab, .key .escape,
    .key (.char ' '), .key .escape, .key (.ctrl 'q'), .key (.ctrl 'q')] ++ keys c%"ka" ++ [.key (.ctrl 'h'), .key (.ctrl 'z'), .poll]

theorem control_seen : told control =
    some ([(true, c%"▽k"), (true, c%"▽か"), (false, c%"▽か"), (false, c%"▽か"), (false, c%"▽か"), (true, c%"■化"), (true, c%"■下"), (true, c%"■化"), (true, c%"▽か"),
      (true, c%"▼化"), (true, c%"▽か"), (true, c%"ｶ")].map (fun x => (.taken x.1, x.2, .hiragana)) ++
      [(true, c%"ｶ"), (true, c%"ｶk"), (true, c%"ｶｶ"), (true, c%"ｶ"), (false, c%"ｶ")].map (fun x => (.taken x.1, x.2, .hankakuKatakana)) ++
       [(.text c%"ｶ", [], .hankakuKatakana)]) := by
  decide +kernel

/-- The application moves the cursor of the list, beyond its end, back into it and before its beginning; it confirms a word by its number, changes the
configuration, the rule, the input mode and the dictionaries while a word is typed, and resets. -/
def calls : List Act :=
  keys c%"Ka " ++ [.select 1, .select 7] ++ keys c%"k" ++ [.setRule true] ++ keys c%"z" ++ [.setRule false, .key .back, .key .back, .key .enter, .select 0, .select (-1), .select 0] ++
    keys c%" " ++ [.confirm 9, .confirm 1] ++ keys c%"k" ++ [.setMode .katakana] ++ keys c%"a" ++ [.setPeriod .en] ++ keys c%".Ka" ++
    [.setDictionaries [], .reset, .setDictionaries shelf] ++ keys c%"ka "

set_option synthInstance.maxSize 512 in
theorem calls_seen : ((start false Config.default .hiragana shelf).use (shipped true) (names true) calls).map (fun r => (r.2.drop 2).map fun x =>
      (x.1, x.2.line, x.2.doing, x.2.words.map (·.output), x.2.cursor)) =
    some [(.taken true, c%"▼化", .compositionSelection, [c%"化", c%"下"], some 0), (.taken true, c%"▼下", .compositionSelection, [c%"化", c%"下"], some 1),
      (.taken true, c%"▼か【】", .direct, [], none), (.taken true, c%"▼か【k】", .direct, [], none), (.nothing, c%"▼か【k】", .direct, [], none),
      (.taken true, c%"▼か【かん】", .direct, [], none), (.nothing, c%"▼か【かん】", .direct, [], none), (.taken true, c%"▼か【か】", .direct, [], none),
      (.taken true, c%"▼か【】", .direct, [], none), (.taken true, c%"▼下", .compositionSelection, [c%"化", c%"下"], some 1),
      (.taken true, c%"▼化", .compositionSelection, [c%"化", c%"下"], some 0), (.taken true, c%"▽か", .preComposition, [], none),
      (.taken false, c%"▽か", .preComposition, [], none), (.taken true, c%"▼化", .compositionSelection, [c%"化", c%"下"], some 0),
      (.taken false, c%"▼化", .compositionSelection, [c%"化", c%"下"], some 0), (.taken true, c%"下", .direct, [], none), (.taken true, c%"下k", .direct, [], none),
      (.nothing, c%"下k", .direct, [], none), (.taken true, c%"下カ", .direct, [], none), (.nothing, c%"下カ", .direct, [], none), (.taken true, c%"下カ．", .direct, [], none),
      (.taken true, c%"下カ．▽k", .preComposition, [], none), (.taken true, c%"下カ．▽カ", .preComposition, [], none), (.nothing, c%"下カ．▽カ", .preComposition, [], none),
      (.nothing, c%"▽", .preComposition, [], none), (.nothing, c%"▽", .preComposition, [], none), (.taken true, c%"▽k", .preComposition, [], none),
      (.taken true, c%"▽カ", .preComposition, [], none), (.taken true, c%"▼化", .compositionSelection, [c%"化", c%"下"], some 0)] := by
  decide +kernel

/-- A word is registered for a reading with a number, and used with another number. -/
def numbers : List Act := keys c%"Q1kai #1kai" ++ [.key .enter] ++ keys c%"Q27kai " ++ [.key .ctrlJ]

theorem numbers_seen : (told numbers).map (fun l => (l.drop 4).map (·.2.1)) =
    some [c%"▽1かい", c%"▼1かい【】", c%"▼1かい【#】", c%"▼1かい【#1】", c%"▼1かい【#1k】", c%"▼1かい【#1か】", c%"▼1かい【#1かい】", c%"１かい", c%"１かい▽", c%"１かい▽2", c%"１かい▽27",
      c%"１かい▽27k", c%"１かい▽27か", c%"１かい▽27かい", c%"１かい▼２７かい", c%"１かい２７かい"] := by
  decide +kernel

/-- A word is registered for a number, and then a word which asks for it (`#4`) for a reading with that number. -/
def numberWords : List Act := keys c%"Q5 go" ++ [.key .enter] ++ keys c%"Qdai5 dai#4" ++ [.key .enter] ++ keys c%"Qdai5 "

theorem number_words_seen : (told numberWords).map (fun l => (l.drop 2).map (·.2.1)) =
    some [c%"▼5【】", c%"▼5【g】", c%"▼5【ご】", c%"ご", c%"ご▽", c%"ご▽d", c%"ご▽だ", c%"ご▽だい", c%"ご▽だい5", c%"▼だい5【】", c%"▼だい5【d】", c%"▼だい5【だ】", c%"▼だい5【だい】",
      c%"▼だい5【だい#】", c%"▼だい5【だい#4】", c%"ごだいご", c%"ごだいご▽", c%"ごだいご▽d", c%"ごだいご▽だ", c%"ごだいご▽だい", c%"ごだいご▽だい5", c%"ごだいご▼だいご"] := by
  decide +kernel

/-- Words are asked for while keys are pending. The next letter completes kana with them (`Kak a`, and `Kak K`, where `っ` is the kana), or they are forgotten
(`Kak t`, and `Kas`, Tab, `hi`, which is no `し`); an abbreviation which is opened while keys are pending keeps them at its end. -/
def leftovers : List Act :=
  keys c%"Kak aKak ta" ++ [.poll] ++ keys c%"Kak K" ++ [.key .ctrlG, .poll] ++ keys c%"k/b" ++ [.key .back, .key .back, .key .back, .key .ctrlJ] ++ keys c%"Kas" ++
    [.key .tab] ++ keys c%"hi"

theorem leftovers_seen : (told leftovers).map (·.map (·.2.1)) =
    some [c%"▽k", c%"▽か", c%"▽かk", c%"▼化", c%"化か", c%"化か▽k", c%"化か▽か", c%"化か▽かk", c%"化か▼化", c%"化か化t", c%"化か化た", [], c%"▽k", c%"▽か", c%"▽かk", c%"▼化",
      c%"化▽っk", c%"化", [], c%"k", c%"▽k", c%"▽bk", c%"▽b", c%"▽", [], [], c%"▽k", c%"▽か", c%"▽かs", c%"■化", c%"化h", c%"化ひ"] := by
  decide +kernel

/-- With the default configuration each of the four marks after a word converts it, and follows it. -/
theorem marks_convert : ∀ x ∈ [(c%"Ka.", c%"▼化。"), (c%"Ka,", c%"▼化、"), (c%"Ka]", c%"▼化」"), (c%"Kaz]", c%"▼化』")],
    (told (keys x.1)).bind (·.getLast?) = some (.taken true, x.2, .hiragana) := by
  decide +kernel

/-- Ctrl-g goes back to what was done before, and what was done before is remembered after a word has been written with Ctrl-j: given up in direct input, it
opens a new reading `▽` behind the written text. (After a word which was confirmed in a list it does nothing.) In okurigana it goes back two steps. -/
theorem given_up_seen : [keys c%"Ka" ++ [.key .ctrlJ, .key .ctrlG] ++ keys c%"ka", keys c%"/ab" ++ [.key .ctrlJ, .poll, .key .ctrlG], keys c%"KaK" ++ [.key .ctrlG],
      keys c%"Ka" ++ [.key .ctrlG, .key .ctrlG], keys c%"Ka " ++ [.key .enter, .key .ctrlG]].map (fun acts => (told acts).map (·.map (·.2.1))) =
    [some [c%"▽k", c%"▽か", c%"か", c%"か▽", c%"か▽k", c%"か▽か"], some [c%"▽", c%"▽a", c%"▽ab", c%"ab", [], c%"▽"], some [c%"▽k", c%"▽か", c%"▽か*k", []],
      some [c%"▽k", c%"▽か", [], []], some [c%"▽k", c%"▽か", c%"▼化", c%"化", c%"化"]] := by
  decide +kernel

/-- A lone `n` is written when Ctrl-q changes the input mode; with the default rule, katakana input writes it as hiragana,
neither in the form of the mode which is left nor in that of the mode which is entered. -/
theorem lone_n_aside : (told (keys c%"qkan" ++ [.key (.ctrl 'q')] ++ keys c%"ka")).map (·.map fun x => (x.2.1, x.2.2)) =
    some [([], .katakana), (c%"k", .katakana), (c%"カ", .katakana), (c%"カn", .katakana), (c%"カん", .hankakuKatakana), (c%"カんk", .hankakuKatakana), (c%"カんｶ", .hankakuKatakana)] := by
  decide +kernel

end Cskk.Props.Machine
