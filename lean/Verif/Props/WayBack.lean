import Verif.Props.Wishes
import Verif.Props.MachineUse

/-!
# C94: there is always a way back
-/

namespace Cskk.Props.WayBack

open Spec Spec.Typing Spec.Document Spec.Wishes Spec.ModeKeys Spec.Machine ShippedTyping Document Cskk.Props.Machine
open Cskk.Props.Wishes (Within)

/-- The keys which lead to direct hiragana input from everywhere within a level. -/
def home (L : Layout) : List Machine.Key := [.ctrlJ, .ctrl L.toggle, .char 'l', .ctrlJ]

/-- The same as events: Ctrl-j, Ctrl with the key which switches the kana, `l`, Ctrl-j. -/
def homeEvents (L : Layout) : List KeyEvent := [⟨0x6a, 4⟩, ⟨L.toggle.toNat, 4⟩, ⟨0x6c, 0⟩, ⟨0x6a, 4⟩]

section
variable {pr : Bool} {S : Setup} {c : Ctx} {D : Desk}

theorem presses_go (h : Rel pr S c D) {l : List Machine.Key} {D' : Desk} (hs : D.presses S l = some D') :
    ∃ c', c.processKeyEvents (Assets.env ⟨pr⟩) (l.map Machine.Key.event) = .ok c' ∧ Rel pr S c' D' := by
  induction l generalizing c D with
  | nil => cases hs; exact ⟨c, rfl, h⟩
  | cons k l ih =>
    unfold Desk.presses at hs
    cases hk : D.press S k with
    | none => rw [hk] at hs; cases hs
    | some r =>
      rw [hk] at hs
      obtain ⟨c1, k1, h1⟩ := press_goes h (b := r.2) (D' := r.1) hk
      obtain ⟨c2, k2, h2⟩ := ih h1 hs
      refine ⟨c2, ?_, h2⟩
      rw [List.map_cons, Ascii.pke_cons _ _ _ _ _ _ k1]
      exact k2

/-- What Ctrl-j leaves: direct input of kana, and nothing of the text is lost. -/
structure Left (D D' : Desk) : Prop where
  kana : kanaMode D'.mode = true
  direct : ∃ u b, D'.phase = .direct u b
  waiting : D'.waiting = D.waiting
  written : ∃ w, D'.written = D.written ++ w

theorem settle_left (S : Setup) (D : Desk) (a : Asked) (x : Candidate) (hk : kanaMode D.mode = true) : Left D (D.settle S a x) :=
  ⟨hk, ⟨[], false, rfl⟩, rfl, ⟨_, rfl⟩⟩

theorem commit_left (D : Desk) (w : Str) (hk : kanaMode D.mode = true) : Left D (D.commit w) := ⟨hk, ⟨[], false, rfl⟩, rfl, ⟨_, rfl⟩⟩

theorem ctrlJ_leaves (h : Rel pr S c D) : ∃ D' b, D.press S .ctrlJ = some (D', b) ∧ Left D D' := by
  have hl := h.level
  show ∃ D' b, D.plain S .ctrlJ = some (D', b) ∧ _
  unfold Desk.plain
  cases hp : D.phase with
  | direct u b =>
    refine ⟨_, _, rfl, ?_⟩
    cases hk : kanaMode D.mode with
    | true => exact ⟨hk, ⟨u, b, hp⟩, rfl, ⟨[], (List.append_nil _).symm⟩⟩
    | false => exact ⟨rfl, ⟨u, b, rfl⟩, rfl, ⟨[], (List.append_nil _).symm⟩⟩
  | reading d => rw [hp] at hl; exact ⟨_, _, rfl, commit_left D _ (ReadingAt.kanaMode hl)⟩
  | short t u b => rw [hp] at hl; exact ⟨_, _, rfl, commit_left D _ (ShortAt.kanaMode hl)⟩
  | okuri s t u b => rw [hp] at hl; exact ⟨_, _, rfl, commit_left D _ (OkuriAt.kanaMode hl)⟩
  | choosing a words i =>
    rw [hp] at hl
    have hi : i < words.length := ChoosingAt.cursor hl
    refine ⟨_, true, ?_, settle_left S D a words[i] (ChoosingAt.kanaMode hl)⟩
    simp [hi]
  | completing t u s words i =>
    rw [hp] at hl
    have hi : i < words.length := CompletingAt.cursor hl
    refine ⟨_, true, ?_, settle_left S D ⟨[], [], false, false, false, []⟩ words[i] (CompletingAt.kanaMode hl)⟩
    simp [hi, Desk.settleCompleted]

theorem toggle_facts {L : Layout} {c : Ctx} (h : Uses c L) :
    printable L.toggle = true ∧ L.toggle ≠ 'j' ∧ L.toggle ≠ 'g' ∧ L.toggle ≠ 'h' ∧ L.toggle ≠ 'H' ∧ L.toggle ≠ 'm' ∧ L.toggle ≠ 'G' ∧
    L.toggle ≠ 'l' ∧ command L .direct [] 'l' = true := by
  cases h with
  | default => decide +kernel
  | azik => decide +kernel

theorem target_kana {m : InputMode} : kanaMode (ModeKey.target .halfKana m) = true := by cases m <;> rfl

/-- From everywhere within a level: direct hiragana input, with nothing typed. -/
theorem home_leads (h : Rel pr S c D) : ∃ D', D.presses S (home S.layout) = some D' ∧ D'.phase = .direct [] false ∧ D'.mode = .hiragana ∧
    D'.waiting = D.waiting ∧ ∃ w, D'.written = D.written ++ w := by
  obtain ⟨t1, t2, t3, t4, t5, t6, t7, t8, t9⟩ := toggle_facts h.runs.uses
  obtain ⟨D1, b1, e1, l1⟩ := ctrlJ_leaves h
  obtain ⟨u, b, hp⟩ := l1.direct
  obtain ⟨w, hw⟩ := l1.written
  have e2 : ∃ D2 : Desk, ∃ w2, D1.press S (.ctrl S.layout.toggle) = some (D2, true) ∧ D2.phase = .direct [] false ∧ kanaMode D2.mode = true ∧
      D2.waiting = D1.waiting ∧ D2.written = D1.written ++ w2 := by
    refine ⟨{ D1.switch S [] .halfKana with written := D1.written ++ S.form (S.aside D1.mode) (pendingKana S.layout.tbl u) }, _, ?_, rfl, target_kana, rfl, rfl⟩
    show (if printable S.layout.toggle then D1.control S S.layout.toggle else none) = _
    rw [if_pos t1]
    unfold Desk.control
    rw [if_neg t2, if_neg t3, hp]
    dsimp only
    rw [if_neg (by simp [t4, t5]), if_neg t6, if_neg (by simp [t7]), if_pos ⟨l1.kana, rfl⟩]
  obtain ⟨D2, w2, e2, p2, k2, q2, v2⟩ := e2
  have e3 : ∃ D3 : Desk, ∃ w3, D2.press S (.char 'l') = some (D3, true) ∧ D3.phase = .direct [] false ∧ D3.mode = .ascii ∧
      D3.waiting = D2.waiting ∧ D3.written = D2.written ++ w3 := by
    refine ⟨D2.switch S [] .ascii, _, ?_, rfl, ?_, rfl, rfl⟩
    · show D2.plain S (.char 'l') = _
      unfold Desk.plain
      rw [p2]
      dsimp only
      rw [if_pos (by decide)]
      unfold Desk.directChar
      rw [if_neg (by intro hx; rw [hx] at k2; cases k2), if_neg (by intro hx; rw [hx] at k2; cases k2), if_pos t9]
      unfold Desk.commandDirect
      rw [if_neg t8.symm, if_pos rfl]
      rfl
    · show ModeKey.target .ascii D2.mode = _
      cases D2.mode <;> rfl
  obtain ⟨D3, w3, e3, p3, k3, q3, v3⟩ := e3
  have e4 : D3.press S .ctrlJ = some ({ D3 with mode := .hiragana }, true) := by
    show D3.plain S .ctrlJ = _
    unfold Desk.plain
    rw [p3]
    dsimp only
    rw [k3]
    rfl
  refine ⟨{ D3 with mode := .hiragana }, ?_, p3, rfl, q3.trans (q2.trans l1.waiting), w ++ w2 ++ w3, ?_⟩
  · unfold home Desk.presses
    rw [e1]
    show D1.presses S _ = _
    unfold Desk.presses
    rw [e2]
    show D2.presses S _ = _
    unfold Desk.presses
    rw [e3]
    show D3.presses S _ = _
    unfold Desk.presses
    rw [e4]
    rfl
  · show D3.written = _
    rw [v3, v2, hw, List.append_assoc, List.append_assoc, List.append_assoc]

/-- The registration can be given up: it was not begun by a keyword. -/
def Returns (W : Waiter) : Prop := W.words ≠ [] ∨ W.asked.strict = true ∨ W.asked.tail = []

theorem resume_leads (hp : D.phase = .direct [] false) {W : Waiter} {rest : List Waiter} (hw : D.waiting = W :: rest) (hr : Returns W) :
    ∃ D' : Desk, D.press S .ctrlG = some (D', true) ∧ D'.waiting = rest ∧ D'.written = W.written := by
  have key : ∃ D' : Desk, D.resume = some D' ∧ D'.waiting = rest ∧ D'.written = W.written := by
    unfold Desk.resume
    rw [hw]
    dsimp only
    by_cases h1 : W.words ≠ []
    · rw [if_pos h1]; exact ⟨_, rfl, rfl, rfl⟩
    · rw [if_neg h1]
      by_cases h2 : W.asked.strict = true
      · rw [if_pos h2]; exact ⟨_, rfl, rfl, rfl⟩
      · rw [if_neg h2, if_pos (hr.resolve_left h1 |>.resolve_left h2)]
        exact ⟨_, rfl, rfl, rfl⟩
  obtain ⟨D', e, a, b⟩ := key
  refine ⟨D', ?_, a, b⟩
  show D.plain S .ctrlG = _
  unfold Desk.plain
  rw [hp]
  dsimp only
  rw [if_neg (by rw [hw]; simp), e]
  rfl

/-- The keys which lead back out of `n` registrations. -/
def wayBack (L : Layout) : Nat → List Machine.Key
  | 0 => home L
  | n + 1 => home L ++ .ctrlG :: wayBack L n

theorem presses_append (S : Setup) (D : Desk) (l r : List Machine.Key) : D.presses S (l ++ r) = (D.presses S l).bind fun D' => D'.presses S r := by
  induction l generalizing D with
  | nil => rfl
  | cons k l ih =>
    show (D.press S k).bind (fun q => q.1.presses S (l ++ r)) = ((D.press S k).bind fun q => q.1.presses S l).bind _
    cases D.press S k with
    | none => rfl
    | some q => exact ih q.1

/-- From everywhere. -/
theorem back_leads (n : Nat) (h : Rel pr S c D) (hn : D.waiting.length = n) (hr : ∀ W ∈ D.waiting, Returns W) :
    ∃ D', D.presses S (wayBack S.layout n) = some D' ∧ D'.phase = .direct [] false ∧ D'.mode = .hiragana ∧ D'.waiting = [] ∧
      ∃ w, D'.written = D.output ++ w := by
  induction n generalizing c D with
  | zero =>
    have hw : D.waiting = [] := List.length_eq_zero_iff.mp hn
    obtain ⟨D', e, p, m, q, w, v⟩ := home_leads h
    exact ⟨D', e, p, m, q.trans hw, w, by rw [v]; unfold Desk.output; rw [hw]; rfl⟩
  | succ n ih =>
    cases hw : D.waiting with
    | nil => rw [hw] at hn; cases hn
    | cons W rest =>
      obtain ⟨D1, e1, p1, m1, q1, w1, v1⟩ := home_leads h
      obtain ⟨c1, _, h1⟩ := presses_go h e1
      obtain ⟨D2, e2, q2, v2⟩ := resume_leads (S := S) p1 (q1.trans hw) (hr W (by rw [hw]; exact List.mem_cons_self ..))
      obtain ⟨c2, _, h2⟩ := press_goes h1 (b := true) (D' := D2) e2
      obtain ⟨D3, e3, p3, m3, q3, w3, v3⟩ := ih h2 (by rw [q2]; rw [hw] at hn; exact Nat.succ.inj hn)
        fun W' hW' => hr W' (by rw [hw]; rw [q2] at hW'; exact List.mem_cons_of_mem _ hW')
      refine ⟨D3, ?_, p3, m3, q3, w3, ?_⟩
      · unfold wayBack
        rw [presses_append, e1]
        show D1.presses S _ = _
        unfold Desk.presses
        rw [e2]
        exact e3
      · rw [v3]
        congr 1
        unfold Desk.output
        rw [q2, hw, v2]
        cases rest with
        | nil => rfl
        | cons W' r => rw [List.getLast?_cons_cons, List.getLast?_cons]; rfl

end

/-- The limits of a shipped rule. -/
def limits (azik : Bool) : Limits := if azik then azikLimits else defaultLimits

theorem shipped_within (pr azik : Bool) (g : Config) : Within (shipped pr azik g).layout (limits azik) := by
  cases azik
  · exact .default
  · exact .azik

/-- **C94.** Whatever was done before, with whatever keys and calls the machine knows, there are keys which lead back, and then everything that
is wanted can be written; the text the application has not yet taken comes first. -/
theorem always_a_way (pr azik : Bool) (g : Config) (c : Ctx) (D : Desk) (h : Rel pr (shipped pr azik g) c D) (hr : ∀ W ∈ D.waiting, Returns W) :
    ∃ back c1, c.processKeyEvents (Assets.env ⟨pr⟩) back = .ok c1 ∧ back.length = 5 * D.waiting.length + 4 ∧
      (∃ w, c1.top.confirmed = D.output ++ w) ∧ c1.below = [] ∧
      ∀ ws s, GrantsAll (limits azik) g ⟨c1.top.confirmed, c1.dicts⟩ ws s →
        ∃ keys c2, c1.processKeyEvents (Assets.env ⟨pr⟩) keys = .ok c2 ∧ c2.pollOutput.2 = (if s.text = [] then none else some s.text) ∧
          c2.dicts = s.dicts := by
  obtain ⟨D', e, p, m, q, w, v⟩ := back_leads _ h rfl hr
  obtain ⟨c1, k1, h1⟩ := presses_go h e
  have hl : DirectAt c1.top [] false := by have := h1.level; rw [p] at this; exact this
  have hb := h1.base
  have hi : c1.top.inputMode = .hiragana := hb.mode.trans m
  have hbelow : c1.below = [] := by
    have := allWait_length h1.below
    rw [q] at this
    exact List.length_eq_zero_iff.mp this
  have hg : c1.config = g := h1.runs.config.symm
  have hlen : ∀ n, (wayBack (shipped pr azik g).layout n).length = 5 * n + 4 := by
    intro n
    induction n with
    | zero => rfl
    | succ n ih => simp [wayBack, home, ih]; omega
  refine ⟨_, c1, k1, by rw [List.length_map, hlen], ⟨w, hb.written.trans v⟩, hbelow, ?_⟩
  intro ws s hw
  rw [← hg] at hw
  obtain ⟨keys, c2, a, b, d, _⟩ := Wishes.everything_can_be_written (shipped_within pr azik g) pr c1 h1.runs.uses
    ⟨⟨.inl hl.mode, by rw [hi]; exact .inl rfl⟩, hl.mode, hl.pre, hl.kana, hl.raw, hl.okuri, hl.capital, hb.history⟩ hbelow hi hb.default ws s hw
  exact ⟨keys, c2, a, b, d⟩

/-- **C94 over a history.** The same after any history of calls of a new context. -/
theorem after_any_history (pr azik : Bool) (g : Config) (m : InputMode) (ds : List CskkDict) (l : List Act) (Z : Seat) (got : List (Answer × View))
    (h : (start azik g m ds).use (shipped pr) (names pr) l = some (Z, got)) (hr : ∀ W ∈ Z.desk.waiting, Returns W) :
    ∃ c back c1, observe (Assets.env ⟨pr⟩) (fresh azik g m ds) l = .ok (c, got) ∧
      c.processKeyEvents (Assets.env ⟨pr⟩) back = .ok c1 ∧ back.length = 5 * (c.depth - 1) + 4 ∧
      (∃ w, c1.top.confirmed = c.pollOutput.2.getD [] ++ w) ∧
      ∀ ws s, GrantsAll (limits Z.azik) c.config ⟨c1.top.confirmed, c1.dicts⟩ ws s →
        ∃ keys c2, c1.processKeyEvents (Assets.env ⟨pr⟩) keys = .ok c2 ∧ c2.pollOutput.2 = (if s.text = [] then none else some s.text) ∧
          c2.dicts = s.dicts := by
  obtain ⟨c, h1, h2⟩ := use_goes l (fresh_at pr azik g m ds) h
  obtain ⟨back, c1, a, b, d, _, f⟩ := always_a_way pr Z.azik Z.config c Z.desk h2.rel hr
  refine ⟨c, back, c1, h1, a, by rw [h2.rel.depth]; exact b, by rw [(poll_goes h2.rel).1]; exact d, ?_⟩
  rw [h2.config]
  exact f

/-- A registration within a registration, a list, and a reading: a history after which three levels are open. -/
def lost : List Act := keys c%"te" ++ keys c%"Ka " ++ keys c%"aSi " ++ keys c%"Kak"

/-- The hypotheses are met: two registrations are open, neither begun by a keyword, and a reading is typed. -/
example : ((start false Config.default .hiragana []).use (shipped true) (names true) lost).map
      (fun r => (r.1.desk.waiting.map fun W => (W.written, W.words, W.asked.tail), r.1.desk.phase, r.1.desk.output)) =
    some ([(c%"あ", [], []), (c%"て", [], [])], .reading ⟨c%"か", [0x6b], false⟩, c%"て") := by decide +kernel

/-- There the 14 keys lead back; て is not lost, and か, for which a word was wanted, becomes text (while words are registered て and あ are not shown). -/
example (p : Bool) : (((fresh false Config.default .hiragana []).processKeyEvents (Assets.env ⟨p⟩) (typed c%"teKa aSi Kak")).toOption.map
      fun c => (c.preedit (Assets.env ⟨p⟩), c.depth)) = some (c%"▼か【▼し【▽かk】】", 3) ∧
    (((fresh false Config.default .hiragana []).processKeyEvents (Assets.env ⟨p⟩)
        (typed c%"teKa aSi Kak" ++ (wayBack defaultLayout 2).map Machine.Key.event)).toOption.map
      fun c => (c.pollOutput.2, c.top.inputMode, c.top.mode, c.top.pre, c.depth)) = some (some c%"てか", .hiragana, .direct, [], 1) := by
  cases p <;> decide +kernel

end Cskk.Props.WayBack
