import Verif.Lemmas.Keys
import Verif.Spec.Select
import Verif.Spec.History
import Verif.Props.Confirm
import Verif.Props.Levels

/-!
# C43: next and previous walk through the candidates one by one
-/

namespace Cskk.Props.Navigate
open Spec

/-- Command lookup, in terms of the listed keys. -/
theorem getInstruction_some {c : Ctx} {ev : KeyEvent} {is : List Instruction} (p : Profile)
    (hm : c.top.mode ≠ .register) (h : CommandIs c ev is) :
    c.cmds.getInstruction p ev c.top.inputMode c.top.mode = .ok (some is) := by
  obtain ⟨l₁, k, l₂, he, hk, hl⟩ := h
  unfold CommandRule.getInstruction
  rw [if_neg hm, he]
  have h₁ : l₁.find? (fun e => decide (e.1 = CommandRule.matchingKey ev)) = none := by
    rw [List.find?_eq_none]
    intro x hx
    simp only [decide_eq_true_eq]
    rw [matchingKey_iff]
    exact hl x hx
  rw [List.find?_append, h₁]
  simp [(matchingKey_iff k ev).mpr hk]

/-- A key with a command: the command is executed, unless the key completes a romaji sequence. -/
theorem key_command (e : Env) (c : Ctx) (ev : KeyEvent) (is : List Instruction) (hr : ¬ IsRelease ev)
    (hm : c.top.mode ≠ .register) (h : CommandIs c ev is) (hs : c.skipCommand ev = false) :
    c.processKeyEvent e ev = c.processInstructions e is c.top.mode c.top.inputMode := by
  have hrel : Modifier.contains ev.modifiers Modifier.RELEASE = false := by
    cases hb : Modifier.contains ev.modifiers Modifier.RELEASE with
    | false => rfl
    | true => exact absurd ((contains_release ev).mp hb) hr
  unfold Ctx.processKeyEvent Ctx.processInner
  rw [hrel, hs]
  simp only [Bool.false_eq_true, if_false]
  rw [getInstruction_some e.prof hm h]
  rfl

/-- While choosing no key is part of a romaji sequence. -/
theorem choosing_skip {c : Ctx} (h : c.top.mode = .compositionSelection) (ev : KeyEvent) : c.skipCommand ev = false := by
  simp [Ctx.skipCommand, h, hasRom2kanaConversion]

theorem choosing_key (e : Env) (c : Ctx) (ev : KeyEvent) (i : Instruction) (h : c.top.mode = .compositionSelection)
    (hr : ¬ IsRelease ev) (hc : CommandIs c ev [i]) (c' : Ctx)
    (hi : c.instruction e i .compositionSelection c.top.inputMode = .ok (c', none)) :
    c.processKeyEvent e ev = .ok (c', true) := by
  rw [key_command e c ev [i] hr (by simp [h]) hc (choosing_skip h ev), h]
  unfold Ctx.processInstructions Ctx.runInstructions
  rw [hi]
  rfl

theorem usizeSub_pos (p : Profile) (n : Nat) (h : 1 ≤ n) : usizeSub p n 1 = .ok (n - 1) := by
  unfold usizeSub
  simp [h]

/-- C43: the key for the next candidate (space in the shipped rules) moves the cursor by one and changes nothing else. -/
theorem next_moves (e : Env) (c : Ctx) (ev : KeyEvent) (h : Choosing c) (hr : ¬ IsRelease ev)
    (hc : CommandIs c ev [.tryNextCandidate]) (hn : c.top.cands.cursor + 1 < c.top.cands.cands.length) :
    c.processKeyEvent e ev = .ok (moved c (c.top.cands.cursor + 1), true) := by
  refine choosing_key e c ev _ h.mode hr hc _ ?_
  have hlen : 1 ≤ c.top.cands.cands.length := by omega
  have hne : (c.top.cands.cursor != c.top.cands.cands.length - 1) = true := by
    rw [bne_iff_ne]; omega
  have hlt : c.top.cands.cursor < c.top.cands.cands.length - 1 := by omega
  simp [Ctx.instruction, Ctx.tryNextCandidate, CandidateList.hasNext, State.forward, CandidateList.forward,
    usizeSub_pos e.prof _ hlen, Bind.bind, Except.bind, pure, Except.pure, hne, hlt, moved]

theorem changeModeFrom_eq (s : State) (new old : CompositionMode) (h : s.history.length ≤ 20) :
    s.changeModeFrom new old = { s with mode := new, history := remember s.history old } := by
  unfold State.changeModeFrom remember HISTORY_MAX
  by_cases h20 : s.history.length = 20
  · simp [h20]
  · have : s.history.length + 1 - 20 = 0 := by omega
    have h' : ¬ 20 < s.history.length + 1 := by omega
    simp [this, h']

theorem enterRegister_eq (c : Ctx) (m : CompositionMode) (hh : c.top.history.length ≤ 20) :
    c.enterRegister m = if c.depth < 10 then registering c m else c := by
  unfold Ctx.enterRegister STACK_MAX registering
  rw [changeModeFrom_eq _ _ _ hh]

/-- C43: on the last candidate the key for the next one begins a registration, unless ten levels are open already, when
nothing happens. The history bound holds in every reachable state (C31). -/
theorem next_at_end (e : Env) (c : Ctx) (ev : KeyEvent) (h : Choosing c) (hr : ¬ IsRelease ev)
    (hc : CommandIs c ev [.tryNextCandidate]) (hn : c.top.cands.cursor + 1 = c.top.cands.cands.length)
    (hh : c.top.history.length ≤ 20) :
    c.processKeyEvent e ev =
      .ok (if c.depth < 10 then registering c .compositionSelection else c, true) := by
  refine choosing_key e c ev _ h.mode hr hc _ ?_
  have hlen : 1 ≤ c.top.cands.cands.length := by omega
  have hne : (c.top.cands.cursor != c.top.cands.cands.length - 1) = false := by
    rw [bne_eq_false_iff_eq]; omega
  simp only [Ctx.instruction, Ctx.tryNextCandidate, CandidateList.hasNext, usizeSub_pos e.prof _ hlen, Bind.bind,
    Except.bind, pure, Except.pure, hne, ne_eq, not_true_eq_false, if_false, Bool.not_false, if_true]
  rw [enterRegister_eq _ _ hh]

/-- C43: the key for the previous candidate (`x` in the shipped rules) moves the cursor back by one. -/
theorem previous_moves (e : Env) (c : Ctx) (ev : KeyEvent) (h : c.top.mode = .compositionSelection) (hr : ¬ IsRelease ev)
    (hc : CommandIs c ev [.tryPreviousCandidate]) (hn : 0 < c.top.cands.cursor) :
    c.processKeyEvent e ev = .ok (moved c (c.top.cands.cursor - 1), true) := by
  refine choosing_key e c ev _ h hr hc _ ?_
  have hne : (c.top.cands.cursor != 0) = true := by rw [bne_iff_ne]; omega
  simp [Ctx.instruction, h, CandidateList.hasPrevious, hne, Ctx.mapTop, State.backward, CandidateList.backward, hn, moved]

/-- C43: on the first candidate the key for the previous one gives the conversion up. -/
theorem previous_at_start (e : Env) (c : Ctx) (ev : KeyEvent) (h : c.top.mode = .compositionSelection)
    (hr : ¬ IsRelease ev) (hc : CommandIs c ev [.tryPreviousCandidate]) (hn : c.top.cands.cursor = 0)
    (hh : c.top.history.length ≤ 20) :
    c.processKeyEvent e ev = .ok (unchosen c, true) := by
  refine choosing_key e c ev _ h hr hc _ ?_
  simp only [Ctx.instruction, h, CandidateList.hasPrevious, hn, ne_eq, not_true_eq_false, if_false, bne_self_eq_false,
    Bool.not_false, if_true, Ctx.setCompositionMode, Ctx.mapTop, State.changeMode]
  rw [changeModeFrom_eq c.top.consolidate.clearCandidateList _ _ hh]
  simp only [State.consolidate, State.clearCandidateList, CandidateList.clear, CompositeKey.empty, unchosen]

/-- The same keys are commands wherever the cursor is. -/
theorem moved_command {c : Ctx} {ev : KeyEvent} {is : List Instruction} (i : Nat) (h : CommandIs c ev is) :
    CommandIs (moved c i) ev is := h

/-- C43: `n` times the key for the next candidate, as long as there are candidates. -/
theorem next_repeated (e : Env) (n : Nat) : ∀ (c : Ctx) (ev : KeyEvent), Choosing c → ¬ IsRelease ev →
    CommandIs c ev [.tryNextCandidate] → c.top.cands.cursor + n < c.top.cands.cands.length →
    c.processKeyEvents e (List.replicate n ev) = .ok (moved c (c.top.cands.cursor + n)) := by
  induction n with
  | zero => intro c ev h hr hc hn; rfl
  | succ n ih =>
    intro c ev h hr hc hn
    rw [List.replicate_succ]
    unfold Ctx.processKeyEvents
    rw [next_moves e c ev h hr hc (by omega)]
    show (moved c (c.top.cands.cursor + 1)).processKeyEvents e (List.replicate n ev) = _
    rw [ih (moved c (c.top.cands.cursor + 1)) ev ⟨h.mode, by show c.top.cands.cursor + 1 < c.top.cands.cands.length; omega⟩ hr
      (moved_command _ hc) (by show c.top.cands.cursor + 1 + n < c.top.cands.cands.length; omega)]
    show Except.ok (moved c (c.top.cands.cursor + 1 + n)) = _
    rw [Nat.add_assoc, Nat.add_comm 1 n]

/-- C43: what is shown after `n` steps is candidate `n` of the rest of the list. -/
theorem next_shows (e : Env) (n : Nat) (c : Ctx) (ev : KeyEvent) (x : Candidate) (h : Choosing c) (hr : ¬ IsRelease ev)
    (hc : CommandIs c ev [.tryNextCandidate]) (hx : c.top.cands.cands[c.top.cands.cursor + n]? = some x) :
    ∃ c', c.processKeyEvents e (List.replicate n ev) = .ok c' ∧ c'.below = c.below ∧ c'.dicts = c.dicts ∧
      c'.top.preeditString e c'.top.inputMode =
        c.top.confirmed ++ '▼' :: (x.output ++ e.kanaForm.adjust c.top.inputMode c.top.okuri) := by
  have hlt : c.top.cands.cursor + n < c.top.cands.cands.length := by
    rw [List.getElem?_eq_some_iff] at hx
    exact hx.1
  refine ⟨_, next_repeated e n c ev h hr hc hlt, rfl, rfl, ?_⟩
  exact (Confirm.shown e (moved c (c.top.cands.cursor + n)).top x hx).1 h.mode

/-- C43: previous undoes next. -/
theorem previous_undoes_next (e : Env) (c : Ctx) (ev ev' : KeyEvent) (h : Choosing c) (hr : ¬ IsRelease ev)
    (hr' : ¬ IsRelease ev') (hc : CommandIs c ev [.tryNextCandidate]) (hc' : CommandIs c ev' [.tryPreviousCandidate])
    (hn : c.top.cands.cursor + 1 < c.top.cands.cands.length) :
    c.processKeyEvents e [ev, ev'] = .ok c := by
  unfold Ctx.processKeyEvents
  rw [next_moves e c ev h hr hc hn]
  show (moved c (c.top.cands.cursor + 1)).processKeyEvents e [ev'] = _
  unfold Ctx.processKeyEvents
  rw [previous_moves e (moved c (c.top.cands.cursor + 1)) ev' h.mode hr' (moved_command _ hc') (Nat.succ_pos _)]
  rfl

/-- C43: giving the conversion up shows the reading again, with its okurigana. -/
theorem unchosen_shows (e : Env) (c : Ctx) :
    (unchosen c).top.preeditString e c.top.inputMode =
      c.top.confirmed ++ '▽' :: (e.kanaForm.adjust c.top.inputMode (c.top.kana ++ c.top.okuri) ++
        ((if c.top.pre.isEmpty then none else some (c.top.pre.map e.keysymName).flatten : Option Str).getD [])) := by
  simp [unchosen, State.preeditString, State.preeditDetail, State.unconverted]

/-! ## The same through `skk_context_select_candidate_at` -/

/-- C43: a valid index moves the cursor there. -/
theorem select_valid (c : Ctx) (i : Nat) (h : i < c.top.cands.cands.length) :
    c.selectCandidateAt i = (moved c i, true) := by
  have h0 : c.top.cands.cands.length ≠ 0 := by omega
  have h1 : ¬ ((i : Int) < 0) := by omega
  have h2 : ¬ ((i : Int) ≥ c.top.cands.cands.length) := by omega
  have hx : c.top.cands.cands[i]? = some c.top.cands.cands[i] := List.getElem?_eq_getElem h
  simp only [Ctx.selectCandidateAt, h0, if_false, h1, h2, Int.toNat_natCast, Ctx.mapTop, State.setPointer,
    CandidateList.setSelectionPointer, hx, moved]

/-- C43: an index behind the end puts the cursor on the last candidate and begins a registration. -/
theorem select_past_end (c : Ctx) (i : Int) (h : (c.top.cands.cands.length : Int) ≤ i) (hne : c.top.cands.cands ≠ [])
    (hh : c.top.history.length ≤ 20) :
    c.selectCandidateAt i =
      (if c.depth < 10 then registering (moved c (c.top.cands.cands.length - 1)) .compositionSelection
        else moved c (c.top.cands.cands.length - 1), true) := by
  have h0 : c.top.cands.cands.length ≠ 0 := by simpa using hne
  have h1 : ¬ (i < 0) := by omega
  have hlt : c.top.cands.cands.length - 1 < c.top.cands.cands.length := by omega
  have hx : c.top.cands.cands[c.top.cands.cands.length - 1]? = some c.top.cands.cands[c.top.cands.cands.length - 1] :=
    List.getElem?_eq_getElem hlt
  simp only [Ctx.selectCandidateAt, h0, if_false, h1, ge_iff_le, h, if_true, Ctx.mapTop, State.setPointer,
    CandidateList.setSelectionPointer, hx]
  exact congrArg (·, true) (enterRegister_eq (moved c (c.top.cands.cands.length - 1)) .compositionSelection hh)

/-- C43: a negative index gives the conversion up. -/
theorem select_negative (c : Ctx) (i : Int) (h : i < 0) (hne : c.top.cands.cands ≠ []) (hh : c.top.history.length ≤ 20) :
    c.selectCandidateAt i = (unchosen c, true) := by
  have h0 : c.top.cands.cands.length ≠ 0 := by simpa using hne
  simp only [Ctx.selectCandidateAt, h0, if_false, h, if_true, Ctx.setCompositionMode, Ctx.mapTop, State.changeMode]
  rw [changeModeFrom_eq c.top.consolidate.clearCandidateList _ _ hh]
  simp only [State.consolidate, State.clearCandidateList, CandidateList.clear, CompositeKey.empty, unchosen]

/-- C43: without candidates nothing is selected and nothing changes. -/
theorem select_nothing (c : Ctx) (i : Int) (h : c.top.cands.cands = []) : c.selectCandidateAt i = (c, false) := by
  simp [Ctx.selectCandidateAt, h]

/-! ## The shipped rules -/

theorem commandIs_of_find {c : Ctx} {ev : KeyEvent} {is : List Instruction}
    (h : ((c.cmds c.top.mode c.top.inputMode).find? fun b => decide (b.1 = CommandRule.matchingKey ev)).map (·.2) = some is) :
    CommandIs c ev is := by
  rw [Option.map_eq_some_iff] at h
  obtain ⟨⟨k, is'⟩, hf, rfl⟩ := h
  rw [List.find?_eq_some_iff_append] at hf
  obtain ⟨hk, l₁, l₂, he, hl⟩ := hf
  refine ⟨l₁, k, l₂, he, (matchingKey_iff k ev).mp (of_decide_eq_true hk), fun x hx hm => ?_⟩
  have := hl x hx
  rw [(matchingKey_iff x.1 ev).mpr hm] at this
  simp at this

/-- In the shipped rules space is the next candidate in all three kana modes, and `x` the previous one, except that the AZIK
rule has `x` in the hiragana mode only. -/
theorem shipped_keys (c : Ctx) (hr : c.cmds = Assets.defaultCommands ∨ c.cmds = Assets.azikCommands)
    (hm : c.top.mode = .compositionSelection) (hi : c.top.inputMode ≠ .ascii ∧ c.top.inputMode ≠ .zenkaku) :
    CommandIs c ⟨0x20, 0⟩ [.tryNextCandidate] ∧
      (c.cmds = Assets.defaultCommands ∨ c.top.inputMode = .hiragana →
        CommandIs c ⟨0x78, 0⟩ [.tryPreviousCandidate]) := by
  constructor
  · apply commandIs_of_find
    rcases hr with h | h <;> rw [h, hm] <;>
      cases him : c.top.inputMode <;> first | exact absurd him hi.1 | exact absurd him hi.2 | decide +kernel
  · intro h
    apply commandIs_of_find
    rcases h with h | h
    · rw [h, hm]
      cases him : c.top.inputMode <;> first | exact absurd him hi.1 | exact absurd him hi.2 | decide +kernel
    · rw [hm, h]
      rcases hr with h | h <;> rw [h] <;> decide +kernel

/-- A context choosing among three candidates, with okurigana. -/
def three : Ctx :=
  let x (w : Str) : Candidate := ⟨c%"おくr", some c%"る", true, w, none, w⟩
  let s := State.new .hiragana .direct
  Ctx.mk [] { s with mode := .compositionSelection, kana := c%"おく", raw := c%"おく", okuri := c%"る", useOkuri := true,
                     history := [.direct, .preComposition, .preCompositionOkurigana],
                     cands := ⟨⟨c%"おく", some c%"る"⟩, 0, [x c%"送", x c%"贈", x c%"遅"]⟩, confirmed := c%"を" }
    Assets.defaultCommands Assets.defaultKana [] Config.default

/-- The hypotheses are met; the preedit after 0 … 3 spaces and after `x`. -/
example : Choosing three ∧ ¬ IsRelease ⟨0x20, 0⟩ ∧ three.top.history.length ≤ 20 ∧ CommandIs three ⟨0x20, 0⟩ [.tryNextCandidate] :=
  ⟨⟨rfl, by decide⟩, by simp [IsRelease], by decide,
    (shipped_keys three (Or.inl rfl) rfl (by decide)).1⟩

example :
    (List.range 4).map (fun n => (three.processKeyEvents (Assets.env ⟨true⟩) (List.replicate n ⟨0x20, 0⟩)).toOption.map
      (·.preedit (Assets.env ⟨true⟩))) =
      [some c%"を▼送る", some c%"を▼贈る", some c%"を▼遅る", some c%"▼おく*る【】"] ∧
    (three.processKeyEvents (Assets.env ⟨true⟩) [⟨0x78, 0⟩]).toOption.map (·.preedit (Assets.env ⟨true⟩)) =
      some c%"を▽おくる" ∧
    ((three.selectCandidateAt 2).1.preedit (Assets.env ⟨true⟩), (three.selectCandidateAt 3).1.preedit (Assets.env ⟨true⟩),
      (three.selectCandidateAt (-1)).1.preedit (Assets.env ⟨true⟩)) =
      (c%"を▼遅る", c%"▼おく*る【】", c%"を▽おくる") := by
  decide +kernel

end Cskk.Props.Navigate
