import Verif.Props.Navigate
import Verif.Props.Romaji

/-!
# C44: conversion offers exactly what the dictionaries have for the reading
-/

namespace Cskk.Props.Convert
open Spec Romaji Navigate

/-- The level after pending keys which are an entry of the romaji table (such as a last `n`) became kana. While
abbreviating there are no romaji. -/
def Flushed (tbl : Table) (s r : State) : Prop :=
  (s.mode = .preComposition ∧ ∃ kana carry, Entry tbl s.pre (kana, carry) ∧
    r = { s with kana := s.kana ++ kana, raw := s.raw ++ kana, pre := carry, capital := false }) ∨
  (s.mode = .preCompositionOkurigana ∧ ∃ kana carry, Entry tbl s.pre (kana, carry) ∧
    r = { s with okuri := s.okuri ++ kana, useOkuri := true, pre := carry, capital := false }) ∨
  ((s.mode = .abbreviation ∨ ¬ ∃ v, Entry tbl s.pre v) ∧ r = s)

/-- The key under which the words of a level are looked up: its reading, and its okurigana if it has one. -/
def lookupKey (s : State) : CompositeKey := ⟨s.raw, if s.useOkuri = true ∧ s.okuri ≠ [] then some s.okuri else none⟩

/-- The level with the result of a lookup, the first candidate being the current one. -/
def withCandidates (s : State) (cs : List Candidate) : State :=
  { s with cands := ⟨lookupKey s, 0, cs⟩, compositedOkuri := s.okuri }

/-- The level in mode `m`, with the mode before in its history. -/
def inMode (s : State) (m : CompositionMode) : State := { s with mode := m, history := remember s.history s.mode }

/-- The modes in which a reading is typed. -/
def Composing (s : State) : Prop :=
  s.mode = .preComposition ∨ s.mode = .preCompositionOkurigana ∨ s.mode = .abbreviation

theorem compositeKey_eq (s : State) : s.compositeKey = lookupKey s := by
  unfold State.compositeKey lookupKey
  cases s.useOkuri <;> cases s.okuri <;> simp

theorem setCandidates_eq (s : State) (cs : List Candidate) : s.setCandidates cs = withCandidates s cs := by
  unfold State.setCandidates withCandidates CandidateList.set
  rw [compositeKey_eq]

theorem greedy_none {tbl : Table} {k : List Keysym} (h : ¬ ∃ v, Entry tbl k v) :
    (KanaBuilder.ofTable tbl).convertGreedy k = none := by
  cases hv : (KanaBuilder.ofTable tbl).convertGreedy k with
  | none => rfl
  | some v => exact absurd ⟨v, (convert_greedy_iff tbl k v).mp hv⟩ h

theorem outputConverted_eq (e : Env) (c : Ctx) (tbl : Table) (hk : c.kanaConv = KanaBuilder.ofTable tbl) (r : State)
    (hf : Flushed tbl c.top r) (im : InputMode) : c.outputConverted e im c.top.mode = { c with top := r } := by
  rcases hf with ⟨hm, kana, carry, he, rfl⟩ | ⟨hm, kana, carry, he, rfl⟩ | ⟨h, rfl⟩
  · unfold Ctx.outputConverted
    rw [hk, (convert_greedy_iff tbl _ _).mpr he, hm]
    simp [Ctx.setCarryOver, Ctx.mapTop, State.pushFor, State.clearPre, hm, hk]
  · unfold Ctx.outputConverted
    rw [hk, (convert_greedy_iff tbl _ _).mpr he, hm]
    simp [Ctx.setCarryOver, Ctx.mapTop, State.pushFor, State.clearPre, hm, hk]
  · unfold Ctx.outputConverted
    rcases h with h | h
    · rw [h]
      cases c.kanaConv.convertGreedy c.top.pre <;> rfl
    · rw [hk, greedy_none h, ← hk]

theorem composing_ne {s : State} (h : Composing s) :
    s.mode ≠ .register ∧ s.mode ≠ .compositionSelection ∧ s.mode ≠ .completion := by
  rcases h with h | h | h <;> rw [h] <;> decide

theorem flushed_frame {tbl : Table} {s r : State} (h : Flushed tbl s r) :
    r.history = s.history ∧ r.mode = s.mode ∧ r.inputMode = s.inputMode ∧ r.confirmed = s.confirmed := by
  rcases h with ⟨_, _, _, _, rfl⟩ | ⟨_, _, _, _, rfl⟩ | ⟨_, rfl⟩ <;> exact ⟨rfl, rfl, rfl, rfl⟩

/-- One instruction, which does not end the command by itself. -/
theorem single (e : Env) (c c' : Ctx) (i : Instruction) (cm : CompositionMode) (im : InputMode)
    (h : c.instruction e i cm im = .ok (c', none)) : c.processInstructions e [i] cm im = .ok (c', true) := by
  unfold Ctx.processInstructions Ctx.runInstructions
  rw [h]; rfl

section
variable (e : Env) (c : Ctx) (ev : KeyEvent) (tbl : Table) (r : State)
  (hk : c.kanaConv = KanaBuilder.ofTable tbl) (hm : Composing c.top) (hr : ¬ IsRelease ev)
  (hf : Flushed tbl c.top r) (hs : c.skipCommand ev = false)
include hk hm hr hf hs

/-- C44: if the dictionaries have words for the reading, these and only these are the candidates, in this order, and the
first one is selected. -/
theorem convert_known (hc : CommandIs c ev [.tryNextCandidate]) (hh : c.top.history.length ≤ 20) (x : Candidate)
    (xs : List Candidate) (hx : Dicts.getAll c.dicts (lookupKey r) = .ok (x :: xs)) :
    c.processKeyEvent e ev =
      .ok ({ c with top := inMode (withCandidates r (x :: xs)) .compositionSelection }, true) := by
  obtain ⟨h1, h2, _⟩ := composing_ne hm
  obtain ⟨fh, fm, _, _⟩ := flushed_frame hf
  rw [key_command e c ev _ hr h1 hc hs]
  apply single
  simp only [Ctx.instruction, Ctx.tryNextCandidate]
  rw [if_pos h2, outputConverted_eq e c tbl hk r hf]
  simp only [Ctx.updateCandidateList, compositeKey_eq, hx, Bind.bind, Except.bind, pure, Except.pure, Ctx.mapTop,
    setCandidates_eq]
  simp only [withCandidates, List.isEmpty_cons, Bool.and_false, Bool.false_eq_true, if_false, Bool.not_false, if_true,
    Ctx.setCompositionMode, Ctx.mapTop, State.changeMode]
  rw [changeModeFrom_eq _ _ _ (by show r.history.length ≤ 20; rw [fh]; exact hh)]
  rfl

/-- C44: … and the text shown is the first word, with the okurigana. -/
theorem convert_shows (hc : CommandIs c ev [.tryNextCandidate]) (hh : c.top.history.length ≤ 20) (x : Candidate)
    (xs : List Candidate) (hx : Dicts.getAll c.dicts (lookupKey r) = .ok (x :: xs)) :
    ∃ c', c.processKeyEvent e ev = .ok (c', true) ∧ c'.below = c.below ∧ c'.dicts = c.dicts ∧
      c'.candidates = x :: xs ∧ c'.cursorPosition = some 0 ∧
      c'.top.preeditString e c'.top.inputMode =
        c.top.confirmed ++ '▼' :: (x.output ++ e.kanaForm.adjust c.top.inputMode r.okuri) := by
  obtain ⟨_, _, fi, fc⟩ := flushed_frame hf
  refine ⟨_, convert_known e c ev tbl r hk hm hr hf hs hc hh x xs hx, rfl, rfl, rfl, rfl, ?_⟩
  rw [(Confirm.shown e (inMode (withCandidates r (x :: xs)) .compositionSelection) x rfl).1 rfl]
  show r.confirmed ++ '▼' :: (x.output ++ e.kanaForm.adjust r.inputMode r.okuri) = _
  rw [fi, fc]

/-- C44: if the dictionaries have no word for the reading, the registration of one begins (unless ten levels are open). -/
theorem convert_unknown (hc : CommandIs c ev [.tryNextCandidate]) (hh : c.top.history.length ≤ 20)
    (hx : Dicts.getAll c.dicts (lookupKey r) = .ok []) (hn : r.kana ≠ []) :
    c.processKeyEvent e ev =
      .ok (if c.depth < 10 then registering { c with top := withCandidates r [] } c.top.mode
        else { c with top := withCandidates r [] }, true) := by
  obtain ⟨h1, h2, _⟩ := composing_ne hm
  obtain ⟨fh, fm, _, _⟩ := flushed_frame hf
  rw [key_command e c ev _ hr h1 hc hs]
  apply single
  simp only [Ctx.instruction, Ctx.tryNextCandidate]
  rw [if_pos h2, outputConverted_eq e c tbl hk r hf]
  have hne : r.kana.isEmpty = false := by simpa using hn
  simp only [Ctx.updateCandidateList, compositeKey_eq, hx, Bind.bind, Except.bind, pure, Except.pure, Ctx.mapTop,
    setCandidates_eq]
  have hk' : (withCandidates r []).kana.isEmpty = false := hne
  have hl' : (withCandidates r []).cands.cands.isEmpty = true := rfl
  simp only [hk', hl', Bool.not_false, Bool.and_true, if_true]
  rw [enterRegister_eq _ _ (by show r.history.length ≤ 20; rw [fh]; exact hh)]
  rfl

/-- C44: with nothing typed the key does nothing (the list of candidates is empty). -/
theorem convert_nothing (hc : CommandIs c ev [.tryNextCandidate])
    (hx : Dicts.getAll c.dicts (lookupKey r) = .ok []) (hn : r.kana = []) :
    c.processKeyEvent e ev = .ok ({ c with top := withCandidates r [] }, true) := by
  obtain ⟨h1, h2, _⟩ := composing_ne hm
  rw [key_command e c ev _ hr h1 hc hs]
  apply single
  simp only [Ctx.instruction, Ctx.tryNextCandidate]
  rw [if_pos h2, outputConverted_eq e c tbl hk r hf]
  simp only [Ctx.updateCandidateList, compositeKey_eq, hx, Bind.bind, Except.bind, pure, Except.pure, Ctx.mapTop,
    setCandidates_eq]
  have hk' : (withCandidates r []).kana.isEmpty = true := by show r.kana.isEmpty = true; rw [hn]; rfl
  have hl' : (withCandidates r []).cands.cands.isEmpty = true := rfl
  simp only [hk', hl', Bool.not_true, Bool.false_and, Bool.false_eq_true, if_false]

/-- C28/C44: the completion key lists the completions of the reading, the first one being shown. -/
theorem complete_known (hc : CommandIs c ev [.tryNextCompletion]) (hh : c.top.history.length ≤ 20) (x : Candidate)
    (xs : List Candidate) (hx : Dicts.getAllComplete c.dicts (lookupKey r) = .ok (x :: xs)) :
    c.processKeyEvent e ev =
      .ok ({ c with top := inMode (withCandidates r (x :: xs)) .completion }, true) := by
  obtain ⟨h1, _, h3⟩ := composing_ne hm
  obtain ⟨fh, fm, _, _⟩ := flushed_frame hf
  rw [key_command e c ev _ hr h1 hc hs]
  apply single
  simp only [Ctx.instruction, Ctx.tryNextCompletion]
  rw [if_pos h3, outputConverted_eq e c tbl hk r hf]
  simp only [Ctx.updateCompletionList, compositeKey_eq, hx, Bind.bind, Except.bind, pure, Except.pure, Ctx.mapTop,
    setCandidates_eq]
  simp only [withCandidates, List.isEmpty_cons, Bool.and_false, Bool.false_eq_true, if_false, Bool.not_false, if_true,
    Ctx.setCompositionMode, Ctx.mapTop, State.changeMode]
  rw [changeModeFrom_eq _ _ _ (by show r.history.length ≤ 20; rw [fh]; exact hh)]
  rfl

/-- C28/C44: without completions the mode stays as it is. -/
theorem complete_unknown (hc : CommandIs c ev [.tryNextCompletion])
    (hx : Dicts.getAllComplete c.dicts (lookupKey r) = .ok []) :
    c.processKeyEvent e ev = .ok ({ c with top := withCandidates r [] }, true) := by
  obtain ⟨h1, _, h3⟩ := composing_ne hm
  rw [key_command e c ev _ hr h1 hc hs]
  apply single
  simp only [Ctx.instruction, Ctx.tryNextCompletion]
  rw [if_pos h3, outputConverted_eq e c tbl hk r hf]
  simp only [Ctx.updateCompletionList, compositeKey_eq, hx, Bind.bind, Except.bind, pure, Except.pure, Ctx.mapTop,
    setCandidates_eq]
  have hl' : (withCandidates r []).cands.cands.isEmpty = true := rfl
  simp only [hl', Bool.and_true, Bool.not_true, Bool.false_eq_true, if_false, ite_self]

end

/-! ## Walking through the completions -/

/-- C43: the keys for the next and the previous completion move the cursor inside the list and stop at its ends. -/
theorem completion_moves (e : Env) (c : Ctx) (ev : KeyEvent) (h : c.top.mode = .completion)
    (hin : c.top.cands.cursor < c.top.cands.cands.length) (hr : ¬ IsRelease ev) :
    (CommandIs c ev [.nextCandidatePointer] →
      c.processKeyEvent e ev =
        .ok (moved c (min (c.top.cands.cursor + 1) (c.top.cands.cands.length - 1)), true)) ∧
    (CommandIs c ev [.previousCandidatePointer] →
      c.processKeyEvent e ev = .ok (moved c (c.top.cands.cursor - 1), true)) := by
  have hs : c.skipCommand ev = false := by simp [Ctx.skipCommand, h, hasRom2kanaConversion]
  have h1 : c.top.mode ≠ .register := by rw [h]; decide
  constructor <;> intro hc <;> rw [key_command e c ev _ hr h1 hc hs] <;> apply single <;> simp only [Ctx.instruction]
  · have hlen : 1 ≤ c.top.cands.cands.length := by omega
    simp only [State.forward, CandidateList.forward, usizeSub_pos e.prof _ hlen, Bind.bind, Except.bind, pure, Except.pure]
    by_cases hl : c.top.cands.cursor < c.top.cands.cands.length - 1
    · rw [if_pos hl]
      have : min (c.top.cands.cursor + 1) (c.top.cands.cands.length - 1) = c.top.cands.cursor + 1 := by omega
      rw [this]; rfl
    · rw [if_neg hl]
      have : min (c.top.cands.cursor + 1) (c.top.cands.cands.length - 1) = c.top.cands.cursor := by omega
      rw [this]; rfl
  · unfold Ctx.mapTop State.backward CandidateList.backward
    by_cases h0 : c.top.cands.cursor > 0
    · rw [if_pos h0]; rfl
    · rw [if_neg h0]
      have : c.top.cands.cursor - 1 = c.top.cands.cursor := by omega
      rw [this]; rfl

/-! ## The shipped rules -/

/-- A key which is in no entry of the table completes no romaji sequence. -/
theorem skip_of_absent (c : Ctx) (ev : KeyEvent) (tbl : Table) (hk : c.kanaConv = KanaBuilder.ofTable tbl)
    (h : ∀ x ∈ tbl, ev.symbol ∉ x.1 ∧ KanaBuilder.uncapitalize ev.symbol ∉ x.1) : c.skipCommand ev = false := by
  have hnone : ∀ k, (∀ x ∈ tbl, k ∉ x.1) → ∀ ks, c.kanaConv.convertNonPartial (ks ++ [k]) = none := by
    intro k hk' ks
    cases hv : c.kanaConv.convertNonPartial (ks ++ [k]) with
    | none => rfl
    | some v =>
      rw [hk] at hv
      obtain ⟨pre, post, he, _⟩ := ((convert_non_partial_iff _ _ _).mp hv).1
      exact absurd (show k ∈ ks ++ [k] by simp) (hk' (ks ++ [k], v) (by rw [he]; simp))
  unfold Ctx.skipCommand KanaBuilder.combineLower KanaBuilder.combineRaw
  rw [hnone _ (fun x hx => (h x hx).1), hnone _ (fun x hx => (h x hx).2)]
  simp

/-- In the shipped rules space converts while a reading is typed, in the three kana modes. -/
theorem shipped_space (c : Ctx) (hm : Composing c.top) (hi : c.top.inputMode ≠ .ascii ∧ c.top.inputMode ≠ .zenkaku)
    (hr : c.cmds = Assets.defaultCommands ∧ c.kanaConv = Assets.defaultKana ∨
      c.cmds = Assets.azikCommands ∧ c.kanaConv = Assets.azikKana) :
    CommandIs c ⟨0x20, 0⟩ [.tryNextCandidate] ∧ c.skipCommand ⟨0x20, 0⟩ = false := by
  refine ⟨?_, ?_⟩
  · apply commandIs_of_find
    rcases hr with ⟨h, _⟩ | ⟨h, _⟩ <;> rw [h] <;> rcases hm with h | h | h <;> rw [h] <;>
      cases him : c.top.inputMode <;> first | exact absurd him hi.1 | exact absurd him hi.2 | decide +kernel
  · rcases hr with ⟨_, h⟩ | ⟨_, h⟩
    · exact skip_of_absent c _ _ h (by decide +kernel)
    · exact skip_of_absent c _ _ h (by decide +kernel)

/-- `かん` in the dictionary, `▽かn` typed. -/
def kan : Ctx :=
  let d : CskkDict := ⟨true, .static ⟨[], [(c%"かん", ⟨c%"かん", false, [([], [⟨c%"缶", none⟩, ⟨c%"感", some c%"心"⟩])]⟩)]⟩⟩
  let s := State.new .hiragana .direct
  Ctx.mk [] { s with mode := .preComposition, kana := c%"か", raw := c%"か", pre := [0x6e], history := [.direct], confirmed := c%"を" }
    Assets.defaultCommands Assets.defaultKana [d] Config.default

/-- The hypotheses are met: the last `n` is part of the reading. -/
example : Composing kan.top ∧ kan.kanaConv = KanaBuilder.ofTable Assets.defaultRomaji ∧
    Flushed Assets.defaultRomaji kan.top { kan.top with kana := c%"かん", raw := c%"かん", pre := [] } ∧
    Dicts.getAll kan.dicts (lookupKey { kan.top with kana := c%"かん", raw := c%"かん", pre := [] }) =
      .ok [⟨c%"かん", none, false, c%"缶", none, c%"缶"⟩, ⟨c%"かん", none, false, c%"感", some c%"心", c%"感"⟩] := by
  refine ⟨Or.inl rfl, rfl, Or.inl ⟨rfl, c%"ん", [], ?_, rfl⟩, by decide +kernel⟩
  rw [← convert_greedy_iff]
  decide +kernel

example :
    (kan.processKeyEvents (Assets.env ⟨true⟩) [⟨0x20, 0⟩]).toOption.map (·.preedit (Assets.env ⟨true⟩)) = some c%"を▼缶" ∧
    (Ctx.processKeyEvents (Assets.env ⟨true⟩) { kan with dicts := [] } [⟨0x20, 0⟩]).toOption.map (·.preedit (Assets.env ⟨true⟩)) =
      some c%"▼かん【】" ∧
    (kan.processKeyEvents (Assets.env ⟨true⟩) [⟨0xff09, 0⟩, ⟨0xff09, 0⟩, ⟨0xff09, 0⟩]).toOption.map
      (·.preedit (Assets.env ⟨true⟩)) = some c%"を■感" := by
  decide +kernel

end Cskk.Props.Convert
