import Verif.Props.TypeOn
import Verif.Props.Completion
import Verif.Props.Candidates

/-!
# C64: complete, choose, and confirm or cancel
-/

namespace Cskk.Props.CompletionCycle
open Cskk.Spec Cskk.Spec.Persist Cskk.Spec.UserDict Cskk.Dicts Cskk.Props.UserDict Cskk.Props.Navigate Cskk.Props.Convert
  Cskk.Props.Romaji Cskk.Props.WordCycle Cskk.Props.TypeOn

/-- The keys of the shipped rules. -/
def tab : KeyEvent := ⟨0xff09, 0⟩
def shiftTab : KeyEvent := ⟨0xff09, 1⟩
def return_ : KeyEvent := ⟨0xff0d, 0⟩
def escape : KeyEvent := ⟨0xff1b, 0⟩

theorem keys_pressed : ¬ IsRelease tab ∧ ¬ IsRelease shiftTab ∧ ¬ IsRelease return_ ∧ ¬ IsRelease escape := by
  simp [IsRelease, tab, shiftTab, return_, escape]

/-- The context in which completion `n` of the list `cs` is shown. -/
def completing (c : Ctx) (r : State) (cs : List Candidate) (n : Nat) : Ctx :=
  moved { c with top := inMode (withCandidates r cs) .completion } n

theorem shipped_tab (c : Ctx) (hm : c.top.mode = .preComposition ∨ c.top.mode = .abbreviation)
    (hi : c.top.inputMode ≠ .ascii ∧ c.top.inputMode ≠ .zenkaku)
    (h : c.cmds = Assets.defaultCommands) (hk : c.kanaConv = Assets.defaultKana) :
    CommandIs c tab [.tryNextCompletion] ∧ c.skipCommand tab = false := by
  refine ⟨?_, ?_⟩
  · apply commandIs_of_find
    rw [h]
    rcases hm with h | h <;> rw [h] <;>
      cases him : c.top.inputMode <;> first | exact absurd him hi.1 | exact absurd him hi.2 | decide +kernel
  · exact skip_of_absent c _ _ hk (by decide +kernel)

/-- The commands of the shipped rules while a completion is shown. -/
theorem shipped_completing (c : Ctx) (hr : c.cmds = Assets.defaultCommands ∨ c.cmds = Assets.azikCommands)
    (hm : c.top.mode = .completion) (hi : c.top.inputMode ≠ .ascii ∧ c.top.inputMode ≠ .zenkaku) :
    CommandIs c tab [.nextCandidatePointer] ∧ CommandIs c shiftTab [.previousCandidatePointer] ∧
    CommandIs c ctrlJ [.confirmComposition] ∧ CommandIs c return_ [.confirmComposition] ∧
    CommandIs c ctrlG [.abort] ∧ CommandIs c escape [.abort] := by
  refine ⟨?_, ?_, ?_, ?_, ?_, ?_⟩ <;> apply commandIs_of_find <;> rcases hr with h | h <;> rw [h, hm] <;>
    cases him : c.top.inputMode <;> first | exact absurd him hi.1 | exact absurd him hi.2 | decide +kernel

theorem completing_skip {c : Ctx} (h : c.top.mode = .completion) (ev : KeyEvent) : c.skipCommand ev = false := by
  simp [Ctx.skipCommand, h, hasRom2kanaConversion]

section
variable (e : Env) {tbl : Table} {c : Ctx} {r : State} (h : Ready tbl c r) (hm : c.top.mode ≠ .preCompositionOkurigana)
  (hdef : c.cmds = Assets.defaultCommands ∧ c.kanaConv = Assets.defaultKana) {cs : List Candidate} (hcs : getAllComplete c.dicts (lookupKey r) = .ok cs)
include h hm hdef hcs

/-- **C64.** `n + 1` times Tab shows completion `n` of the list, or the last one if there are fewer. -/
theorem tabs (hne : cs ≠ []) (n : Nat) :
    c.processKeyEvents e (List.replicate (n + 1) tab) = .ok (completing c r cs (min n (cs.length - 1))) := by
  obtain ⟨_, _, fi, _⟩ := flushed_frame h.flushed
  have hm' : c.top.mode = .preComposition ∨ c.top.mode = .abbreviation := by
    rcases h.composing with h | h | h
    · exact .inl h
    · exact absurd h hm
    · exact .inr h
  induction n with
  | zero =>
    cases cs with
    | nil => exact absurd rfl hne
    | cons x xs =>
      have hsp := shipped_tab c hm' h.kanaMode hdef.1 hdef.2
      have hk := complete_known e c tab tbl r h.table h.composing keys_pressed.1 h.flushed hsp.2 hsp.1 h.history x xs hcs
      rw [Nat.zero_min]
      exact processKeyEvents_one e _ _ _ _ hk
  | succ n ih =>
    rw [List.replicate_succ', processKeyEvents_append e _ _ _ _ ih]
    have hpos : 0 < cs.length := List.length_pos_iff.mpr hne
    have hc := shipped_completing (completing c r cs (min n (cs.length - 1))) (h.rules.imp (fun t => t.1) fun t => t.1) rfl (by
      show r.inputMode ≠ _ ∧ r.inputMode ≠ _
      rw [fi]; exact h.kanaMode)
    have := (completion_moves e (completing c r cs (min n (cs.length - 1))) tab rfl (by
      show min n (cs.length - 1) < cs.length
      omega) keys_pressed.1).1 hc.1
    rw [processKeyEvents_one e _ _ _ _ this]
    show Except.ok (completing c r cs (min (min n (cs.length - 1) + 1) (cs.length - 1))) = _
    congr 2
    omega

/-- **C64.** Without completions Tab changes nothing but that pending keys become kana; the list of candidates is empty. -/
theorem no_completion (hnil : cs = []) :
    c.processKeyEvent e tab = .ok ({ c with top := withCandidates r [] }, true) := by
  have hm' : c.top.mode = .preComposition ∨ c.top.mode = .abbreviation := by
    rcases h.composing with h | h | h
    · exact .inl h
    · exact absurd h hm
    · exact .inr h
  have hsp := shipped_tab c hm' h.kanaMode hdef.1 hdef.2
  exact complete_unknown e c tab tbl r h.table h.composing keys_pressed.1 h.flushed hsp.2 hsp.1 (hnil ▸ hcs)

/-- Completion `n` is shown. -/
theorem completing_shown (hdm : c.top.defaultMode = .direct) (n : Nat) (x : Candidate) (hx : cs[n]? = some x) :
    Shown (completing c r cs n) x := by
  obtain ⟨_, _, fi, _⟩ := flushed_frame h.flushed
  refine ⟨.inr rfl, hx, ?_, ?_⟩
  · show r.inputMode = _ ∨ r.inputMode = _ ∨ r.inputMode = _
    rw [fi]
    have := h.kanaMode
    cases him : c.top.inputMode <;> first | exact absurd him this.1 | exact absurd him this.2 | simp
  · show r.defaultMode = _
    rcases h.flushed with ⟨_, _, _, _, rfl⟩ | ⟨_, _, _, _, rfl⟩ | ⟨_, rfl⟩ <;> exact hdm

/-- **C64, confirm.** Tab `n + 1` times and then Return or Ctrl-j: completion `n` is committed, every dictionary is told of it, the level is as
new and the levels below do not change. -/
theorem confirm_completion (hdm : c.top.defaultMode = .direct) (n : Nat) (x : Candidate) (hx : cs[n]? = some x) (key : KeyEvent)
    (hkey : key = ctrlJ ∨ key = return_) :
    c.processKeyEvents e (List.replicate (n + 1) tab ++ [key]) =
      .ok { c with
        top := { State.new c.top.inputMode .direct with
          confirmed := c.top.confirmed ++ (x.output ++ e.kanaForm.adjust c.top.inputMode r.okuri) }
        dicts := c.dicts.map fun (d : CskkDict) => d.confirm x } := by
  obtain ⟨hn, _⟩ := List.getElem?_eq_some_iff.mp hx
  obtain ⟨_, _, fi, fc⟩ := flushed_frame h.flushed
  have hne : cs ≠ [] := by rintro rfl; simp at hn
  have ht := tabs e h hm hdef hcs hne n
  rw [show min n (cs.length - 1) = n by omega] at ht
  rw [processKeyEvents_append e _ _ _ _ ht]
  have hs := completing_shown h hm hdef hcs hdm n x hx
  have hc := shipped_completing (completing c r cs n) (h.rules.imp (fun t => t.1) fun t => t.1) rfl (by
    show r.inputMode ≠ _ ∧ r.inputMode ≠ _
    rw [fi]; exact h.kanaMode)
  have hk : CommandIs (completing c r cs n) key [.confirmComposition] := by
    rcases hkey with rfl | rfl
    · exact hc.2.2.1
    · exact hc.2.2.2.1
  have hrel : ¬ IsRelease key := by
    rcases hkey with rfl | rfl
    · exact not_release.2.2.1
    · exact keys_pressed.2.2.1
  apply processKeyEvents_one (b := true)
  rw [key_command e _ _ _ hrel (by show CompositionMode.completion ≠ _; decide) hk (completing_skip rfl key)]
  apply single
  show Except.ok (Ctx.confirmCurrent e (completing c r cs n), none) = _
  rw [confirm_settles e hs]
  show Except.ok (({ c with
    top := { State.new r.inputMode .direct with
      confirmed := r.confirmed ++ (x.output ++ e.kanaForm.adjust r.inputMode r.okuri) }
    dicts := c.dicts.map fun (d : CskkDict) => d.confirm x } : Ctx), none) = _
  rw [fi, fc]

/-- **C64, cancel.** Tab any number of times and then Escape or Ctrl-g: the reading is as it was (what was pending has become kana or is
dropped), nothing is committed and no dictionary is told anything. -/
theorem cancel_completion (hne : cs ≠ []) (ho : c.top.okuri = []) (n : Nat) (key : KeyEvent) (hkey : key = ctrlG ∨ key = escape) :
    ∃ hist, c.processKeyEvents e (List.replicate (n + 1) tab ++ [key]) =
      .ok { c with top := { r with
        pre := [], capital := false, okuri := [], useOkuri := false, cands := CandidateList.new CompositeKey.empty, compositedOkuri := [],
        history := hist } } ∧ (c.top.history.length < 20 → hist = c.top.history) := by
  obtain ⟨fh, fm, fi, fc⟩ := flushed_frame h.flushed
  have hro : r.okuri = [] := by
    rcases h.flushed with ⟨_, _, _, _, rfl⟩ | ⟨hx, _⟩ | ⟨_, rfl⟩
    · exact ho
    · exact absurd hx hm
    · exact ho
  refine ⟨(remember r.history r.mode).dropLast, ?_, ?_⟩
  · rw [processKeyEvents_append e _ _ _ _ (tabs e h hm hdef hcs hne n)]
    generalize min n (cs.length - 1) = i
    have hc := shipped_completing (completing c r cs i) (h.rules.imp (fun t => t.1) fun t => t.1) rfl (by
      show r.inputMode ≠ _ ∧ r.inputMode ≠ _
      rw [fi]; exact h.kanaMode)
    have hk : CommandIs (completing c r cs i) key [.abort] := by
      rcases hkey with rfl | rfl
      · exact hc.2.2.2.2.1
      · exact hc.2.2.2.2.2
    have hrel : ¬ IsRelease key := by
      rcases hkey with rfl | rfl
      · exact not_release.2.2.2
      · exact keys_pressed.2.2.2
    apply processKeyEvents_one (b := true)
    rw [key_command e _ _ _ hrel (by show CompositionMode.completion ≠ _; decide) hk (completing_skip rfl key)]
    apply single
    show Except.ok ((completing c r cs i).abort, none) = _
    have hl : (remember r.history r.mode).getLast? = some r.mode := by
      unfold remember
      rw [List.getLast?_drop]
      simp
      omega
    have hmr : r.mode ≠ .preCompositionOkurigana := by rw [fm]; exact hm
    unfold Ctx.abort
    simp only [completing, moved, Ctx.mapTop, inMode, withCandidates, State.clearPre, State.consolidate, State.clearCandidateList,
      reduceCtorEq, if_false, State.abortToPrevious, hl, hmr, hro, List.append_nil, false_and]
    rfl
  · intro hlt
    unfold remember
    rw [fh, show (c.top.history ++ [r.mode]).length - 20 = 0 by simp; omega, List.drop_zero, List.dropLast_concat]

end

/-- **C64, learning.** A completion is learned under its own, whole reading: once it has been confirmed (see `confirm_completion` for the
dictionaries), the word is the first candidate when its reading (without digits) is converted, if the user dictionary comes first, does not list the word with
another annotation, and no dictionary lists it with a greater one. -/
theorem completion_learned (u : CskkDict) (m : DictMaps) (b : Bool) (hu : u.kind = .user m b) (rest : List CskkDict)
    (hds : ∀ d ∈ u :: rest, WellFormed (maps d)) (reading : Str) (cs : List Candidate)
    (hcs : getAllComplete (u :: rest) ⟨reading, none⟩ = .ok cs) (x : Candidate) (hx : x ∈ cs)
    (hnum : (Numeric.numericKey x.midashi).1 = x.midashi)
    (hsame : ∀ d ∈ Candidates.answers u none x.midashi, d.kouho = x.output → d.annotation = x.annotation)
    (hmax : ∀ e ∈ rest, ∀ d ∈ Candidates.answers e none x.midashi, d.kouho = x.output → ¬ Merge.NoteLess x.annotation d.annotation) :
    reading <+: x.midashi ∧
    ∃ first others, getAll ((u :: rest).map fun (d : CskkDict) => d.confirm x) ⟨x.midashi, none⟩ = .ok (first :: others) ∧
      first.output = x.output := by
  obtain ⟨cs', h1, h2, -, -⟩ := Completion.completions_of_reading (u :: rest) hds reading
  rw [hcs] at h1
  cases h1
  obtain ⟨⟨d0, _, _, hpre, _⟩, hso, hok⟩ := h2 x hx
  refine ⟨hpre, ?_⟩
  have hout : x.output = x.kouho := by
    unfold getAllComplete at hcs
    cases hc : completeInner (u :: rest) ⟨reading, none⟩ with
    | error _ => rw [hc] at hcs; cases hcs
    | ok l =>
      rw [hc] at hcs
      cases hcs
      obtain ⟨y, _, rfl⟩ := List.mem_map.mp hx
      rfl
  rw [hout] at hsame hmax ⊢
  obtain ⟨first, others, h3, h4⟩ := Candidates.confirmed_offered_first u m b hu (rest.map fun (d : CskkDict) => d.confirm x)
    ⟨x.midashi, none⟩ x.midashi rfl x ⟨rfl, hok, hso⟩ hsame (by
      intro e he d hd hw
      obtain ⟨e', he', rfl⟩ := List.mem_map.mp he
      rcases (mem_answers_confirm e' x none x.midashi d).1 hd with h | h
      · exact (Cskk.Props.Merge.candLt_note hw).mpr (hmax e' he' d h hw)
      · rw [h]; exact candLt_strictTotal.irrefl _)
  refine ⟨first, others, ?_, h4⟩
  rw [List.map_cons]
  simp only [getAll, h3, bind, Except.bind]
  rw [if_pos (by simp [hnum])]
  rfl

/-- **Finding.** The AZIK rule has commands for completion mode but none which starts a completion: its users cannot complete. -/
theorem azik_never_completes (m : CompositionMode) (im : InputMode) :
    ∀ k ∈ Assets.azikCommands m im, ∀ i ∈ k.2, i ≠ .tryNextCompletion ∧ i ≠ .changeCompositionMode .completion := by
  cases m <;> cases im <;> decide +kernel

/-! ## Example -/

/-- `▽あ` typed, with the user dictionary that knows あい and あいさつ. -/
def greeting : Ctx :=
  let u : CskkDict := ⟨true, .user ⟨[], [(c%"あいさつ", ⟨c%"あいさつ", false, [([], [⟨c%"挨拶", none⟩])]⟩),
    (c%"あい", ⟨c%"あい", false, [([], [⟨c%"愛", none⟩, ⟨c%"藍", none⟩])]⟩)]⟩ false⟩
  { Convert.kan with
    top := { State.new .hiragana .direct with mode := .preComposition, kana := c%"あ", raw := c%"あ", history := [.direct], confirmed := c%"を" }
    dicts := [u] }

/-- The hypotheses are met. -/
theorem greeting_ready : Ready Assets.defaultRomaji greeting greeting.top where
  composing := .inl rfl
  kanaMode := by decide
  rules := .inl ⟨rfl, rfl, rfl⟩
  flushed := .inr (.inr ⟨.inr (by
    rintro ⟨v, hv⟩
    rw [← convert_greedy_iff, show greeting.top.pre = [] from rfl,
      show (KanaBuilder.ofTable Assets.defaultRomaji).convertGreedy [] = none by decide +kernel] at hv
    cases hv), rfl⟩)
  history := by decide

example : getAllComplete greeting.dicts (lookupKey greeting.top) = .ok [⟨c%"あい", none, false, c%"愛", none, c%"愛"⟩,
    ⟨c%"あい", none, false, c%"藍", none, c%"藍"⟩, ⟨c%"あいさつ", none, false, c%"挨拶", none, c%"挨拶"⟩] := by decide +kernel

example (p : Bool) :
    (greeting.processKeyEvents (Assets.env ⟨p⟩) [tab, tab, tab, tab, tab]).toOption.map (·.preedit (Assets.env ⟨p⟩)) = some c%"を■挨拶" ∧
    (greeting.processKeyEvents (Assets.env ⟨p⟩) [tab, tab, return_]).toOption.map (·.preedit (Assets.env ⟨p⟩)) = some c%"を藍" ∧
    (greeting.processKeyEvents (Assets.env ⟨p⟩) [tab, tab, escape]).toOption.map (·.preedit (Assets.env ⟨p⟩)) = some c%"を▽あ" ∧
    ((greeting.processKeyEvents (Assets.env ⟨p⟩) [tab, tab, return_]).toOption.bind fun c =>
      (getAll c.dicts ⟨c%"あい", none⟩).toOption.map (·.map (·.output))) = some [c%"藍", c%"愛"] := by
  cases p <;> decide +kernel

end Cskk.Props.CompletionCycle
