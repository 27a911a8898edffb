import Verif.Lemmas.CtxInst
import Verif.Lemmas.CtxFrame
import Verif.Props.Output

/-!
# C04, C05, C31: registration levels, reset, mode history
-/

namespace Cskk.Props.Levels
open Spec

/-! ## C04 -/

theorem depth_step {e : Env} {c c' : Ctx} {op : Op} (h : c.depth ≤ 10) (hs : c.step e op = .ok c') : c'.depth ≤ 10 := by
  by_cases hp : Frame.Plain op
  · exact (depth_frame.step h op hp).out c' hs
  · cases op <;> first | exact absurd trivial hp | (cases hs; exact h)

/-- C04: after any calls whatsoever there are between one and ten levels. -/
theorem depth_bounded (e : Env) (c₀ c : Ctx) (h₀ : c₀.depth ≤ 10) (h : Reach e (fun _ _ => True) c₀ c) :
    1 ≤ c.depth ∧ c.depth ≤ 10 := by
  refine ⟨Nat.le_add_left 1 _, ?_⟩
  induction h with
  | init => exact h₀
  | step _ _ hs ih => exact depth_step ih hs

theorem admissible_noReg {e : Env} {cm : CompositionMode} {im : InputMode} (is : List Instruction) (c : Ctx)
    (h : Instruction.changeCompositionMode .register ∉ is) :
    c.Admissible e (fun c => NoRegCommand c.top) cm im is := by
  induction is generalizing c with
  | nil => trivial
  | cons i is ih =>
    simp only [List.mem_cons, not_or] at h
    exact ⟨fun hi => h.1 hi.symm, fun c' _ => ih c' h.2⟩

theorem getInstruction_mem {r : CommandRule} {p : Profile} {ev : KeyEvent} {im : InputMode} {cm : CompositionMode}
    {is : List Instruction} (h : r.getInstruction p ev im cm = .ok (some is)) : ∃ k ∈ r cm im, k.2 = is := by
  unfold CommandRule.getInstruction at h
  split at h
  · split at h <;> cases h
  · have h := Except.ok.inj h
    cases hf : (r cm im).find? fun e => decide (e.1 = CommandRule.matchingKey ev) with
    | none => rw [hf] at h; cases h
    | some k => rw [hf] at h; exact ⟨k, List.mem_of_find?_eq_some hf, Option.some.inj h⟩

theorem sensible_allowed {e : Env} {c : Ctx} {op : Op} (h : Sensible c op) :
    op.Allowed e (· ≠ .register) NoRegCommand False c := by
  cases op <;> try trivial
  case key ev =>
    intro is his
    obtain ⟨k, hk, rfl⟩ := getInstruction_mem his
    exact admissible_noReg _ _ (h _ _ k hk)
  case reset =>
    left
    have h : c.depth = 1 := h
    unfold Ctx.depth at h
    exact List.eq_nil_of_length_eq_zero (by omega)

/-- A new context (not created in the mode Register). -/
def Fresh (c : Ctx) : Prop :=
  c.below = [] ∧ c.top.mode ≠ .register ∧ c.top.defaultMode ≠ .register ∧ .register ∉ c.top.history

theorem Fresh.good {c : Ctx} (h : Fresh c) : c.Good Edited Waiting :=
  ⟨⟨h.2.1, h.2.2.2, h.2.2.1⟩, by intro s hs; rw [h.1] at hs; cases hs⟩

example (r : CommandRule) (k : KanaBuilder) (im : InputMode) (ds : List CskkDict) :
    Fresh (Ctx.new r k im .direct ds) := ⟨rfl, by simp [Ctx.new, State.new], by simp [Ctx.new, State.new],
      by simp [Ctx.new, State.new]⟩

theorem levels_good (e : Env) (c₀ c : Ctx) (h₀ : Fresh c₀) (h : Reach e Sensible c₀ c) : c.Good Edited Waiting := by
  refine Edited.inv.reach (e := e) (r := False) (fun h => h.elim) h₀.good ?_
  clear h₀
  induction h with
  | init => exact .init
  | step _ hg hs ih => exact .step ih (sensible_allowed hg) hs

/-- C04: all levels but the last wait for a registration, the last is edited. -/
theorem levels_shape (e : Env) (c₀ c : Ctx) (h₀ : Fresh c₀) (h : Reach e Sensible c₀ c) :
    c.top.mode ≠ .register ∧ ∀ s ∈ c.below, s.mode = .register :=
  ⟨(levels_good e c₀ c h₀ h).1.1, fun s hs => ((levels_good e c₀ c h₀ h).2 s hs).1⟩

theorem render_nest (e : Env) (l : List State) (t : State) (hl : ∀ s ∈ l, s.mode = .register) (ht : t.mode ≠ .register) :
    render ((l ++ [t]).map fun s => s.preeditDetail e s.inputMode) =
      nest ((l ++ [t]).map fun s => s.preeditString e s.inputMode) := by
  induction l with
  | nil =>
    simp only [List.nil_append, List.map_cons, List.map_nil, render, nest, Output.waits_iff,
      Output.preeditString_eq_spell, ht, decide_false, Bool.false_eq_true, if_false, List.append_nil]
  | cons s l ih =>
    have hn : ∀ (x : Str) (ts : List Str), ts ≠ [] → nest (x :: ts) = x ++ '【' :: (nest ts ++ ['】']) := by
      intro x ts h
      cases ts with
      | nil => exact absurd rfl h
      | cons a l => rfl
    simp only [List.cons_append, List.map_cons, render, Output.waits_iff]
    rw [hl s List.mem_cons_self, hn _ _ (by simp), ih fun s hs => hl s (List.mem_cons_of_mem _ hs)]
    simp [Output.preeditString_eq_spell]

/-- C04: the preedit is the nesting of the texts of the levels. -/
theorem preedit_nested (e : Env) (c₀ c : Ctx) (h₀ : Fresh c₀) (h : Reach e Sensible c₀ c) :
    c.preedit e = nest (c.states.map fun s => s.preeditString e s.inputMode) := by
  obtain ⟨ht, hb⟩ := levels_shape e c₀ c h₀ h
  rw [Output.preedit_spells_detail]
  exact render_nest e _ _ (fun s hs => hb s (List.mem_reverse.mp hs)) ht

/-- The brackets of a nesting of `n` texts are `n - 1` pairs besides those in the texts. -/
theorem nest_brackets (ts : List Str) (b : Char) (hb : b = '【' ∨ b = '】') (hne : ts ≠ []) :
    (nest ts).count b + 1 = (ts.map (·.count b)).sum + ts.length := by
  fun_induction nest ts with
  | case1 => exact absurd rfl hne
  | case2 t => simp
  | case3 t ts hts ih =>
    have := ih hts
    rcases hb with rfl | rfl
    · simp only [List.count_append, List.count_cons_self, List.map_cons, List.sum_cons, List.length_cons,
        List.count_cons_of_ne (by decide : '】' ≠ '【'), List.count_nil]
      omega
    · simp only [List.count_append, List.count_cons_self, List.map_cons, List.sum_cons, List.length_cons,
        List.count_cons_of_ne (by decide : '【' ≠ '】'), List.count_nil]
      omega

/-- C04: the preedit has exactly depth − 1 pairs of registration brackets, besides brackets which the user typed. -/
theorem preedit_brackets (e : Env) (c₀ c : Ctx) (h₀ : Fresh c₀) (h : Reach e Sensible c₀ c) (b : Char)
    (hb : b = '【' ∨ b = '】') :
    (c.preedit e).count b = (c.states.map fun s => (s.preeditString e s.inputMode).count b).sum + (c.depth - 1) := by
  have := nest_brackets (c.states.map fun s => s.preeditString e s.inputMode) b hb (by simp [Ctx.states])
  rw [← preedit_nested e c₀ c h₀ h] at this
  simp only [List.map_map, List.length_map, Ctx.states, List.length_append, List.length_reverse, List.length_singleton] at this
  unfold Ctx.depth Ctx.states
  have he : ((fun x : Str => List.count b x) ∘ fun s : State => s.preeditString e s.inputMode) =
    fun s => (s.preeditString e s.inputMode).count b := rfl
  rw [he] at this
  omega

/-- The rules which come with the library contain no command to the mode Register, so keys are sensible calls. -/
theorem default_rule_sensible : NoRegisterCommand Assets.defaultCommands := by
  unfold NoRegisterCommand
  intro cm im
  cases cm <;> cases im <;> decide +kernel

theorem azik_rule_sensible : NoRegisterCommand Assets.azikCommands := by
  unfold NoRegisterCommand
  intro cm im
  cases cm <;> cases im <;> decide +kernel

/-- Typing `A` and space without dictionaries opens a registration, typing the same again a second one. -/
example :
    let c := Ctx.new Assets.defaultCommands Assets.defaultKana .hiragana .direct []
    let keys : List KeyEvent := [⟨0x41, 1⟩, ⟨0x20, 0⟩, ⟨0x41, 1⟩, ⟨0x20, 0⟩, ⟨0x69, 0⟩]
    ((c.processKeyEvents (Assets.env ⟨true⟩) keys).toOption.map fun c => (c.preedit (Assets.env ⟨true⟩), c.depth)) =
      some (c%"▼あ【▼あ【い】】", 3) := by
  decide +kernel

/-! ## C05 -/

/-- The outermost level. -/
def outermost (c : Ctx) : State := c.states.head (by simp [Ctx.states])

theorem outermost_eq (c : Ctx) : outermost c = c.below.getLast?.getD c.top := by
  unfold outermost Ctx.states
  rcases Credit.cases c with ⟨t, cm, k, d, cf, rfl⟩ | ⟨s, r, t, cm, k, d, cf, rfl⟩
  · rfl
  · dsimp only
    rw [List.head_append_of_ne_nil (by simp), List.head_reverse, List.getLast?_eq_some_getLast (by simp)]
    rfl

/-- C05: `reset` leaves one level with nothing pending, no candidates, no output and no remembered modes; input mode and
composition mode stay those of the outermost level. -/
theorem reset_result (c : Ctx) :
    c.reset = { c with
      below := []
      top := { State.new (outermost c).inputMode (outermost c).mode with defaultMode := (outermost c).defaultMode } } := by
  rw [outermost_eq]; rfl

/-- C05: if the outermost level is in its default mode, the context behaves from then on like a new one with the same
rules, dictionaries and configuration. -/
theorem reset_behaves_as_new (e : Env) (c : Ctx) (h : (outermost c).mode = (outermost c).defaultMode) (ops : List Op) :
    run e c.reset ops =
      run e { Ctx.new c.cmds c.kanaConv (outermost c).inputMode (outermost c).mode c.dicts with config := c.config } ops := by
  rw [reset_result]
  simp only [Ctx.new, State.new, h]

/-- C05: in another mode (a reset while a word is composed, say) the context behaves like a new one that was created in the default mode and only then was put
into that mode. -/
theorem reset_in_other_mode (e : Env) (c : Ctx) (ops : List Op) :
    run e c.reset ops =
      run e { Ctx.new c.cmds c.kanaConv (outermost c).inputMode (outermost c).defaultMode c.dicts with
        config := c.config, top := { State.new (outermost c).inputMode (outermost c).defaultMode with mode := (outermost c).mode } } ops := by
  rw [reset_result]
  simp only [Ctx.new, State.new]

/-- C05: reset while a reading is typed: the reading is gone, and the next letter begins a reading; Ctrl-g goes back to direct input. -/
theorem reset_while_composing :
    (((Ctx.new Assets.defaultCommands Assets.defaultKana .hiragana .direct []).processKeyEvents (Assets.env ⟨false⟩) [⟨0x41, 1⟩, ⟨0x69, 0⟩]).toOption.map fun c =>
      (c.preedit (Assets.env ⟨false⟩), c.reset.preedit (Assets.env ⟨false⟩),
        (c.reset.processKeyEvents (Assets.env ⟨false⟩) [⟨0x75, 0⟩]).toOption.map fun c => c.preedit (Assets.env ⟨false⟩),
        (c.reset.processKeyEvents (Assets.env ⟨false⟩) [⟨0x67, 4⟩, ⟨0x75, 0⟩]).toOption.map fun c => c.preedit (Assets.env ⟨false⟩))) =
      some (c%"▽あい", c%"▽", some c%"▽う", some c%"う") := by
  decide +kernel

/-- C05, the exception: a reset during a registration. The outermost level keeps the mode Register. -/
theorem reset_in_registration (e : Env) (c₀ c : Ctx) (h₀ : Fresh c₀) (h : Reach e Sensible c₀ c) (hd : 1 < c.depth) :
    c.reset.below = [] ∧ c.reset.top.mode = .register := by
  refine ⟨rfl, ?_⟩
  rw [reset_result]
  show (outermost c).mode = _
  rw [outermost_eq]
  have hb := (levels_shape e c₀ c h₀ h).2
  cases hc : c.below with
  | nil => unfold Ctx.depth at hd; rw [hc] at hd; simp at hd
  | cons s r =>
    rw [List.getLast?_eq_some_getLast (by simp)]
    exact hb _ (by rw [hc]; exact List.getLast_mem _)

/-- One level, in the mode Register, no candidates. -/
def Stuck (c : Ctx) : Prop := c.below = [] ∧ c.top.mode = .register ∧ c.top.cands.cands = []

theorem stuck_key (e : Env) (hp : e.prof.checked = false) (c : Ctx) (h : c.top.mode = .register) (ev : KeyEvent) :
    c.processKeyEvent e ev = .ok (c, false) := by
  unfold Ctx.processKeyEvent
  split
  · rfl
  · have hr : hasRom2kanaConversion c.top.inputMode c.top.mode = false := by rw [h]; rfl
    have hc : c.charInput e ev = .ok (c, false) := by
      unfold Ctx.charInput
      split
      · rfl
      · have : ¬ ((c.top.mode = .compositionSelection ∨ c.top.mode = .completion) ∧
            c.willBeProcessed ev c.top.pre = true) := by rw [h]; simp
        dsimp only
        rw [if_neg this, hr, if_neg (by simp)]
        split
        · unfold Ctx.plainInput; rw [h]
        · rfl
    unfold Ctx.processInner Ctx.skipCommand
    rw [hr, Bool.false_and, Bool.and_false, if_neg (by simp), h, getInstruction_register, hp]
    exact hc

/-- C05, the exception: in a release build every key is then handed back without effect, however many are typed;
in a debug build the first key (not a release) panics. -/
theorem stuck_forever (e : Env) (hp : e.prof.checked = false) (c : Ctx) (h : c.top.mode = .register) (evs : List KeyEvent) :
    c.processKeyEvents e evs = .ok c := by
  induction evs with
  | nil => rfl
  | cons ev evs ih =>
    unfold Ctx.processKeyEvents
    rw [stuck_key e hp c h ev]
    exact ih

theorem stuck_panics (e : Env) (hp : e.prof.checked = true) (c : Ctx) (h : c.top.mode = .register) (ev : KeyEvent)
    (hr : ¬ IsRelease ev) : c.processKeyEvent e ev = .error .debugAssert := by
  unfold Ctx.processKeyEvent
  rw [if_neg (fun h => hr ((contains_release ev).mp h))]
  have hrk : hasRom2kanaConversion c.top.inputMode c.top.mode = false := by rw [h]; rfl
  unfold Ctx.processInner Ctx.skipCommand
  rw [hrk, Bool.false_and, Bool.and_false, if_neg (by simp), h, getInstruction_register, hp]
  rfl

/-- C05, the exception: no call but `skk_context_set_composition_mode` gets the context out of this state. -/
theorem stuck_step (e : Env) (hp : e.prof.checked = false) (c c' : Ctx) (h : Stuck c) (op : Op)
    (ho : ∀ m, op ≠ .setCompositionMode m) (hs : c.step e op = .ok c') : Stuck c' := by
  obtain ⟨hb, hm, hc⟩ := h
  cases op
  case key ev =>
    have hs : (do let r ← c.processKeyEvent e ev; pure r.1 : R Ctx) = .ok c' := hs
    rw [stuck_key e hp c hm ev] at hs
    cases hs; exact ⟨hb, hm, hc⟩
  case poll =>
    cases hs
    rw [Output.poll_state]
    rcases Credit.cases c with ⟨t, cm, k, d, cf, rfl⟩ | ⟨s, r, t, cm, k, d, cf, rfl⟩
    · exact ⟨rfl, hm, hc⟩
    · cases hb
  case reset =>
    cases hs
    refine ⟨rfl, ?_, rfl⟩
    show (c.below.getLast?.getD c.top).mode = _
    rw [hb]; exact hm
  case setInputMode m => cases hs; exact ⟨hb, hm, hc⟩
  case setCompositionMode m => exact absurd rfl (ho m)
  case selectAt i =>
    cases hs
    unfold Ctx.selectCandidateAt
    rw [hc]; exact ⟨hb, hm, hc⟩
  case confirmAt i =>
    cases hs
    have : c.top.cands.cands[i]? = none := by rw [hc]; rfl
    unfold Ctx.confirmCandidateAt State.setPointer CandidateList.setSelectionPointer
    rw [this]
    exact ⟨hb, hm, hc⟩
  all_goals (cases hs; exact ⟨hb, hm, hc⟩)

/-- This happens with the default rule: `A`, space (registration opens), reset. -/
theorem stuck_is_reached :
    ((run (Assets.env ⟨false⟩) (Ctx.new Assets.defaultCommands Assets.defaultKana .hiragana .direct [])
      [.key ⟨0x41, 1⟩, .key ⟨0x20, 0⟩, .reset]).toOption.map fun c =>
        (c.below.length, c.top.mode, c.top.cands.cands.length, c.preedit (Assets.env ⟨false⟩))) =
      some (0, .register, 0, c%"▼【】") := by
  decide +kernel

/-! ## C31 -/

/-- C31: after any calls whatsoever no level remembers more than twenty modes. -/
theorem history_bounded (e : Env) (c₀ c : Ctx) (h₀ : ∀ s ∈ c₀.states, s.history.length ≤ 20)
    (h : Reach e (fun _ _ => True) c₀ c) : ∀ s ∈ c.states, s.history.length ≤ 20 := by
  have hall : ∀ (c : Ctx) (op : Op), op.Allowed e (fun _ => True) (fun _ _ => True) True c := by
    intro c op
    cases op <;> try trivial
    case key ev =>
      intro is his
      clear his
      generalize c.top.mode = cm
      generalize c.top.inputMode = im
      clear h₀ h
      induction is generalizing c with
      | nil => trivial
      | cons i is ih => exact ⟨trivial, fun c' _ => ih c'⟩
    case reset => exact Or.inr trivial
  have hg : c₀.Good Hist20 Hist20 :=
    ⟨h₀ _ (by simp [Ctx.states]), fun s hs => h₀ s (by simp [Ctx.states, hs])⟩
  have : c.Good Hist20 Hist20 := by
    refine Hist20.inv.reach (e := e) (r := True) (fun _ _ _ => Nat.zero_le 20) hg ?_
    clear hg h₀
    induction h with
    | init => exact .init
    | step _ _ hs ih => exact .step ih (hall _ _) hs
  intro s hs
  unfold Ctx.states at hs
  rcases List.mem_append.mp hs with hs | hs
  · exact this.2 s (List.mem_reverse.mp hs)
  · rw [List.mem_singleton.mp hs]; exact this.1

/-- Where the abort command leads from a level with the remembered modes `hist` (oldest first). -/
def abortTarget (dflt : CompositionMode) (hist : List CompositionMode) : CompositionMode :=
  match hist.getLast? with
  | none => dflt
  | some .preCompositionOkurigana => .preComposition
  | some m => m

theorem abortToPrevious_mode (s : State) :
    s.abortToPrevious.mode = abortTarget s.defaultMode s.history ∧
    s.abortToPrevious.history = s.history.dropLast ∧ s.abortToPrevious.defaultMode = s.defaultMode := by
  unfold State.abortToPrevious abortTarget
  cases hl : s.history.getLast? with
  | none =>
    refine ⟨rfl, ?_, rfl⟩
    rw [List.getLast?_eq_none_iff.mp hl]; rfl
  | some m =>
    dsimp only
    split
    · rename_i h; subst h; exact ⟨rfl, rfl, rfl⟩
    · rename_i h
      refine ⟨?_, rfl, rfl⟩
      cases m <;> first | rfl | exact absurd rfl h

/-- C31: abort outside okurigana input and outside a registration goes back to the mode which was remembered last (the
okurigana mode counts as PreComposition), or to the default mode, and forgets it; the reading and the okurigana stay
as one reading, pending keys and candidates are dropped. -/
theorem abort_returns (c : Ctx) (hm : c.top.mode ≠ .preCompositionOkurigana)
    (hd : c.top.mode = .direct → c.depth = 1) :
    c.abort.top.mode = abortTarget c.top.defaultMode c.top.history ∧
    c.abort.top.history = c.top.history.dropLast ∧ c.abort.below = c.below ∧ c.abort.dicts = c.dicts ∧
    c.abort.top.kana = c.top.kana ++ c.top.okuri ∧ c.abort.top.okuri = [] ∧ c.abort.top.pre = [] ∧
    c.abort.top.cands.cands = [] ∧ c.abort.top.confirmed = c.top.confirmed := by
  have heq : c.abort = c.mapTop fun s => s.clearPre.consolidate.clearCandidateList.abortToPrevious := by
    unfold Ctx.abort
    dsimp only
    have h1 : (c.mapTop fun s => s.clearPre.consolidate.clearCandidateList).top.mode = c.top.mode := rfl
    rw [h1]
    have h2 : (if c.top.mode = .direct then
        (c.mapTop fun s => s.clearPre.consolidate.clearCandidateList).abortRegister
        else c.mapTop fun s => s.clearPre.consolidate.clearCandidateList) =
        c.mapTop fun s => s.clearPre.consolidate.clearCandidateList := by
      split
      · rename_i h
        have hb : c.below = [] := by
          have := hd h
          unfold Ctx.depth at this
          exact List.eq_nil_of_length_eq_zero (by omega)
        unfold Ctx.abortRegister Ctx.mapTop
        rw [hb]
      · rfl
    rw [h2, if_neg (fun h => hm h.1)]
    rfl
  rw [heq]
  have ha := abortToPrevious_mode (c.top.clearPre.consolidate.clearCandidateList)
  refine ⟨ha.1, ha.2.1, rfl, rfl, ?_⟩
  show (State.abortToPrevious _).kana = _ ∧ (State.abortToPrevious _).okuri = _ ∧ (State.abortToPrevious _).pre = _ ∧
    (State.abortToPrevious _).cands.cands = _ ∧ (State.abortToPrevious _).confirmed = _
  unfold State.abortToPrevious
  split
  · dsimp only
    split
    · simp [State.consolidate, State.clearCandidateList, State.clearPre, CandidateList.clear]
    · simp [State.consolidate, State.clearCandidateList, State.clearPre, CandidateList.clear]
  · simp [State.consolidate, State.clearCandidateList, State.clearPre, CandidateList.clear]

/-- C31: a mode change followed by abort restores the mode (as long as fewer than twenty modes are remembered, also the whole
history). -/
theorem abort_undoes_change (c : Ctx) (m : CompositionMode) (hm : m ≠ .preCompositionOkurigana)
    (h0 : c.top.mode ≠ .preCompositionOkurigana) (hd : m = .direct → c.depth = 1) :
    (c.setCompositionMode m).abort.top.mode = c.top.mode ∧
    (c.top.history.length < 20 → (c.setCompositionMode m).abort.top.history = c.top.history) := by
  have h := abort_returns (c.setCompositionMode m) hm hd
  have hh : (c.setCompositionMode m).top.history =
      if (c.top.history ++ [c.top.mode]).length > 20 then (c.top.history ++ [c.top.mode]).drop 1
      else c.top.history ++ [c.top.mode] := rfl
  have hl : (c.setCompositionMode m).top.history.getLast? = some c.top.mode := by
    rw [hh]
    split
    · rename_i hlen
      cases hc : c.top.history with
      | nil => rw [hc] at hlen; simp at hlen
      | cons a l => simp
    · simp
  refine ⟨?_, ?_⟩
  · rw [h.1]
    unfold abortTarget
    rw [hl]
    cases hmm : c.top.mode <;> first | rfl | exact absurd hmm h0
  · intro hlt
    rw [h.2.1, hh, if_neg (by simp; omega)]
    simp

/-- The situation: from selection mode back to PreComposition. -/
example :
    let c := Ctx.new Assets.defaultCommands Assets.defaultKana .hiragana .preComposition []
    (c.setCompositionMode .compositionSelection).abort.top.mode = .preComposition := by decide +kernel

/-- Abort after a finished composition does not lead to Direct but back to composing: typing `A`, then `q`
(commit as katakana) leaves Direct with PreComposition remembered, and C-g opens an empty composition. -/
theorem abort_in_direct_reopens_composition :
    ((run (Assets.env ⟨true⟩) (Ctx.new Assets.defaultCommands Assets.defaultKana .hiragana .direct [])
      [.key ⟨0x41, 1⟩, .key ⟨0x71, 0⟩, .poll, .key ⟨0x67, 4⟩]).toOption.map fun c =>
        (c.top.mode, c.preedit (Assets.env ⟨true⟩))) = some (.preComposition, c%"▽") := by
  decide +kernel

end Cskk.Props.Levels
