import Verif.Lemmas.Credit
import Verif.Lemmas.CtxFrame
import Verif.Lemmas.Keys
import Verif.Spec.Preedit
import Verif.Model.DefaultRule

/-!
# C03, C34, C40: polling, preedit, confirmation
-/

namespace Cskk.Props.Output
open Spec

/-! ## C34 -/

theorem preeditString_eq_spell (e : Env) (s : State) (im : InputMode) :
    s.preeditString e im = spell (s.preeditDetail e im) := by
  unfold State.preeditString
  cases h : s.preeditDetail e im with
  | register a b o p => cases o <;> simp [spell]
  | _ => simp [spell]

theorem waits_iff (e : Env) (s : State) (im : InputMode) : waits (s.preeditDetail e im) = decide (s.mode = .register) := by
  unfold State.preeditDetail
  cases h : s.mode <;> simp [waits]

theorem preedit_fold (e : Env) (l : List State) (acc : Str) (n : Nat) :
    (l.foldl (fun (acc : Str × Nat) s =>
      let result := acc.1 ++ s.preeditString e s.inputMode
      if s.mode = .register then (result ++ c%"【", acc.2 + 1) else (result, acc.2)) (acc, n)).1 ++
    List.replicate (l.foldl (fun (acc : Str × Nat) s =>
      let result := acc.1 ++ s.preeditString e s.inputMode
      if s.mode = .register then (result ++ c%"【", acc.2 + 1) else (result, acc.2)) (acc, n)).2 '】' =
    acc ++ render (l.map fun s => s.preeditDetail e s.inputMode) ++ List.replicate n '】' := by
  induction l generalizing acc n with
  | nil => simp [render]
  | cons s l ih =>
    simp only [List.foldl_cons, List.map_cons, render, waits_iff]
    by_cases hm : s.mode = .register
    · simp only [hm, if_true, decide_true]
      rw [ih, preeditString_eq_spell]
      simp [List.replicate_succ]
    · simp only [hm, if_false, decide_false]
      rw [ih, preeditString_eq_spell]
      simp

/-- C34: the plain preedit is the detailed preedit spelled out, with brackets around what stands inside a
registration. -/
theorem preedit_spells_detail (e : Env) (c : Ctx) : c.preedit e = render (c.preeditDetail e) := by
  have := preedit_fold e c.states [] 0
  simpa [Ctx.preedit, Ctx.preeditDetail] using this

/-- The detailed preedit has one part for each level, outermost first. -/
theorem detail_parts (e : Env) (c : Ctx) : (c.preeditDetail e).length = c.depth := by
  simp [Ctx.preeditDetail, Ctx.states, Ctx.depth]

/-! ## C03 -/

theorem bottom_confirmed (c : Ctx) : c.bottom.confirmed = pendingOutput c := by
  unfold Ctx.bottom pendingOutput Ctx.states
  rcases Credit.cases c with ⟨t, cm, k, d, cf, rfl⟩ | ⟨s, r, t, cm, k, d, cf, rfl⟩
  · rfl
  · dsimp only
    rw [List.head?_append, List.head?_reverse, List.getLast?_eq_some_getLast (by simp : s :: r ≠ [])]
    rfl

theorem mapLast_eq {α} (f : α → α) (l : List α) (h : l ≠ []) : mapLast f l = l.dropLast ++ [f (l.getLast h)] := by
  fun_induction mapLast f l with
  | case1 => exact absurd rfl h
  | case2 a => rfl
  | case3 a b l ih => rw [ih (by simp)]; rfl

theorem mapLast_mapLast {α} (f g : α → α) (l : List α) : mapLast g (mapLast f l) = mapLast (fun a => g (f a)) l := by
  fun_induction mapLast f l with
  | case1 => rfl
  | case2 a => rfl
  | case3 a b l ih =>
    have h : mapLast f (b :: l) ≠ [] := by
      intro h
      have := congrArg List.length h
      rw [mapLast_length] at this; simp at this
    rw [mapLast_cons_ne g a h, ih]; rfl

theorem mapLast_id {α} (f : α → α) (l : List α) (h : ∀ a, l.getLast? = some a → f a = a) : mapLast f l = l := by
  fun_induction mapLast f l with
  | case1 => rfl
  | case2 a => rw [h a rfl]
  | case3 a b l ih =>
    rw [ih fun x hx => h x (by rw [List.getLast?_cons_cons]; exact hx)]

theorem mapBottom_nil (f : State → State) (t : State) (cm k d cf) :
    (⟨[], t, cm, k, d, cf⟩ : Ctx).mapBottom f = ⟨[], f t, cm, k, d, cf⟩ := rfl

theorem mapBottom_cons (f : State → State) (s : State) (r : List State) (t : State) (cm k d cf) :
    (⟨s :: r, t, cm, k, d, cf⟩ : Ctx).mapBottom f = ⟨mapLast f (s :: r), t, cm, k, d, cf⟩ := by
  rw [mapLast_eq f (s :: r) (by simp)]; rfl

/-- `mapBottom` changes the outermost level only. -/
theorem mapBottom_states (c : Ctx) (f : State → State) :
    (c.mapBottom f).states = c.states.modify 0 f := by
  rcases Credit.cases c with ⟨t, cm, k, d, cf, rfl⟩ | ⟨s, r, t, cm, k, d, cf, rfl⟩
  · rfl
  · have hne : s :: r ≠ [] := by simp
    rw [mapBottom_cons, mapLast_eq f _ hne]
    unfold Ctx.states
    dsimp only
    have h : (s :: r).reverse = (s :: r).getLast hne :: (s :: r).dropLast.reverse := by
      conv => lhs; rw [← List.dropLast_concat_getLast hne]
      simp
    rw [h]
    simp

/-- A poll empties the output of the outermost level. -/
theorem poll_state (c : Ctx) : c.pollOutput.1 = c.mapBottom State.flushConfirmed := by
  unfold Ctx.pollOutput Ctx.retrieveOutput
  split
  · rename_i h
    rcases Credit.cases c with ⟨t, cm, k, d, cf, rfl⟩ | ⟨s, r, t, cm, k, d, cf, rfl⟩
    · have h : t.confirmed = [] := by simpa [Ctx.bottom] using h
      rw [mapBottom_nil]
      obtain ⟨⟩ := t
      simp_all [State.flushConfirmed]
    · rw [mapBottom_cons, mapLast_id]
      intro a ha
      have h : a.confirmed = [] := by simpa [Ctx.bottom, ha] using h
      obtain ⟨⟩ := a
      simp_all [State.flushConfirmed]
  · rfl

/-- What a poll returns: everything committed and not yet delivered. -/
theorem poll_returns_pending (c : Ctx) :
    c.pollOutput.2 = if pendingOutput c = [] then none else some (pendingOutput c) := by
  unfold Ctx.pollOutput Ctx.retrieveOutput
  rw [bottom_confirmed]
  cases h : pendingOutput c <;> simp

/-- What a poll changes: the delivered text is removed from the outermost level; all other levels, all other parts
of the outermost level, the dictionaries, rules and the configuration stay. -/
theorem poll_changes_only_output (c : Ctx) :
    c.pollOutput.1.states = c.states.modify 0 (fun s => { s with confirmed := [] }) ∧
    c.pollOutput.1.cmds = c.cmds ∧ c.pollOutput.1.kanaConv = c.kanaConv ∧ c.pollOutput.1.dicts = c.dicts ∧
    c.pollOutput.1.config = c.config := by
  rw [poll_state]
  refine ⟨mapBottom_states c _, ?_⟩
  unfold Ctx.mapBottom
  split <;> exact ⟨rfl, rfl, rfl, rfl⟩

/-- C03: a second poll returns nothing and changes nothing. -/
theorem second_poll_returns_nothing (c : Ctx) : c.pollOutput.1.pollOutput = (c.pollOutput.1, none) := by
  have h : pendingOutput c.pollOutput.1 = [] := by
    unfold pendingOutput
    rw [(poll_changes_only_output c).1]
    cases c.states <;> rfl
  generalize c.pollOutput.1 = c' at h
  unfold Ctx.pollOutput Ctx.retrieveOutput
  rw [bottom_confirmed, h]
  rfl

/-- C03: reading the output without polling changes nothing and returns the same text. -/
theorem retrieve_is_pure (c : Ctx) : c.retrieveOutput false = (c, c.pollOutput.2) := by
  unfold Ctx.pollOutput Ctx.retrieveOutput
  split <;> rfl

/-- C03: the polled text disappears from the front of the preedit, and only it — unless the outermost level
waits for a registration: then its committed text was not shown and the preedit stays. -/
theorem poll_and_preedit (e : Env) (c : Ctx) :
    (c.states.head?.map (·.mode) ≠ some .register →
      c.preedit e = c.pollOutput.2.getD [] ++ c.pollOutput.1.preedit e) ∧
    (c.states.head?.map (·.mode) = some .register → c.pollOutput.1.preedit e = c.preedit e) := by
  rw [preedit_spells_detail, preedit_spells_detail]
  unfold Ctx.preeditDetail
  rw [(poll_changes_only_output c).1, poll_returns_pending]
  cases hs : c.states with
  | nil => simp [Ctx.states] at hs
  | cons s l =>
    have hp : pendingOutput c = s.confirmed := by unfold pendingOutput; rw [hs]; rfl
    rw [hp]
    have hgd : (if s.confirmed = [] then none else some s.confirmed).getD [] = s.confirmed := by
      split
      · rename_i h; rw [h]; rfl
      · rfl
    rw [hgd]
    simp only [List.head?_cons, Option.map_some, List.modify_zero_cons, List.map_cons, render, waits_iff]
    have hd : ∀ (s : State), ({ s with confirmed := [] } : State).preeditDetail e s.inputMode =
        (match s.preeditDetail e s.inputMode with
        | .direct _ u => .direct [] u
        | .preComposition _ k o u => .preComposition [] k o u
        | .preCompositionOkurigana _ k o u => .preCompositionOkurigana [] k o u
        | .compositionSelection _ x o a => .compositionSelection [] x o a
        | .register _ k o p => .register [] k o p
        | .complete _ x m y o a => .complete [] x m y o a) := by
      intro s; obtain ⟨_, m⟩ := s; cases m <;> rfl
    have hc : ∀ (s : State), s.preeditDetail e s.inputMode =
        (match s.preeditDetail e s.inputMode with
        | .direct _ u => .direct s.confirmed u
        | .preComposition _ k o u => .preComposition s.confirmed k o u
        | .preCompositionOkurigana _ k o u => .preCompositionOkurigana s.confirmed k o u
        | .compositionSelection _ x o a => .compositionSelection s.confirmed x o a
        | .register _ k o p => .register s.confirmed k o p
        | .complete _ x m y o a => .complete s.confirmed x m y o a) := by
      intro s; obtain ⟨_, m⟩ := s; cases m <;> rfl
    have hw := waits_iff e s s.inputMode
    rw [hd s, hc s]
    cases hi : s.preeditDetail e s.inputMode with
    | register a b o p =>
      rw [hi] at hw
      have hm : s.mode = .register := by simpa [waits] using hw.symm
      cases o <;> simp [hm, spell]
    | _ =>
      rw [hi] at hw
      have hm : s.mode ≠ .register := by simpa [waits] using hw.symm
      simp [hm, spell]

theorem credit_of_poll (c : Ctx) : c = c.pollOutput.1.credit (c.pollOutput.2.getD []) := by
  have h2 : c.pollOutput.2.getD [] = c.bottom.confirmed := by
    unfold Ctx.pollOutput Ctx.retrieveOutput
    split
    · rename_i h; rw [List.isEmpty_iff.mp h]; rfl
    · rfl
  rw [h2, poll_state]
  rcases Credit.cases c with ⟨t, cm, k, d, cf, rfl⟩ | ⟨s, r, t, cm, k, d, cf, rfl⟩
  · simp [mapBottom_nil, Ctx.credit, State.credit, State.flushConfirmed, Ctx.bottom]
  · rw [mapBottom_cons]
    cases hm : mapLast State.flushConfirmed (s :: r) with
    | nil => have := congrArg List.length hm; rw [mapLast_length] at this; simp at this
    | cons s' r' =>
      rw [Credit.nested, ← hm, mapLast_mapLast, mapLast_id]
      intro a ha
      simp [Ctx.bottom, ha, State.credit, State.flushConfirmed]

theorem credit_credit (v w : Str) (c : Ctx) : (c.credit w).credit v = c.credit (v ++ w) := by
  rcases Credit.cases c with ⟨t, cm, k, d, cf, rfl⟩ | ⟨s, r, t, cm, k, d, cf, rfl⟩
  · simp [Ctx.credit, State.credit]
  · cases hm : mapLast (State.credit w) (s :: r) with
    | nil => have := congrArg List.length hm; rw [mapLast_length] at this; simp at this
    | cons s' r' =>
      rw [Credit.nested, Credit.nested, hm, Credit.nested, ← hm, mapLast_mapLast]
      have : (fun a => State.credit v (State.credit w a)) = State.credit (v ++ w) := by
        funext a; simp [State.credit]
      rw [this]

theorem credit_nil (c : Ctx) : c.credit [] = c := by
  rcases Credit.cases c with ⟨t, cm, k, d, cf, rfl⟩ | ⟨s, r, t, cm, k, d, cf, rfl⟩
  · rfl
  · rw [Credit.nested, mapLast_id]; intro a _; rfl

theorem pendingOutput_credit (w : Str) (c : Ctx) : pendingOutput (c.credit w) = w ++ pendingOutput c := by
  rw [← bottom_confirmed, ← bottom_confirmed]
  rcases Credit.cases c with ⟨t, cm, k, d, cf, rfl⟩ | ⟨s, r, t, cm, k, d, cf, rfl⟩
  · rfl
  · rw [Credit.nested, mapLast_eq _ _ (by simp)]
    simp only [Ctx.bottom, List.getLast?_append, List.getLast?_singleton, Option.some_or, Option.getD_some,
      List.getLast?_eq_some_getLast (by simp : s :: r ≠ [])]
    rfl

theorem keeps_noClearKana {e : Env} {cm : CompositionMode} {im : InputMode} (is : List Instruction) {c : Ctx}
    (h : c.Admissible e Keeps cm im is) : c.Admissible e (fun c => NoClearKana c.top) cm im is := by
  induction is generalizing c with
  | nil => trivial
  | cons i is ih => exact ⟨h.1.1, fun c' hc => ih (h.2 c' hc)⟩

theorem keepsOp_allowed {e : Env} {c : Ctx} {op : Op} (h : KeepsOp e c op) :
    op.Allowed e (fun _ => True) NoClearKana True c := by
  cases op <;> try trivial
  case key ev => exact fun is his => keeps_noClearKana is (h is his)

theorem good_step {e : Env} {c c' : Ctx} {op : Op} (hg : Credit.G c) (h : KeepsOp e c op)
    (hs : c.step e op = .ok c') : Credit.G c' :=
  (RawLe.inv.step (r := True) (fun _ _ _ => Nat.le_refl 0) hg op (keepsOp_allowed h)).out c' hs

/-- C03 over histories: whatever the moments of the polls, what they return together followed by what is still
pending is the text which would be pending had there been no poll, and apart from it both contexts are equal. -/
theorem polls_do_not_matter (e : Env) (ops : List Op) (c c' : Ctx) (out : Str)
    (hg : ∀ s ∈ c.states, s.raw.length ≤ s.kana.length) (hk : Along e (KeepsOp e) c ops)
    (h : deliver e c ops = .ok (c', out)) : run e c (withoutPolls ops) = .ok (c'.credit out) := by
  have hg' : Credit.G c := ⟨hg _ (by simp [Ctx.states]), fun s hs => hg s (by simp [Ctx.states, hs])⟩
  clear hg
  have main : ∀ w, run e (c.credit w) (withoutPolls ops) = .ok (c'.credit (w ++ out)) := by
    fun_induction deliver e c ops generalizing out with
    | case1 c => intro w; cases h; simp [withoutPolls, run]
    | case2 c ops ih =>
      intro w
      cases hr : deliver e c.pollOutput.1 ops with
      | error p => rw [hr] at h; cases h
      | ok x =>
        rw [hr] at h
        cases h
        have := ih x.2 (hk.2 _ rfl) hr (good_step hg' hk.1 rfl) (w ++ c.pollOutput.2.getD [])
        rw [← credit_credit, ← credit_of_poll, List.append_assoc] at this
        exact this
    | case3 c op ops hne ih =>
      intro w
      have hw : withoutPolls (op :: ops) = op :: withoutPolls ops := by
        cases op <;> first | rfl | exact absurd rfl hne
      rw [hw]
      cases hs : c.step e op with
      | error p => rw [hs] at h; cases h
      | ok c1 =>
        rw [hs] at h
        unfold run
        rw [Credit.step e c hg' op hk.1 (fun h0 => by subst h0; exact hne rfl), hs]
        exact ih c1 out (hk.2 _ hs) h (good_step hg' hk.1 hs) w
  have := main []
  rwa [credit_nil, List.nil_append] at this

/-- C03: polls cannot make the calls fail. If they succeed without polls, they succeed whatever the moments of the polls. -/
theorem polls_do_no_harm (e : Env) (ops : List Op) (c c₂ : Ctx)
    (hg : ∀ s ∈ c.states, s.raw.length ≤ s.kana.length) (hk : Along e (KeepsOp e) c ops)
    (h : run e c (withoutPolls ops) = .ok c₂) : ∃ c' out, deliver e c ops = .ok (c', out) ∧ c₂ = c'.credit out := by
  have hg' : Credit.G c := ⟨hg _ (by simp [Ctx.states]), fun s hs => hg s (by simp [Ctx.states, hs])⟩
  have main : ∀ w c₂, run e (c.credit w) (withoutPolls ops) = .ok c₂ → ∃ c' out, deliver e c ops = .ok (c', out) := by
    clear hg h c₂
    fun_induction deliver e c ops with
    | case1 c => intro w c₂ _; exact ⟨c, [], rfl⟩
    | case2 c ops ih =>
      intro w c₂ h
      obtain ⟨c', out, hd⟩ := ih (hk.2 _ rfl) (good_step hg' hk.1 rfl) (w ++ c.pollOutput.2.getD []) c₂ (by
        rw [← credit_credit, ← credit_of_poll]; exact h)
      exact ⟨c', c.pollOutput.2.getD [] ++ out, by rw [hd]; rfl⟩
    | case3 c op ops hne ih =>
      intro w c₂ h
      have hw : withoutPolls (op :: ops) = op :: withoutPolls ops := by
        cases op <;> first | rfl | exact absurd rfl hne
      rw [hw] at h
      unfold run at h
      rw [Credit.step e c hg' op hk.1 (fun h0 => by subst h0; exact hne rfl)] at h
      cases hs : c.step e op with
      | error p => rw [hs] at h; cases h
      | ok c1 =>
        rw [hs] at h
        exact ih c1 (hk.2 _ hs) (good_step hg' hk.1 hs) w c₂ h
  obtain ⟨c', out, hd⟩ := main [] c₂ (by rw [credit_nil]; exact h)
  refine ⟨c', out, hd, ?_⟩
  have := polls_do_not_matter e ops c c' out hg hk hd
  rw [h] at this
  exact Except.ok.inj this

/-- C03: two schedules of polls for the same calls deliver the same text. -/
theorem schedules_deliver_the_same (e : Env) (ops₁ ops₂ : List Op) (c c₁ c₂ : Ctx) (out₁ out₂ : Str)
    (hg : ∀ s ∈ c.states, s.raw.length ≤ s.kana.length)
    (hsame : withoutPolls ops₁ = withoutPolls ops₂)
    (hk₁ : Along e (KeepsOp e) c ops₁) (hk₂ : Along e (KeepsOp e) c ops₂)
    (h₁ : deliver e c ops₁ = .ok (c₁, out₁)) (h₂ : deliver e c ops₂ = .ok (c₂, out₂)) :
    out₁ ++ pendingOutput c₁ = out₂ ++ pendingOutput c₂ := by
  have a := polls_do_not_matter e ops₁ c c₁ out₁ hg hk₁ h₁
  have b := polls_do_not_matter e ops₂ c c₂ out₂ hg hk₂ h₂
  rw [hsame, b] at a
  have := Except.ok.inj a
  rw [← pendingOutput_credit, ← pendingOutput_credit, this]

/-- The rule binds the key, if at all, to commands without Purge, Delete and ClearKanaConvertedInputs. -/
def SafeKey (r : CommandRule) (ev : KeyEvent) : Prop :=
  ∀ cm im, ∀ k ∈ r cm im, KeyMatches k.1 ev →
    ∀ i ∈ k.2, i ≠ .purge ∧ i ≠ .delete ∧ i ≠ .clearKanaConvertedInputs

theorem safe_admissible {e : Env} {cm : CompositionMode} {im : InputMode} (is : List Instruction) (c : Ctx)
    (h : ∀ i ∈ is, i ≠ .purge ∧ i ≠ .delete ∧ i ≠ .clearKanaConvertedInputs) : c.Admissible e Keeps cm im is := by
  induction is generalizing c with
  | nil => trivial
  | cons i is ih =>
    have hi := h i List.mem_cons_self
    exact ⟨⟨hi.2.2, fun _ => ⟨hi.1, fun hd => absurd hd hi.2.1⟩⟩,
      fun c' _ => ih c' fun j hj => h j (List.mem_cons_of_mem _ hj)⟩

theorem safeKey_keeps {e : Env} {c : Ctx} {ev : KeyEvent} (h : SafeKey c.cmds ev) : KeepsOp e c (.key ev) := by
  intro is his
  apply safe_admissible
  unfold CommandRule.getInstruction at his
  split at his
  · split at his <;> cases his
  · have his := Except.ok.inj his
    cases hf : (c.cmds c.top.mode c.top.inputMode).find? fun e => decide (e.1 = CommandRule.matchingKey ev) with
    | none => rw [hf] at his; cases his
    | some k =>
      rw [hf] at his
      cases his
      have hm := List.find?_some hf
      simp only [decide_eq_true_eq] at hm
      exact h _ _ k (List.mem_of_find?_eq_some hf) ((matchingKey_iff _ _).mp hm)

theorem safe_along {e : Env} (ops : List Op) (c : Ctx)
    (h : ∀ op ∈ ops, op = .poll ∨ ∃ ev, op = .key ev ∧ SafeKey c.cmds ev) : Along e (KeepsOp e) c ops := by
  induction ops generalizing c with
  | nil => trivial
  | cons op ops ih =>
    refine ⟨?_, ?_⟩
    · rcases h op List.mem_cons_self with rfl | ⟨ev, rfl, hs⟩
      · trivial
      · exact safeKey_keeps hs
    · intro c' hc
      have hcm : c'.cmds = c.cmds := by
        have hp : Frame.Plain op := by
          rcases h op List.mem_cons_self with rfl | ⟨ev, rfl, hs⟩ <;> trivial
        exact (((rules_frame c).step ⟨rfl, rfl, rfl⟩ op hp).out c' hc).1
      apply ih
      rw [hcm]
      exact fun o ho => h o (List.mem_cons_of_mem _ ho)

/-- C03 for typing: keys bound to no erasing command, polls anywhere between them: the polls together with the
pending rest give what a single poll at the end gives. -/
theorem typing_delivered_exactly_once (e : Env) (ops : List Op) (c c' : Ctx) (out : Str)
    (hg : ∀ s ∈ c.states, s.raw.length ≤ s.kana.length)
    (h : ∀ op ∈ ops, op = .poll ∨ ∃ ev, op = .key ev ∧ SafeKey c.cmds ev)
    (hd : deliver e c ops = .ok (c', out)) :
    ∃ c₂, run e c (withoutPolls ops) = .ok c₂ ∧ pendingOutput c₂ = out ++ pendingOutput c' := by
  refine ⟨_, polls_do_not_matter e ops c c' out hg (safe_along ops c h) hd, pendingOutput_credit _ _⟩

/-- Typing "aka" with the default rule, polling twice. -/
def sampleOps : List Op :=
  [.key ⟨0x61, 0⟩, .poll, .key ⟨0x6b, 0⟩, .key ⟨0x61, 0⟩, .poll, .key ⟨0x69, 0⟩]

/-- The default context satisfies the hypotheses with these keys, and the run ends. -/
example :
    let c := Ctx.new Assets.defaultCommands Assets.defaultKana .hiragana .direct []
    (∀ s ∈ c.states, s.raw.length ≤ s.kana.length) ∧
    (∀ op ∈ sampleOps, op = .poll ∨ ∃ ev, op = .key ev ∧ SafeKey c.cmds ev) := by
  refine ⟨by decide, ?_⟩
  have hs : ∀ k ∈ [0x61, 0x6b, 0x69], SafeKey Assets.defaultCommands ⟨k, 0⟩ := by
    unfold SafeKey
    simp only [← matchingKey_iff]
    intro k hk cm im
    revert k
    cases cm <;> cases im <;> decide +kernel
  intro op hop
  simp only [sampleOps, List.mem_cons, List.not_mem_nil, or_false] at hop
  rcases hop with rfl | rfl | rfl | rfl | rfl | rfl
  · exact Or.inr ⟨_, rfl, hs _ (by decide)⟩
  · exact Or.inl rfl
  · exact Or.inr ⟨_, rfl, hs _ (by decide)⟩
  · exact Or.inr ⟨_, rfl, hs _ (by decide)⟩
  · exact Or.inl rfl
  · exact Or.inr ⟨_, rfl, hs _ (by decide)⟩

/-- The two polls return あ and か, い is still pending. -/
example :
    ((deliver (Assets.env ⟨true⟩) (Ctx.new Assets.defaultCommands Assets.defaultKana .hiragana .direct [])
      sampleOps).toOption.map fun r => (r.2, pendingOutput r.1)) = some (c%"あか", c%"い") := by
  decide +kernel

/-- Without the restriction the claim fails: Backspace erases committed text which was not polled, so polling before it
delivers more than polling after it. -/
theorem backspace_erases_undelivered_text :
    let c := Ctx.new Assets.defaultCommands Assets.defaultKana .hiragana .direct []
    ((deliver (Assets.env ⟨true⟩) c [.key ⟨0x61, 0⟩, .poll, .key ⟨0xff08, 0⟩]).toOption.map fun r =>
      r.2 ++ pendingOutput r.1) = some c%"あ" ∧
    ((deliver (Assets.env ⟨true⟩) c [.key ⟨0x61, 0⟩, .key ⟨0xff08, 0⟩, .poll]).toOption.map fun r =>
      r.2 ++ pendingOutput r.1) = some [] := by
  decide +kernel

end Cskk.Props.Output
