import Verif.Spec.Lists
import Verif.Props.Cursor
import Verif.Props.Screen

/-!
# C76: a list of words is offered only while one is chosen
-/

namespace Cskk.Props.Lists

open Spec

/-- What holds of the level which is worked on. -/
def TopOk (s : State) : Prop := s.cands.cands ≠ [] → Offering s.mode ∧ s.cands.cursor < s.cands.cands.length

/-- What holds of the levels which wait. -/
def BelowOk (s : State) : Prop := s.cands.cands ≠ [] → s.history.getLast? = some .compositionSelection ∧ s.cands.cursor < s.cands.cands.length

/-- Both. -/
def Good (c : Ctx) : Prop := TopOk c.top ∧ ∀ s ∈ c.below, BelowOk s

/-- There is no list. -/
def Gone (c : Ctx) : Prop := c.top.cands.cands = []

theorem TopOk.none {s : State} (h : s.cands.cands = []) : TopOk s := fun hn => absurd h hn

theorem TopOk.congr {s s' : State} (h : TopOk s) (h1 : s'.cands = s.cands) (h2 : s'.mode = s.mode) : TopOk s' := by
  unfold TopOk at *
  rw [h1, h2]; exact h

theorem TopOk.gone {s : State} (h : TopOk s) (hm : ¬ Offering s.mode) : s.cands.cands = [] :=
  Classical.byContradiction fun hn => hm (h hn).1

theorem Good.top {c c' : Ctx} (h : Good c) (ht : TopOk c'.top) (hb : c'.below = c.below) : Good c' := ⟨ht, by rw [hb]; exact h.2⟩

theorem Good.same {c c' : Ctx} (h : Good c) (h1 : c'.top.cands = c.top.cands) (h2 : c'.top.mode = c.top.mode) (hb : c'.below = c.below) : Good c' :=
  h.top (h.1.congr h1 h2) hb

/-- What touches neither the list, the mode nor the other levels. -/
structure Same (c c' : Ctx) : Prop where
  cands : c'.top.cands = c.top.cands
  mode : c'.top.mode = c.top.mode
  below : c'.below = c.below

theorem Same.refl (c : Ctx) : Same c c := ⟨rfl, rfl, rfl⟩

theorem Same.trans {a b c : Ctx} (h1 : Same a b) (h2 : Same b c) : Same a c :=
  ⟨h2.cands.trans h1.cands, h2.mode.trans h1.mode, h2.below.trans h1.below⟩

theorem Same.good {c c' : Ctx} (h : Same c c') (hg : Good c) : Good c' := hg.same h.cands h.mode h.below

theorem Same.gone {c c' : Ctx} (h : Same c c') (hg : Gone c) : Gone c' := by unfold Gone at *; rw [h.cands]; exact hg

theorem pushFor_same (s : State) (w : Str) (m : CompositionMode) : (s.pushFor w m).cands = s.cands ∧ (s.pushFor w m).mode = s.mode := by
  cases m <;> exact ⟨rfl, rfl⟩

theorem push_same (c : Ctx) (w : Str) (m : CompositionMode) : Same c (c.mapTop (·.pushFor w m)) :=
  ⟨(pushFor_same _ _ _).1, (pushFor_same _ _ _).2, rfl⟩

theorem outputConverted_same (e : Env) (c : Ctx) (im : InputMode) (cm : CompositionMode) : Same c (c.outputConverted e im cm) := by
  unfold Ctx.outputConverted
  split
  · split
    · exact ⟨(pushFor_same _ _ _).1, (pushFor_same _ _ _).2, rfl⟩
    · exact ⟨(pushFor_same _ _ _).1, (pushFor_same _ _ _).2, rfl⟩
    · exact ⟨(pushFor_same _ _ _).1, (pushFor_same _ _ _).2, rfl⟩
    · exact .refl c
  · exact .refl c

theorem inputAsContinuous_same (c : Ctx) (ev : KeyEvent) : Same c (c.inputAsContinuous ev) := by
  unfold Ctx.inputAsContinuous
  split <;> exact ⟨rfl, rfl, rfl⟩

theorem appendConverted_same (e : Env) (c : Ctx) (w : Str) : Same c (c.appendConverted e w) := by
  unfold Ctx.appendConverted
  exact ⟨(pushFor_same _ _ _).1, (pushFor_same _ _ _).2, rfl⟩

theorem setCarryOver_same (c : Ctx) (l : List Keysym) : Same c (c.setCarryOver l) := ⟨rfl, rfl, rfl⟩

theorem clearPre_same (c : Ctx) : Same c (c.mapTop State.clearPre) := ⟨rfl, rfl, rfl⟩

/-! ## The list is made, left, and taken up again -/

theorem confirmCurrent_good (e : Env) (c : Ctx) (h : Good c) : Good (c.confirmCurrent e) ∧ Gone (c.confirmCurrent e) := by
  unfold Ctx.confirmCurrent
  cases hc : c.top.cands.current with
  | some cand => exact ⟨⟨TopOk.none rfl, h.2⟩, rfl⟩
  | none =>
    have : c.top.cands.cands = [] := by
      refine Classical.byContradiction fun hn => ?_
      have := (h.1 hn).2
      unfold CandidateList.current at hc
      rw [List.getElem?_eq_getElem this] at hc
      cases hc
    exact ⟨h, this⟩

theorem enterRegister_good (c : Ctx) (m : CompositionMode) (h : Good c) (hm : c.top.cands.cands ≠ [] → m = .compositionSelection) : Good (c.enterRegister m) := by
  unfold Ctx.enterRegister
  split
  · refine ⟨TopOk.none rfl, fun s hs => ?_⟩
    rcases List.mem_cons.mp hs with rfl | hs
    · intro hn
      have hn : c.top.cands.cands ≠ [] := hn
      refine ⟨?_, (h.1 hn).2⟩
      show (if _ then _ else _ : List CompositionMode).getLast? = _
      rw [← hm hn]
      split
      · rename_i hl
        rw [List.drop_append_of_le_length (by rw [List.length_append] at hl; unfold HISTORY_MAX at hl; simp at hl; omega), List.getLast?_append]
        simp
      · simp
    · exact h.2 s hs
  · exact h

theorem updateList_offers {c c' : Ctx} {l : R (List Candidate)} (hs : (l >>= fun cs => pure (c.mapTop (·.setCandidates cs))) = .ok c') :
    c'.below = c.below ∧ c'.top.cands.cursor = 0 ∧ c'.top.mode = c.top.mode := by
  cases l with
  | error _ => cases hs
  | ok cs => injection hs with hs; subst hs; exact ⟨rfl, rfl, rfl⟩

theorem offered_good {c c' : Ctx} (h : Good c) (hb : c'.below = c.below) (h0 : c'.top.cands.cursor = 0) (m : CompositionMode) (hm : Offering m) :
    Good (c'.setCompositionMode m) :=
  h.top (fun hn => ⟨hm, by
    show c'.top.cands.cursor < _
    rw [h0]; exact List.length_pos_iff.mpr hn⟩) hb

/-- The cursor moves. -/
theorem forward_keeps {p : Profile} {s s' : State} (hs : s.forward p = .ok s') :
    s'.cands.cands = s.cands.cands ∧ s'.mode = s.mode ∧ (s.cands.cursor < s.cands.cands.length → s'.cands.cursor < s.cands.cands.length) := by
  unfold State.forward CandidateList.forward at hs
  cases hu : usizeSub p s.cands.cands.length 1 with
  | error _ => rw [hu] at hs; cases hs
  | ok m =>
    rw [hu] at hs
    by_cases hl : s.cands.cursor < m
    · simp only [bind, Except.bind, if_pos hl] at hs
      injection hs with hs; subst hs
      refine ⟨rfl, rfl, fun hc => ?_⟩
      show s.cands.cursor + 1 < _
      unfold usizeSub at hu
      split at hu
      · injection hu with hu; omega
      · omega
    · simp only [bind, Except.bind, if_neg hl] at hs
      injection hs with hs; subst hs
      exact ⟨rfl, rfl, id⟩

theorem backward_keeps (s : State) :
    s.backward.cands.cands = s.cands.cands ∧ s.backward.mode = s.mode ∧ s.backward.cands.cursor ≤ s.cands.cursor := by
  unfold State.backward CandidateList.backward
  split
  · exact ⟨rfl, rfl, Nat.sub_le _ _⟩
  · exact ⟨rfl, rfl, Nat.le_refl _⟩

theorem TopOk.moved {s s' : State} (h : TopOk s) (h1 : s'.cands.cands = s.cands.cands) (h2 : s'.mode = s.mode)
    (h3 : s.cands.cursor < s.cands.cands.length → s'.cands.cursor < s.cands.cands.length) : TopOk s' := by
  intro hn
  rw [h1] at hn ⊢
  rw [h2]
  exact ⟨(h hn).1, h3 (h hn).2⟩

theorem tryNextCandidate_good (e : Env) (c c' : Ctx) (cm : CompositionMode) (im : InputMode) (h : Good c)
    (hs : c.tryNextCandidate e cm im = .ok c') : Good c' := by
  unfold Ctx.tryNextCandidate at hs
  split at hs
  · cases hu : (c.outputConverted e im cm).updateCandidateList with
    | error _ => rw [hu] at hs; cases hs
    | ok c1 =>
      rw [hu] at hs
      obtain ⟨u1, u2, u3⟩ := updateList_offers hu
      have ho := outputConverted_same e c im cm
      have hg := ho.good h
      simp only [bind, Except.bind] at hs
      split at hs
      · rename_i hx
        injection hs with hs; subst hs
        have hx : c1.top.cands.cands = [] := by
          rw [Bool.and_eq_true] at hx
          exact List.isEmpty_iff.mp hx.2
        exact enterRegister_good c1 cm (hg.top (TopOk.none hx) u1) (fun hn => absurd hx hn)
      · split at hs
        · injection hs with hs; subst hs
          exact offered_good hg u1 u2 _ (.inl rfl)
        · rename_i hx
          injection hs with hs; subst hs
          refine hg.top (TopOk.none ?_) u1
          simpa using hx
  · rename_i hcm
    have hcm : cm = .compositionSelection := Classical.not_not.mp hcm
    cases hn : c.top.cands.hasNext e.prof with
    | error _ => rw [hn] at hs; cases hs
    | ok n =>
      rw [hn] at hs
      simp only [bind, Except.bind] at hs
      split at hs
      · injection hs with hs; subst hs
        exact enterRegister_good c cm h fun _ => hcm
      · cases hf : c.top.forward e.prof with
        | error _ => rw [hf] at hs; cases hs
        | ok s =>
          rw [hf] at hs
          injection hs with hs; subst hs
          obtain ⟨f1, f2, f3⟩ := forward_keeps hf
          exact h.top (h.1.moved f1 f2 f3) rfl

theorem tryNextCompletion_good (e : Env) (c c' : Ctx) (cm : CompositionMode) (im : InputMode) (h : Good c)
    (hs : c.tryNextCompletion e cm im = .ok c') : Good c' := by
  unfold Ctx.tryNextCompletion at hs
  split at hs
  · cases hu : (c.outputConverted e im cm).updateCompletionList with
    | error _ => rw [hu] at hs; cases hs
    | ok c1 =>
      rw [hu] at hs
      obtain ⟨u1, u2, u3⟩ := updateList_offers hu
      have ho := outputConverted_same e c im cm
      have hg := ho.good h
      simp only [bind, Except.bind] at hs
      split at hs
      · rename_i hx
        injection hs with hs; subst hs
        rw [Bool.and_eq_true] at hx
        exact hg.top (TopOk.none (List.isEmpty_iff.mp hx.2)) u1
      · split at hs
        · injection hs with hs; subst hs
          exact offered_good hg u1 u2 _ (.inr rfl)
        · rename_i hx
          injection hs with hs; subst hs
          refine hg.top (TopOk.none ?_) u1
          simpa using hx
  · cases hn : c.top.cands.hasNext e.prof with
    | error _ => rw [hn] at hs; cases hs
    | ok n =>
      rw [hn] at hs
      simp only [bind, Except.bind] at hs
      split at hs
      · injection hs with hs; subst hs
        exact h
      · cases hf : c.top.forward e.prof with
        | error _ => rw [hf] at hs; cases hs
        | ok s =>
          rw [hf] at hs
          injection hs with hs; subst hs
          obtain ⟨f1, f2, f3⟩ := forward_keeps hf
          have ht := h.1.moved f1 f2 f3
          exact h.top (fun hx => ⟨.inr rfl, (ht hx).2⟩) rfl

theorem abortToPrevious_back {s : State} (h : BelowOk s) : TopOk s.abortToPrevious := by
  intro hn
  rw [Cursor.abort_cands] at hn ⊢
  obtain ⟨h1, h2⟩ := h hn
  refine ⟨.inl ?_, h2⟩
  unfold State.abortToPrevious
  rw [h1]
  rfl

theorem abort_good (c : Ctx) (h : Good c) : Good c.abort := by
  unfold Ctx.abort
  have h1 : Good (c.mapTop fun s => s.clearPre.consolidate.clearCandidateList) := h.top (TopOk.none rfl) rfl
  have g1 : Gone (c.mapTop fun s => s.clearPre.consolidate.clearCandidateList) := rfl
  generalize c.mapTop (fun s => s.clearPre.consolidate.clearCandidateList) = c1 at *
  dsimp only
  by_cases hd : c1.top.mode = .direct
  · rw [if_pos hd, if_neg (by rw [hd]; rintro ⟨hx, _⟩; cases hx)]
    unfold Ctx.abortRegister
    cases hb : c1.below with
    | nil =>
      refine ⟨TopOk.none ?_, ?_⟩
      · show (c1.top.abortToPrevious).cands.cands = []
        rw [Cursor.abort_cands]; exact g1
      · have := h1.2
        rw [hb] at this
        intro s hs
        have hs : s ∈ c1.below := hs
        rw [hb] at hs
        cases hs
    | cons s rest =>
      have h2 := h1.2
      rw [hb] at h2
      exact ⟨abortToPrevious_back (h2 s (by simp)), fun t ht => h2 t (List.mem_cons_of_mem _ ht)⟩
  · rw [if_neg hd]
    have g2 : Gone (c1.mapTop State.abortToPrevious) := by
      show (c1.top.abortToPrevious).cands.cands = []
      rw [Cursor.abort_cands]; exact g1
    split
    · refine h1.top (TopOk.none ?_) rfl
      show (State.abortToPrevious (c1.mapTop State.abortToPrevious).top).cands.cands = []
      rw [Cursor.abort_cands]; exact g2
    · exact h1.top (TopOk.none g2) rfl

theorem registered_some {ds : List CskkDict} {s : State} {w : Str} {cs : List Candidate}
    (hw : ¬ (c%"#4" <:+: w ∧ s.cands.toComposite.toComposite.any isNd = true)) (h : Ctx.registered ds s w = .ok cs) : cs ≠ [] := by
  by_cases h4 : c%"#4" <:+: w
  · have hd : s.cands.toComposite.toComposite.any isNd = false := by
      rw [← Bool.not_eq_true]; exact fun hx => hw ⟨h4, hx⟩
    have hn : Numeric.numericStringCount s.cands.toComposite.toComposite = 0 := by
      have h2 := congrArg Prod.snd (Numeric.numeric_key_no_digits s.cands.toComposite.toComposite (by simpa using hd))
      unfold Numeric.numericStringCount
      rw [show digitRuns s.cands.toComposite.toComposite = [] from h2]; rfl
    unfold Ctx.registered at h
    dsimp only at h
    rw [hn, if_neg (by omega)] at h
    injection h with h
    rw [← h]; simp
  · exact Cursor.registered_ne_nil h4 h

theorem exitRegister_good (e : Env) (c c' : Ctx) (h : Good c) (hw : ¬ RegistersNothing c) (hs : c.exitRegister e c.top.confirmed = .ok c') : Good c' := by
  unfold Ctx.exitRegister at hs
  cases hb : c.below with
  | nil => rw [hb] at hs; injection hs with hs; subst hs; exact h
  | cons s rest =>
    rw [hb] at hs
    have h2 := h.2
    rw [hb] at h2
    have hrest : ∀ t ∈ rest, BelowOk t := fun t ht => h2 t (List.mem_cons_of_mem _ ht)
    dsimp only at hs
    split at hs
    · injection hs with hs; subst hs
      exact ⟨abortToPrevious_back (h2 s (by simp)), hrest⟩
    · simp only [bind, Except.bind] at hs
      split at hs
      · cases hs
      · rename_i cs hr
        injection hs with hs; subst hs
        have hne : cs ≠ [] := by
          intro hcs
          subst hcs
          by_cases hx : c%"#4" <:+: c.top.confirmed ∧ s.cands.toComposite.toComposite.any isNd = true
          · exact hw ⟨⟨hx.1, s, by rw [hb]; rfl, hx.2⟩, s, by rw [hb]; rfl, hr⟩
          · exact registered_some hx hr rfl
        unfold Ctx.confirmCurrent
        have hcur : ∃ x, (({ s with mode := .direct } : State).addCandidates cs).cands.current = some x := by
          unfold State.addCandidates CandidateList.addNew CandidateList.current
          dsimp only
          have h0 : 0 < cs.length := List.length_pos_iff.mpr hne
          exact ⟨_, List.getElem?_eq_getElem (by rw [List.length_append]; omega)⟩
        obtain ⟨x, hx⟩ := hcur
        have hx' : ((({ c with below := rest, top := s } : Ctx).mapTop fun s => { s with mode := .direct }).mapTop (·.addCandidates cs)).top.cands.current = some x := hx
        rw [hx']
        exact ⟨TopOk.none rfl, hrest⟩

/-! ## Commands -/

theorem instruction_good (e : Env) (c c' : Ctx) (i : Instruction) (cm : CompositionMode) (im : InputMode) (r : Option Bool) (gone : Bool) (h : Good c)
    (hg : gone = true → Gone c) (hc : ∀ m, i = .changeCompositionMode m → gone = true ∨ Offering m)
    (ha : Plainly c i) (hs : c.instruction e i cm im = .ok (c', r)) :
    Good c' ∧ (goneAfter gone i = true → Gone c') := by
  cases i with
  | changeCompositionMode m =>
    injection hs with hs; injection hs with h1 h2; subst h1
    refine ⟨?_, fun hx => hg hx⟩
    rcases hc m rfl with hx | hx
    · exact h.top (TopOk.none (hg hx)) rfl
    · exact h.top (fun hn => ⟨hx, (h.1 hn).2⟩) rfl
  | changeInputMode m =>
    injection hs with hs; injection hs with h1 h2; subst h1
    exact ⟨h.same rfl rfl rfl, fun hx => hg hx⟩
  | forceKanaConvert m =>
    injection hs with hs; injection hs with h1 h2; subst h1
    have := outputConverted_same e c m cm
    exact ⟨this.good h, fun hx => this.gone (hg hx)⟩
  | clearUnconvertedInputs =>
    injection hs with hs; injection hs with h1 h2; subst h1
    exact ⟨h.same rfl rfl rfl, fun hx => hg hx⟩
  | clearKanaConvertedInputs =>
    injection hs with hs; injection hs with h1 h2; subst h1
    exact ⟨h.same rfl rfl rfl, fun hx => hg hx⟩
  | clearUnconfirmedInputs =>
    injection hs with hs; injection hs with h1 h2; subst h1
    exact ⟨h.top (TopOk.none rfl) rfl, fun _ => rfl⟩
  | abort =>
    injection hs with hs; injection hs with h1 h2; subst h1
    exact ⟨abort_good c h, fun hx => by cases hx⟩
  | confirmComposition =>
    injection hs with hs; injection hs with h1 h2; subst h1
    have := confirmCurrent_good e c h
    exact ⟨this.1, fun _ => this.2⟩
  | passthroughKeyEvent =>
    injection hs with hs; injection hs with h1 h2; subst h1
    exact ⟨h, hg⟩
  | confirmAs m =>
    injection hs with hs; injection hs with h1 h2; subst h1
    exact ⟨h.top (TopOk.none rfl) rfl, fun _ => rfl⟩
  | confirmDirect =>
    refine ⟨?_, fun hx => by cases hx⟩
    simp only [Ctx.instruction] at hs
    split at hs
    · cases hx : c.exitRegister e c.top.confirmed with
      | error _ => rw [hx] at hs; cases hs
      | ok c1 =>
        rw [hx] at hs
        injection hs with hs; injection hs with h1 h2; subst h1
        exact exitRegister_good e c c1 h (ha rfl) hx
    · injection hs with hs; injection hs with h1 h2; subst h1
      exact h
  | purge =>
    injection hs with hs; injection hs with h1 h2; subst h1
    have hb : c.purgeCurrent.below = c.below := by
      unfold Ctx.purgeCurrent
      cases c.top.cands.current <;> rfl
    have ht : Gone c.purgeCurrent := by
      unfold Ctx.purgeCurrent
      cases c.top.cands.current <;> rfl
    exact ⟨h.top (TopOk.none ht) hb, fun _ => ht⟩
  | nextCandidatePointer =>
    simp only [Ctx.instruction] at hs
    cases hf : c.top.forward e.prof with
    | error _ => rw [hf] at hs; cases hs
    | ok s =>
      rw [hf] at hs
      injection hs with hs; injection hs with h1 h2; subst h1
      obtain ⟨f1, f2, f3⟩ := forward_keeps hf
      exact ⟨h.top (h.1.moved f1 f2 f3) rfl, fun hx => f1.trans (hg hx)⟩
  | previousCandidatePointer =>
    injection hs with hs; injection hs with h1 h2; subst h1
    obtain ⟨f1, f2, f3⟩ := backward_keeps c.top
    exact ⟨h.top (h.1.moved f1 f2 (Nat.lt_of_le_of_lt f3)) rfl, fun hx => f1.trans (hg hx)⟩
  | delete =>
    injection hs with hs; injection hs with h1 h2; subst h1
    have hd := Cursor.delete_cands c.top
    refine ⟨h.top ?_ rfl, fun hx => by show c.top.delete.1.cands.cands = []; rw [hd]; exact hg hx⟩
    by_cases ho : Offering c.top.mode
    · refine h.1.congr hd ?_
      show c.top.delete.1.mode = _
      unfold State.delete
      rcases ho with ho | ho <;> simp [ho]
    · refine TopOk.none ?_
      show c.top.delete.1.cands.cands = []
      rw [hd]; exact h.1.gone ho
  | tryNextCandidate =>
    refine ⟨?_, fun hx => by cases hx⟩
    simp only [Ctx.instruction] at hs
    cases hf : c.tryNextCandidate e cm im with
    | error _ => rw [hf] at hs; cases hs
    | ok c1 =>
      rw [hf] at hs
      injection hs with hs; injection hs with h1 h2; subst h1
      exact tryNextCandidate_good e c c1 cm im h hf
  | tryPreviousCandidate =>
    simp only [Ctx.instruction] at hs
    split at hs
    · injection hs with hs; injection hs with h1 h2; subst h1
      exact ⟨h, hg⟩
    · split at hs
      · injection hs with hs; injection hs with h1 h2; subst h1
        exact ⟨h.top (TopOk.none rfl) rfl, fun _ => rfl⟩
      · injection hs with hs; injection hs with h1 h2; subst h1
        obtain ⟨f1, f2, f3⟩ := backward_keeps c.top
        exact ⟨h.top (h.1.moved f1 f2 (Nat.lt_of_le_of_lt f3)) rfl, fun hx => f1.trans (hg hx)⟩
  | tryNextCompletion =>
    refine ⟨?_, fun hx => by cases hx⟩
    simp only [Ctx.instruction] at hs
    cases hf : c.tryNextCompletion e cm im with
    | error _ => rw [hf] at hs; cases hs
    | ok c1 =>
      rw [hf] at hs
      injection hs with hs; injection hs with h1 h2; subst h1
      exact tryNextCompletion_good e c c1 cm im h hf
  | tryPreviousCompletion =>
    simp only [Ctx.instruction] at hs
    split at hs
    · injection hs with hs; injection hs with h1 h2; subst h1
      exact ⟨h, hg⟩
    · split at hs
      · injection hs with hs; injection hs with h1 h2; subst h1
        obtain ⟨f1, f2, f3⟩ := backward_keeps c.top
        exact ⟨h.top (h.1.moved f1 f2 (Nat.lt_of_le_of_lt f3)) rfl, fun hx => f1.trans (hg hx)⟩
      · injection hs with hs; injection hs with h1 h2; subst h1
        exact ⟨h, hg⟩
  | finishKeyEvent =>
    injection hs with hs; injection hs with h1 h2; subst h1
    exact ⟨h, hg⟩

theorem run_good (e : Env) (cm : CompositionMode) (im : InputMode) (b : Bool) (is : List Instruction) : ∀ (c c' : Ctx) (r gone : Bool), Good c →
    (gone = true → Gone c) → tidy gone is = true →
    c.Admissible e Plainly cm im is →
    Ctx.runInstructions e cm im b c is = .ok (c', r) → Good c' := by
  induction is with
  | nil => intro c c' r gone h _ _ _ hs; injection hs with hs; injection hs with h1 h2; subst h1; exact h
  | cons i is ih =>
    intro c c' r gone h hg ht ha hs
    unfold Ctx.runInstructions at hs
    cases hi : c.instruction e i cm im with
    | error _ => rw [hi] at hs; cases hs
    | ok q =>
      rw [hi] at hs
      obtain ⟨c1, r1⟩ := q
      unfold tidy at ht
      rw [Bool.and_eq_true] at ht
      have hstep := instruction_good e c c1 i cm im r1 gone h hg (by
        intro m hm
        subst hm
        have := ht.1
        simp only [Bool.or_eq_true, decide_eq_true_eq] at this
        exact this) ha.1 hi
      simp only [bind, Except.bind] at hs
      cases r1 with
      | some b1 => injection hs with hs; injection hs with h1 h2; subst h1; exact hstep.1
      | none => exact ih c1 c' r _ hstep.1 hstep.2 ht.2 (ha.2 c1 hi) hs

/-! ## Characters -/

theorem startOkuriHenkan_good (c c' : Ctx) (carry : List Keysym) (h : Good c) (hs : c.startOkuriHenkan carry = .ok c') : Good c' := by
  unfold Ctx.startOkuriHenkan at hs
  split at hs
  · cases hu : c.updateCandidateList with
    | error _ => rw [hu] at hs; cases hs
    | ok c1 =>
      rw [hu] at hs
      obtain ⟨u1, u2, u3⟩ := updateList_offers hu
      simp only [bind, Except.bind] at hs
      split at hs
      · rename_i hx
        injection hs with hs; subst hs
        have hx := List.isEmpty_iff.mp hx
        exact enterRegister_good c1 _ (h.top (TopOk.none hx) u1) fun hn => absurd hx hn
      · injection hs with hs; subst hs
        exact offered_good h u1 u2 _ (.inl rfl)
  · injection hs with hs; subst hs; exact h

theorem deleteN_cands (s : State) (n : Nat) : (Ctx.deleteN s n).cands = s.cands := by
  induction n generalizing s with
  | zero => rfl
  | succ n ih => rw [Ctx.deleteN, ih, Cursor.delete_cands]

theorem autoStartHenkan_good (e : Env) (c c' : Ctx) (h : Good c) (hs : c.autoStartHenkan e = .ok c') : Good c' := by
  unfold Ctx.autoStartHenkan at hs
  split at hs
  · cases hs
  · rename_i hm
    have hm : c.top.mode = .preComposition := Classical.not_not.mp hm
    have hg : c.top.cands.cands = [] := h.1.gone (by rw [hm]; decide)
    dsimp only at hs
    split at hs
    · rename_i kw _
      have hg' : Good (c.mapTop fun s => (Ctx.deleteN s (List.length kw)).setPostfix kw) := h.top (TopOk.none (by
        show (Ctx.deleteN c.top (List.length kw)).cands.cands = []
        rw [deleteN_cands]; exact hg)) rfl
      exact tryNextCandidate_good e _ c' _ _ hg' hs
    · injection hs with hs; subst hs; exact h

theorem transitionByCapital_good (c : Ctx) (ev : KeyEvent) (initial : CompositionMode) (done : Bool) (h : Good c) (hm : c.top.mode = initial) :
    Good (c.transitionByCapital ev initial done).1 := by
  unfold Ctx.transitionByCapital
  split
  · rename_i hx
    have hg : c.top.cands.cands = [] := h.1.gone (by rw [hm]; simp at hx; rw [hx.2]; decide)
    exact h.top (TopOk.none hg) rfl
  · split
    · rename_i hx
      have hg : c.top.cands.cands = [] := h.1.gone (by rw [hm]; simp at hx; rw [hx.2]; decide)
      exact h.top (TopOk.none hg) rfl
    · exact h

theorem inputConvertedKana_good (e : Env) (c c' : Ctx) (kana : Str) (carry : List Keysym) (did : Bool) (pre : List Keysym) (h : Good c)
    (hs : c.inputConvertedKana e kana carry did pre = .ok c') : Good c' := by
  unfold Ctx.inputConvertedKana at hs
  split at hs
  · injection hs with hs; subst hs
    exact ((appendConverted_same e c kana).trans (setCarryOver_same _ _)).good h
  · exact autoStartHenkan_good e _ c' (((push_same c kana _).trans (setCarryOver_same _ _)).good h) hs
  · refine startOkuriHenkan_good _ c' carry ?_ hs
    refine (setCarryOver_same _ _).good ?_
    split
    · exact (push_same c kana _).good h
    · exact (push_same c kana _).good h
  · injection hs with hs; subst hs; exact h

theorem finishSymbol_good (e : Env) (c c' : Ctx) (b : Bool) (h : Good c) (hs : c.finishSymbol e = .ok (c', b)) : Good c' := by
  unfold Ctx.finishSymbol at hs
  split at hs
  · cases ha : c.autoStartHenkan e with
    | error _ => rw [ha] at hs; cases hs
    | ok c1 =>
      rw [ha] at hs
      injection hs with hs; injection hs with h1 h2; subst h1
      exact autoStartHenkan_good e c c1 h ha
  · injection hs with hs; injection hs with h1 h2; subst h1; exact h

theorem converted_good (e : Env) (c c' : Ctx) (b : Bool) (kana : Str) (carry : List Keysym) (did : Bool) (pre : List Keysym) (h : Good c)
    (hs : (c.inputConvertedKana e kana carry did pre >>= fun c => pure (c, true)) = .ok (c', b)) : Good c' := by
  cases ha : c.inputConvertedKana e kana carry did pre with
  | error _ => rw [ha] at hs; cases hs
  | ok c1 =>
    rw [ha] at hs
    injection hs with hs; injection hs with h1 h2; subst h1
    exact inputConvertedKana_good e c c1 kana carry did pre h ha

theorem flushed_same (e : Env) (c : Ctx) (im : InputMode) (cm : CompositionMode) : Same c ((c.outputConverted e im cm).mapTop State.clearPre) :=
  (outputConverted_same e c im cm).trans (clearPre_same _)

theorem symbolInput_good (e : Env) (c c' : Ctx) (ev : KeyEvent) (ch : Char) (pre : List Keysym) (b : Bool) (h : Good c)
    (hs : c.symbolInput e ev ch pre = .ok (c', b)) : Good c' := by
  unfold Ctx.symbolInput at hs
  dsimp only at hs
  have hf := (flushed_same e c c.top.inputMode c.top.mode).good h
  split at hs
  · split at hs
    · exact finishSymbol_good e _ c' b ((appendConverted_same e _ _).good hf) hs
    · refine finishSymbol_good e _ c' b ?_ hs
      exact ((push_same _ _ _).trans (clearPre_same _)).good hf
    · refine finishSymbol_good e _ c' b ?_ hs
      exact ((push_same _ _ _).trans (clearPre_same _)).good hf
    · injection hs with hs; injection hs with h1 h2; subst h1; exact hf
  · split at hs
    · exact finishSymbol_good e _ c' b ((inputAsContinuous_same c ev).good h) hs
    · split at hs
      · exact finishSymbol_good e _ c' b ((inputAsContinuous_same _ _).good (transitionByCapital_good c ev _ _ h rfl)) hs
      · split at hs
        · exact converted_good e c c' b _ _ _ _ h hs
        · split at hs
          · split at hs
            · exact converted_good e _ c' b _ _ _ _ (transitionByCapital_good c ev _ _ h rfl) hs
            · exact finishSymbol_good e c c' b h hs
          · split at hs
            · exact finishSymbol_good e _ c' b ((inputAsContinuous_same _ _).good hf) hs
            · split at hs
              · refine finishSymbol_good e _ c' b ((inputAsContinuous_same _ _).good ?_) hs
                exact (flushed_same e _ _ _).good (transitionByCapital_good c ev _ _ h rfl)
              · split at hs
                · split at hs
                  · exact finishSymbol_good e _ c' b ((push_same _ _ _).good hf) hs
                  · exact finishSymbol_good e _ c' b ((push_same _ _ _).good hf) hs
                  · exact finishSymbol_good e _ c' b ((push_same _ _ _).good hf) hs
                  · injection hs with hs; injection hs with h1 h2; subst h1; exact hf
                · injection hs with hs; injection hs with h1 h2; subst h1; exact h

theorem romInput_good (e : Env) (c c' : Ctx) (ev : KeyEvent) (pre : List Keysym) (b : Bool) (h : Good c) (hs : c.romInput e ev pre = .ok (c', b)) : Good c' := by
  unfold Ctx.romInput at hs
  split at hs
  · exact converted_good e c c' b _ _ _ _ h hs
  · split at hs
    · exact converted_good e _ c' b _ _ _ _ (transitionByCapital_good c ev _ _ h rfl) hs
    · split at hs
      · exact symbolInput_good e c c' ev _ pre b h hs
      · injection hs with hs; injection hs with h1 h2; subst h1; exact h

theorem plainInput_same (e : Env) (c : Ctx) (ev : KeyEvent) : Same c (c.plainInput e ev).1 := by
  unfold Ctx.plainInput
  split
  · split
    · split
      · exact push_same _ _ _
      · exact appendConverted_same e c _
      · exact .refl c
    · exact .refl c
  · split
    · exact push_same _ _ _
    · exact .refl c
  · exact .refl c

theorem charInput_good (e : Env) (c c' : Ctx) (ev : KeyEvent) (b : Bool) (h : Good c) (hs : c.charInput e ev = .ok (c', b)) : Good c' := by
  unfold Ctx.charInput at hs
  split at hs
  · injection hs with hs; injection hs with h1 h2; subst h1; exact h
  · dsimp only at hs
    have hg : Good (if (c.top.mode = .compositionSelection ∨ c.top.mode = .completion) ∧ c.willBeProcessed ev c.top.pre then c.confirmCurrent e else c) := by
      split
      · exact (confirmCurrent_good e c h).1
      · exact h
    generalize (if (c.top.mode = .compositionSelection ∨ c.top.mode = .completion) ∧ c.willBeProcessed ev c.top.pre then c.confirmCurrent e else c) = c1 at *
    split at hs
    · exact romInput_good e c1 c' ev _ b hg hs
    · split at hs
      · injection hs with hs
        have : c' = (c1.plainInput e ev).1 := by rw [hs]
        rw [this]
        exact (plainInput_same e c1 ev).good hg
      · injection hs with hs; injection hs with h1 h2; subst h1; exact hg

theorem key_good (e : Env) (c c' : Ctx) (ev : KeyEvent) (b : Bool) (h : Good c) (hr : TidyRule c.cmds)
    (ha : c.KeyAdmissible e Plainly ev) (hs : c.processKeyEvent e ev = .ok (c', b)) : Good c' := by
  unfold Ctx.processKeyEvent at hs
  split at hs
  · injection hs with hs; injection hs with h1 h2; subst h1; exact h
  · unfold Ctx.processInner at hs
    split at hs
    · exact charInput_good e c c' ev b h hs
    · cases hi : c.cmds.getInstruction e.prof ev c.top.inputMode c.top.mode with
      | error _ => rw [hi] at hs; cases hs
      | ok o =>
        rw [hi] at hs
        simp only [bind, Except.bind] at hs
        cases o with
        | none => exact charInput_good e c c' ev b h hs
        | some is =>
          have hmem : ∃ k ∈ c.cmds c.top.mode c.top.inputMode, k.2 = is := by
            unfold CommandRule.getInstruction at hi
            split at hi
            · split at hi <;> cases hi
            · injection hi with hi
              rw [Option.map_eq_some_iff] at hi
              obtain ⟨k, h1, h2⟩ := hi
              exact ⟨k, List.mem_of_find?_eq_some h1, h2⟩
          obtain ⟨k, hk, rfl⟩ := hmem
          exact run_good e _ _ _ k.2 c c' b _ h (fun hx => h.1.gone (of_decide_eq_true hx)) (hr _ _ k hk) (ha _ hi) hs

/-! ## The other calls -/

theorem mapBottom_flush_good (c : Ctx) (h : Good c) : Good (c.mapBottom State.flushConfirmed) := by
  unfold Ctx.mapBottom
  split
  · exact h.same rfl rfl rfl
  · rename_i s rest hb
    refine ⟨h.1, fun t ht => ?_⟩
    rcases List.mem_append.mp ht with ht | ht
    · exact h.2 t (by rw [hb]; exact (List.dropLast_sublist _).mem ht)
    · rw [List.mem_singleton] at ht
      subst ht
      exact h.2 ((s :: rest).getLast (by simp)) (by rw [hb]; exact List.getLast_mem _)

theorem setPointer_good (c : Ctx) (i : Nat) (h : Good c) : Good { c with top := (c.top.setPointer i).1 } := by
  refine h.top ?_ rfl
  unfold State.setPointer CandidateList.setSelectionPointer
  dsimp only
  split
  · rename_i x hx
    intro hn
    exact ⟨(h.1 hn).1, (List.getElem?_eq_some_iff.mp hx).1⟩
  · exact h.1

theorem step_good (e : Env) (c c' : Ctx) (op : Op) (h : Good c) (hr : TidyRule c.cmds) (ho : Ordinary e c op) (hs : c.step e op = .ok c') : Good c' := by
  cases op with
  | key ev =>
    simp only [Ctx.step] at hs
    cases hk : c.processKeyEvent e ev with
    | error _ => rw [hk] at hs; cases hs
    | ok r =>
      rw [hk] at hs
      injection hs with hs; subst hs
      exact key_good e c r.1 ev r.2 h hr ho hk
  | poll =>
    injection hs with hs; subst hs
    unfold Ctx.pollOutput Ctx.retrieveOutput
    split
    · exact h
    · exact mapBottom_flush_good c h
  | reset =>
    injection hs with hs; subst hs
    exact ⟨TopOk.none rfl, fun s hs => by cases hs⟩
  | setInputMode m => injection hs with hs; subst hs; exact h.same rfl rfl rfl
  | setCompositionMode m => exact ho.elim
  | selectAt i =>
    injection hs with hs; subst hs
    unfold Ctx.selectCandidateAt
    dsimp only
    split
    · exact h
    · split
      · exact h.top (TopOk.none rfl) rfl
      · split
        · have := setPointer_good c (c.top.cands.cands.length - 1) h
          exact enterRegister_good _ _ this fun _ => rfl
        · exact setPointer_good c _ h
  | confirmAt i =>
    injection hs with hs; subst hs
    unfold Ctx.confirmCandidateAt
    dsimp only
    split
    · exact (confirmCurrent_good e _ (setPointer_good c i h)).1
    · exact setPointer_good c i h
  | setKeywords l => injection hs with hs; subst hs; exact h.same rfl rfl rfl
  | setPeriod p => injection hs with hs; subst hs; exact h.same rfl rfl rfl
  | setComma p => injection hs with hs; subst hs; exact h.same rfl rfl rfl
  | setRule r k => injection hs with hs; subst hs; exact h.same rfl rfl rfl
  | setDictionaries ds => injection hs with hs; subst hs; exact h.same rfl rfl rfl

theorem step_tidy {e : Env} {c c' : Ctx} {op : Op} (hr : TidyRule c.cmds) (h : Ordinary e c op) (hs : c.step e op = .ok c') : TidyRule c'.cmds := by
  by_cases hp : Frame.Plain op
  · rw [(((rules_frame c).step ⟨rfl, rfl, rfl⟩ op hp).out c' hs).1]; exact hr
  · cases op <;> first | exact absurd trivial hp | exact h.elim | (cases hs; exact hr) | (cases hs; exact h)

theorem reach_good (e : Env) (c₀ c : Ctx) (h₀ : Good c₀) (hr : TidyRule c₀.cmds) (h : Reach e (Ordinary e) c₀ c) : Good c ∧ TidyRule c.cmds := by
  induction h with
  | init => exact ⟨h₀, hr⟩
  | step _ ho hs ih => exact ⟨step_good e _ _ _ ih.1 ih.2 ho hs, step_tidy ih.2 ho hs⟩

/-- **C76.** In every history of ordinary calls: if there are words to choose from, then one of them is shown (as the word or as the completion), and the
cursor is on it. So when the word is confirmed, the conversion given up, or anything else begun, the list is gone. -/
theorem offered_only_while_choosing (e : Env) (r : CommandRule) (k : KanaBuilder) (im : InputMode) (cm : CompositionMode) (ds : List CskkDict) (c : Ctx)
    (hr : TidyRule r) (h : Reach e (Ordinary e) (Ctx.new r k im cm ds) c) (hn : c.candidateCount ≠ 0) :
    Offering c.top.mode ∧ ∃ i x, c.cursorPosition = some i ∧ c.candidates[i]? = some x := by
  have hg := reach_good e _ c ⟨TopOk.none rfl, fun s hs => by cases hs⟩ hr h
  have hl : c.top.cands.cands ≠ [] := fun hx => hn (by unfold Ctx.candidateCount; rw [hx]; rfl)
  obtain ⟨h1, h2⟩ := hg.1.1 hl
  refine ⟨h1, c.top.cands.cursor, _, ?_, List.getElem?_eq_getElem h2⟩
  unfold Ctx.cursorPosition
  rw [if_neg (by simpa using hl)]

/-- The shipped rules are tidy. -/
theorem shipped_tidy : TidyRule Assets.defaultCommands ∧ TidyRule Assets.azikCommands := by
  constructor <;> intro cm im <;> cases cm <;> cases im <;> decide +kernel

/-- Instructions which end no registration. -/
theorem plainly_of (e : Env) (cm : CompositionMode) (im : InputMode) (is : List Instruction) (hmem : Instruction.confirmDirect ∉ is) :
    ∀ c : Ctx, c.Admissible e Plainly cm im is := by
  induction is with
  | nil => intro c; trivial
  | cons i is ih =>
    intro c
    exact ⟨fun hx => absurd (by rw [hx]; simp) hmem, fun c' _ => ih (fun hx => hmem (List.mem_cons_of_mem _ hx)) c'⟩

/-- A key is ordinary if it does not end a registration, or if the text which is registered has no `#4`. -/
theorem key_ordinary (e : Env) (c : Ctx) (ev : KeyEvent) (h : (∀ k ∈ c.cmds c.top.mode c.top.inputMode, k.1 = CommandRule.matchingKey ev → Instruction.confirmDirect ∉ k.2)) :
    Ordinary e c (.key ev) := by
  intro is hi
  have hmem : Instruction.confirmDirect ∉ is := by
    unfold CommandRule.getInstruction at hi
    split at hi
    · split at hi <;> cases hi
    · injection hi with hi
      rw [Option.map_eq_some_iff] at hi
      obtain ⟨k, h1, h2⟩ := hi
      rw [← h2]
      exact h k (List.mem_of_find?_eq_some h1) (by simpa using List.find?_some h1)
  exact plainly_of e _ _ is hmem c

/-- A dictionary with two words. -/
def two : CskkDict := ⟨true, .static ⟨[], [(c%"か", ⟨c%"か", false, [([], [⟨c%"化", none⟩, ⟨c%"下", none⟩])]⟩)]⟩⟩

/-- What the calls lead to: how many words are offered, the mode, and the line which is shown. -/
def after (ops : List Op) : Option (Nat × CompositionMode × Str) :=
  (Spec.run (Assets.env ⟨true⟩) (Ctx.new Assets.defaultCommands Assets.defaultKana .hiragana .direct [two]) ops).toOption.map fun c =>
    (c.candidateCount, c.top.mode, c.preedit (Assets.env ⟨true⟩))

/-- Keys which are typed. -/
def keys (t : Str) : List Op := t.map fun ch => .key ⟨ch.toNat, 0⟩

/-- The list comes with the word and goes with it, however it goes: confirmed, typed over, given up, erased, or by way of a registration. -/
example : [keys c%"Ka ", keys c%"Ka " ++ [.key ⟨0xff0d, 0⟩], keys c%"Ka n", keys c%"Ka " ++ [.key ⟨0x67, 4⟩], keys c%"Ka X", keys c%"Ka xx",
      keys c%"Ka   ", keys c%"Ka   " ++ [.key ⟨0x67, 4⟩], keys c%"Ka " ++ [.selectAt (-1)], keys c%"Ka " ++ [.confirmAt 1], keys c%"Ka" ++ [.key ⟨0xff09, 0⟩],
      keys c%"Ka" ++ [.key ⟨0xff09, 0⟩, .key ⟨0x67, 4⟩]].map after =
    [some (2, .compositionSelection, c%"▼化"), some (0, .direct, c%"化"), some (0, .direct, c%"化n"), some (0, .preComposition, c%"▽か"), some (0, .direct, []),
      some (0, .preComposition, c%"▽かx"), some (0, .direct, c%"▼か【】"), some (2, .compositionSelection, c%"▼下"), some (0, .preComposition, c%"▽か"), some (0, .direct, c%"下"),
      some (2, .completion, c%"■化"), some (0, .preComposition, c%"▽か")] := by
  decide +kernel

/-- None of the keys ends a registration. -/
def harmless (e : Env) : Ctx → List KeyEvent → Bool
  | _, [] => true
  | c, ev :: l =>
    ((c.cmds c.top.mode c.top.inputMode).all fun k => decide (k.1 ≠ CommandRule.matchingKey ev) || decide (Instruction.confirmDirect ∉ k.2)) &&
      match c.processKeyEvent e ev with
      | .ok r => harmless e r.1 l
      | .error _ => false

theorem harmless_reach (e : Env) (c₀ : Ctx) (l : List KeyEvent) : ∀ c, Reach e (Ordinary e) c₀ c → harmless e c l = true →
    ∃ c', c.processKeyEvents e l = .ok c' ∧ Reach e (Ordinary e) c₀ c' := by
  induction l with
  | nil => intro c hr _; exact ⟨c, rfl, hr⟩
  | cons ev l ih =>
    intro c hr hh
    unfold harmless at hh
    rw [Bool.and_eq_true] at hh
    cases hk : c.processKeyEvent e ev with
    | error _ => rw [hk] at hh; cases hh.2
    | ok r =>
      rw [hk] at hh
      have ho : Ordinary e c (.key ev) := by
        refine key_ordinary e c ev fun k hm he => ?_
        have := List.all_eq_true.mp hh.1 k hm
        rw [Bool.or_eq_true] at this
        rcases this with h1 | h1
        · exact absurd he (of_decide_eq_true h1)
        · exact of_decide_eq_true h1
      obtain ⟨c', h1, h2⟩ := ih r.1 (hr.step ho (by simp only [Ctx.step, hk, bind, Except.bind]; rfl)) hh.2
      refine ⟨c', ?_, h2⟩
      unfold Ctx.processKeyEvents
      rw [hk]
      exact h1

/-- Such a history satisfies the hypotheses. -/
theorem reached : ∃ c, Reach (Assets.env ⟨true⟩) (Ordinary (Assets.env ⟨true⟩)) (Ctx.new Assets.defaultCommands Assets.defaultKana .hiragana .direct [two]) c ∧
    c.candidateCount = 2 := by
  obtain ⟨c, h1, h2⟩ := harmless_reach (Assets.env ⟨true⟩) _ [⟨0x4b, 0⟩, ⟨0x61, 0⟩, ⟨0x20, 0⟩] _ .init
    (by decide +kernel : harmless _ (Ctx.new Assets.defaultCommands Assets.defaultKana .hiragana .direct [two]) _ = true)
  refine ⟨c, h2, ?_⟩
  have : ((Ctx.new Assets.defaultCommands Assets.defaultKana .hiragana .direct [two]).processKeyEvents (Assets.env ⟨true⟩)
      [⟨0x4b, 0⟩, ⟨0x61, 0⟩, ⟨0x20, 0⟩]).toOption.map (·.candidateCount) = some 2 := by decide +kernel
  rw [h1] at this
  injection this

/-- The mode set by hand leaves the list. -/
theorem set_by_hand : after (keys c%"Ka " ++ [.setCompositionMode .direct]) = some (2, .direct, []) := by decide +kernel

end Cskk.Props.Lists
