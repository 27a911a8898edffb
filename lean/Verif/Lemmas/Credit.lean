import Verif.Lemmas.CtxInst

/-!
# Text committed earlier does not influence later calls

`c.credit w` is `c` with `w` put in front of the undelivered output of the outermost level.  Every API call except those
which erase output (backspace with nothing else to erase, purge, reset) commutes with it.
-/

namespace Cskk

/-- `w` in front of the committed text. -/
def State.credit (w : Str) (s : State) : State := { s with confirmed := w ++ s.confirmed }

/-- `f` applied to the last element. -/
def mapLast {α} (f : α → α) : List α → List α
  | [] => []
  | [a] => [f a]
  | a :: b :: l => a :: mapLast f (b :: l)

theorem mapLast_length {α} (f : α → α) (l : List α) : (mapLast f l).length = l.length := by
  fun_induction mapLast f l <;> simp_all

theorem mapLast_cons_ne {α} (f : α → α) (a : α) {l : List α} (h : l ≠ []) : mapLast f (a :: l) = a :: mapLast f l := by
  cases l with
  | nil => exact absurd rfl h
  | cons b l => rfl

/-- `w` in front of the undelivered output. -/
def Ctx.credit (w : Str) (c : Ctx) : Ctx :=
  match c.below with
  | [] => { c with top := c.top.credit w }
  | s :: rest => { c with below := mapLast (State.credit w) (s :: rest) }

/-- A state function which does not look at the committed text. -/
def Blind (w : Str) (g : State → State) : Prop := ∀ s, g (s.credit w) = (g s).credit w

namespace Credit
open Spec
variable {w : Str}

theorem cases (c : Ctx) : (∃ t cm k d cf, c = ⟨[], t, cm, k, d, cf⟩) ∨ (∃ s r t cm k d cf, c = ⟨s :: r, t, cm, k, d, cf⟩) := by
  obtain ⟨b, t, cm, k, d, cf⟩ := c
  cases b with
  | nil => exact Or.inl ⟨t, cm, k, d, cf, rfl⟩
  | cons s r => exact Or.inr ⟨s, r, t, cm, k, d, cf, rfl⟩

@[simp] theorem cmds (c : Ctx) : (c.credit w).cmds = c.cmds := by unfold Ctx.credit; split <;> rfl
@[simp] theorem kanaConv (c : Ctx) : (c.credit w).kanaConv = c.kanaConv := by unfold Ctx.credit; split <;> rfl
@[simp] theorem dicts (c : Ctx) : (c.credit w).dicts = c.dicts := by unfold Ctx.credit; split <;> rfl
@[simp] theorem config (c : Ctx) : (c.credit w).config = c.config := by unfold Ctx.credit; split <;> rfl
@[simp] theorem tmode (c : Ctx) : (c.credit w).top.mode = c.top.mode := by unfold Ctx.credit; split <;> rfl
@[simp] theorem tim (c : Ctx) : (c.credit w).top.inputMode = c.top.inputMode := by unfold Ctx.credit; split <;> rfl
@[simp] theorem tpre (c : Ctx) : (c.credit w).top.pre = c.top.pre := by unfold Ctx.credit; split <;> rfl
@[simp] theorem tkana (c : Ctx) : (c.credit w).top.kana = c.top.kana := by unfold Ctx.credit; split <;> rfl
@[simp] theorem tokuri (c : Ctx) : (c.credit w).top.okuri = c.top.okuri := by unfold Ctx.credit; split <;> rfl
@[simp] theorem tcands (c : Ctx) : (c.credit w).top.cands = c.top.cands := by unfold Ctx.credit; split <;> rfl
@[simp] theorem tcapital (c : Ctx) : (c.credit w).top.capital = c.top.capital := by unfold Ctx.credit; split <;> rfl
@[simp] theorem tkey (c : Ctx) : (c.credit w).top.compositeKey = c.top.compositeKey := by
  unfold Ctx.credit; split <;> rfl

@[simp] theorem depth (c : Ctx) : (c.credit w).depth = c.depth := by
  rcases cases c with ⟨t, cm, k, d, cf, rfl⟩ | ⟨s, r, t, cm, k, d, cf, rfl⟩
  · rfl
  · simp [Ctx.depth, Ctx.credit, mapLast_length]

theorem nested {s : State} {r : List State} {t : State} {cm k d cf} :
    (⟨s :: r, t, cm, k, d, cf⟩ : Ctx).credit w = ⟨mapLast (State.credit w) (s :: r), t, cm, k, d, cf⟩ := rfl

theorem mapTop {g : State → State} (hg : Blind w g) (c : Ctx) : (c.credit w).mapTop g = (c.mapTop g).credit w := by
  rcases cases c with ⟨t, cm, k, d, cf, rfl⟩ | ⟨s, r, t, cm, k, d, cf, rfl⟩
  · simp only [Ctx.credit, Ctx.mapTop, hg t]
  · rfl

theorem setDicts (c : Ctx) (ds : List CskkDict) :
    ({ c.credit w with dicts := ds } : Ctx) = ({ c with dicts := ds } : Ctx).credit w := by
  rcases cases c with ⟨t, cm, k, d, cf, rfl⟩ | ⟨s, r, t, cm, k, d, cf, rfl⟩ <;> rfl

theorem setTop {c : Ctx} {s t : State} (h : c.below = [] → s = t.credit w) (h' : c.below ≠ [] → s = t) :
    ({ c.credit w with top := s } : Ctx) = ({ c with top := t } : Ctx).credit w := by
  rcases cases c with ⟨t, cm, k, d, cf, rfl⟩ | ⟨s, r, t, cm, k, d, cf, rfl⟩
  · rw [h rfl]; rfl
  · rw [h' (by simp)]; rfl

theorem blind_comp {f g : State → State} (hf : Blind w f) (hg : Blind w g) : Blind w fun s => g (f s) := by
  intro s; show g (f (s.credit w)) = _; rw [hf, hg]

theorem pushFor (x : Str) (m : CompositionMode) : Blind w fun s => s.pushFor x m := by
  intro s; cases m <;> simp [State.pushFor, State.credit]

theorem push (x : Str) : Blind w fun s => s.push x := by
  intro s; exact pushFor x s.mode s

theorem clearPre : Blind w State.clearPre := fun _ => rfl
theorem clearKanas : Blind w State.clearKanas := fun _ => rfl
theorem clearCandidateList : Blind w State.clearCandidateList := fun _ => rfl
theorem clearUnconfirmed : Blind w State.clearUnconfirmed := fun _ => rfl
theorem resetToDefault : Blind w State.resetToDefault := fun _ => rfl
theorem consolidate : Blind w State.consolidate := fun _ => rfl
theorem setPostfix (x : Str) : Blind w fun s => s.setPostfix x := fun _ => rfl
theorem changeMode (m : CompositionMode) : Blind w fun s => s.changeMode m := fun _ => rfl
theorem setCandidates (cs : List Candidate) : Blind w fun s => s.setCandidates cs := fun _ => rfl
theorem addCandidates (cs : List Candidate) : Blind w fun s => s.addCandidates cs := fun _ => rfl
theorem backward : Blind w State.backward := fun _ => rfl
theorem inputMode (m : InputMode) : Blind w fun s => { s with inputMode := m } := fun _ => rfl
theorem setMode (m : CompositionMode) : Blind w fun s => { s with mode := m } := fun _ => rfl
theorem setPre (l : List Keysym) : Blind w fun s => { s with pre := l } := fun _ => rfl
theorem setCapital (b : Bool) : Blind w fun s => { s with capital := b } := fun _ => rfl
theorem setPointer (i : Nat) : Blind w fun s => (s.setPointer i).1 := fun _ => rfl

theorem abortToPrevious : Blind w State.abortToPrevious := by
  intro s
  unfold State.abortToPrevious State.credit
  dsimp only
  cases s.history.getLast? with
  | none => rfl
  | some m => dsimp only; split <;> rfl

theorem delete (s : State) (h : s.mode = .direct → s.pre = [] → s.confirmed ≠ []) :
    (s.credit w).delete = (s.delete.1.credit w, s.delete.2) := by
  unfold State.delete State.credit
  dsimp only
  cases hm : s.mode <;> dsimp only
  case direct =>
    split
    · rfl
    · rename_i hp
      have hne := h hm (Classical.not_not.mp hp)
      rw [List.dropLast_append_of_ne_nil hne]
      cases hc : s.confirmed with
      | nil => exact absurd hc hne
      | cons a l => simp
  case preComposition =>
    split
    · rfl
    · split <;> rfl
  case abbreviation =>
    split
    · rfl
    · split <;> rfl
  case preCompositionOkurigana =>
    by_cases hp : s.pre = []
    · simp only [hp, ne_eq, not_true_eq_false, if_false]
      split <;> rfl
    · simp only [hp, ne_eq, not_false_eq_true, if_true]
      split <;> rfl
  case compositionSelection => rw [hm]
  case register => rw [hm]
  case completion => rw [hm]

theorem forward (p : Profile) (s : State) : (s.credit w).forward p = (s.forward p).map (State.credit w) := by
  unfold State.forward State.credit
  dsimp only
  cases s.cands.forward p <;> rfl

theorem topForward (p : Profile) (c : Ctx) :
    (do let s ← (c.credit w).top.forward p; pure ({ c.credit w with top := s } : Ctx)) =
      (do let s ← c.top.forward p; pure (({ c with top := s } : Ctx).credit w) : R Ctx) := by
  rcases cases c with ⟨t, cm, k, d, cf, rfl⟩ | ⟨s, r, t, cm, k, d, cf, rfl⟩
  · show (do let s ← (t.credit w).forward p; pure _) = _
    rw [forward]
    show _ = (do let s ← t.forward p; pure _ : R Ctx)
    cases t.forward p <;> rfl
  · rfl

/-- Result of a computation on the credited context. -/
abbrev Comm (w : Str) (r r' : R Ctx) : Prop := r = r'.map (Ctx.credit w)

/-- The same with an additional result. -/
abbrev Comm2 {β} (w : Str) (r r' : R (Ctx × β)) : Prop := r = r'.map fun x => (x.1.credit w, x.2)

theorem Comm.bind {r r' : R Ctx} {f f' : Ctx → R Ctx} (h : Comm w r r') (hf : ∀ c, Comm w (f (c.credit w)) (f' c)) :
    Comm w (r >>= f) (r' >>= f') := by
  cases r' with
  | error p => cases h; rfl
  | ok c => cases h; exact hf c

theorem Comm.bind2 {β} {r r' : R Ctx} {f f' : Ctx → R (Ctx × β)} (h : Comm w r r')
    (hf : ∀ c, Comm2 w (f (c.credit w)) (f' c)) : Comm2 w (r >>= f) (r' >>= f') := by
  cases r' with
  | error p => cases h; rfl
  | ok c => cases h; exact hf c

theorem bindSame {β} {r : R β} {f f' : β → R Ctx} (h : ∀ a, r = .ok a → Comm w (f a) (f' a)) :
    Comm w (r >>= f) (r >>= f') := by
  cases r with
  | error p => rfl
  | ok a => exact h a rfl

theorem bindSame2 {α β} {r : R β} {f f' : β → R (Ctx × α)} (h : ∀ a, r = .ok a → Comm2 w (f a) (f' a)) :
    Comm2 w (r >>= f) (r >>= f') := by
  cases r with
  | error p => rfl
  | ok a => exact h a rfl

theorem appendConverted (e : Env) (c : Ctx) (x : Str) :
    (c.credit w).appendConverted e x = (c.appendConverted e x).credit w :=
  mapTop (g := fun s => s.push (e.kanaForm.adjust s.inputMode x)) (fun s => push _ s) c

theorem setUnconverted (c : Ctx) (l : List Keysym) : (c.credit w).setUnconverted l = (c.setUnconverted l).credit w :=
  mapTop (setPre l) c

theorem setCarryOver (c : Ctx) (l : List Keysym) : (c.credit w).setCarryOver l = (c.setCarryOver l).credit w :=
  mapTop (g := fun s => { s with pre := l, capital := if l.isEmpty then false else s.capital }) (fun _ => rfl) c

theorem updateCandidateList (c : Ctx) : Comm w (c.credit w).updateCandidateList c.updateCandidateList := by
  unfold Ctx.updateCandidateList
  rw [dicts, tkey]
  exact bindSame fun cs _ => congrArg Except.ok (mapTop (setCandidates cs) c)

theorem updateCompletionList (c : Ctx) : Comm w (c.credit w).updateCompletionList c.updateCompletionList := by
  unfold Ctx.updateCompletionList
  rw [dicts, tkey]
  exact bindSame fun cs _ => congrArg Except.ok (mapTop (setCandidates cs) c)

theorem confirmCurrent (e : Env) (c : Ctx) : (c.credit w).confirmCurrent e = (c.confirmCurrent e).credit w := by
  unfold Ctx.confirmCurrent
  rw [tcands]
  cases c.top.cands.current with
  | none => rfl
  | some cand =>
    dsimp only
    rw [dicts, setDicts, tim, tokuri]
    exact mapTop (blind_comp (blind_comp (push _) clearUnconfirmed) resetToDefault) _

theorem confirmKana (e : Env) (c : Ctx) (im : InputMode) :
    (c.credit w).confirmKana e im = (c.confirmKana e im).credit w := by
  unfold Ctx.confirmKana
  rw [tkana]
  exact mapTop (blind_comp (pushFor _ _) clearUnconfirmed) c

theorem setCompositionMode (c : Ctx) (m : CompositionMode) :
    (c.credit w).setCompositionMode m = (c.setCompositionMode m).credit w := mapTop (changeMode m) c

theorem enterRegister (c : Ctx) (m : CompositionMode) :
    (c.credit w).enterRegister m = (c.enterRegister m).credit w := by
  unfold Ctx.enterRegister
  rw [depth]
  split
  · rcases cases c with ⟨t, cm, k, d, cf, rfl⟩ | ⟨s, r, t, cm, k, d, cf, rfl⟩ <;> rfl
  · rfl

theorem abortRegister (c : Ctx) : (c.credit w).abortRegister = c.abortRegister.credit w := by
  rcases cases c with ⟨t, cm, k, d, cf, rfl⟩ | ⟨s, r, t, cm, k, d, cf, rfl⟩
  · rfl
  · cases r <;> rfl

theorem exitRegister (e : Env) (c : Ctx) (hb : c.below ≠ []) :
    Comm w ((c.credit w).exitRegister e (c.credit w).top.confirmed) (c.exitRegister e c.top.confirmed) := by
  rcases cases c with ⟨t, cm, k, d, cf, rfl⟩ | ⟨s, r, t, cm, k, d, cf, rfl⟩
  · exact absurd rfl hb
  · have key : ∀ x : Str, Comm w ((⟨mapLast (State.credit w) (s :: r), t, cm, k, d, cf⟩ : Ctx).exitRegister e x)
        ((⟨s :: r, t, cm, k, d, cf⟩ : Ctx).exitRegister e x) := by
      intro x
      have main : ∀ s' r', ({ below := r', top := s', cmds := cm, kanaConv := k, dicts := d, config := cf } : Ctx) =
          ({ below := r, top := s, cmds := cm, kanaConv := k, dicts := d, config := cf } : Ctx).credit w →
          Comm w ((⟨s' :: r', t, cm, k, d, cf⟩ : Ctx).exitRegister e x)
            ((⟨s :: r, t, cm, k, d, cf⟩ : Ctx).exitRegister e x) := by
        intro s' r' h
        unfold Ctx.exitRegister
        dsimp only
        rw [h]
        split
        · exact congrArg Except.ok (mapTop abortToPrevious _)
        · rw [mapTop (setMode .direct)]
          rw [dicts]
          have hreg : Ctx.registered
              ((⟨r, s, cm, k, d, cf⟩ : Ctx).mapTop fun s => { s with mode := .direct }).dicts
              (((⟨r, s, cm, k, d, cf⟩ : Ctx).mapTop fun s => { s with mode := .direct }).credit w).top x =
            Ctx.registered ((⟨r, s, cm, k, d, cf⟩ : Ctx).mapTop fun s => { s with mode := .direct }).dicts
              ((⟨r, s, cm, k, d, cf⟩ : Ctx).mapTop fun s => { s with mode := .direct }).top x := by
            unfold Ctx.registered
            rw [tcands, tokuri]
          rw [hreg]
          refine bindSame fun cs _ => congrArg Except.ok ?_
          rw [mapTop (addCandidates cs), confirmCurrent]
      cases r with
      | nil => exact main (s.credit w) [] rfl
      | cons b r => exact main s (mapLast (State.credit w) (b :: r)) rfl
    exact key t.confirmed

theorem outputConverted (e : Env) (c : Ctx) (im : InputMode) (m : CompositionMode) :
    (c.credit w).outputConverted e im m = (c.outputConverted e im m).credit w := by
  unfold Ctx.outputConverted
  rw [tpre, kanaConv]
  split
  · split
    · rw [mapTop (blind_comp (pushFor _ _) clearPre), setCarryOver]
    · rw [mapTop (blind_comp (pushFor _ _) clearPre), setCarryOver]
    · rw [mapTop (blind_comp (pushFor _ _) clearPre), setCarryOver]
    · rfl
  · rfl

theorem tryNextCandidate (e : Env) (c : Ctx) (cm : CompositionMode) (im : InputMode) :
    Comm w ((c.credit w).tryNextCandidate e cm im) (c.tryNextCandidate e cm im) := by
  unfold Ctx.tryNextCandidate
  split
  · rw [outputConverted]
    refine Comm.bind (updateCandidateList _) fun c => ?_
    rw [tkana, tcands]
    split
    · exact congrArg Except.ok (enterRegister c cm)
    · split
      · exact congrArg Except.ok (setCompositionMode c _)
      · rfl
  · rw [tcands]
    refine bindSame fun n _ => ?_
    split
    · exact congrArg Except.ok (enterRegister c cm)
    · rw [topForward]
      cases c.top.forward e.prof <;> rfl

theorem tryNextCompletion (e : Env) (c : Ctx) (cm : CompositionMode) (im : InputMode) :
    Comm w ((c.credit w).tryNextCompletion e cm im) (c.tryNextCompletion e cm im) := by
  unfold Ctx.tryNextCompletion
  split
  · rw [outputConverted]
    refine Comm.bind (updateCompletionList _) fun c => ?_
    rw [tkana, tcands]
    split
    · rfl
    · split
      · exact congrArg Except.ok (setCompositionMode c _)
      · rfl
  · rw [tcands]
    refine bindSame fun n _ => ?_
    split
    · rfl
    · have h := topForward (w := w) e.prof c
      cases hf : c.top.forward e.prof with
      | error p =>
        rw [hf] at h
        cases hg : (c.credit w).top.forward e.prof with
        | error q => rw [hg] at h; exact congrArg Except.error (Except.error.inj h)
        | ok s => rw [hg] at h; cases h
      | ok s =>
        rw [hf] at h
        cases hg : (c.credit w).top.forward e.prof with
        | error q => rw [hg] at h; cases h
        | ok t =>
          rw [hg] at h
          have h' : ({ c.credit w with top := t } : Ctx) = ({ c with top := s } : Ctx).credit w := Except.ok.inj h
          show Except.ok _ = Except.ok _
          rw [h', setCompositionMode]

theorem deleteN (n : Nat) (s : State) (hm : s.mode = .preComposition ∨ (s.mode = .direct ∧ s.pre = [] ∧ s.kana = []))
    (h : s.pre.length + s.kana.length ≥ n ∨ n = 0) :
    Ctx.deleteN (s.credit w) n = (Ctx.deleteN s n).credit w := by
  induction n generalizing s with
  | zero => rfl
  | succ n ih =>
    have h : s.pre.length + s.kana.length ≥ n + 1 := by rcases h with h | h <;> omega
    have hpre : s.mode = .preComposition := by
      rcases hm with hm | ⟨_, hp, hk⟩
      · exact hm
      · rw [hp, hk] at h; simp at h
    show Ctx.deleteN (s.credit w).delete.1 n = _
    rw [delete s (by rw [hpre]; intro h; cases h)]
    apply ih
    · unfold State.delete
      rw [hpre]; dsimp only
      split
      · exact Or.inl rfl
      · split
        · exact Or.inl rfl
        · rename_i hp hk
          rw [Classical.not_not.mp hp, Classical.not_not.mp hk] at h; simp at h
    · left
      unfold State.delete
      rw [hpre]; dsimp only
      split
      · simp only [List.length_dropLast]; omega
      · rename_i hp
        split
        · rw [Classical.not_not.mp hp] at h ⊢
          simp only [List.length_dropLast, List.length_nil] at h ⊢; omega
        · rename_i hk
          rw [Classical.not_not.mp hp, Classical.not_not.mp hk] at h; simp at h

/-- The hypothesis under which automatic conversion erases only the reading. -/
abbrev G (c : Ctx) : Prop := c.Good RawLe RawLe

theorem autoStartHenkan (e : Env) (c : Ctx) (hg : G c) :
    Comm w ((c.credit w).autoStartHenkan e) (c.autoStartHenkan e) := by
  unfold Ctx.autoStartHenkan
  rw [tmode, tkey, config]
  split
  · rfl
  · rename_i hm
    have hm : c.top.mode = .preComposition := Classical.not_not.mp hm
    dsimp only
    cases hf : c.config.keywords.find? fun suffix => !decide (c.top.compositeKey.toComposite = suffix) &&
        Ctx.endsWith c.top.compositeKey.toComposite suffix with
    | none => rfl
    | some suffix =>
      dsimp only
      have hraw : c.top.compositeKey.toComposite = c.top.raw := by
        unfold State.compositeKey; split <;> rfl
      have hlen : suffix.length ≤ c.top.raw.length := by
        have := List.find?_some hf
        simp only [Bool.and_eq_true] at this
        have h2 := this.2
        unfold Ctx.endsWith at h2
        rw [hraw] at h2
        exact (List.isSuffixOf_iff_suffix.mp h2).length_le
      have hle : c.top.raw.length ≤ c.top.kana.length := hg.1
      have hdel : (c.credit w).mapTop (fun s => (Ctx.deleteN s suffix.length).setPostfix suffix) =
          (c.mapTop fun s => (Ctx.deleteN s suffix.length).setPostfix suffix).credit w := by
        rcases cases c with ⟨t, cm, k, d, cf, rfl⟩ | ⟨s, r, t, cm, k, d, cf, rfl⟩
        · have h := deleteN (w := w) suffix.length t (Or.inl hm) (Or.inl (by dsimp only at hle hlen; omega))
          simp only [Ctx.credit, Ctx.mapTop, h]
          rfl
        · rfl
      rw [hdel, tim]
      exact tryNextCandidate e _ _ _

theorem transitionByCapital (c : Ctx) (ev : KeyEvent) (m : CompositionMode) (d : Bool) :
    (c.credit w).transitionByCapital ev m d = ((c.transitionByCapital ev m d).1.credit w, (c.transitionByCapital ev m d).2) := by
  unfold Ctx.transitionByCapital
  rw [tkana, setCompositionMode, setCompositionMode, mapTop (setCapital true), mapTop (setCapital true)]
  split
  · rfl
  · split <;> rfl

theorem startOkuriHenkan (c : Ctx) (carry : List Keysym) :
    Comm w ((c.credit w).startOkuriHenkan carry) (c.startOkuriHenkan carry) := by
  unfold Ctx.startOkuriHenkan
  rw [tkana]
  split
  · refine Comm.bind (updateCandidateList c) fun c => ?_
    rw [tcands, tmode]
    split
    · exact congrArg Except.ok (enterRegister c _)
    · exact congrArg Except.ok (setCompositionMode c _)
  · rfl

theorem inputConvertedKana (e : Env) (c : Ctx) (hg : G c) (kana : Str) (carry : List Keysym) (d : Bool)
    (pre : List Keysym) :
    Comm w ((c.credit w).inputConvertedKana e kana carry d pre) (c.inputConvertedKana e kana carry d pre) := by
  unfold Ctx.inputConvertedKana
  rw [tmode]
  cases hm : c.top.mode <;> dsimp only
  case direct => rw [appendConverted, setCarryOver]; rfl
  case preComposition =>
    rw [mapTop (push kana), setCarryOver]
    exact autoStartHenkan e _ (RawLe.inv.setCarryOver (Inv.mapTop hg fun h => RawLe.inv.push _ _ h) _)
  case preCompositionOkurigana =>
    rw [mapTop (push kana), mapTop (pushFor kana .preComposition)]
    split
    · rw [setCarryOver]; exact startOkuriHenkan _ _
    · rw [setCarryOver]; exact startOkuriHenkan _ _
  all_goals rfl

theorem inputAsContinuous (c : Ctx) (ev : KeyEvent) :
    (c.credit w).inputAsContinuous ev = (c.inputAsContinuous ev).credit w := by
  unfold Ctx.inputAsContinuous
  rw [tmode, tpre, kanaConv, setUnconverted]
  cases c.top.mode <;> rfl

theorem abort (c : Ctx) : (c.credit w).abort = c.abort.credit w := by
  have hb : Blind w fun s => s.clearPre.consolidate.clearCandidateList :=
    blind_comp (blind_comp clearPre consolidate) clearCandidateList
  unfold Ctx.abort
  dsimp only
  rw [mapTop hb, tmode, abortRegister, ← apply_ite (Ctx.credit w), mapTop abortToPrevious, mapTop abortToPrevious,
    tmode, ← apply_ite (Ctx.credit w)]

theorem purgeCurrent (c : Ctx) (hb : c.below ≠ []) : (c.credit w).purgeCurrent = c.purgeCurrent.credit w := by
  rcases cases c with ⟨t, cm, k, d, cf, rfl⟩ | ⟨s, r, t, cm, k, d, cf, rfl⟩
  · exact absurd rfl hb
  · rw [nested]
    unfold Ctx.purgeCurrent
    dsimp only
    cases t.cands.current <;> rfl

theorem bindPair {r r' : R Ctx} {b : Option Bool} (h : Comm w r r') :
    Comm2 w (r >>= fun c => pure (c, b)) (r' >>= fun c => pure (c, b)) := Comm.bind2 h fun _ => rfl

theorem forwardPair (p : Profile) (c : Ctx) :
    Comm2 w (do let s ← (c.credit w).top.forward p; pure (({ c.credit w with top := s } : Ctx), (none : Option Bool)))
      (do let s ← c.top.forward p; pure (({ c with top := s } : Ctx), (none : Option Bool))) := by
  rcases cases c with ⟨t, cm, k, d, cf, rfl⟩ | ⟨s, r, t, cm, k, d, cf, rfl⟩
  · show (do let s ← (t.credit w).forward p; pure _) = _
    rw [forward]
    show _ = Except.map _ (do let s ← t.forward p; pure _ : R (Ctx × Option Bool))
    cases t.forward p <;> rfl
  · rw [nested]
    dsimp only
    cases t.forward p <;> rfl

theorem instruction (e : Env) (c : Ctx) (i : Instruction) (hk : Keeps c i) (cm : CompositionMode)
    (im : InputMode) : Comm2 w ((c.credit w).instruction e i cm im) (c.instruction e i cm im) := by
  cases i <;> unfold Ctx.instruction <;> dsimp only
  case abort => rw [abort]; rfl
  case changeInputMode m => exact congrArg (fun c => Except.ok (c, none)) (mapTop (inputMode m) c)
  case forceKanaConvert m => rw [outputConverted]; rfl
  case clearUnconvertedInputs => rw [mapTop clearPre]; rfl
  case clearKanaConvertedInputs => rw [mapTop clearKanas]; rfl
  case clearUnconfirmedInputs => rw [mapTop clearUnconfirmed]; rfl
  case changeCompositionMode m => rw [setCompositionMode]; rfl
  case finishKeyEvent => rfl
  case passthroughKeyEvent => rfl
  case tryNextCandidate => exact bindPair (tryNextCandidate e c cm im)
  case tryPreviousCandidate =>
    rw [tmode, tcands]
    split
    · rfl
    · split
      · rw [mapTop (blind_comp consolidate clearCandidateList), setCompositionMode]; rfl
      · rw [mapTop backward]; rfl
  case nextCandidatePointer => exact forwardPair e.prof c
  case previousCandidatePointer => rw [mapTop backward]; rfl
  case confirmComposition => rw [confirmCurrent]; rfl
  case confirmAs m => rw [confirmKana]; rfl
  case confirmDirect =>
    rw [depth]
    split
    · rename_i hd
      refine bindPair (exitRegister e c ?_)
      intro h; simp [Ctx.depth, h] at hd
    · rfl
  case purge =>
    rw [purgeCurrent c fun h => (hk.2 h).1 rfl]; rfl
  case delete =>
    rcases cases c with ⟨t, cmd, k, d, cf, rfl⟩ | ⟨s, r, t, cmd, k, d, cf, rfl⟩
    · have h := delete (w := w) t ((hk.2 rfl).2 rfl)
      simp only [Ctx.credit, h]
      rfl
    · rfl
  case tryNextCompletion => exact bindPair (tryNextCompletion e c cm im)
  case tryPreviousCompletion =>
    rw [tmode, tcands, mapTop backward]
    split
    · rfl
    · split <;> rfl

theorem runInstructions (e : Env) (cm : CompositionMode) (im : InputMode) (b : Bool) (is : List Instruction) (c : Ctx)
    (ha : c.Admissible e Keeps cm im is) :
    Comm2 w (Ctx.runInstructions e cm im b (c.credit w) is) (Ctx.runInstructions e cm im b c is) := by
  induction is generalizing c with
  | nil => rfl
  | cons i is ih =>
    unfold Ctx.runInstructions
    have h := instruction (w := w) e c i ha.1 cm im
    rw [h]
    cases hr : c.instruction e i cm im with
    | error p => rfl
    | ok x =>
      obtain ⟨c', o⟩ := x
      cases o with
      | some b => rfl
      | none => exact ih c' (ha.2 c' hr)

theorem finishSymbol (e : Env) (c : Ctx) (hg : G c) : Comm2 w ((c.credit w).finishSymbol e) (c.finishSymbol e) := by
  unfold Ctx.finishSymbol
  rw [tmode]
  split
  · exact Comm.bind2 (autoStartHenkan e c hg) fun _ => rfl
  · rfl

theorem bindTrue {r r' : R Ctx} (h : Comm w r r') :
    Comm2 w (r >>= fun c => pure (c, true)) (r' >>= fun c => pure (c, true)) := Comm.bind2 h fun _ => rfl

theorem symbolInput (e : Env) (c : Ctx) (hg : G c) (ev : KeyEvent) (ch : Char) (pre : List Keysym) :
    Comm2 w ((c.credit w).symbolInput e ev ch pre) (c.symbolInput e ev ch pre) := by
  have I := RawLe.inv
  have hout : ∀ {c : Ctx}, G c → ∀ im m, G ((c.outputConverted e im m).mapTop State.clearPre) :=
    fun h im m => Inv.mapTop (I.outputConverted h im m) fun h => I.clearPre _ h
  have hc : ∀ (c : Ctx) im m, ((c.credit w).outputConverted e im m).mapTop State.clearPre =
      ((c.outputConverted e im m).mapTop State.clearPre).credit w := by
    intro c im m; rw [outputConverted, mapTop clearPre]
  unfold Ctx.symbolInput
  dsimp only
  rw [config, tmode, tim, kanaConv, hc]
  split
  · have h1 := hout hg c.top.inputMode c.top.mode
    generalize (c.outputConverted e c.top.inputMode c.top.mode).mapTop State.clearPre = c1 at h1
    rw [tmode]
    cases c1.top.mode <;> dsimp only
    case direct => rw [appendConverted]; exact finishSymbol e _ (I.appendConverted h1 _)
    case preComposition =>
      rw [mapTop (blind_comp (push _) clearPre)]
      exact finishSymbol e _ (Inv.mapTop h1 fun h => by apply I.clearPre; exact I.push _ _ h)
    case preCompositionOkurigana =>
      rw [mapTop (blind_comp (push _) clearPre)]
      exact finishSymbol e _ (Inv.mapTop h1 fun h => by apply I.clearPre; exact I.push _ _ h)
    all_goals rfl
  · split
    · rw [inputAsContinuous]; exact finishSymbol e _ (I.inputAsContinuous hg _)
    · split
      · rw [tcapital, transitionByCapital, inputAsContinuous]
        exact finishSymbol e _ (I.inputAsContinuous (I.transitionByCapital hg _ _ _) _)
      · split
        · exact bindTrue (inputConvertedKana e c hg _ _ _ _)
        · split
          · split
            · rw [transitionByCapital]
              exact bindTrue (inputConvertedKana e _ (I.transitionByCapital hg _ _ _) _ _ _ _)
            · exact finishSymbol e c hg
          · split
            · rw [inputAsContinuous]
              exact finishSymbol e _ (I.inputAsContinuous (hout hg _ _) _)
            · split
              · rw [tcapital, transitionByCapital]
                dsimp only
                rw [hc, inputAsContinuous]
                exact finishSymbol e _ (I.inputAsContinuous (hout (I.transitionByCapital hg _ _ _) _ _) _)
              · split
                · have h1 := hout hg c.top.inputMode c.top.mode
                  generalize (c.outputConverted e c.top.inputMode c.top.mode).mapTop State.clearPre = c1 at h1
                  rw [tmode, mapTop (push _)]
                  have hp : G (c1.mapTop (·.push [ch])) := Inv.mapTop h1 fun h => I.push _ _ h
                  cases c1.top.mode <;> dsimp only
                  case direct => exact finishSymbol e _ hp
                  case preComposition => exact finishSymbol e _ hp
                  case preCompositionOkurigana => exact finishSymbol e _ hp
                  all_goals rfl
                · rfl

theorem romInput (e : Env) (c : Ctx) (hg : G c) (ev : KeyEvent) (pre : List Keysym) :
    Comm2 w ((c.credit w).romInput e ev pre) (c.romInput e ev pre) := by
  unfold Ctx.romInput
  rw [kanaConv, tmode, tcapital, transitionByCapital]
  split
  · exact bindTrue (inputConvertedKana e c hg _ _ _ _)
  · split
    · exact bindTrue (inputConvertedKana e _ (RawLe.inv.transitionByCapital hg _ _ _) _ _ _ _)
    · split
      · exact symbolInput e c hg _ _ _
      · rfl

theorem plainInput (e : Env) (c : Ctx) (ev : KeyEvent) :
    (c.credit w).plainInput e ev = ((c.plainInput e ev).1.credit w, (c.plainInput e ev).2) := by
  unfold Ctx.plainInput
  rw [tmode, tim]
  cases c.top.mode <;> dsimp only
  case direct =>
    cases ev.symbolChar e.xkb with
    | none => rfl
    | some ch =>
      dsimp only
      rw [mapTop (push _), appendConverted]
      cases c.top.inputMode <;> rfl
  case abbreviation =>
    cases ev.symbolChar e.xkb with
    | none => rfl
    | some ch => dsimp only; rw [mapTop (push _)]

theorem charInput (e : Env) (c : Ctx) (hg : G c) (ev : KeyEvent) :
    Comm2 w ((c.credit w).charInput e ev) (c.charInput e ev) := by
  unfold Ctx.charInput
  split
  · rfl
  · dsimp only
    have hw : (c.credit w).willBeProcessed ev (c.credit w).top.pre = c.willBeProcessed ev c.top.pre := by
      unfold Ctx.willBeProcessed; rw [tim, tmode, kanaConv, tpre]
    rw [hw, tmode, tpre, confirmCurrent, ← apply_ite (Ctx.credit w)]
    generalize hc : (if (c.top.mode = .compositionSelection ∨ c.top.mode = .completion) ∧
      c.willBeProcessed ev c.top.pre = true then c.confirmCurrent e else c) = c1
    have h1 : G c1 := by
      rw [← hc]
      split
      · exact RawLe.inv.confirmCurrent hg
      · exact hg
    rw [tim, tmode]
    split
    · exact romInput e c1 h1 _ _
    · split
      · rw [plainInput]; rfl
      · rfl

theorem processKeyEvent (e : Env) (c : Ctx) (hg : G c) (ev : KeyEvent) (ha : c.KeyAdmissible e Keeps ev) :
    Comm2 w ((c.credit w).processKeyEvent e ev) (c.processKeyEvent e ev) := by
  unfold Ctx.processKeyEvent
  split
  · rfl
  · unfold Ctx.processInner
    have hs : (c.credit w).skipCommand ev = c.skipCommand ev := by
      unfold Ctx.skipCommand; rw [tim, tmode, kanaConv, tpre]
    rw [hs, cmds, tim, tmode]
    split
    · exact charInput e c hg ev
    · refine bindSame2 fun o ho => ?_
      cases o with
      | none => exact charInput e c hg ev
      | some is => exact runInstructions e _ _ _ is c (ha is ho)

theorem selectCandidateAt (c : Ctx) (i : Int) :
    (c.credit w).selectCandidateAt i = ((c.selectCandidateAt i).1.credit w, (c.selectCandidateAt i).2) := by
  unfold Ctx.selectCandidateAt
  dsimp only
  rw [tcands, mapTop (blind_comp consolidate clearCandidateList), setCompositionMode, mapTop (setPointer _),
    mapTop (setPointer _), enterRegister]
  split
  · rfl
  · split
    · rfl
    · split <;> rfl

theorem confirmCandidateAt (e : Env) (c : Ctx) (i : Nat) :
    (c.credit w).confirmCandidateAt e i = ((c.confirmCandidateAt e i).1.credit w, (c.confirmCandidateAt e i).2) := by
  unfold Ctx.confirmCandidateAt
  have h2 : ((c.credit w).top.setPointer i).2 = (c.top.setPointer i).2 := by unfold State.setPointer; rw [tcands]
  have h1 : ({ c.credit w with top := ((c.credit w).top.setPointer i).1 } : Ctx) =
      ({ c with top := (c.top.setPointer i).1 } : Ctx).credit w := mapTop (setPointer i) c
  dsimp only
  rw [h1, h2, confirmCurrent]
  split <;> rfl

/-- Every call which is not a poll and erases no output commutes with earlier output. -/
theorem step (e : Env) (c : Ctx) (hg : G c) (op : Op) (ha : KeepsOp e c op) (hp : op ≠ .poll) :
    Comm w ((c.credit w).step e op) (c.step e op) := by
  cases op <;> unfold Ctx.step <;> dsimp only
  case key ev =>
    rw [processKeyEvent e c hg ev ha]
    cases c.processKeyEvent e ev <;> rfl
  case poll => exact absurd rfl hp
  case reset => exact absurd ha id
  case setInputMode m => exact congrArg Except.ok (mapTop (inputMode m) c)
  case setCompositionMode m => exact congrArg Except.ok (setCompositionMode c m)
  case selectAt i => rw [selectCandidateAt]; rfl
  case confirmAt i => rw [confirmCandidateAt]; rfl
  all_goals
    rcases cases c with ⟨t, cm, k, d, cf, rfl⟩ | ⟨s, r, t, cm, k, d, cf, rfl⟩ <;> rfl

end Credit
end Cskk
