import Verif.Lemmas.Digits
import Verif.Spec.History
import Verif.Props.Romaji
import Verif.Model.DefaultRule

/-!
# C49: key events do not crash the library
-/

namespace Cskk.Props.NoPanic
open Cskk

/-- A level of a context: its reading, its okurigana and the reading of the conversion in progress contain ASCII digits
only, at most `n` of them. -/
structure Few (n : Nat) (s : State) : Prop where
  raw : AsciiDigits s.raw
  okuri : AsciiDigits s.okuri
  key : AsciiDigits s.cands.toComposite.toComposite
  count : digits s.raw + digits s.okuri ≤ n
  keyCount : digits s.cands.toComposite.toComposite ≤ n

namespace Few

theorem congr {n : Nat} {s s' : State} (h : Few n s) (h1 : s'.raw = s.raw) (h2 : s'.okuri = s.okuri)
    (h3 : s'.cands.toComposite = s.cands.toComposite) : Few n s' := by
  obtain ⟨a, b, c, d, e⟩ := h
  exact ⟨h1 ▸ a, h2 ▸ b, h3 ▸ c, by rw [h1, h2]; exact d, by rw [h3]; exact e⟩

theorem mono {n m : Nat} {s : State} (h : Few n s) (hm : n ≤ m) : Few m s :=
  ⟨h.raw, h.okuri, h.key, Nat.le_trans h.count hm, Nat.le_trans h.keyCount hm⟩

theorem new (n : Nat) (im cm) : Few n (State.new im cm) :=
  ⟨.nil, .nil, .nil, by simp [State.new, digits], by simp [State.new, digits, CandidateList.new, CompositeKey.empty]⟩

theorem pushFor {n : Nat} {s : State} (h : Few n s) {w : Str} (hw : AsciiDigits w) (m : CompositionMode) :
    Few (n + digits w) (s.pushFor w m) := by
  have := h.count; have := h.keyCount
  cases m <;> refine ⟨?_, ?_, ?_, ?_, ?_⟩ <;> simp only [State.pushFor, digits_append] <;>
    first
      | exact h.raw
      | exact h.okuri
      | exact h.key
      | exact h.raw.append hw
      | exact h.okuri.append hw
      | omega

theorem push {n : Nat} {s : State} (h : Few n s) {w : Str} (hw : AsciiDigits w) : Few (n + digits w) (s.push w) :=
  h.pushFor hw _

/-- Pushing a text without digits. -/
theorem pushFor0 {n : Nat} {s : State} (h : Few n s) {w : Str} (hw : digits w = 0) (m : CompositionMode) :
    Few n (s.pushFor w m) := by simpa [hw] using h.pushFor (.none hw) m

/-- What goes to the committed text does not count. -/
theorem pushDirect {n : Nat} {s : State} (h : Few n s) (w : Str) {m : CompositionMode}
    (hm : m = .direct ∨ m = .compositionSelection ∨ m = .completion) : Few n (s.pushFor w m) := by
  rcases hm with rfl | rfl | rfl <;> exact h.congr rfl rfl rfl

theorem delete {n : Nat} {s : State} (h : Few n s) : Few n s.delete.1 := by
  have := h.count
  have := digits_dropLast s.raw
  have := digits_dropLast s.okuri
  unfold State.delete
  split
  · split <;> exact h.congr rfl rfl rfl
  · split
    · exact h.congr rfl rfl rfl
    · split
      · exact ⟨h.raw.dropLast, h.okuri, h.key, by simp only; omega, h.keyCount⟩
      · exact ⟨h.raw.dropLast, h.okuri, h.key, by simp only; omega, h.keyCount⟩
  · split
    · exact h.congr rfl rfl rfl
    · split
      · exact ⟨h.raw.dropLast, h.okuri, h.key, by simp only; omega, h.keyCount⟩
      · exact ⟨h.raw.dropLast, h.okuri, h.key, by simp only; omega, h.keyCount⟩
  · split
    rename_i s' d e
    have h' : Few n s' := by
      split at e
      · cases e; exact h.congr rfl rfl rfl
      · cases e
        exact ⟨h.raw.dropLast, h.okuri.dropLast, h.key, by simp only; omega, h.keyCount⟩
    simp only
    split
    · exact h'.congr rfl rfl rfl
    · exact h'
  · exact h

theorem consolidate {n : Nat} {s : State} (h : Few n s) : Few n s.consolidate :=
  ⟨h.raw.append h.okuri, .nil, h.key, by simp only [State.consolidate, digits_append, digits_nil]; have := h.count; omega,
    h.keyCount⟩

theorem setPostfix {n : Nat} {s : State} (h : Few n s) {w : Str} (hw : digits w = 0) : Few n (s.setPostfix w) :=
  ⟨h.raw, .none hw, h.key, by simp only [State.setPostfix, hw]; have := h.count; omega, h.keyCount⟩

theorem clearCandidateList {n : Nat} {s : State} (h : Few n s) : Few n s.clearCandidateList :=
  ⟨h.raw, h.okuri, .nil, h.count, by simp [State.clearCandidateList, CandidateList.clear, CompositeKey.empty, digits]⟩

theorem clearPre {n : Nat} {s : State} (h : Few n s) : Few n s.clearPre := h.congr rfl rfl rfl

theorem clearKanas {n : Nat} {s : State} (h : Few n s) : Few n s.clearKanas :=
  ⟨h.raw, .nil, h.key, by simp only [State.clearKanas, State.clearPre, digits_nil]; have := h.count; omega, h.keyCount⟩

theorem clearUnconfirmed {n : Nat} {s : State} : Few n s.clearUnconfirmed :=
  ⟨.nil, .nil, .nil, by simp [State.clearUnconfirmed, State.clearKanas, State.clearPre, State.clearCandidateList, digits],
    by simp [State.clearUnconfirmed, State.clearKanas, State.clearPre, State.clearCandidateList, digits,
      CandidateList.clear, CompositeKey.empty]⟩

theorem clearAll {n : Nat} {s : State} : Few n s.clearAll := (clearUnconfirmed (s := { s with confirmed := [] })).congr rfl rfl rfl

theorem abortToPrevious {n : Nat} {s : State} (h : Few n s) : Few n s.abortToPrevious := by
  unfold State.abortToPrevious
  split
  · simp only
    split
    · exact (h.consolidate).congr rfl rfl rfl
    · exact h.congr rfl rfl rfl
  · exact h.congr rfl rfl rfl

theorem setCandidates {n : Nat} {s : State} (h : Few n s) (cs) : Few n (s.setCandidates cs) := by
  have e : (s.setCandidates cs).cands.toComposite.toComposite = s.raw := by
    simp only [State.setCandidates, CandidateList.set, State.compositeKey]; split <;> rfl
  have := h.count
  exact ⟨h.raw, h.okuri, by rw [e]; exact h.raw, h.count, by rw [e]; omega⟩

theorem backward {n : Nat} {s : State} (h : Few n s) : Few n s.backward := by
  refine h.congr rfl rfl ?_
  simp only [State.backward, CandidateList.backward]; split <;> rfl

theorem setPointer {n : Nat} {s : State} (h : Few n s) (i : Nat) : Few n (s.setPointer i).1 := by
  refine h.congr rfl rfl ?_
  simp only [State.setPointer, CandidateList.setSelectionPointer]; split <;> rfl

theorem forward {n : Nat} {s : State} (h : Few n s) {p : Profile} (hp : p.checked = false) :
    ∃ s', s.forward p = .ok s' ∧ Few n s' := by
  have : ∃ m, usizeSub p s.cands.cands.length 1 = .ok m := by
    unfold usizeSub; rw [hp]; split
    · exact ⟨_, rfl⟩
    · exact ⟨_, rfl⟩
  obtain ⟨m, hm⟩ := this
  unfold State.forward CandidateList.forward
  rw [hm]
  simp only [bind, Except.bind]
  split
  · rename_i e; split at e <;> cases e
  · rename_i v e
    refine ⟨_, rfl, h.congr rfl rfl ?_⟩
    split at e <;> cases e <;> rfl

theorem okKey (s : State) : OkKey s.compositeKey := by
  unfold OkKey State.compositeKey
  split
  · rename_i h
    simp at h
    simp only [ne_eq, Option.some.injEq]
    exact h.2
  · simp

theorem short {n : Nat} {s : State} (h : Few n s) (hn : n ≤ 19) : Short s.compositeKey.toComposite := by
  have : s.compositeKey.toComposite = s.raw := by unfold State.compositeKey; split <;> rfl
  rw [this]
  have := h.count
  exact ⟨h.raw, by omega⟩

end Few

/-- The kana of the romaji table and the keywords that start a conversion contain no digits. -/
structure NoDigits (c : Ctx) : Prop where
  table : ∀ k v, c.kanaConv.convertGreedy k = some v → digits v.1 = 0
  final : ∀ k v, c.kanaConv.convertNonPartial k = some v → digits v.1 = 0
  keywords : ∀ w ∈ c.config.keywords, digits w = 0

/-- Every level has few digits. -/
structure Good (n : Nat) (c : Ctx) : Prop where
  top : Few n c.top
  below : ∀ s ∈ c.below, Few n s
  setting : NoDigits c

/-- The computation does not panic and leads to a context with few digits. -/
def Safe (n : Nat) (r : R Ctx) : Prop := ∃ c, r = .ok c ∧ Good n c

/-- The same for calls which return something. -/
def Safe2 {α} (n : Nat) (r : R (Ctx × α)) : Prop := ∃ c, r = .ok c ∧ Good n c.1

namespace Good

theorem mono {n m : Nat} {c : Ctx} (h : Good n c) (hm : n ≤ m) : Good m c :=
  ⟨h.top.mono hm, fun s hs => (h.below s hs).mono hm, h.setting⟩

theorem withTop {n : Nat} {c : Ctx} (h : Good n c) {s : State} (hs : Few n s) : Good n { c with top := s } :=
  ⟨hs, h.below, ⟨h.setting.table, h.setting.final, h.setting.keywords⟩⟩

theorem mapTop {n : Nat} {c : Ctx} (h : Good n c) {f : State → State} (hs : Few n (f c.top)) : Good n (c.mapTop f) :=
  h.withTop hs

theorem safe {n : Nat} {c : Ctx} (h : Good n c) : Safe n (.ok c) := ⟨c, rfl, h⟩

theorem setCompositionMode {n : Nat} {c : Ctx} (h : Good n c) (m) : Good n (c.setCompositionMode m) :=
  h.mapTop (h.top.congr rfl rfl rfl)

theorem setUnconverted {n : Nat} {c : Ctx} (h : Good n c) (l) : Good n (c.setUnconverted l) :=
  h.mapTop (h.top.congr rfl rfl rfl)

theorem setCarryOver {n : Nat} {c : Ctx} (h : Good n c) (l) : Good n (c.setCarryOver l) :=
  h.mapTop (h.top.congr rfl rfl rfl)

theorem enterRegister {n : Nat} {c : Ctx} (h : Good n c) (m) : Good n (c.enterRegister m) := by
  unfold Ctx.enterRegister
  split
  · refine ⟨Few.new _ _ _, ?_, ⟨h.setting.table, h.setting.final, h.setting.keywords⟩⟩
    intro s hs
    rcases List.mem_cons.mp hs with rfl | hs
    · exact h.top.congr rfl rfl rfl
    · exact h.below s hs
  · exact h

theorem pop {n : Nat} {c : Ctx} (h : Good n c) {s : State} {rest : List State} (e : c.below = s :: rest) :
    Good n { c with below := rest, top := s } :=
  ⟨h.below s (by rw [e]; simp), fun t ht => h.below t (by rw [e]; simp [ht]),
    ⟨h.setting.table, h.setting.final, h.setting.keywords⟩⟩

theorem abortRegister {n : Nat} {c : Ctx} (h : Good n c) : Good n c.abortRegister := by
  unfold Ctx.abortRegister
  split
  · rename_i e; exact h.pop e
  · exact h

theorem withDicts {n : Nat} {c : Ctx} (h : Good n c) (ds) : Good n { c with dicts := ds } :=
  ⟨h.top, h.below, ⟨h.setting.table, h.setting.final, h.setting.keywords⟩⟩

theorem confirmCurrent {n : Nat} {c : Ctx} (h : Good n c) (e : Env) : Good n (c.confirmCurrent e) := by
  unfold Ctx.confirmCurrent
  split
  · rename_i cand _
    exact (h.withDicts _).mapTop
      ((Few.clearUnconfirmed (s := c.top.push (cand.output ++ e.kanaForm.adjust c.top.inputMode c.top.okuri))).congr
        rfl rfl rfl)
  · exact h

theorem purgeCurrent {n : Nat} {c : Ctx} (h : Good n c) : Good n c.purgeCurrent := by
  unfold Ctx.purgeCurrent
  simp only
  split
  · exact (h.withDicts _).mapTop Few.clearAll
  · exact h.mapTop Few.clearAll

theorem outputConverted {n : Nat} {c : Ctx} (h : Good n c) (e : Env) (im cm) : Good n (c.outputConverted e im cm) := by
  unfold Ctx.outputConverted
  split
  · rename_i kana carry hk
    have h0 : digits kana = 0 := h.setting.table _ _ hk
    split
    · exact (h.mapTop (((h.top.pushDirect _ (.inl rfl))).clearPre)).setCarryOver _
    · exact (h.mapTop ((h.top.pushFor0 h0 _).clearPre)).setCarryOver _
    · exact (h.mapTop ((h.top.pushFor0 h0 _).clearPre)).setCarryOver _
    · exact h
  · exact h

theorem updateCandidateList {n : Nat} {c : Ctx} (h : Good n c) (hn : n ≤ 19) : Safe n c.updateCandidateList := by
  obtain ⟨cs, hcs⟩ := getAll_ok c.dicts (Few.okKey c.top) (h.top.short hn)
  rw [Ctx.updateCandidateList, hcs]
  exact ⟨_, rfl, h.mapTop (h.top.setCandidates cs)⟩

theorem updateCompletionList {n : Nat} {c : Ctx} (h : Good n c) : Safe n c.updateCompletionList := by
  obtain ⟨cs, hcs⟩ := getAllComplete_ok c.dicts (Few.okKey c.top)
  rw [Ctx.updateCompletionList, hcs]
  exact ⟨_, rfl, h.mapTop (h.top.setCandidates cs)⟩

theorem hasNext {l : CandidateList CompositeKey Candidate} {p : Profile} (hp : p.checked = false) :
    ∃ b, l.hasNext p = .ok b := by
  unfold CandidateList.hasNext usizeSub
  rw [hp]
  split <;> exact ⟨_, rfl⟩

theorem tryNextCandidate {n : Nat} {c : Ctx} (h : Good n c) (hn : n ≤ 19) {e : Env} (he : e.prof.checked = false)
    (cm im) : Safe n (c.tryNextCandidate e cm im) := by
  unfold Ctx.tryNextCandidate
  split
  · obtain ⟨c', hc', h'⟩ := (h.outputConverted e im cm).updateCandidateList hn
    rw [hc']
    simp only [bind, Except.bind]
    split
    · exact (h'.enterRegister _).safe
    · split
      · exact (h'.setCompositionMode _).safe
      · exact h'.safe
  · obtain ⟨b, hb⟩ := hasNext (l := c.top.cands) he
    rw [hb]
    simp only [bind, Except.bind]
    split
    · exact (h.enterRegister _).safe
    · obtain ⟨s, hs, hf⟩ := h.top.forward he
      rw [hs]
      exact (h.withTop hf).safe

theorem tryNextCompletion {n : Nat} {c : Ctx} (h : Good n c) {e : Env} (he : e.prof.checked = false)
    (cm im) : Safe n (c.tryNextCompletion e cm im) := by
  unfold Ctx.tryNextCompletion
  split
  · obtain ⟨c', hc', h'⟩ := (h.outputConverted e im cm).updateCompletionList
    rw [hc']
    simp only [bind, Except.bind]
    split
    · exact h'.safe
    · split
      · exact (h'.setCompositionMode _).safe
      · exact h'.safe
  · obtain ⟨b, hb⟩ := hasNext (l := c.top.cands) he
    rw [hb]
    simp only [bind, Except.bind]
    split
    · exact h.safe
    · obtain ⟨s, hs, hf⟩ := h.top.forward he
      rw [hs]
      exact ((h.withTop hf).setCompositionMode _).safe

theorem deleteN {n : Nat} (k : Nat) {s : State} (h : Few n s) : Few n (Ctx.deleteN s k) := by
  induction k generalizing s with
  | zero => exact h
  | succ k ih => exact ih h.delete

theorem autoStartHenkan {n : Nat} {c : Ctx} (h : Good n c) (hn : n ≤ 19) {e : Env} (he : e.prof.checked = false)
    (hm : c.top.mode = .preComposition) : Safe n (c.autoStartHenkan e) := by
  unfold Ctx.autoStartHenkan
  rw [if_neg (by simp [hm])]
  simp only
  split
  · rename_i w hw
    have hk := h.setting.keywords w (List.mem_of_find?_eq_some hw)
    exact (h.mapTop ((deleteN _ h.top).setPostfix hk)).tryNextCandidate hn he _ _
  · exact h.safe

theorem transitionByCapital {n : Nat} {c : Ctx} (h : Good n c) (ev m d) : Good n (c.transitionByCapital ev m d).1 := by
  unfold Ctx.transitionByCapital
  split
  · exact (h.setCompositionMode .preComposition).mapTop (f := fun s => { s with capital := true })
      ((h.setCompositionMode .preComposition).top.congr rfl rfl rfl)
  · split
    · exact (h.setCompositionMode .preCompositionOkurigana).mapTop (f := fun s => { s with capital := true })
        ((h.setCompositionMode .preCompositionOkurigana).top.congr rfl rfl rfl)
    · exact h

theorem startOkuriHenkan {n : Nat} {c : Ctx} (h : Good n c) (hn : n ≤ 19) (carry) : Safe n (c.startOkuriHenkan carry) := by
  unfold Ctx.startOkuriHenkan
  split
  · obtain ⟨c', hc', h'⟩ := h.updateCandidateList hn
    rw [hc']
    simp only [bind, Except.bind]
    split
    · exact (h'.enterRegister _).safe
    · exact (h'.setCompositionMode _).safe
  · exact h.safe

theorem appendConverted {n : Nat} {c : Ctx} (h : Good n c) (e : Env) (w : Str) (hm : c.top.mode = .direct) :
    Good n (c.appendConverted e w) :=
  h.mapTop (h.top.pushDirect _ (.inl hm))

theorem inputConvertedKana {n : Nat} {c : Ctx} (h : Good n c) (hn : n ≤ 19) {e : Env} (he : e.prof.checked = false)
    {kana : Str} (hk : digits kana = 0) (carry d pre) : Safe n (c.inputConvertedKana e kana carry d pre) := by
  unfold Ctx.inputConvertedKana
  split
  · rename_i hm
    exact ((h.appendConverted e kana hm).setCarryOver _).safe
  · rename_i hm
    have : (State.push c.top kana).mode = .preComposition := by rw [State.push, hm]; exact hm
    exact ((h.mapTop (h.top.pushFor0 hk _)).setCarryOver carry).autoStartHenkan hn he this
  · simp only
    split
    · exact ((h.mapTop (h.top.pushFor0 hk _)).setCarryOver carry).startOkuriHenkan hn _
    · exact ((h.mapTop (h.top.pushFor0 hk _)).setCarryOver carry).startOkuriHenkan hn _
  · exact h.safe

theorem inputAsContinuous {n : Nat} {c : Ctx} (h : Good n c) (ev) : Good n (c.inputAsContinuous ev) := by
  unfold Ctx.inputAsContinuous
  split
  · exact h.setUnconverted _
  · exact h.setUnconverted _
  · exact h.setUnconverted _
  · exact h

theorem abort {n : Nat} {c : Ctx} (h : Good n c) : Good n c.abort := by
  unfold Ctx.abort
  have h1 : Good n (c.mapTop fun s => s.clearPre.consolidate.clearCandidateList) :=
    h.mapTop h.top.clearPre.consolidate.clearCandidateList
  simp only
  generalize (c.mapTop fun s => s.clearPre.consolidate.clearCandidateList) = d at h1 ⊢
  have h2 : Good n (if d.top.mode = .direct then d.abortRegister else d) := by
    split
    · exact h1.abortRegister
    · exact h1
  have h3 := h2.mapTop (f := State.abortToPrevious) h2.top.abortToPrevious
  generalize (if d.top.mode = .direct then d.abortRegister else d) = d' at h2 h3 ⊢
  split
  · exact h3.mapTop h3.top.abortToPrevious
  · exact h3

theorem exitRegister {n : Nat} {c : Ctx} (h : Good n c) (hn : n ≤ 19) (e : Env) (w : Str) :
    Safe n (c.exitRegister e w) := by
  unfold Ctx.exitRegister
  split
  · exact h.safe
  · rename_i s rest eb
    have h1 := h.pop eb
    simp only
    split
    · exact (h1.mapTop h1.top.abortToPrevious).safe
    · have h2 : Good n (Ctx.mapTop { c with below := rest, top := s } fun s => { s with mode := .direct }) :=
        h1.mapTop (h1.top.congr rfl rfl rfl)
      have hk := h2.top.keyCount
      obtain ⟨cs, hcs⟩ := registered_ok c.dicts
        (Ctx.mapTop { c with below := rest, top := s } fun s => { s with mode := .direct }).top w
        ⟨h2.top.key, by omega⟩
      simp only [bind, Except.bind]
      rw [show (Ctx.mapTop { c with below := rest, top := s } fun s => { s with mode := .direct }).dicts = c.dicts from rfl,
        hcs]
      exact ((h2.mapTop (f := (·.addCandidates cs)) (h2.top.congr rfl rfl rfl)).confirmCurrent e).safe

theorem confirmKana {n : Nat} {c : Ctx} (h : Good n c) (e : Env) (im) : Good n (c.confirmKana e im) :=
  h.mapTop (f := fun s => (s.pushFor _ .direct).clearUnconfirmed) Few.clearUnconfirmed

/-- One instruction of a command. -/
theorem instruction {n : Nat} {c : Ctx} (h : Good n c) (hn : n ≤ 19) {e : Env} (he : e.prof.checked = false) (i cm im) :
    Safe2 n (c.instruction e i cm im) := by
  cases i with
  | changeCompositionMode m => exact ⟨_, rfl, h.setCompositionMode _⟩
  | changeInputMode m => exact ⟨_, rfl, h.mapTop (f := fun s => { s with inputMode := m }) (h.top.congr rfl rfl rfl)⟩
  | forceKanaConvert m => exact ⟨_, rfl, h.outputConverted _ _ _⟩
  | clearUnconvertedInputs => exact ⟨_, rfl, h.mapTop h.top.clearPre⟩
  | clearKanaConvertedInputs => exact ⟨_, rfl, h.mapTop h.top.clearKanas⟩
  | clearUnconfirmedInputs => exact ⟨_, rfl, h.mapTop Few.clearUnconfirmed⟩
  | abort => exact ⟨_, rfl, h.abort⟩
  | confirmComposition => exact ⟨_, rfl, h.confirmCurrent e⟩
  | passthroughKeyEvent => exact ⟨_, rfl, h⟩
  | confirmAs m => exact ⟨_, rfl, h.confirmKana e m⟩
  | confirmDirect =>
    simp only [Ctx.instruction]
    split
    · obtain ⟨c', hc', h'⟩ := h.exitRegister hn e c.top.confirmed
      rw [hc']; exact ⟨_, rfl, h'⟩
    · exact ⟨_, rfl, h⟩
  | purge => exact ⟨_, rfl, h.purgeCurrent⟩
  | nextCandidatePointer =>
    obtain ⟨s, hs, hf⟩ := h.top.forward he
    simp only [Ctx.instruction]
    rw [hs]; exact ⟨_, rfl, h.withTop hf⟩
  | previousCandidatePointer => exact ⟨_, rfl, h.mapTop h.top.backward⟩
  | delete => exact ⟨_, rfl, h.withTop h.top.delete⟩
  | tryNextCandidate =>
    obtain ⟨c', hc', h'⟩ := h.tryNextCandidate hn he cm im
    simp only [Ctx.instruction]
    rw [hc']; exact ⟨_, rfl, h'⟩
  | tryPreviousCandidate =>
    simp only [Ctx.instruction]
    split
    · exact ⟨_, rfl, h⟩
    · split
      · exact ⟨_, rfl, (h.mapTop h.top.consolidate.clearCandidateList).setCompositionMode _⟩
      · exact ⟨_, rfl, h.mapTop h.top.backward⟩
  | tryNextCompletion =>
    obtain ⟨c', hc', h'⟩ := h.tryNextCompletion he cm im
    simp only [Ctx.instruction]
    rw [hc']; exact ⟨_, rfl, h'⟩
  | tryPreviousCompletion =>
    simp only [Ctx.instruction]
    split
    · exact ⟨_, rfl, h⟩
    · split
      · exact ⟨_, rfl, h.mapTop h.top.backward⟩
      · exact ⟨_, rfl, h⟩
  | finishKeyEvent => exact ⟨_, rfl, h⟩

theorem runInstructions {n : Nat} (hn : n ≤ 19) {e : Env} (he : e.prof.checked = false) (cm im b) (is : List Instruction)
    {c : Ctx} (h : Good n c) : Safe2 n (Ctx.runInstructions e cm im b c is) := by
  induction is generalizing c with
  | nil => exact ⟨_, rfl, h⟩
  | cons i is ih =>
    obtain ⟨⟨c', r⟩, hc', h'⟩ := h.instruction hn he i cm im
    rw [Ctx.runInstructions, hc']
    simp only [bind, Except.bind]
    split
    · exact ⟨_, rfl, h'⟩
    · exact ih h'

theorem finishSymbol {n : Nat} {c : Ctx} (h : Good n c) (hn : n ≤ 19) {e : Env} (he : e.prof.checked = false) :
    Safe2 n (c.finishSymbol e) := by
  unfold Ctx.finishSymbol
  split
  · rename_i hm
    obtain ⟨c', hc', h'⟩ := h.autoStartHenkan hn he hm
    rw [hc']; exact ⟨_, rfl, h'⟩
  · exact ⟨_, rfl, h⟩

theorem safe2 {n : Nat} {r : R Ctx} (h : Safe n r) (b : Bool) :
    Safe2 n (r >>= fun c => (pure (c, b) : R (Ctx × Bool))) := by
  obtain ⟨c, hc, h⟩ := h
  rw [hc]; exact ⟨_, rfl, h⟩

end Good

/-- libxkbcommon gives an ASCII character for the keysym of an ASCII character (0x20 to 0x7e). -/
def AsciiKeys (x : Xkb) : Prop := ∀ k ch, (0x20 : Nat) ≤ k → k ≤ (0x7e : Nat) → x.toChar k = some ch → ch.toNat < 128

theorem ascii_nd : ∀ ch : Char, ch.toNat < 128 → isNd ch = true → isAsciiDigit ch = true := by
  intro ch h hn
  simp only [isNd, List.any_eq_true, Bool.and_eq_true, decide_eq_true_eq] at hn
  obtain ⟨z, hz, h1, h2⟩ := hn
  have : z = 0x30 ∨ 0x660 ≤ z := by
    have : ∀ z ∈ ndZeros, z = 0x30 ∨ 0x660 ≤ z := by decide
    exact this z hz
  rcases this with rfl | h3
  · simp only [isAsciiDigit, Bool.and_eq_true, decide_eq_true_eq]; omega
  · omega

/-- The number of digits (0 or 1) which the key of an event adds to the reading. -/
def digitOf (x : Xkb) (ev : KeyEvent) : Nat :=
  match x.toChar ev.symbol with
  | some ch => digits [ch]
  | none => 0

namespace Good

theorem le_digitOf {x : Xkb} {ev : KeyEvent} {ch : Char} (h : ev.symbolChar x = some ch) : digits [ch] = digitOf x ev := by
  simp only [KeyEvent.symbolChar] at h
  rw [digitOf, h]

theorem pushChar {n : Nat} {c : Ctx} (h : Good n c) {e : Env} (hx : AsciiKeys e.xkb) {ev : KeyEvent} {ch : Char}
    (ha : ev.isAsciiInputtable = true) (hc : ev.symbolChar e.xkb = some ch) :
    Good (n + digitOf e.xkb ev) (c.mapTop (·.push [ch])) := by
  rw [← le_digitOf hc]
  have hch : AsciiDigits [ch] := by
    intro d hd hn
    simp at hd; subst hd
    refine ascii_nd d ?_ hn
    simp only [KeyEvent.isAsciiInputtable, Bool.and_eq_true, decide_eq_true_eq] at ha
    exact hx ev.symbol d ha.1 ha.2 hc
  exact (h.mono (Nat.le_add_right n _)).mapTop (h.top.push hch)

theorem symbolInput {n : Nat} {c : Ctx} (h : Good n c) {e : Env} (hx : AsciiKeys e.xkb) (he : e.prof.checked = false)
    (ev : KeyEvent) {ch : Char} (hc : ev.symbolChar e.xkb = some ch) (hn : n + digitOf e.xkb ev ≤ 19) (pre) :
    Safe2 (n + digitOf e.xkb ev) (c.symbolInput e ev ch pre) := by
  have hw := h.mono (Nat.le_add_right n (digitOf e.xkb ev))
  generalize hm : n + digitOf e.xkb ev = m at hn hw ⊢
  have ho : Good m ((c.outputConverted e c.top.inputMode c.top.mode).mapTop State.clearPre) :=
    (hw.outputConverted _ _ _).mapTop (hw.outputConverted _ _ _).top.clearPre
  have ho' : Good n ((c.outputConverted e c.top.inputMode c.top.mode).mapTop State.clearPre) :=
    (h.outputConverted _ _ _).mapTop (h.outputConverted _ _ _).top.clearPre
  unfold Ctx.symbolInput
  simp only
  split
  · rename_i w hper
    have hw0 : digits w = 0 := by
      unfold KanaBuilder.convertPeriods at hper
      split at hper
      · split at hper <;> cases hper <;> decide
      · split at hper
        · split at hper <;> cases hper <;> decide
        · cases hper
    split
    · rename_i hmode
      exact (ho.appendConverted e w hmode).finishSymbol hn he
    · exact (ho.mapTop (f := fun s => (s.push w).clearPre) (ho.top.pushFor0 hw0 _).clearPre).finishSymbol hn he
    · exact (ho.mapTop (f := fun s => (s.push w).clearPre) (ho.top.pushFor0 hw0 _).clearPre).finishSymbol hn he
    · exact ⟨_, rfl, ho⟩
  · split
    · exact (hw.inputAsContinuous ev).finishSymbol hn he
    · split
      · exact ((hw.transitionByCapital _ _ _).inputAsContinuous _).finishSymbol hn he
      · split
        · rename_i kana carry hk
          exact safe2 (hw.inputConvertedKana hn he (hw.setting.final _ _ hk) _ _ _) true
        · split
          · rename_i kana carry hk
            split
            · exact safe2 ((hw.transitionByCapital _ _ _).inputConvertedKana hn he (hw.setting.final _ _ hk) _ _ _) true
            · exact hw.finishSymbol hn he
          · split
            · exact (ho.inputAsContinuous ev).finishSymbol hn he
            · split
              · have ht := hw.transitionByCapital ev c.top.mode c.top.capital
                exact (((ht.outputConverted _ _ _).mapTop (ht.outputConverted _ _ _).top.clearPre).inputAsContinuous
                  _).finishSymbol hn he
              · split
                · rename_i ha
                  have hp := ho'.pushChar hx ha hc
                  rw [hm] at hp
                  split
                  · exact hp.finishSymbol hn he
                  · exact hp.finishSymbol hn he
                  · exact hp.finishSymbol hn he
                  · exact ⟨_, rfl, ho⟩
                · exact ⟨_, rfl, hw⟩

theorem romInput {n : Nat} {c : Ctx} (h : Good n c) {e : Env} (hx : AsciiKeys e.xkb) (he : e.prof.checked = false)
    (ev : KeyEvent) (hn : n + digitOf e.xkb ev ≤ 19) (pre) : Safe2 (n + digitOf e.xkb ev) (c.romInput e ev pre) := by
  have hw := h.mono (Nat.le_add_right n (digitOf e.xkb ev))
  unfold Ctx.romInput
  split
  · rename_i kana carry hk
    exact safe2 (hw.inputConvertedKana hn he (hw.setting.final _ _ hk) _ _ _) true
  · split
    · rename_i kana carry hk
      have hk0 : digits kana = 0 := by
        split at hk
        · exact hw.setting.final _ _ hk
        · cases hk
      exact safe2 ((hw.transitionByCapital _ _ _).inputConvertedKana hn he hk0 _ _ _) true
    · split
      · rename_i ch hc
        exact h.symbolInput hx he ev hc hn pre
      · exact ⟨_, rfl, hw⟩

theorem plainInput {n : Nat} {c : Ctx} (h : Good n c) {e : Env} (hx : AsciiKeys e.xkb) (ev : KeyEvent)
    (ha : ev.isAsciiInputtable = true) : Good (n + digitOf e.xkb ev) (c.plainInput e ev).1 := by
  have hw := h.mono (Nat.le_add_right n (digitOf e.xkb ev))
  unfold Ctx.plainInput
  split
  · rename_i hm
    split
    · rename_i ch hc
      split
      · exact h.pushChar hx ha hc
      · exact hw.appendConverted e _ hm
      · exact hw
    · exact hw
  · split
    · rename_i ch hc
      exact h.pushChar hx ha hc
    · exact hw
  · exact hw

theorem charInput {n : Nat} {c : Ctx} (h : Good n c) {e : Env} (hx : AsciiKeys e.xkb) (he : e.prof.checked = false)
    (ev : KeyEvent) (hn : n + digitOf e.xkb ev ≤ 19) : Safe2 (n + digitOf e.xkb ev) (c.charInput e ev) := by
  have hw := h.mono (Nat.le_add_right n (digitOf e.xkb ev))
  unfold Ctx.charInput
  split
  · exact ⟨_, rfl, hw⟩
  · simp only
    have h1 : Good n (if (c.top.mode = .compositionSelection ∨ c.top.mode = .completion) ∧
        c.willBeProcessed ev c.top.pre = true then c.confirmCurrent e else c) := by
      split
      · exact h.confirmCurrent e
      · exact h
    generalize (if (c.top.mode = .compositionSelection ∨ c.top.mode = .completion) ∧
        c.willBeProcessed ev c.top.pre = true then c.confirmCurrent e else c) = d at h1 ⊢
    split
    · exact h1.romInput hx he ev hn _
    · split
      · rename_i ha
        exact ⟨_, rfl, h1.plainInput hx ev ha⟩
      · exact ⟨_, rfl, h1.mono (Nat.le_add_right n _)⟩

end Good

/-! ## C49 -/

/-- In a release build, a key event does not panic as long as with it every reading has at most 19 digits, whatever the
modes, the command rule, the dictionaries, the candidates and the nesting. The context it leads to has at most one more
digit in any reading. -/
theorem key_never_panics (e : Env) (he : e.prof.checked = false) (hx : AsciiKeys e.xkb) (c : Ctx) (n : Nat)
    (h : Good n c) (ev : KeyEvent) (hn : n + digitOf e.xkb ev ≤ 19) :
    ∃ c' b, c.processKeyEvent e ev = .ok (c', b) ∧ Good (n + digitOf e.xkb ev) c' := by
  have hw := h.mono (Nat.le_add_right n (digitOf e.xkb ev))
  have hs : Safe2 (n + digitOf e.xkb ev) (c.processKeyEvent e ev) := by
    unfold Ctx.processKeyEvent
    split
    · exact ⟨_, rfl, hw⟩
    · unfold Ctx.processInner
      split
      · exact h.charInput hx he ev hn
      · have hg : ∃ o, c.cmds.getInstruction e.prof ev c.top.inputMode c.top.mode = .ok o := by
          unfold CommandRule.getInstruction; rw [he]
          split <;> exact ⟨_, rfl⟩
        obtain ⟨o, ho⟩ := hg
        rw [ho]
        simp only [bind, Except.bind]
        split
        · exact Good.runInstructions hn he _ _ _ _ hw
        · exact h.charInput hx he ev hn
  obtain ⟨⟨c', b⟩, h1, h2⟩ := hs
  exact ⟨c', b, h1, h2⟩

/-- The settings made by a call bring no digits into the table or the keywords. -/
def OpNoDigits : Op → Prop
  | .setKeywords l => ∀ w ∈ l, digits w = 0
  | .setRule _ kana => (∀ k v, kana.convertGreedy k = some v → digits v.1 = 0) ∧
      ∀ k v, kana.convertNonPartial k = some v → digits v.1 = 0
  | _ => True

/-- The digit keys among the calls. -/
def digitKeys (x : Xkb) : List Op → Nat
  | [] => 0
  | .key ev :: ops => digitOf x ev + digitKeys x ops
  | _ :: ops => digitKeys x ops

/-- Any single call. -/
theorem call_never_panics (e : Env) (he : e.prof.checked = false) (hx : AsciiKeys e.xkb) (c : Ctx) (n : Nat)
    (h : Good n c) (op : Op) (hop : OpNoDigits op) (hn : n + digitKeys e.xkb [op] ≤ 19) :
    ∃ c', c.step e op = .ok c' ∧ Good (n + digitKeys e.xkb [op]) c' := by
  cases op with
  | key ev =>
    obtain ⟨c', b, h1, h2⟩ := key_never_panics e he hx c n h ev (by simpa [digitKeys] using hn)
    exact ⟨c', by rw [Ctx.step, h1]; rfl, by simpa [digitKeys] using h2⟩
  | poll =>
    refine ⟨_, rfl, ?_⟩
    simp only [digitKeys, Nat.add_zero, Ctx.pollOutput, Ctx.retrieveOutput]
    split
    · exact h
    · simp only [if_true]
      unfold Ctx.mapBottom
      split
      · exact h.withTop (h.top.congr rfl rfl rfl)
      · rename_i s rest eb
        refine ⟨h.top, ?_, ⟨h.setting.table, h.setting.final, h.setting.keywords⟩⟩
        intro t ht
        simp only [List.mem_append, List.mem_singleton] at ht
        rcases ht with ht | rfl
        · exact h.below t (by rw [eb]; exact (List.dropLast_sublist _).subset ht)
        · exact (h.below ((s :: rest).getLast (by simp)) (by rw [eb]; exact List.getLast_mem _)).congr rfl rfl rfl
  | reset =>
    refine ⟨_, rfl, ?_⟩
    exact ⟨Few.clearAll, by intro s hs; simp [Ctx.reset] at hs, ⟨h.setting.table, h.setting.final, h.setting.keywords⟩⟩
  | setInputMode m => exact ⟨_, rfl, h.mapTop (h.top.congr rfl rfl rfl)⟩
  | setCompositionMode m => exact ⟨_, rfl, h.setCompositionMode m⟩
  | selectAt i =>
    refine ⟨_, rfl, ?_⟩
    simp only [digitKeys, Nat.add_zero, Ctx.selectCandidateAt]
    split
    · exact h
    · split
      · exact (h.mapTop h.top.consolidate.clearCandidateList).setCompositionMode _
      · split
        · exact (h.mapTop (f := fun s => (s.setPointer _).1) (h.top.setPointer _)).enterRegister _
        · exact h.mapTop (f := fun s => (s.setPointer _).1) (h.top.setPointer _)
  | confirmAt i =>
    refine ⟨_, rfl, ?_⟩
    simp only [digitKeys, Nat.add_zero, Ctx.confirmCandidateAt]
    split
    · exact (h.withTop (h.top.setPointer i)).confirmCurrent e
    · exact h.withTop (h.top.setPointer i)
  | setKeywords l => exact ⟨_, rfl, ⟨h.top, h.below, ⟨h.setting.table, h.setting.final, hop⟩⟩⟩
  | setPeriod p => exact ⟨_, rfl, ⟨h.top, h.below, ⟨h.setting.table, h.setting.final, h.setting.keywords⟩⟩⟩
  | setComma p => exact ⟨_, rfl, ⟨h.top, h.below, ⟨h.setting.table, h.setting.final, h.setting.keywords⟩⟩⟩
  | setRule cmds kana => exact ⟨_, rfl, ⟨h.top, h.below, ⟨hop.1, hop.2, h.setting.keywords⟩⟩⟩
  | setDictionaries ds => exact ⟨_, rfl, h.withDicts ds⟩

theorem digitKeys_cons (x : Xkb) (op : Op) (ops : List Op) :
    digitKeys x (op :: ops) = digitKeys x [op] + digitKeys x ops := by
  cases op <;> simp [digitKeys]

/-- In a release build, no history of calls with at most 19 digit keys panics. -/
theorem history_never_panics (e : Env) (he : e.prof.checked = false) (hx : AsciiKeys e.xkb) (ops : List Op)
    (hops : ∀ op ∈ ops, OpNoDigits op) (c : Ctx) (n : Nat) (h : Good n c) (hn : n + digitKeys e.xkb ops ≤ 19) :
    ∃ c', Spec.run e c ops = .ok c' := by
  induction ops generalizing c n with
  | nil => exact ⟨c, rfl⟩
  | cons op ops ih =>
    rw [digitKeys_cons] at hn
    obtain ⟨c', h1, h2⟩ := call_never_panics e he hx c n h op (hops op (by simp)) (by omega)
    obtain ⟨c'', h3⟩ := ih (fun o ho => hops o (by simp [ho])) c' _ h2 (by omega)
    exact ⟨c'', by rw [Spec.run, h1]; exact h3⟩

/-- A new context has no digits. -/
theorem new_good (cmds : CommandRule) (kana : KanaBuilder) (im cm ds)
    (h1 : ∀ k v, kana.convertGreedy k = some v → digits v.1 = 0)
    (h2 : ∀ k v, kana.convertNonPartial k = some v → digits v.1 = 0) : Good 0 (Ctx.new cmds kana im cm ds) :=
  ⟨Few.new 0 im cm, by intro s hs; simp [Ctx.new] at hs, ⟨h1, h2, (by decide : ∀ w ∈ Config.default.keywords, digits w = 0)⟩⟩

/-- The shipped romaji tables contain no digits. -/
theorem table_no_digits (tbl : Romaji.Table) (h : (tbl.all fun e => digits e.2.1 == 0) = true) :
    (∀ k v, (KanaBuilder.ofTable tbl).convertGreedy k = some v → digits v.1 = 0) ∧
    ∀ k v, (KanaBuilder.ofTable tbl).convertNonPartial k = some v → digits v.1 = 0 := by
  have key : ∀ k v, Romaji.Entry tbl k v → digits v.1 = 0 := by
    rintro k v ⟨pre, post, e, _⟩
    rw [List.all_eq_true] at h
    have := h (k, v) (by rw [e]; simp)
    simpa using this
  exact ⟨fun k v hk => key k v ((Romaji.convert_greedy_iff tbl k v).mp hk),
    fun k v hk => key k v ((Romaji.convert_non_partial_iff tbl k v).mp hk).1⟩

/-- With a shipped rule: from a new context, whatever is called, typed and looked up, as long as at most 19 digits are
typed (release build). -/
theorem shipped_never_panics (cmds : CommandRule) (tbl : Romaji.Table)
    (ht : tbl = Assets.defaultRomaji ∨ tbl = Assets.azikRomaji) (im cm ds) (ops : List Op)
    (hops : ∀ op ∈ ops, OpNoDigits op) (hn : digitKeys Assets.xkb ops ≤ 19) :
    ∃ c, Spec.run (Assets.env ⟨false⟩) (Ctx.new cmds (KanaBuilder.ofTable tbl) im cm ds) ops = .ok c := by
  have h : (tbl.all fun e => digits e.2.1 == 0) = true := by
    rcases ht with rfl | rfl <;> decide +kernel
  obtain ⟨h1, h2⟩ := table_no_digits tbl h
  refine history_never_panics _ rfl ?_ ops hops _ 0 (new_good cmds _ im cm ds h1 h2) (by rw [Nat.zero_add]; exact hn)
  intro k ch h1 h2 hk
  have : Assets.xkb.toChar k = some ch := hk
  unfold Assets.xkb at this
  simp only [h1, h2, and_self, if_true, Option.some.injEq] at this
  subst this
  have : k.isValidChar := Or.inl (by omega)
  simp only [Char.ofNat, this, dif_pos, Char.ofNatAux, Char.toNat]
  simp only [UInt32.toNat, BitVec.toNat_ofNatLT]
  omega

/-- The word `第#3` for numbers. -/
def ordinals : CskkDict := ⟨true, .static ⟨[], [(c%"#", ⟨c%"#", false, [([], [⟨c%"第#3", none⟩])]⟩)]⟩⟩

/-- `Q`, digits, space. -/
def numberTyped (n : Nat) : List Op :=
  .key ⟨0x51, 0⟩ :: List.replicate n (.key ⟨0x39, 0⟩) ++ [.key ⟨0x20, 0⟩]

/-- **The bound is sharp.** With a word which writes numbers in kanji, the twentieth 9 crashes a release build. -/
theorem twenty_digits_panic :
    ((Spec.run (Assets.env ⟨false⟩) (Ctx.new Assets.defaultCommands Assets.defaultKana .hiragana .direct [ordinals])
      (numberTyped 19)).toOption.map (·.preedit (Assets.env ⟨false⟩))).map (·.take 3) = some c%"▼第九" ∧
    (Spec.run (Assets.env ⟨false⟩) (Ctx.new Assets.defaultCommands Assets.defaultKana .hiragana .direct [ordinals])
      (numberTyped 20)).toOption.isNone = true := by decide +kernel

/-- **Finding.** A debug build crashes on a history of plain keys: convert a word (space), go back (x), cancel (C-g),
convert again (space). Cancelling returns to the selection mode with an empty list of candidates, shown as ▼エラー; asking
for the next candidate computes 0 - 1. A release build goes on with a cursor outside the list. -/
theorem cancel_after_back_crashes_debug :
    let d : CskkDict := ⟨true, .static ⟨[], [(c%"か", ⟨c%"か", false, [([], [⟨c%"蚊", none⟩])]⟩)]⟩⟩
    let c := Ctx.new Assets.defaultCommands Assets.defaultKana .hiragana .direct [d]
    let keys : List Op := [.key ⟨0x4b, 0⟩, .key ⟨0x61, 0⟩, .key ⟨0x20, 0⟩, .key ⟨0x78, 0⟩, .key ⟨0x67, 4#32⟩]
    ((Spec.run (Assets.env ⟨true⟩) c keys).toOption.map (·.preedit (Assets.env ⟨true⟩))) = some c%"▼エラー" ∧
    (match Spec.run (Assets.env ⟨true⟩) c (keys ++ [.key ⟨0x20, 0⟩]) with
      | .error .overflow => true | _ => false) = true ∧
    ((Spec.run (Assets.env ⟨false⟩) c (keys ++ [.key ⟨0x20, 0⟩])).toOption.map fun c =>
      (c.top.cands.cands.length, c.top.cands.cursor)) = some (0, 1) := by decide +kernel

end Cskk.Props.NoPanic
