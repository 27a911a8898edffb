import Verif.Props.Merge
import Verif.Props.Convert
import Verif.Props.Persist

/-!
# C62: convert, choose, and confirm or purge: the whole cycle
-/

namespace Cskk.Props.WordCycle
open Cskk.Spec Cskk.Spec.Merge Cskk.Spec.Persist Cskk.Spec.UserDict Cskk.Dicts Cskk.Props.UserDict Cskk.Props.Candidates
  Cskk.Props.NumericOffer Cskk.Props.Merge Cskk.Props.Navigate Cskk.Props.Convert Cskk.Props.Romaji

/-- The keys of the shipped rules. -/
def space : KeyEvent := ⟨0x20, 0⟩
def capitalX : KeyEvent := ⟨0x58, 0⟩
def ctrlJ : KeyEvent := ⟨0x6a, 4⟩
def ctrlG : KeyEvent := ⟨0x67, 4⟩

/-- A reading is typed, in a kana mode, with one of the shipped rules; `r` is the level once pending keys became kana. -/
structure Ready (tbl : Table) (c : Ctx) (r : State) : Prop where
  composing : Composing c.top
  kanaMode : c.top.inputMode ≠ .ascii ∧ c.top.inputMode ≠ .zenkaku
  rules : c.cmds = Assets.defaultCommands ∧ c.kanaConv = Assets.defaultKana ∧ tbl = Assets.defaultRomaji ∨
    c.cmds = Assets.azikCommands ∧ c.kanaConv = Assets.azikKana ∧ tbl = Assets.azikRomaji
  flushed : Flushed tbl c.top r
  history : c.top.history.length ≤ 20

theorem Ready.table {tbl : Table} {c : Ctx} {r : State} (h : Ready tbl c r) : c.kanaConv = KanaBuilder.ofTable tbl := by
  rcases h.rules with ⟨_, h1, h2⟩ | ⟨_, h1, h2⟩ <;> rw [h1, h2] <;> rfl

/-- The context in which candidate `n` of the list `cs` is shown. -/
def choosing (c : Ctx) (r : State) (cs : List Candidate) (n : Nat) : Ctx :=
  moved { c with top := inMode (withCandidates r cs) .compositionSelection } n

theorem not_release : ¬ IsRelease space ∧ ¬ IsRelease capitalX ∧ ¬ IsRelease ctrlJ ∧ ¬ IsRelease ctrlG := by
  simp [IsRelease, space, capitalX, ctrlJ, ctrlG]

theorem processKeyEvents_append (e : Env) (ks : List KeyEvent) (ls : List KeyEvent) (c c' : Ctx)
    (h : c.processKeyEvents e ks = .ok c') : c.processKeyEvents e (ks ++ ls) = c'.processKeyEvents e ls := by
  induction ks generalizing c with
  | nil => cases h; rfl
  | cons k ks ih =>
    unfold Ctx.processKeyEvents at h
    rw [List.cons_append]
    conv => lhs; unfold Ctx.processKeyEvents
    cases hk : c.processKeyEvent e k with
    | error x => rw [hk] at h; cases h
    | ok p => rw [hk] at h; exact ih p.1 h

theorem processKeyEvents_one (e : Env) (k : KeyEvent) (c c' : Ctx) (b : Bool) (h : c.processKeyEvent e k = .ok (c', b)) :
    c.processKeyEvents e [k] = .ok c' := by
  unfold Ctx.processKeyEvents
  rw [h]
  rfl

/-- `n + 1` times space. -/
theorem spaces (e : Env) {tbl : Table} {c : Ctx} {r : State} (h : Ready tbl c r) {cs : List Candidate}
    (hcs : getAll c.dicts (lookupKey r) = .ok cs) (n : Nat) (hn : n < cs.length) :
    c.processKeyEvents e (List.replicate (n + 1) space) = .ok (choosing c r cs n) := by
  cases cs with
  | nil => simp at hn
  | cons x xs =>
    have hsp := shipped_space c h.composing h.kanaMode
      (h.rules.imp (fun t => ⟨t.1, t.2.1⟩) fun t => ⟨t.1, t.2.1⟩)
    have hk := convert_known e c space tbl r h.table h.composing not_release.1 h.flushed hsp.2 hsp.1 h.history x xs hcs
    obtain ⟨_, _, fi, _⟩ := flushed_frame h.flushed
    rw [List.replicate_succ]
    unfold Ctx.processKeyEvents
    rw [hk]
    have := next_repeated e n { c with top := inMode (withCandidates r (x :: xs)) .compositionSelection } space
      ⟨rfl, by simp [inMode, withCandidates]⟩ not_release.1
      ((shipped_keys _ (h.rules.imp (fun t => t.1) fun t => t.1) rfl (by
        show r.inputMode ≠ _ ∧ r.inputMode ≠ _
        rw [fi]; exact h.kanaMode)).1)
      (by show 0 + n < _; simpa [inMode, withCandidates] using hn)
    show Ctx.processKeyEvents e _ _ = _
    rw [this]
    show Except.ok (moved _ (0 + n)) = _
    rw [Nat.zero_add]
    rfl

/-- The commands of the shipped rules for the chosen candidate. -/
theorem shipped_choice (c : Ctx) (hr : c.cmds = Assets.defaultCommands ∨ c.cmds = Assets.azikCommands)
    (hm : c.top.mode = .compositionSelection) (hi : c.top.inputMode ≠ .ascii ∧ c.top.inputMode ≠ .zenkaku) :
    CommandIs c capitalX [.purge, .changeCompositionMode .direct] ∧
      (CommandIs c ctrlJ [.confirmComposition] ∨ CommandIs c ctrlJ [.confirmComposition, .changeCompositionMode .direct]) := by
  constructor
  · apply commandIs_of_find
    rcases hr with h | h <;> rw [h, hm] <;>
      cases him : c.top.inputMode <;> first | exact absurd him hi.1 | exact absurd him hi.2 | decide +kernel
  · rcases hr with h | h
    · cases him : c.top.inputMode
      · exact .inl (commandIs_of_find (by rw [h, hm, him]; decide +kernel))
      · exact .inr (commandIs_of_find (by rw [h, hm, him]; decide +kernel))
      · exact .inr (commandIs_of_find (by rw [h, hm, him]; decide +kernel))
      · exact absurd him hi.2
      · exact absurd him hi.1
    · left
      apply commandIs_of_find
      rw [h, hm]
      cases him : c.top.inputMode <;> first | exact absurd him hi.1 | exact absurd him hi.2 | decide +kernel

/-- The level as it is after a purge: as new, in direct mode — but the mode history says that a candidate was chosen. -/
def purgedLevel (s : State) : State :=
  { State.new s.inputMode s.defaultMode with mode := .direct, history := [.compositionSelection] }

/-- **C62, purge.** With a reading typed, space `n + 1` times and then `X`: candidate `n` of the list is purged from every dictionary
under the key of the reading, the level is empty and in direct mode; the levels below do not change. -/
theorem purge_cycle (e : Env) {tbl : Table} {c : Ctx} {r : State} (h : Ready tbl c r) {cs : List Candidate}
    (hcs : getAll c.dicts (lookupKey r) = .ok cs) (n : Nat) (x : Candidate) (hx : cs[n]? = some x) :
    c.processKeyEvents e (List.replicate (n + 1) space ++ [capitalX]) =
      .ok { c with top := purgedLevel c.top, dicts := c.dicts.map fun (d : CskkDict) => d.purge (lookupKey r) x } := by
  obtain ⟨hn, hx'⟩ := List.getElem?_eq_some_iff.mp hx
  obtain ⟨_, _, fi, _⟩ := flushed_frame h.flushed
  rw [processKeyEvents_append e _ _ _ _ (spaces e h hcs n hn)]
  have hc := shipped_choice (choosing c r cs n) (h.rules.imp (fun t => t.1) fun t => t.1) rfl (by
    show r.inputMode ≠ _ ∧ r.inputMode ≠ _
    rw [fi]; exact h.kanaMode)
  apply processKeyEvents_one (b := true)
  rw [key_command e _ _ _ not_release.2.1 (by show CompositionMode.compositionSelection ≠ _; decide) hc.1
    (choosing_skip rfl capitalX)]
  have hcur : (choosing c r cs n).top.cands.current = some x := hx
  simp only [Ctx.processInstructions, Ctx.runInstructions, Ctx.instruction, Ctx.purgeCurrent, hcur, bind, Except.bind, pure,
    Except.pure]
  have hd : r.defaultMode = c.top.defaultMode := by
    rcases h.flushed with ⟨_, _, _, _, rfl⟩ | ⟨_, _, _, _, rfl⟩ | ⟨_, rfl⟩ <;> rfl
  unfold purgedLevel
  rw [← hd, ← fi]
  rfl

/-- Nothing is shown any more, and nothing is left to be polled: text which was committed on this level but not fetched
yet is lost. -/
theorem purged_level_empty (e : Env) (s : State) :
    (purgedLevel s).preeditString e s.inputMode = [] ∧ (purgedLevel s).confirmed = [] ∧ (purgedLevel s).mode = .direct := by
  refine ⟨?_, rfl, rfl⟩
  simp [purgedLevel, State.preeditString, State.preeditDetail, State.new, State.unconverted]

/-- **C62, confirm.** With a reading typed, space `n + 1` times and then Ctrl-j: candidate `n` of the list is committed with its
okurigana, every dictionary is told of it, the level is as new; the levels below do not change. -/
theorem confirm_cycle (e : Env) {tbl : Table} {c : Ctx} {r : State} (h : Ready tbl c r) {cs : List Candidate}
    (hcs : getAll c.dicts (lookupKey r) = .ok cs) (n : Nat) (x : Candidate) (hx : cs[n]? = some x) (hdm : c.top.defaultMode = .direct) :
    ∃ h, (h = [] ∨ h = [.direct]) ∧
      c.processKeyEvents e (List.replicate (n + 1) space ++ [ctrlJ]) =
        .ok { c with
          top := { State.new c.top.inputMode .direct with
            confirmed := c.top.confirmed ++ (x.output ++ e.kanaForm.adjust c.top.inputMode r.okuri), history := h }
          dicts := c.dicts.map fun (d : CskkDict) => d.confirm x } := by
  obtain ⟨hn, hx'⟩ := List.getElem?_eq_some_iff.mp hx
  obtain ⟨_, _, fi, fc⟩ := flushed_frame h.flushed
  have hd : r.defaultMode = c.top.defaultMode := by
    rcases h.flushed with ⟨_, _, _, _, rfl⟩ | ⟨_, _, _, _, rfl⟩ | ⟨_, rfl⟩ <;> rfl
  have hc := shipped_choice (choosing c r cs n) (h.rules.imp (fun t => t.1) fun t => t.1) rfl (by
    show r.inputMode ≠ _ ∧ r.inputMode ≠ _
    rw [fi]; exact h.kanaMode)
  have hcom := Confirm.command_commits e (choosing c r cs n) x .compositionSelection (choosing c r cs n).top.inputMode hx (.inl rfl)
  have htop : Confirm.committed (choosing c r cs n).top
      (x.output ++ e.kanaForm.adjust (choosing c r cs n).top.inputMode (choosing c r cs n).top.okuri) =
      { State.new c.top.inputMode .direct with
        confirmed := c.top.confirmed ++ (x.output ++ e.kanaForm.adjust c.top.inputMode r.okuri) } := by
    show ({ State.new r.inputMode r.defaultMode with
      confirmed := r.confirmed ++ (x.output ++ e.kanaForm.adjust r.inputMode r.okuri) } : State) = _
    rw [fi, fc, hd, hdm]
  rw [htop] at hcom
  rcases hc.2 with hk | hk
  · refine ⟨[], .inl rfl, ?_⟩
    rw [processKeyEvents_append e _ _ _ _ (spaces e h hcs n hn)]
    apply processKeyEvents_one (b := true)
    rw [key_command e _ _ _ not_release.2.2.1 (by show CompositionMode.compositionSelection ≠ _; decide) hk
      (choosing_skip rfl ctrlJ)]
    exact single e _ _ _ _ _ hcom
  · refine ⟨[.direct], .inr rfl, ?_⟩
    rw [processKeyEvents_append e _ _ _ _ (spaces e h hcs n hn)]
    apply processKeyEvents_one (b := true)
    rw [key_command e _ _ _ not_release.2.2.1 (by show CompositionMode.compositionSelection ≠ _; decide) hk
      (choosing_skip rfl ctrlJ)]
    unfold Ctx.processInstructions Ctx.runInstructions
    rw [show (choosing c r cs n).top.mode = .compositionSelection from rfl, hcom]
    simp only [bind, Except.bind, Ctx.runInstructions, Ctx.instruction]
    rfl

/-! ## What is offered afterwards -/

/-- The words of a user dictionary after a purge. -/
theorem answers_purged {d : CskkDict} {m : DictMaps} {b : Bool} (hd : d.kind = .user m b) (hm : WellFormed m) (k : CompositeKey)
    (key : Str) (x : Candidate) (hx : x.midashi = key ∧ x.okuri = k.hasOkuri) :
    answers (d.purge k x) k.okuri key = (answers d k.okuri key).filter fun y => decide (y.kouho ≠ x.kouho) := by
  have h1 : maps (d.purge k x) = m.purge k x := by simp [CskkDict.purge, hd, maps]
  have h2 : maps d = m := by simp [hd, maps]
  have hw := fun o g => congrFun (congrFun (congrFun (Persist.words_purge m hm k x) o) key) g
  unfold words purged at hw
  obtain ⟨rfl, ho⟩ := hx
  unfold answers
  rw [h1, h2]
  cases hk : k.okuri with
  | none =>
    have hxo : x.okuri = false := by rw [ho]; simp [CompositeKey.hasOkuri, hk]
    have w1 := hw false []
    simp only [hxo, true_and, true_or, if_true] at w1
    exact w1
  | some o =>
    have hxo : x.okuri = true := by rw [ho]; simp [CompositeKey.hasOkuri, hk]
    have w1 := hw true o
    have w2 := hw true []
    simp only [hxo, hk, true_and, or_true, true_or, if_true] at w1 w2
    simp only [w1, w2, List.filter_append]

/-- Of this dictionary the word can be purged: it is a user dictionary; or it is read-only, but does not list the word. -/
def Purgeable (k : CompositeKey) (x : Candidate) (d : CskkDict) : Prop :=
  (∃ m b, d.kind = .user m b ∧ WellFormed m) ∨
    (∀ m b, d.kind ≠ .user m b) ∧ ¬ HasWord (answers d k.okuri x.midashi) x.kouho

theorem purge_readonly {d : CskkDict} (h : ∀ m b, d.kind ≠ .user m b) (k : CompositeKey) (x : Candidate) : d.purge k x = d := by
  unfold CskkDict.purge
  split
  · rename_i m b hk; exact absurd hk (h m b)
  · rfl

theorem answers_purgeable {d : CskkDict} {k : CompositeKey} {x : Candidate} (hd : Purgeable k x d) (ho : x.okuri = k.hasOkuri) :
    answers (d.purge k x) k.okuri x.midashi = (answers d k.okuri x.midashi).filter fun y => decide (y.kouho ≠ x.kouho) := by
  rcases hd with ⟨m, b, h1, h2⟩ | ⟨h1, h2⟩
  · exact answers_purged h1 h2 k x.midashi x ⟨rfl, ho⟩
  · rw [purge_readonly h1, eq_comm, List.filter_eq_self]
    intro y hy
    rw [decide_eq_true_iff]
    exact fun e => h2 ⟨y, hy, e⟩

theorem flatMap_filter' {α β : Type} (l : List α) (f : α → List β) (p : β → Bool) :
    (l.flatMap f).filter p = l.flatMap fun a => (f a).filter p := by
  induction l with
  | nil => rfl
  | cons a l ih => rw [List.flatMap_cons, List.filter_append, ih, List.flatMap_cons]

/-- **C62/C09.** For a reading without digits: once candidate `x` of its list has been purged, the list is what it was, without `x`. -/
theorem offered_after_purge (ds : List CskkDict) (k : CompositeKey) (hk : k.okuri ≠ some [])
    (hnum : (Numeric.numericKey k.toComposite).1 = k.toComposite) (cs : List Candidate) (hcs : getAll ds k = .ok cs)
    (x : Candidate) (hx : x ∈ cs) (hd : ∀ d ∈ ds, Purgeable k x d) :
    getAll (ds.map fun (d : CskkDict) => d.purge k x) k = .ok (cs.filter fun y => decide (y.kouho ≠ x.kouho)) := by
  obtain ⟨key, hkey⟩ := dictKey_some k hk
  rw [offered_exactly ds k key hkey hnum] at hcs
  cases hcs
  rw [offered_exactly _ k key hkey hnum]
  obtain ⟨y, hy, rfl⟩ := List.mem_map.mp hx
  have : (List.map (fun (d : CskkDict) => d.purge k (offer k.okuri key y y.kouho)) ds).flatMap (fun d => answers d k.okuri key) =
      (ds.flatMap fun d => answers d k.okuri key).filter fun z => decide (z.kouho ≠ y.kouho) := by
    rw [flatMap_filter', List.flatMap_map]
    have : ∀ d ∈ ds, answers (d.purge k (offer k.okuri key y y.kouho)) k.okuri key =
        (answers d k.okuri key).filter fun z => decide (z.kouho ≠ y.kouho) :=
      fun d hd' => answers_purgeable (hd d hd') rfl
    clear hd hx hy
    induction ds with
    | nil => rfl
    | cons d ds ih =>
      rw [List.flatMap_cons, List.flatMap_cons, this d (by simp), ih fun d' h' => this d' (by simp [h'])]
  rw [this, merge_without, List.filter_map]
  rfl

/-- **C62/C09, for every reading.** Once candidate `x` has been purged, no candidate stands for the same word under the same heading
(so with numbers, none that is filled in from the same template). -/
theorem purged_gone (ds : List CskkDict) (k : CompositeKey) (hk : k.okuri ≠ some []) (x : Candidate)
    (ho : x.okuri = k.hasOkuri) (hd : ∀ d ∈ ds, Purgeable k x d) (cs : List Candidate)
    (hcs : getAll (ds.map fun (d : CskkDict) => d.purge k x) k = .ok cs) :
    ∀ y ∈ cs, ¬ (y.midashi = x.midashi ∧ y.kouho = x.kouho) := by
  have hno : ∀ w, Known (ds.map fun (d : CskkDict) => d.purge k x) k.okuri x.midashi w → w ≠ x.kouho := by
    rintro w ⟨d', hd', z, hz, rfl⟩
    obtain ⟨d, hdd, rfl⟩ := List.mem_map.mp hd'
    rw [answers_purgeable (hd d hdd) ho] at hz
    exact of_decide_eq_true (List.mem_filter.mp hz).2
  obtain ⟨key, ws, -, hm, h⟩ := offered_list _ k hk cs hcs
  have hws : ∀ d ∈ ws, ∀ out, ¬ ((offer k.okuri key d out).midashi = x.midashi ∧ (offer k.okuri key d out).kouho = x.kouho) := by
    rintro d hd' out ⟨h1, h2⟩
    have hkn := (hm.all d.kouho).mp (List.mem_map.mpr ⟨d, hd', rfl⟩)
    have hkey : key = x.midashi := h1
    rw [hkey] at hkn
    exact hno _ hkn h2
  rcases h with ⟨_, rfl⟩ | ⟨_, nkey, ts, fills, -, hts, hf, rfl⟩
  · intro y hy
    obtain ⟨d, hd', rfl⟩ := List.mem_map.mp hy
    exact hws d hd' _
  · intro y hy
    rcases List.mem_append.mp hy with hy | hy
    · obtain ⟨d, hd', rfl⟩ := List.mem_map.mp hy
      exact hws d hd' _
    · obtain ⟨f, hff, hy⟩ := List.mem_flatMap.mp hy
      obtain ⟨out, _, rfl⟩ := List.mem_map.mp hy
      rintro ⟨h1, h2⟩
      have hmem : f.1 ∈ ts := hf.1 ▸ List.mem_map.mpr ⟨f, hff, rfl⟩
      have hkn := (hts.all f.1.kouho).mp (List.mem_map.mpr ⟨f.1, hmem, rfl⟩)
      have hkey : nkey = x.midashi := h1
      rw [hkey] at hkn
      exact hno _ hkn h2

/-- A candidate of the list belongs to the side of the reading. -/
theorem candidate_side (ds : List CskkDict) (k : CompositeKey) (hk : k.okuri ≠ some []) (cs : List Candidate)
    (hcs : getAll ds k = .ok cs) : ∀ x ∈ cs, x.okuri = k.hasOkuri ∧ x.strictOkuri = k.okuri := by
  obtain ⟨key, ws, -, -, h⟩ := offered_list _ k hk cs hcs
  rcases h with ⟨_, rfl⟩ | ⟨_, nkey, ts, fills, -, -, -, rfl⟩
  · intro y hy
    obtain ⟨d, _, rfl⟩ := List.mem_map.mp hy
    exact ⟨rfl, rfl⟩
  · intro y hy
    rcases List.mem_append.mp hy with hy | hy
    · obtain ⟨d, _, rfl⟩ := List.mem_map.mp hy
      exact ⟨rfl, rfl⟩
    · obtain ⟨f, _, hy⟩ := List.mem_flatMap.mp hy
      obtain ⟨out, _, rfl⟩ := List.mem_map.mp hy
      exact ⟨rfl, rfl⟩

/-- **C62, purge, in words.** After the purge every user dictionary has the words it had, without this one under the heading and for
the okurigana for which it was offered; read-only dictionaries are as before. -/
theorem purge_words (d : CskkDict) (k : CompositeKey) (x : Candidate) :
    (∀ m b, d.kind = .user m b → WellFormed m →
      ∃ m', (d.purge k x).kind = .user m' true ∧ words m' = purged (words m) k x) ∧
    ((∀ m b, d.kind ≠ .user m b) → d.purge k x = d) := by
  refine ⟨?_, fun h => purge_readonly h k x⟩
  intro m b hd hm
  exact ⟨m.purge k x, by simp [CskkDict.purge, hd], Persist.words_purge m hm k x⟩

/-- **C62, confirm, in words.** -/
theorem confirm_words (d : CskkDict) (x : Candidate) :
    (∀ m b, d.kind = .user m b → ∃ m', (d.confirm x).kind = .user m' true ∧ words m' = confirmed (words m) x) ∧
    ((∀ m b, d.kind ≠ .user m b) → d.confirm x = d) := by
  refine ⟨?_, ?_⟩
  · intro m b hd
    exact ⟨m.select x, by simp [CskkDict.confirm, hd], Persist.words_select m x⟩
  · intro h
    unfold CskkDict.confirm
    split
    · rename_i m b hk; exact absurd hk (h m b)
    · rfl

/-! ## Cancelling after a purge -/

/-- **Finding.** On the outermost level Ctrl-g after a purge goes "back" to a candidate that does not exist: the text for an internal
error is shown, in selection mode with an empty list. -/
theorem cancel_after_purge (e : Env) {tbl : Table} {c : Ctx} {r : State} (h : Ready tbl c r) {cs : List Candidate}
    (hcs : getAll c.dicts (lookupKey r) = .ok cs) (n : Nat) (x : Candidate) (hx : cs[n]? = some x) (hb : c.below = []) :
    ∃ c', c.processKeyEvents e (List.replicate (n + 1) space ++ [capitalX, ctrlG]) = .ok c' ∧
      c'.top.mode = .compositionSelection ∧ c'.candidates = [] ∧ c'.preedit e = c%"▼エラー" := by
  have hp := purge_cycle e h hcs n x hx
  generalize hc1 : ({ c with top := purgedLevel c.top, dicts := c.dicts.map fun (d : CskkDict) => d.purge (lookupKey r) x } : Ctx)
    = c1 at hp
  have hb1 : c1.below = [] := by rw [← hc1]; exact hb
  have ht : c1.top = purgedLevel c.top := by rw [← hc1]
  have hi : (purgedLevel c.top).inputMode = c.top.inputMode := rfl
  have hr : c1.cmds = Assets.defaultCommands ∨ c1.cmds = Assets.azikCommands := by
    rw [← hc1]; exact h.rules.imp (fun t => t.1) fun t => t.1
  have hc : CommandIs c1 ctrlG [.abort] := by
    apply commandIs_of_find
    have hm : c1.top.mode = .direct := by rw [ht]; rfl
    have hi' := h.kanaMode
    rcases hr with h | h <;> rw [h, hm, ht, hi] <;>
      cases him : c.top.inputMode <;> first | exact absurd him hi'.1 | exact absurd him hi'.2 | decide +kernel
  have hk : c1.skipCommand ctrlG = false := by
    unfold Ctx.skipCommand
    rw [show ctrlG.isModifierlessInput = false by decide +kernel]
    rfl
  have hg : c1.processKeyEvent e ctrlG = .ok (c1.abort, true) := by
    rw [key_command e c1 ctrlG _ not_release.2.2.2 (by rw [ht]; show CompositionMode.direct ≠ _; decide) hc hk]
    exact single e c1 _ _ _ _ rfl
  have ha : c1.abort = { c1 with top := { State.new c.top.inputMode c.top.defaultMode with mode := .compositionSelection } } := by
    unfold Ctx.abort
    simp only [Ctx.mapTop, ht]
    have : ((purgedLevel c.top).clearPre.consolidate.clearCandidateList).mode = .direct := rfl
    simp only [this, if_true, Ctx.abortRegister, hb1]
    rfl
  refine ⟨c1.abort, ?_, ?_⟩
  · rw [show [capitalX, ctrlG] = [capitalX] ++ [ctrlG] from rfl, ← List.append_assoc, processKeyEvents_append e _ _ _ _ hp]
    exact processKeyEvents_one e _ _ _ _ hg
  · rw [ha]
    refine ⟨rfl, rfl, ?_⟩
    unfold Ctx.preedit Ctx.states
    rw [hb1]
    simp [State.preeditString, State.preeditDetail, State.new, CandidateList.new, CandidateList.current]
    rfl

/-! ## Offered first after a confirmation -/

theorem mem_promote (c : Candidate) (l : List DictCand) (y : DictCand) :
    (y ∈ promote c l → y ∈ l ∨ y = ⟨c.kouho, c.annotation⟩) ∧ (y ∈ l → y ∈ promote c l) := by
  have hl : l = l.takeWhile (fun d => decide (d.kouho ≠ c.kouho)) ++ l.dropWhile (fun d => decide (d.kouho ≠ c.kouho)) :=
    List.takeWhile_append_dropWhile.symm
  unfold promote
  split
  · exact ⟨fun h => (List.mem_cons.mp h).symm, fun h => List.mem_cons_of_mem _ h⟩
  · exact ⟨.inl, id⟩
  · rename_i first before d after h1 h2
    rw [h1, h2] at hl
    have hp : ∀ z, z ∈ d :: (before ++ first :: after) ↔ z ∈ l := by
      intro z
      rw [hl]
      simp only [List.mem_cons, List.mem_append]
      constructor
      · rintro (h | h | h | h) <;> simp [h]
      · rintro ((h | h) | h | h) <;> simp [h]
    exact ⟨fun h => .inl ((hp y).mp h), (hp y).mpr⟩

/-- What a dictionary answers after a confirmation: what it answered, and perhaps the confirmed word. -/
theorem mem_answers_confirm (d : CskkDict) (x : Candidate) (okuri : Option Str) (key : Str) (y : DictCand) :
    (y ∈ answers (d.confirm x) okuri key → y ∈ answers d okuri key ∨ y = ⟨x.kouho, x.annotation⟩) ∧
    (y ∈ answers d okuri key → y ∈ answers (d.confirm x) okuri key) := by
  by_cases hu : ∃ m b, d.kind = .user m b
  · obtain ⟨m, b, hu⟩ := hu
    have h1 : maps (d.confirm x) = m.select x := by simp [CskkDict.confirm, hu, maps]
    have h2 : maps d = m := by simp [hu, maps]
    have hw : ∀ o g, (y ∈ (listed (m.select x) o key g).getD [] → y ∈ (listed m o key g).getD [] ∨ y = ⟨x.kouho, x.annotation⟩) ∧
        (y ∈ (listed m o key g).getD [] → y ∈ (listed (m.select x) o key g).getD []) := by
      intro o g
      have := congrFun (congrFun (congrFun (Persist.words_select m x) o) key) g
      unfold words confirmed at this
      rw [this]
      split
      · exact mem_promote x _ y
      · exact ⟨.inl, id⟩
    unfold answers
    rw [h1, h2]
    cases okuri with
    | none => exact hw false []
    | some o =>
      have w1 := hw true o
      have w2 := hw true []
      simp only [List.mem_append]
      constructor
      · rintro (h | h)
        · rcases w1.1 h with h | h
          · exact .inl (.inl h)
          · exact .inr h
        · rcases w2.1 h with h | h
          · exact .inl (.inr h)
          · exact .inr h
      · rintro (h | h)
        · exact .inl (w1.2 h)
        · exact .inr (w2.2 h)
  · rw [(confirm_words d x).2 (fun m b h => hu ⟨m, b, h⟩)]
    exact ⟨.inl, id⟩

/-- **C62/C08.** If the user dictionary is consulted first, the word chosen for a reading without digits is the first one offered
for it from then on, provided that the user dictionary did not list it with another annotation and no other dictionary lists it with a
greater one; the same words are offered as before. -/
theorem offered_after_confirm (u : CskkDict) (m : DictMaps) (b : Bool) (hu : u.kind = .user m b) (rest : List CskkDict)
    (k : CompositeKey) (hk : k.okuri ≠ some []) (hnum : (Numeric.numericKey k.toComposite).1 = k.toComposite)
    (cs : List Candidate) (hcs : getAll (u :: rest) k = .ok cs) (x : Candidate) (hx : x ∈ cs)
    (hsame : ∀ d ∈ answers u k.okuri x.midashi, d.kouho = x.kouho → d.annotation = x.annotation)
    (hmax : ∀ e ∈ rest, ∀ d ∈ answers e k.okuri x.midashi, d.kouho = x.kouho → ¬ NoteLess x.annotation d.annotation) :
    ∃ first others, getAll ((u :: rest).map fun (d : CskkDict) => d.confirm x) k = .ok (first :: others) ∧
      first.output = x.output ∧ ∀ w, (∃ y ∈ cs, y.output = w) ↔ ∃ y ∈ first :: others, y.output = w := by
  obtain ⟨key, hkey⟩ := dictKey_some k hk
  have hcs' := hcs
  rw [offered_exactly _ k key hkey hnum] at hcs'
  have hxo : x.midashi = key ∧ x.okuri = k.hasOkuri ∧ x.strictOkuri = k.okuri ∧ x.output = x.kouho := by
    cases hcs'
    obtain ⟨y, _, rfl⟩ := List.mem_map.mp hx
    exact ⟨rfl, rfl, rfl, rfl⟩
  obtain ⟨hx1, hx2, hx3, hx4⟩ := hxo
  obtain ⟨first, others, h1, h2⟩ := confirmed_offered_first u m b hu (rest.map fun (d : CskkDict) => d.confirm x) k key hkey x
    ⟨hx1, hx2, hx3⟩ (hx1 ▸ hsame) (by
      intro e he d hd hw
      obtain ⟨e', he', rfl⟩ := List.mem_map.mp he
      rcases (mem_answers_confirm e' x k.okuri key d).1 hd with h | h
      · exact (candLt_note hw).mpr (hmax e' he' d (hx1 ▸ h) hw)
      · rw [h]; exact candLt_strictTotal.irrefl _)
  have hnew : getAll ((u :: rest).map fun (d : CskkDict) => d.confirm x) k = .ok (first :: others) := by
    rw [List.map_cons]
    simp only [getAll, h1, bind, Except.bind]
    rw [if_pos (by rw [hnum])]
    rfl
  refine ⟨first, others, hnew, h2.trans hx4.symm, ?_⟩
  obtain ⟨cs1, key1, g1, g2, -, g3⟩ := offered_words (u :: rest) k hk hnum
  obtain ⟨cs2, key2, j1, j2, -, j3⟩ := offered_words ((u :: rest).map fun (d : CskkDict) => d.confirm x) k hk hnum
  rw [hcs] at g1
  cases g1
  rw [hnew] at j1
  cases j1
  have hkk : key1 = key2 := by
    unfold DictKey at g2 j2
    split at g2 <;> simp_all
  subst hkk
  have hkk : key1 = key := by
    have := dictKey_ok hkey
    unfold DictKey at g2 this
    split at g2 <;> simp_all
  subst hkk
  intro w
  have a1 : (∃ y ∈ cs, y.output = w) ↔ w ∈ cs.map (·.output) := by simp
  have a2 : (∃ y ∈ first :: others, y.output = w) ↔ w ∈ (first :: others).map (·.output) := List.mem_map.symm
  rw [a1, a2, g3, j3]
  constructor
  · rintro ⟨d, hd, y, hy, rfl⟩
    exact ⟨d.confirm x, List.mem_map.mpr ⟨d, hd, rfl⟩, y, (mem_answers_confirm d x k.okuri key1 y).2 hy, rfl⟩
  · rintro ⟨d', hd', y, hy, rfl⟩
    obtain ⟨d, hd, rfl⟩ := List.mem_map.mp hd'
    rcases (mem_answers_confirm d x k.okuri key1 y).1 hy with h | h
    · exact ⟨d, hd, y, h, rfl⟩
    · rw [h]
      show Known (u :: rest) k.okuri key1 x.kouho
      rw [← hx4]
      exact (g3 x.output).mp (List.mem_map.mpr ⟨x, hx, rfl⟩)

/-! ## Example -/

/-- `▽かn` typed after `を`, with a user dictionary and a read-only one. -/
def kan : Ctx :=
  let u : CskkDict := ⟨true, .user ⟨[], [(c%"かん", ⟨c%"かん", false, [([], [⟨c%"缶", none⟩, ⟨c%"感", some c%"心"⟩])]⟩)]⟩ false⟩
  let d : CskkDict := ⟨true, .static ⟨[], [(c%"かん", ⟨c%"かん", false, [([], [⟨c%"館", none⟩, ⟨c%"缶", none⟩])]⟩)]⟩⟩
  { Convert.kan with dicts := [u, d] }

/-- The level once the `n` is part of the reading. -/
def kanLevel : State := { kan.top with kana := c%"かん", raw := c%"かん", pre := [] }

theorem kan_ready : Ready Assets.defaultRomaji kan kanLevel where
  composing := .inl rfl
  kanaMode := by decide
  rules := .inl ⟨rfl, rfl, rfl⟩
  flushed := .inl ⟨rfl, c%"ん", [], by rw [← convert_greedy_iff]; decide +kernel, rfl⟩
  history := by decide

/-- The hypotheses are met: candidate 1 is 感, which only the user dictionary has. -/
example : getAll kan.dicts (lookupKey kanLevel) = .ok [offer none c%"かん" ⟨c%"缶", none⟩ c%"缶",
      offer none c%"かん" ⟨c%"感", some c%"心"⟩ c%"感", offer none c%"かん" ⟨c%"館", none⟩ c%"館"] ∧
    (lookupKey kanLevel).okuri ≠ some [] ∧
    (Numeric.numericKey (lookupKey kanLevel).toComposite).1 = (lookupKey kanLevel).toComposite ∧
    kan.top.defaultMode = .direct ∧ kan.below = [] := by
  decide +kernel

/-- What the user sees: 感 confirmed; 感 purged, and the same word typed again; purged and cancelled. -/
example :
    let e := Assets.env ⟨true⟩
    let again : List KeyEvent := [⟨0x4b, 0⟩, ⟨0x61, 0⟩, ⟨0x6e, 0⟩, space]
    let run (ks : List KeyEvent) := (kan.processKeyEvents e ks).toOption.map fun c => (c.preedit e, c.candidates.map (·.output))
    run [space, space] = some (c%"を▼感", [c%"缶", c%"感", c%"館"]) ∧
    run [space, space, ctrlJ] = some (c%"を感", []) ∧
    run ([space, space, ctrlJ] ++ again) = some (c%"を感▼感", [c%"感", c%"缶", c%"館"]) ∧
    run ([space, space, capitalX] ++ again) = some (c%"▼缶", [c%"缶", c%"館"]) ∧
    run [space, space, capitalX, ctrlG] = some (c%"▼エラー", []) := by
  decide +kernel

end Cskk.Props.WordCycle
