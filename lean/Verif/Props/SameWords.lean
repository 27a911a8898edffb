import Verif.Lemmas.CtxTwin
import Verif.Spec.SameWords
import Verif.Props.Persist
import Verif.Props.Completion
import Verif.Props.Convert
import Verif.Spec.Keys

/-!
# C57: what a context does depends only on the words of its dictionaries
-/

namespace Cskk.Props.SameWords
open Cskk.Spec Cskk.Spec.Persist Cskk.Spec.SameWords Cskk.Props.UserDict Cskk.Props.Candidates Dicts DictMaps
open Cskk.Spec.UserDict (WellFormed side listed)

/-! ## Edits -/

theorem same_confirm {d d' : CskkDict} (h : SameDict d d') (x : Candidate) : SameDict (d.confirm x) (d'.confirm x) := by
  obtain ⟨co, k⟩ := d
  obtain ⟨co', k'⟩ := d'
  obtain ⟨h1, h2, h3, h4, h5⟩ := h
  cases k <;> cases k' <;> first | exact h2.elim | skip
  · exact ⟨h1, trivial, h3, h4, h5⟩
  · refine ⟨h1, trivial, wf_select h3 x, wf_select h4 x, ?_⟩
    show words (DictMaps.select _ x) = words (DictMaps.select _ x)
    rw [Persist.words_select, Persist.words_select]
    have : words _ = words _ := h5
    simp only [maps] at this
    rw [this]
  · exact ⟨h1, trivial, h3, h4, h5⟩

theorem same_purge {d d' : CskkDict} (h : SameDict d d') (k : CompositeKey) (x : Candidate) : SameDict (d.purge k x) (d'.purge k x) := by
  obtain ⟨co, kd⟩ := d
  obtain ⟨co', kd'⟩ := d'
  obtain ⟨h1, h2, h3, h4, h5⟩ := h
  cases kd <;> cases kd' <;> first | exact h2.elim | skip
  · exact ⟨h1, trivial, h3, h4, h5⟩
  · refine ⟨h1, trivial, wf_purge h3 k x, wf_purge h4 k x, ?_⟩
    show words (DictMaps.purge _ k x) = words (DictMaps.purge _ k x)
    simp only [maps] at h3 h4
    rw [Persist.words_purge _ h3, Persist.words_purge _ h4]
    have : words _ = words _ := h5
    simp only [maps] at this
    rw [this]
  · exact ⟨h1, trivial, h3, h4, h5⟩

/-! ## Lookups -/

theorem same_answers {d d' : CskkDict} (h : SameDict d d') (o : Option Str) (key : Str) : answers d' o key = answers d o key := by
  have hw : ∀ a b c, (listed (maps d') a b c).getD [] = (listed (maps d) a b c).getD [] := fun a b c =>
    congrFun (congrFun (congrFun h.words a) b) c
  unfold answers
  cases o <;> simp only [hw]

theorem same_inOrder {ds ds' : List CskkDict} (h : AllSame ds ds') (k : CompositeKey) : inOrder ds' k = inOrder ds k := by
  cases hk : k.getDictKey with
  | ok key =>
    rw [inOrder_answers ds k key hk, inOrder_answers ds' k key hk]
    congr 1
    induction h with
    | nil => rfl
    | cons hd _ ih => simp only [List.flatMap_cons, same_answers hd, ih]
  | error p =>
    have hl : ∀ m : DictMaps, m.lookup k = .error p := by intro m; simp [DictMaps.lookup, hk, bind, Except.bind]
    induction h with
    | nil => rfl
    | cons hd _ ih =>
      rename_i d d' _ _ _
      have : d'.lookup k = d.lookup k := by
        have := hd.kind
        unfold CskkDict.lookup
        cases h1 : d.kind <;> cases h2 : d'.kind <;> rw [h1, h2] at this <;> first | exact this.elim | simp only [hl]
      simp only [inOrder, this, ih]

theorem same_exact {ds ds' : List CskkDict} (h : AllSame ds ds') (k : CompositeKey) : Dicts.exact ds' k = Dicts.exact ds k := by
  unfold Dicts.exact
  rw [same_inOrder h]

theorem same_relookup {ds ds' : List CskkDict} (h : AllSame ds ds') : relookup ds' = relookup ds := by
  funext n
  unfold relookup
  rw [same_exact h]

theorem same_getAll {ds ds' : List CskkDict} (h : AllSame ds ds') (k : CompositeKey) : getAll ds' k = getAll ds k := by
  unfold getAll
  have hr : replaceNumericMatch ds' = replaceNumericMatch ds := by
    funext n c
    unfold replaceNumericMatch
    rw [same_relookup h]
  rw [same_exact h, hr]
  simp only [same_exact h]

/-! ## Completion -/

theorem sorted_ext {a b : List Str} (ha : a.Pairwise fun x y => strLt x y = true) (hb : b.Pairwise fun x y => strLt x y = true)
    (h : ∀ x, x ∈ a ↔ x ∈ b) : a = b := by
  induction a generalizing b with
  | nil =>
    cases b with
    | nil => rfl
    | cons y b => exact absurd ((h y).mpr (by simp)) (by simp)
  | cons x a ih =>
    cases b with
    | nil => exact absurd ((h x).mp (by simp)) (by simp)
    | cons y b =>
      rw [List.pairwise_cons] at ha hb
      have hxy : x = y := by
        rcases List.mem_cons.mp ((h x).mp (by simp)) with e | hx
        · exact e
        · rcases List.mem_cons.mp ((h y).mpr (by simp)) with e | hy
          · exact e.symm
          · have h1 := ha.1 y hy
            have h2 := hb.1 x hx
            have := strLt_trans h1 h2
            rw [strLt_irrefl] at this
            cases this
      subst hxy
      congr 1
      apply ih ha.2 hb.2
      intro z
      have hz := h z
      simp only [List.mem_cons] at hz
      constructor
      · intro hm
        rcases hz.mp (Or.inr hm) with e | hm'
        · subst e
          have := ha.1 z hm
          rw [strLt_irrefl] at this
          cases this
        · exact hm'
      · intro hm
        rcases hz.mpr (Or.inr hm) with e | hm'
        · subst e
          have := hb.1 z hm
          rw [strLt_irrefl] at this
          cases this
        · exact hm'

theorem flatMap_skip {B : Type} (K : List Str) (f : Str → List B) : K.flatMap f = (K.filter fun k => !(f k).isEmpty).flatMap f := by
  induction K with
  | nil => rfl
  | cons k K ih =>
    rw [List.flatMap_cons, ih]
    cases hf : f k with
    | nil => rw [List.filter_cons_of_neg (by simp [hf])]; rfl
    | cons x l => rw [List.filter_cons_of_pos (by simp [hf]), List.flatMap_cons, hf]

/-- The words of the readings of one side that begin with `key`, in the order of the readings. -/
def prefixed (w : Words) (o : Bool) (g key : Str) (okuri : Option Str) (K : List Str) : List CompletionCand :=
  (K.filter fun r => key.isPrefixOf r).flatMap fun r => (w o r g).map fun c => ⟨r, okuri, c.kouho, c.annotation⟩

theorem complete_prefixed (m : DictMaps) (hm : WellFormed m) (k : CompositeKey) (key : Str) (hk : k.getDictKey = .ok key) :
    ∃ es, m.complete k = .ok es ∧
      completionsOf es k = prefixed (words m) k.hasOkuri (k.okuri.getD []) key k.okuri ((sortedView (side m k.hasOkuri)).map (·.1)) := by
  obtain ⟨hp, hs⟩ := Completion.sortedView_ok (side m k.hasOkuri) (hm.keys _)
  refine ⟨((sortedView (side m k.hasOkuri)).filter fun e => key.isPrefixOf e.1).map (·.2), ?_, ?_⟩
  · unfold DictMaps.complete
    have hside : (if k.hasOkuri = true then m.ari else m.nashi) = side m k.hasOkuri := by unfold side; cases k.hasOkuri <;> rfl
    rw [hside]
    cases hv : sortedView (side m k.hasOkuri) with
    | nil => rfl
    | cons x xs =>
      rw [hv] at hs
      simp only [hk, bind, Except.bind, pure, Except.pure]
      rw [Completion.window_filter key _ hs]
  · unfold completionsOf prefixed
    have hall : ∀ e ∈ sortedView (side m k.hasOkuri), e.2.midashi = e.1 ∧
        (e.2.getCandidates k.okuri).getD [] = words m k.hasOkuri e.1 (k.okuri.getD []) := by
      intro e he
      have he' := hp.mem_iff.mp he
      refine ⟨hm.reading _ e he', ?_⟩
      have hf := Persist.find_of_mem (hm.keys _) he'
      unfold words listed
      rw [hf]
      simp only [Option.bind_some]
      unfold DictEntry.getCandidates
      cases k.okuri <;> rfl
    generalize sortedView (side m k.hasOkuri) = V at hall
    clear hp hs
    induction V with
    | nil => rfl
    | cons e V ih =>
      have ih := ih fun x hx => hall x (by simp [hx])
      obtain ⟨h1, h2⟩ := hall e (by simp)
      rw [List.map_cons]
      by_cases hpre : key.isPrefixOf e.1 = true
      · rw [List.filter_cons_of_pos (p := fun r => key.isPrefixOf r) hpre,
          List.filter_cons_of_pos (p := fun e : Str × DictEntry => key.isPrefixOf e.1) hpre,
          List.map_cons, List.flatMap_cons, List.flatMap_cons, ih, h1, h2]
      · rw [List.filter_cons_of_neg (p := fun r => key.isPrefixOf r) hpre,
          List.filter_cons_of_neg (p := fun e : Str × DictEntry => key.isPrefixOf e.1) hpre, ih]

theorem mem_keys {m : DictMaps} {o : Bool} {r g : Str} (h : words m o r g ≠ []) : r ∈ (side m o).map (·.1) := by
  unfold words listed at h
  cases hf : (side m o).find r with
  | none => rw [hf] at h; exact absurd rfl h
  | some e => exact List.mem_map.mpr ⟨(r, e), SMap.mem_of_get (m := side m o) hf, rfl⟩

theorem same_prefixed {m m' : DictMaps} (hm : WellFormed m) (hm' : WellFormed m') (hw : words m' = words m) (o : Bool) (g key : Str)
    (okuri : Option Str) :
    prefixed (words m') o g key okuri ((sortedView (side m' o)).map (·.1)) =
      prefixed (words m) o g key okuri ((sortedView (side m o)).map (·.1)) := by
  obtain ⟨hp, hs⟩ := Completion.sortedView_ok (side m o) (hm.keys _)
  obtain ⟨hp', hs'⟩ := Completion.sortedView_ok (side m' o) (hm'.keys _)
  unfold prefixed
  rw [hw, flatMap_skip (List.filter _ (List.map _ (sortedView (side m' o)))), flatMap_skip (List.filter _ (List.map _ (sortedView (side m o))))]
  congr 1
  apply sorted_ext
  · exact ((List.pairwise_map.mpr hs').filter _).filter _
  · exact ((List.pairwise_map.mpr hs).filter _).filter _
  · intro x
    simp only [List.mem_filter, Bool.not_eq_true', List.isEmpty_eq_false_iff, ne_eq, List.map_eq_nil_iff]
    constructor
    · rintro ⟨⟨_, h2⟩, h3⟩
      exact ⟨⟨(hp.map _).mem_iff.mpr (mem_keys h3), h2⟩, h3⟩
    · rintro ⟨⟨_, h2⟩, h3⟩
      exact ⟨⟨(hp'.map _).mem_iff.mpr (mem_keys (by rw [hw]; exact h3)), h2⟩, h3⟩

theorem same_complete {d d' : CskkDict} (h : SameDict d d') (k : CompositeKey) (hk : k.okuri ≠ some []) :
    ∃ es es', d.complete k = .ok es ∧ d'.complete k = .ok es' ∧ completionsOf es' k = completionsOf es k := by
  obtain ⟨key, hkey⟩ := dictKey_some k hk
  obtain ⟨co, kd⟩ := d
  obtain ⟨co', kd'⟩ := d'
  obtain ⟨h1, h2, h3, h4, h5⟩ := h
  have main : ∀ m m' : DictMaps, WellFormed m → WellFormed m' → words m' = words m →
      ∃ es es', m.complete k = .ok es ∧ m'.complete k = .ok es' ∧ completionsOf es' k = completionsOf es k := by
    intro m m' hm hm' hw
    obtain ⟨es, e1, e2⟩ := complete_prefixed m hm k key hkey
    obtain ⟨es', e1', e2'⟩ := complete_prefixed m' hm' k key hkey
    exact ⟨es, es', e1, e1', by rw [e2, e2', same_prefixed hm hm' hw]⟩
  cases kd <;> cases kd' <;> first | exact h2.elim | skip
  · exact main _ _ h3 h4 h5
  · exact main _ _ h3 h4 h5
  · exact ⟨[], [], rfl, rfl, rfl⟩

theorem same_getAllComplete {ds ds' : List CskkDict} (h : AllSame ds ds') (k : CompositeKey) (hk : k.okuri ≠ some []) :
    getAllComplete ds' k = getAllComplete ds k := by
  have : completeInner ds' k = completeInner ds k := by
    induction h with
    | nil => rfl
    | cons hd _ ih =>
      rename_i d d' _ _ _
      unfold completeInner
      rw [ih, hd.completable]
      split
      · obtain ⟨es, es', h1, h2, h3⟩ := same_complete hd k hk
        rw [h1, h2]
        simp only [bind, Except.bind]
        rw [h3]
      · rfl
  unfold getAllComplete
  rw [this]

/-! ## Calls -/

theorem all_confirm {ds ds' : List CskkDict} (h : AllSame ds ds') (x : Candidate) :
    AllSame (ds.map fun (d : CskkDict) => d.confirm x) (ds'.map fun (d : CskkDict) => d.confirm x) := by
  induction h with
  | nil => exact AllSame.nil
  | cons hd _ ih => exact AllSame.cons (same_confirm hd x) ih

theorem all_purge {ds ds' : List CskkDict} (h : AllSame ds ds') (k : CompositeKey) (x : Candidate) :
    AllSame (ds.map fun (d : CskkDict) => d.purge k x) (ds'.map fun (d : CskkDict) => d.purge k x) := by
  induction h with
  | nil => exact AllSame.nil
  | cons hd _ ih => exact AllSame.cons (same_purge hd k x) ih

theorem sim : DictSim AllSame where
  confirm _ _ x h := all_confirm h x
  purge _ _ k x h := all_purge h k x
  getAll _ _ h k := same_getAll h k
  complete _ _ h k hk := same_getAllComplete h k hk
  relookup _ _ h := same_relookup h

theorem same_refl (d : CskkDict) (h : WellFormed (maps d)) : SameDict d d := by
  refine ⟨rfl, ?_, h, h, rfl⟩
  cases d.kind <;> exact trivial

theorem all_refl (ds : List CskkDict) (h : ∀ d ∈ ds, WellFormed (maps d)) : AllSame ds ds := by
  induction ds with
  | nil => exact AllSame.nil
  | cons d ds ih => exact AllSame.cons (same_refl d (h d (by simp))) (ih fun x hx => h x (by simp [hx]))

theorem twin_iff (c c' : Ctx) : Twin AllSame c c' ↔ SameCtx c c' := by
  constructor
  · rintro ⟨ds, rfl, hs⟩; exact ⟨rfl, hs⟩
  · rintro ⟨h1, h2⟩; exact ⟨c'.dicts, h1, h2⟩

theorem opSim_refl (op : Op) (h : GoodOp op) : DictSim.OpSim AllSame op op := by
  cases op <;> first | exact all_refl _ h | exact rfl

theorem both_result {A : Type} {Q P : A → A → Prop} {r r' : R A} (h : Both Q r r') (hq : ∀ a b, Q a b → P a b) : SameResult P r r' := by
  cases r <;> cases r' <;> first | exact h.elim | skip
  · have : _ = _ := h
    subst this
    exact SameResult.panic
  · exact SameResult.ok (hq _ _ h)

/-- **C57, one call.** -/
theorem same_step (e : Env) (c c' : Ctx) (h : SameCtx c c') (op : Op) (ho : GoodOp op) :
    SameResult SameCtx (c.step e op) (c'.step e op) :=
  both_result (sim.step ((twin_iff _ _).mpr h) (opSim_refl op ho)) fun _ _ => (twin_iff _ _).mp

/-- **C57, one key.** The key is reported as processed in both contexts or in neither. -/
theorem same_key (e : Env) (c c' : Ctx) (h : SameCtx c c') (ev : KeyEvent) :
    SameResult (fun r r' => SameCtx r.1 r'.1 ∧ r'.2 = r.2) (c.processKeyEvent e ev) (c'.processKeyEvent e ev) :=
  both_result (sim.processKeyEvent ((twin_iff _ _).mpr h) ev) fun _ _ hab => ⟨(twin_iff _ _).mp hab.1, hab.2⟩

/-- **C57.** Two contexts that differ only in the layout of their dictionaries, which list the same words, behave alike in every
history of calls: every call succeeds in both or panics in both, and afterwards they again differ only in the layout of the
dictionaries, which again list the same words. -/
theorem same_words_same_behaviour (e : Env) (c c' : Ctx) (h : SameCtx c c') (ops : List Op) (ho : ∀ op ∈ ops, GoodOp op) :
    SameResult SameCtx (run e c ops) (run e c' ops) := by
  induction ops generalizing c c' with
  | nil => exact SameResult.ok h
  | cons op ops ih =>
    unfold run
    have h1 := same_step e c c' h op (ho op (by simp))
    cases hs : c.step e op with
    | error p =>
      rw [hs] at h1
      cases hs' : c'.step e op with
      | error q => rw [hs'] at h1; cases h1; exact SameResult.panic
      | ok b => rw [hs'] at h1; cases h1
    | ok a =>
      rw [hs] at h1
      cases hs' : c'.step e op with
      | error q => rw [hs'] at h1; cases h1
      | ok b =>
        rw [hs'] at h1
        cases h1 with
        | ok hab => exact ih a b hab fun o h => ho o (by simp [h])

/-- Everything a program can see of such contexts is equal. -/
theorem same_observations (e : Env) (c c' : Ctx) (h : SameCtx c c') :
    c'.preedit e = c.preedit e ∧ c'.preeditDetail e = c.preeditDetail e ∧ c'.pollOutput.2 = c.pollOutput.2 ∧
    c'.candidates = c.candidates ∧ c'.candidateCount = c.candidateCount ∧ c'.cursorPosition = c.cursorPosition ∧
    c'.top.inputMode = c.top.inputMode ∧ c'.top.mode = c.top.mode ∧ c'.depth = c.depth ∧
    ∀ ev, c'.willProcess e ev = c.willProcess e ev := by
  rw [h.rest]
  refine ⟨rfl, rfl, ?_, rfl, rfl, rfl, rfl, rfl, rfl, fun _ => rfl⟩
  unfold Ctx.pollOutput Ctx.retrieveOutput Ctx.bottom
  dsimp only
  split <;> rfl

/-- **C57, text.** The same text is delivered. -/
theorem same_words_same_text (e : Env) (c c' : Ctx) (h : SameCtx c c') (ops : List Op) (ho : ∀ op ∈ ops, GoodOp op) :
    SameResult (fun r r' => SameCtx r.1 r'.1 ∧ r'.2 = r.2) (deliver e c ops) (deliver e c' ops) := by
  induction ops generalizing c c' with
  | nil => exact SameResult.ok ⟨h, rfl⟩
  | cons op ops ih =>
    have hops : ∀ o ∈ ops, GoodOp o := fun o h => ho o (by simp [h])
    by_cases hp : op = .poll
    · subst hp
      unfold deliver
      have h1 := same_step e c c' h .poll trivial
      have h2 : SameCtx c.pollOutput.1 c'.pollOutput.1 := by
        cases h1 with
        | ok h => exact h
      have h3 := ih _ _ h2 hops
      have h4 := (same_observations e c c' h).2.2.1
      rw [h4]
      revert h3
      cases deliver e c.pollOutput.1 ops <;> cases deliver e c'.pollOutput.1 ops <;> intro h3 <;> cases h3
      · exact SameResult.panic
      · rename_i hab
        exact SameResult.ok ⟨hab.1, by show _ = _; rw [hab.2]⟩
    · have hd : ∀ c : Ctx, deliver e c (op :: ops) = (do let c' ← c.step e op; deliver e c' ops) := by
        intro c
        cases op <;> first | rfl | exact absurd rfl hp
      rw [hd, hd]
      have h1 := same_step e c c' h op (ho op (by simp))
      revert h1
      cases c.step e op <;> cases c'.step e op <;> intro h1 <;> cases h1
      · exact SameResult.panic
      · rename_i hab
        exact ih _ _ hab hops

/-- **C57 with C56.** A plain user dictionary that was saved and opened again lists the same words … -/
theorem reopened_same (m : DictMaps) (hm : PlainDict m) (completable b : Bool) (bs : Bytes) (hs : DictFile.saveBytes Utf8.utf8 m = some bs) :
    SameDict ⟨completable, .user m b⟩ ⟨completable, .user (DictFile.load Utf8.utf8 bs) false⟩ :=
  ⟨rfl, trivial, hm.wf, (Persist.plain_saved hm hs).wf, Persist.words_saved Persist.total_utf8 hm hs⟩

theorem all_replace {pre post : List CskkDict} (hpre : ∀ d ∈ pre, WellFormed (maps d)) (hpost : ∀ d ∈ post, WellFormed (maps d))
    {d d' : CskkDict} (h : SameDict d d') : AllSame (pre ++ d :: post) (pre ++ d' :: post) := by
  induction pre with
  | nil => exact AllSame.cons h (all_refl post hpost)
  | cons x pre ih => exact AllSame.cons (same_refl x (hpre x (by simp))) (ih fun y hy => hpre y (by simp [hy]))

/-- **C57 with C56.** … so a context in which it takes the place of the old one behaves as if the program had never been
restarted, whatever is typed. -/
theorem restart_invisible (e : Env) (c : Ctx) (pre post : List CskkDict) (m : DictMaps) (hm : PlainDict m) (completable b : Bool)
    (hc : c.dicts = pre ++ ⟨completable, .user m b⟩ :: post) (hpre : ∀ d ∈ pre, WellFormed (maps d))
    (hpost : ∀ d ∈ post, WellFormed (maps d)) (bs : Bytes) (hs : DictFile.saveBytes Utf8.utf8 m = some bs)
    (ops : List Op) (ho : ∀ op ∈ ops, GoodOp op) :
    SameResult (fun r r' => SameCtx r.1 r'.1 ∧ r'.2 = r.2) (deliver e c ops)
      (deliver e { c with dicts := pre ++ ⟨completable, .user (DictFile.load Utf8.utf8 bs) false⟩ :: post } ops) :=
  same_words_same_text e c _ ⟨rfl, by rw [hc]; exact all_replace hpre hpost (reopened_same m hm completable b bs hs)⟩ ops ho

/-! ## The hypotheses are met -/

/-- 海 for うみ. -/
def umi : Candidate := ⟨c%"うみ", none, false, c%"海", none, c%"海"⟩

theorem umi_plain : PlainCandidate umi :=
  ⟨by unfold PlainReading; decide, Persist.candOk_plain _ (by decide) (by decide) (by decide) (by decide) (by decide) (by decide),
    fun _ => rfl, fun h => by cases h⟩

/-- A dictionary that has learned four words; 愛 is purged again. -/
def learned : DictMaps :=
  (((((⟨[], []⟩ : DictMaps).select Persist.ai).select Persist.ugo).select Persist.ai2).select umi).purge ⟨c%"あい", none⟩ Persist.ai

theorem learned_plain : PlainDict learned := by
  have h0 : PlainDict ⟨[], []⟩ := by
    have h := Persist.empty_file_plain.1
    have : DictFile.load Utf8.utf8 [] = ⟨[], []⟩ := by decide +kernel
    rwa [this] at h
  exact Persist.plain_purge (Persist.plain_select (Persist.plain_select (Persist.plain_select (Persist.plain_select h0 Persist.ai_plain)
    Persist.ugo_plain) Persist.ai2_plain) umi_plain) (by intro h; cases h)

/-- Typing with the learned dictionary, before and after it was saved and opened again (its entries are then in another order). -/
def session (m : DictMaps) : Ctx := Ctx.new Assets.defaultCommands Assets.defaultKana .hiragana .direct [⟨true, .user m true⟩]

theorem learned_session (bs : Bytes) (hs : DictFile.saveBytes Utf8.utf8 learned = some bs) :
    DictFile.load Utf8.utf8 bs ≠ learned ∧
    (deliver (Assets.env ⟨true⟩) (session learned) ((typed c%"Ai UgoKua").map .key ++ [.poll])).toOption.map (·.2) = some c%"哀動くあ" := by
  constructor
  · have h : (DictFile.saveBytes Utf8.utf8 learned).map (DictFile.load Utf8.utf8) ≠ some learned := by decide +kernel
    rw [hs] at h
    simpa using h
  · decide +kernel

end Cskk.Props.SameWords
