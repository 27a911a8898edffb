import Verif.Spec.Persist
import Verif.Props.Utf8

/-!
# C56: a user dictionary over its whole life

The model of edits, saves (which may fail at any point), reloads and restarts refines the abstract life of
`Spec/Persist.lean`.
-/

namespace Cskk.Props.Persist
open Cskk.Spec Cskk.Spec.Persist Cskk.Spec.DictText Cskk.DictFile Cskk.Props.UserDict DictEntry
open Cskk.Spec.UserDict (side listed WellFormed recordedIn)

/-! ## Edits -/

theorem promote_eq (c : Candidate) (l : List DictCand) : promote c l = front c l := by
  have hs := findIdx?_spec (fun it : DictCand => decide (it.kouho = c.kouho)) l
  unfold front
  cases hf : l.findIdx? (fun it => decide (it.kouho = c.kouho)) with
  | none =>
    rw [hf] at hs
    have h2 : l.dropWhile (fun d => decide (d.kouho ≠ c.kouho)) = [] := by
      have := List.dropWhile_append_of_pos (p := fun d : DictCand => decide (d.kouho ≠ c.kouho)) (l₁ := l) (l₂ := [])
        (by intro a ha; simpa using hs a ha)
      simpa using this
    unfold promote
    rw [h2]; rfl
  | some i =>
    rw [hf] at hs
    obtain ⟨x, pre, post, h1, h2, h3, h4⟩ := hs
    have h3' : x.kouho = c.kouho := by simpa using h3
    have ht : l.takeWhile (fun d => decide (d.kouho ≠ c.kouho)) = pre := by
      rw [h1, List.takeWhile_append_of_pos (by intro a ha; simpa using h4 a ha)]
      simp [h3']
    have hd : l.dropWhile (fun d => decide (d.kouho ≠ c.kouho)) = x :: post := by
      rw [h1, List.dropWhile_append_of_pos (by intro a ha; simpa using h4 a ha)]
      simp [h3']
    unfold promote
    rw [ht, hd]
    cases pre with
    | nil => subst h2; simp [h1, swapFirst]
    | cons p pre =>
      subst h2
      simp [h1, swapFirst]

theorem words_select (m : DictMaps) (c : Candidate) : words (m.select c) = confirmed (words m) c := by
  funext o midashi g
  unfold words confirmed
  by_cases h : o = c.okuri ∧ midashi = c.midashi ∧ (g = [] ∨ c.strictOkuri = some g)
  · rw [if_pos h, promote_eq]
    obtain ⟨rfl, rfl, hg⟩ := h
    unfold listed
    rw [find_select]
    simp only [if_true]
    cases hf : (side m c.okuri).find c.midashi with
    | none => simp [(new_get c.midashi c g).1 hg, front, DictCand.fromCandidate]
    | some e => simp [(prioritize_get e c g).1 hg]
  · rw [if_neg h, confirm_changes_nothing_else]
    unfold recordedIn
    by_cases h1 : o = c.okuri
    · by_cases h2 : midashi = c.midashi
      · exact Or.inr (Or.inr fun h3 => h ⟨h1, h2, h3⟩)
      · exact Or.inr (Or.inl h2)
    · exact Or.inl h1

theorem words_purge (m : DictMaps) (hm : WellFormed m) (k : CompositeKey) (c : Candidate) :
    words (m.purge k c) = purged (words m) k c := by
  funext o midashi g
  unfold words purged
  by_cases h : o = c.okuri ∧ midashi = c.midashi ∧ (g = [] ∨ k.okuri = some g)
  · rw [if_pos h]
    obtain ⟨rfl, rfl, hg⟩ := h
    rw [purge_removes m hm k c g hg]
    show _ = List.filter _ ((listed m c.okuri c.midashi g).getD [])
    cases listed m c.okuri c.midashi g <;> rfl
  · rw [if_neg h, purge_changes_nothing_else m hm]
    unfold recordedIn
    by_cases h1 : o = c.okuri
    · by_cases h2 : midashi = c.midashi
      · exact Or.inr (Or.inr fun h3 => h ⟨h1, h2, h3⟩)
      · exact Or.inr (Or.inl h2)
    · exact Or.inl h1

/-! ## Plain dictionaries stay plain -/

theorem front_mem {c : Candidate} {l : List DictCand} {d : DictCand} (h : d ∈ front c l) :
    d ∈ l ∨ d = ⟨c.kouho, c.annotation⟩ := by
  have hs := front_spec c l
  cases hf : front c l with
  | nil => rw [hf] at h; cases h
  | cons x t =>
    rw [hf] at hs h
    cases hs with
    | known _ _ hp => exact Or.inl (hp.mem_iff.mp h)
    | added _ =>
      rcases List.mem_cons.mp h with h | h
      · exact Or.inr h
      · exact Or.inl h

theorem plainGroup_front {c : Candidate} (hc : PlainCandidate c) {g : Str} (hg : recordedIn c.strictOkuri g)
    {l : List DictCand} (hl : l = [] ∨ PlainGroup c.okuri g l) : PlainGroup c.okuri g (front c l) := by
  have hmem : ∀ d ∈ front c l, (d ∈ l ∧ PlainGroup c.okuri g l) ∨ d = ⟨c.kouho, c.annotation⟩ := by
    intro d hd
    rcases front_mem hd with h | h
    · rcases hl with rfl | hl
      · cases h
      · exact Or.inl ⟨h, hl⟩
    · exact Or.inr h
  refine ⟨?_, ?_, ?_⟩
  · intro d hd
    rcases hmem d hd with ⟨h, hp⟩ | rfl
    · exact hp.words d h
    · exact hc.word
  · intro ho
    rcases hg with hg | hg
    · exact hg
    · rw [hc.nashi ho] at hg; cases hg
  · intro ho
    refine ⟨?_, ?_, ?_⟩
    · obtain ⟨d, t, h, _⟩ := front_head c l
      rw [h]; simp
    · rcases hg with rfl | hg
      · intro x hx; cases hx
      · exact (hc.ari ho).2.2 g hg
    · intro d hd
      rcases hmem d hd with ⟨h, hp⟩ | rfl
      · exact (hp.ari ho).2.2 d h
      · exact (hc.ari ho).2.1

theorem plain_prioritize {c : Candidate} (hc : PlainCandidate c) {e : DictEntry} (he : PlainEntry c.okuri e) :
    PlainEntry c.okuri (e.prioritize c) := by
  refine ⟨by rw [midashi_prioritize]; exact he.reading, by rw [midashi_prioritize]; exact he.ari,
    ⟨[], _, (prioritize_get e c []).1 (Or.inl rfl)⟩, ?_⟩
  intro g l hl
  by_cases hg : recordedIn c.strictOkuri g
  · rw [(prioritize_get e c g).1 hg] at hl
    cases hl
    apply plainGroup_front hc hg
    cases hget : SMap.get e.cands g with
    | none => exact Or.inl rfl
    | some l => exact Or.inr (he.groups g l hget)
  · rw [(prioritize_get e c g).2 hg] at hl
    exact he.groups g l hl

theorem plain_new {c : Candidate} (hc : PlainCandidate c) : PlainEntry c.okuri (DictEntry.new c.midashi c) := by
  have hm : (DictEntry.new c.midashi c).midashi = c.midashi := rfl
  refine ⟨by rw [hm]; exact hc.reading, by rw [hm]; exact fun h => (hc.ari h).1,
    ⟨[], _, (new_get c.midashi c []).1 (Or.inl rfl)⟩, ?_⟩
  intro g l hl
  by_cases hg : recordedIn c.strictOkuri g
  · rw [(new_get c.midashi c g).1 hg] at hl
    cases hl
    exact plainGroup_front hc hg (l := []) (Or.inl rfl)
  · rw [(new_get c.midashi c g).2 hg] at hl; cases hl

theorem plain_update {m : DictMaps} (h : PlainDict m) (o : Bool) (f : Recency DictEntry → Recency DictEntry)
    (hwf : WellFormed (m.update o f)) (he : ∀ e ∈ f (side m o), PlainEntry o e.2) : PlainDict (m.update o f) := by
  refine ⟨hwf, ?_⟩
  intro o' e hm
  rw [side_update] at hm
  split at hm
  · rename_i ho; subst ho; exact he e hm
  · exact h.entries o' e hm

theorem plain_select {m : DictMaps} (h : PlainDict m) {c : Candidate} (hc : PlainCandidate c) : PlainDict (m.select c) := by
  have hwf := wf_select h.wf c
  unfold DictMaps.select at hwf ⊢
  apply plain_update h _ _ hwf
  intro e he
  split at he
  · rcases mem_touch he with he | ⟨v, hv, rfl⟩
    · exact h.entries _ e he
    · exact plain_prioritize hc (h.entries _ _ hv)
  · unfold Recency.push at he
    rcases List.mem_cons.mp he with rfl | he
    · exact plain_new hc
    · exact h.entries _ e (List.mem_filter.mp he).1

theorem find_of_mem {l : Recency DictEntry} {e : Str × DictEntry} (h : (l.map (·.1)).Nodup) (he : e ∈ l) :
    Recency.find l e.1 = some e.2 := by
  induction l with
  | nil => cases he
  | cons a l ih =>
    rw [List.map_cons, List.nodup_cons] at h
    unfold Recency.find
    rw [List.find?_cons]
    rcases List.mem_cons.mp he with rfl | he
    · simp
    · have : a.1 ≠ e.1 := fun e' => h.1 (List.mem_map.mpr ⟨e, he, e'.symm⟩)
      simp only [this, decide_false]
      exact ih h.2 he

theorem plain_purge {m : DictMaps} (h : PlainDict m) {k : CompositeKey} {c : Candidate}
    (hc : c.okuri = true → ∀ g, g = [] ∨ k.okuri = some g → words m true c.midashi g ≠ [] → purged (words m) k c true c.midashi g ≠ []) :
    PlainDict (m.purge k c) := by
  have hwf := wf_purge h.wf k c
  unfold DictMaps.purge at hwf ⊢
  apply plain_update h _ _ hwf
  intro e he
  rcases mem_touch he with he | ⟨v, hv, rfl⟩
  · exact h.entries _ e he
  have hp := h.entries _ _ hv
  have hd : ∀ g l, SMap.get v.cands g = some l → (l.map (·.kouho)).Nodup := fun g l hl =>
    h.wf.distinct _ _ hv (g, l) (SMap.mem_of_get hl)
  refine ⟨by rw [midashi_remove]; exact hp.reading, by rw [midashi_remove]; exact hp.ari, ?_, ?_⟩
  · obtain ⟨g, l, hl⟩ := hp.some
    by_cases hg : recordedIn k.okuri g
    · exact ⟨g, _, by rw [(removeMatching_get v k c g (hd g)).1 hg, hl]; rfl⟩
    · exact ⟨g, l, by rw [(removeMatching_get v k c g (hd g)).2 hg, hl]⟩
  · intro g l hl
    by_cases hg : recordedIn k.okuri g
    · rw [(removeMatching_get v k c g (hd g)).1 hg] at hl
      obtain ⟨l0, hl0, rfl⟩ := Option.map_eq_some_iff.mp hl
      have hpg := hp.groups g l0 hl0
      have hsub : ∀ d ∈ without c.kouho l0, d ∈ l0 := fun d hd => List.eraseP_sublist.subset hd
      refine ⟨fun d hd => hpg.words d (hsub d hd), hpg.nashi, fun ho => ⟨?_, (hpg.ari ho).2.1, fun d hd => (hpg.ari ho).2.2 d (hsub d hd)⟩⟩
      have hw : words m true c.midashi g = l0 := by
        unfold words listed
        have hfind := find_of_mem (h.wf.keys c.okuri) hv
        rw [ho] at hfind
        simp only at hfind
        rw [hfind]; simp [hl0]
      have := hc ho g hg (by rw [hw]; exact (hpg.ari ho).1)
      unfold purged at this
      rw [if_pos ⟨ho.symm, rfl, hg⟩, hw] at this
      rwa [without_filter (hd g l0 hl0)]
    · rw [(removeMatching_get v k c g (hd g)).2 hg] at hl
      exact hp.groups g l hl

/-! ## Plain dictionaries survive a save -/

theorem looks_iff (m : Str) (h : OkuriAriReading m) : looksOkuriAri m = true := by
  obtain ⟨⟨x, hx, h1, h2⟩, hh⟩ := h
  unfold looksOkuriAri
  rw [hx]
  have hx' : isAlphabet x = true := by unfold isAlphabet; rw [decide_eq_true h1, decide_eq_true h2]; rfl
  cases hm : m.head? with
  | none => simp [hx']
  | some y =>
    have := hh y hm
    have hy : isAlphabet y = false := by
      unfold isAlphabet
      rw [Bool.and_eq_false_iff]
      by_cases h3 : 'a'.toNat ≤ y.toNat
      · right; simpa using fun h4 => this ⟨h3, h4⟩
      · left; simpa using h3
    simp [hx', hy]

theorem plain_savable {o : Bool} {e : DictEntry} (h : PlainEntry o e) (hs : SMap.Sorted e.cands) : DictSave.Savable e := by
  have hne : e.cands ≠ [] := by
    obtain ⟨g, l, hl⟩ := h.some
    intro hn; rw [hn] at hl; cases hl
  have hmem : ∀ g ∈ e.cands, PlainGroup o g.1 g.2 := fun g hg => h.groups g.1 g.2 (SMap.get_of_mem hs hg)
  cases o with
  | true =>
    left
    refine ⟨h.reading, hs, hne, ?_, ?_⟩
    · intro g hg
      have := hmem g hg
      exact ⟨(this.ari rfl).1, this.words, (this.ari rfl).2.1⟩
    · intro cs gs hcs _ c hc _
      have := hmem ([], cs) (by rw [hcs]; simp)
      exact (this.ari rfl).2.2 c (List.mem_of_getLast? hc)
  | false =>
    have hone : ∃ l, e.cands = [([], l)] := by
      cases hcs : e.cands with
      | nil => exact absurd hcs hne
      | cons a t =>
        have ha := (hmem a (by rw [hcs]; simp)).nashi rfl
        cases t with
        | nil => exact ⟨a.2, by rw [← ha]⟩
        | cons b t =>
          have hb := (hmem b (by rw [hcs]; simp)).nashi rfl
          rw [hcs] at hs
          unfold SMap.Sorted at hs
          rw [List.pairwise_cons] at hs
          have := hs.1 b (by simp)
          rw [ha, hb] at this
          exact absurd this (by decide)
    obtain ⟨l, hl⟩ := hone
    cases l with
    | nil => exact Or.inr ⟨h.reading, hl⟩
    | cons d l =>
      left
      refine ⟨h.reading, hs, hne, ?_, ?_⟩
      · intro g hg
        have := hmem g hg
        rw [hl] at hg
        have : g = ([], d :: l) := by simpa using hg
        subst this
        exact ⟨by simp, (hmem _ (by rw [hl]; simp)).words, by intro x hx; cases hx⟩
      · intro cs gs hcs hgs
        rw [hl] at hcs
        cases hcs
        exact absurd rfl hgs

/-- Encodings that have every character. -/
def Total (cd : Codec) : Prop := ∀ s, (cd.enc s).isSome

theorem total_utf8 : Total Utf8.utf8 := fun _ => rfl

theorem saveBytes_total {cd : Codec} (h : Total cd) (m : DictMaps) : ∃ bs, saveBytes cd m = some bs := by
  unfold saveBytes
  have : ∀ l : List Str, ∃ bs, l.mapM cd.enc = some bs := by
    intro l
    induction l with
    | nil => exact ⟨[], rfl⟩
    | cons x l ih =>
      obtain ⟨bs, hbs⟩ := ih
      obtain ⟨b, hb⟩ := Option.isSome_iff_exists.mp (h x)
      exact ⟨b :: bs, by rw [List.mapM_cons, hb, hbs]; rfl⟩
  obtain ⟨bs, hbs⟩ := this (saveParts cd m)
  exact ⟨bs.flatten, by rw [hbs]; rfl⟩

theorem plain_ari {m : DictMaps} (h : PlainDict m) : ∀ e ∈ m.ari, looksOkuriAri e.1 = true := by
  intro e he
  have := (h.entries true e he).ari rfl
  rw [h.wf.reading true e he] at this
  exact looks_iff _ this

theorem savable_all {m : DictMaps} (h : PlainDict m) : ∀ o, ∀ e ∈ side m o, DictSave.Savable e.2 := fun o e he =>
  plain_savable (h.entries o e he) (h.wf.sorted o e he)

theorem words_saved {cd : Codec} (hcd : Total cd) {m : DictMaps} (h : PlainDict m) {bs : Bytes} (hs : saveBytes cd m = some bs) :
    words (load cd bs) = words m := by
  funext o midashi g
  exact DictSave.save_load_same_words cd m bs hs h.wf (fun o e he => ⟨savable_all h o e he, hcd _⟩) (plain_ari h) o midashi g

theorem kept_mem {cd : Codec} {l : Recency DictEntry} {e : Str × DictEntry} (h : e ∈ DictSave.kept cd l) :
    ∃ x ∈ l, e.1 = x.1 ∧ e.2 = DictSave.reread x.2 := by
  obtain ⟨x, hx, hxe⟩ := List.mem_filterMap.mp h
  split at hxe
  · cases hxe; exact ⟨x, hx, rfl, rfl⟩
  · cases hxe

theorem plain_saved {cd : Codec} {m : DictMaps} (h : PlainDict m) {bs : Bytes} (hs : saveBytes cd m = some bs) :
    PlainDict (load cd bs) := by
  rw [DictSave.load_saved cd m bs hs h.wf (savable_all h) (plain_ari h)]
  have hside : ∀ o, side ⟨(DictSave.kept cd m.ari).reverse, (DictSave.kept cd m.nashi).reverse⟩ o
      = (DictSave.kept cd (side m o)).reverse := by intro o; cases o <;> rfl
  have hmem : ∀ o, ∀ e ∈ side ⟨(DictSave.kept cd m.ari).reverse, (DictSave.kept cd m.nashi).reverse⟩ o,
      ∃ x ∈ side m o, e.1 = x.1 ∧ e.2 = DictSave.reread x.2 := by
    intro o e he
    rw [hside] at he
    exact kept_mem (List.mem_reverse.mp he)
  refine ⟨⟨?_, ?_, ?_, ?_⟩, ?_⟩
  · intro o
    rw [hside, List.map_reverse]
    exact (List.reverse_perm _).nodup_iff.mpr (DictSave.kept_nodup cd _ (h.wf.keys o))
  · intro o e he
    obtain ⟨x, hx, h1, h2⟩ := hmem o e he
    rw [h1, h2]; exact h.wf.reading o x hx
  · intro o e he
    obtain ⟨x, hx, h1, h2⟩ := hmem o e he
    rw [h2]; exact h.wf.sorted o x hx
  · intro o e he
    obtain ⟨x, hx, h1, h2⟩ := hmem o e he
    rw [h2]; exact h.wf.distinct o x hx
  · intro o e he
    obtain ⟨x, hx, h1, h2⟩ := hmem o e he
    rw [h2]
    have := h.entries o x hx
    exact ⟨this.reading, this.ari, this.some, this.groups⟩

/-! ## Saving with faults -/

/-- The fault-free outcome is the save of `Model/DictFile.lean`. -/
theorem saveWith_completes (cd : Codec) (path : Str) (fs : FS) (d : UserDict) :
    saveWith cd path fs d .completes = save cd path fs d := by
  unfold saveWith save
  cases d.hasChange
  · rfl
  · simp only [if_true]
    cases (FsOp.rename path (bak path)).run fs with
    | none => simp
    | some fs1 => cases saveBytes cd d.maps <;> simp

/-! ## The refinement -/

/-- A file in the simulation: what it holds is also plain. -/
def FileSim (cd : Codec) (f : File) (b : Option Bytes) : Prop :=
  Agrees cd f b ∧ ∀ t, f = .holds t → ∃ bs, b = some bs ∧ PlainDict (load cd bs)

/-- The simulation. -/
structure Sim (cd : Codec) (path : Str) (s : Life) (st : UserDict × FS) : Prop where
  plain : PlainDict st.1.maps
  mem : words st.1.maps = s.mem
  unsaved : st.1.hasChange = s.unsaved
  file : FileSim cd s.file (st.2 path)
  backup : Agrees cd s.backup (st.2 (bak path))

theorem sim_load {cd : Codec} {t : Words} {b : Option Bytes} (h : FileSim cd (.holds t) b) :
    ∃ bs, b = some bs ∧ words (load cd bs) = t ∧ PlainDict (load cd bs) := by
  obtain ⟨⟨bs, hb, hw⟩, h2⟩ := h
  obtain ⟨bs', hb', hp⟩ := h2 t rfl
  rw [hb] at hb'
  cases hb'
  exact ⟨bs, hb, hw, hp⟩

theorem sim_step {cd : Codec} (hcd : Total cd) (path : Str) {s : Life} {st : UserDict × FS} (h : Sim cd path s st)
    (e : LifeEvent) (he : Covered s e) : Sim cd path (expect s e) (live cd path st e) := by
  have hbak := DictSave.bak_ne path
  cases e with
  | confirm c => exact ⟨plain_select h.plain he, by
      show words _ = confirmed s.mem c
      rw [← h.mem]; exact words_select _ _, rfl, h.file, h.backup⟩
  | purge k c =>
    refine ⟨plain_purge h.plain ?_, ?_, rfl, h.file, h.backup⟩
    · rw [h.mem]; exact he
    · show words _ = purged s.mem k c
      rw [← h.mem]; exact words_purge _ h.plain.wf _ _
  | save o =>
    show Sim cd path _ ((saveWith cd path st.2 st.1 o).1, (saveWith cd path st.2 st.1 o).2.1)
    unfold expect saveWith
    cases hu : s.unsaved with
    | false =>
      have : st.1.hasChange = false := by rw [h.unsaved, hu]
      simp only [this, if_true]
      exact h
    | true =>
      have hc : st.1.hasChange = true := by rw [h.unsaved, hu]
      simp only [hc, if_true]
      have hback : ∀ b, st.2 path = some b → Agrees cd s.file (some b) := by
        intro b hb; rw [← hb]; exact h.file.1
      obtain ⟨bs, hbs⟩ := saveBytes_total hcd st.1.maps
      cases hp : st.2 path with
      | none =>
        have hf : s.file = .missing := by
          have := h.file.1
          rw [hp] at this
          cases hf : s.file with
          | missing => rfl
          | damaged => rw [hf] at this; cases this
          | holds t => rw [hf] at this; obtain ⟨_, h, _⟩ := this; cases h
        have hrun : (FsOp.rename path (bak path)).run st.2 = none := by simp [FsOp.run, hp]
        simp only [hrun, hf]
        split <;> simpa [hc] using h
      | some b =>
        have hf : s.file ≠ .missing := by
          intro hf
          have := h.file.1
          rw [hp, hf] at this; cases this
        have hrun : (FsOp.rename path (bak path)).run st.2
            = some fun p => if p = bak path then some b else if p = path then none else st.2 p := by simp [FsOp.run, hp]
        simp only [hrun, hbs]
        have hb := hback b hp
        generalize hfile : s.file = f at *
        cases o with
        | renameFails => cases f <;> first | exact absurd rfl hf | (simp; exact h)
        | createFails =>
          have goal : Sim cd path ⟨s.mem, true, .missing, f⟩
              (st.1, fun p => if p = bak path then some b else if p = path then none else st.2 p) :=
            ⟨h.plain, h.mem, hc, ⟨by simp [Agrees, Ne.symm hbak], by intro t ht; cases ht⟩, by simpa using hb⟩
          cases f <;> first | exact absurd rfl hf | (simp; exact goal)
        | stops n =>
          have goal : Sim cd path ⟨s.mem, true, .damaged, f⟩
              (st.1, fun p => if p = path then some (bs.take n) else if p = bak path then some b else if p = path then none else st.2 p) :=
            ⟨h.plain, h.mem, hc, ⟨by simp [Agrees], by intro t ht; cases ht⟩, by simpa [hbak] using hb⟩
          cases f <;> first | exact absurd rfl hf | (simp; exact goal)
        | completes =>
          have goal : Sim cd path { s with unsaved := false, file := .holds s.mem, backup := f }
              (⟨st.1.maps, false⟩, fun p => if p = path then some bs else if p = bak path then some b else if p = path then none else st.2 p) := by
            refine ⟨h.plain, h.mem, rfl, ⟨?_, ?_⟩, by simpa [hbak] using hb⟩
            · exact ⟨bs, by simp, by rw [words_saved hcd h.plain hbs, h.mem]⟩
            · intro t _
              exact ⟨bs, by simp, plain_saved h.plain hbs⟩
          cases f <;> first | exact absurd rfl hf | (simp; exact goal)
  | reload =>
    show Sim cd path _ (reload cd path st.2 st.1, st.2)
    unfold expect reload
    rcases he with hf | ⟨t, hf⟩
    · have hn : st.2 path = none := by have := h.file.1; rw [hf] at this; exact this
      simp only [hf, hn]; exact h
    · have hfile := h.file
      rw [hf] at hfile
      obtain ⟨bs, hb, hw, hp⟩ := sim_load hfile
      simp only [hf, hb]
      exact ⟨hp, hw, h.unsaved, hfile, h.backup⟩
  | restart =>
    show Sim cd path _ ((DictFile.new cd path st.2).getD st.1, st.2)
    obtain ⟨t, hf⟩ := he
    have hfile := h.file
    rw [hf] at hfile
    obtain ⟨bs, hb, hw, hp⟩ := sim_load hfile
    unfold expect DictFile.new
    simp only [hf, hb, Option.map_some, Option.getD_some]
    exact ⟨hp, hw, rfl, hfile, h.backup⟩

theorem sim_run {cd : Codec} (hcd : Total cd) (path : Str) (es : List LifeEvent) {s : Life} {st : UserDict × FS}
    (h : Sim cd path s st) (he : AllCovered s es) : Sim cd path (es.foldl expect s) (es.foldl (live cd path) st) := by
  induction es generalizing s st with
  | nil => exact h
  | cons e es ih => exact ih (sim_step hcd path h e he.1) he.2

theorem sim_open {cd : Codec} (path : Str) (fs : FS) (old : Bytes) (hf : fs path = some old) (hp : PlainDict (load cd old)) (b : File)
    (hb : Agrees cd b (fs (bak path))) : Sim cd path (opened (words (load cd old)) b) (⟨load cd old, false⟩, fs) :=
  ⟨hp, rfl, rfl, ⟨⟨old, hf, rfl⟩, fun _ _ => ⟨old, hf, hp⟩⟩, hb⟩

/-- **C56.** Over every covered history of edits, saves that fail at any point, reloads and restarts, a dictionary opened from a
plain file has exactly the words, the change flag, the file and the backup that the abstract life says. -/
theorem life_as_expected (path : Str) (fs : FS) (old : Bytes) (hf : fs path = some old) (hp : PlainDict (load Utf8.utf8 old)) (b : File)
    (hb : Agrees Utf8.utf8 b (fs (bak path))) (es : List LifeEvent) (he : AllCovered (opened (words (load Utf8.utf8 old)) b) es) :
    let s := es.foldl expect (opened (words (load Utf8.utf8 old)) b)
    let st := es.foldl (live Utf8.utf8 path) (⟨load Utf8.utf8 old, false⟩, fs)
    words st.1.maps = s.mem ∧ st.1.hasChange = s.unsaved ∧ Agrees Utf8.utf8 s.file (st.2 path) ∧
      Agrees Utf8.utf8 s.backup (st.2 (bak path)) := by
  have h := sim_run total_utf8 path es (sim_open path fs old hf hp b hb) he
  exact ⟨h.mem, h.unsaved, h.file.1, h.backup⟩

/-- An empty file (a user's first start) is plain and has no words. -/
theorem empty_file_plain : PlainDict (load Utf8.utf8 []) ∧ words (load Utf8.utf8 []) = noWords := by
  have h : load Utf8.utf8 [] = ⟨[], []⟩ := by decide +kernel
  rw [h]
  refine ⟨⟨⟨?_, ?_, ?_, ?_⟩, ?_⟩, ?_⟩
  · intro o; cases o <;> simp [side]
  · intro o; cases o <;> simp [side]
  · intro o; cases o <;> simp [side]
  · intro o; cases o <;> simp [side]
  · intro o; cases o <;> simp [side]
  · funext o k g; cases o <;> rfl

/-! ## What follows -/

/-- Whenever nothing is unsaved, the file holds the words in memory. -/
theorem clean_holds (es : List LifeEvent) (s : Life) (h : s.unsaved = false → s.file = .holds s.mem) :
    (es.foldl expect s).unsaved = false → (es.foldl expect s).file = .holds (es.foldl expect s).mem := by
  induction es generalizing s with
  | nil => exact h
  | cons e es ih =>
    apply ih
    cases e with
    | confirm c => intro h; cases h
    | purge k c => intro h; cases h
    | save o =>
      show (expect s (.save o)).unsaved = false → _
      unfold expect
      cases hu : s.unsaved with
      | false => simp only [if_true]; exact fun _ => h hu
      | true =>
        cases s.file <;> cases o <;> simp [hu]
    | reload =>
      unfold expect
      cases hf : s.file with
      | holds t => simp only; intro _; trivial
      | missing => simp only; exact h
      | damaged => simp only; exact h
    | restart =>
      unfold expect
      cases hf : s.file with
      | holds t => simp only; intro _; trivial
      | missing => simp only; exact h
      | damaged => simp only; exact h

/-- **C56.** After any covered history: if the dictionary has no unsaved changes, then the program may end at any time; opening
the file again yields the same words. -/
theorem clean_survives_restart (path : Str) (fs : FS) (old : Bytes) (hf : fs path = some old) (hp : PlainDict (load Utf8.utf8 old))
    (b : File) (hb : Agrees Utf8.utf8 b (fs (bak path))) (es : List LifeEvent)
    (he : AllCovered (opened (words (load Utf8.utf8 old)) b) es) :
    let st := es.foldl (live Utf8.utf8 path) (⟨load Utf8.utf8 old, false⟩, fs)
    st.1.hasChange = false → ∃ d, DictFile.new Utf8.utf8 path st.2 = some d ∧ words d.maps = words st.1.maps := by
  intro st hc
  have h := sim_run total_utf8 path es (sim_open path fs old hf hp b hb) he
  have hu := h.unsaved
  rw [hc] at hu
  have hold := clean_holds es (opened (words (load Utf8.utf8 old)) b) (fun _ => rfl) hu.symm
  have hfile := h.file.1
  rw [hold] at hfile
  obtain ⟨bs, h1, h2⟩ := hfile
  refine ⟨⟨load Utf8.utf8 bs, false⟩, by unfold DictFile.new; rw [h1]; rfl, ?_⟩
  rw [h2]; exact h.mem.symm

/-- **C56.** After any covered history, however many saves failed before: as long as the file exists, one save that completes
puts all words into it, so that they are there after a restart. -/
theorem retry_saves_everything (path : Str) (fs : FS) (old : Bytes) (hf : fs path = some old) (hp : PlainDict (load Utf8.utf8 old))
    (b : File) (hb : Agrees Utf8.utf8 b (fs (bak path))) (es : List LifeEvent)
    (he : AllCovered (opened (words (load Utf8.utf8 old)) b) es) :
    let st := es.foldl (live Utf8.utf8 path) (⟨load Utf8.utf8 old, false⟩, fs)
    (st.2 path).isSome → ∃ d, DictFile.new Utf8.utf8 path (saveWith Utf8.utf8 path st.2 st.1 .completes).2.1 = some d ∧
      words d.maps = words st.1.maps := by
  intro st hsome
  have h := sim_run total_utf8 path es (sim_open path fs old hf hp b hb) he
  cases hc : st.1.hasChange with
  | false =>
    have : saveWith Utf8.utf8 path st.2 st.1 .completes = (st.1, st.2, some false) := by simp [saveWith, hc]
    rw [this]
    exact clean_survives_restart path fs old hf hp b hb es he hc
  | true =>
    obtain ⟨c, hpath⟩ := Option.isSome_iff_exists.mp hsome
    obtain ⟨bs, hbs⟩ := saveBytes_total total_utf8 st.1.maps
    refine ⟨⟨load Utf8.utf8 bs, false⟩, ?_, words_saved total_utf8 h.plain hbs⟩
    unfold DictFile.new saveWith
    simp [hc, FsOp.run, hpath, hbs]

theorem orderly_covered (es : List LifeEvent) (s : Life) (h : s.unsaved = false → s.file = .holds s.mem) (ho : Orderly s es) :
    AllCovered s es ∧ (es.foldl expect s).mem = es.foldl edit s.mem := by
  induction es generalizing s with
  | nil => exact ⟨trivial, rfl⟩
  | cons e es ih =>
    have hinv := clean_holds [e] s h
    obtain ⟨h1, h2⟩ := ih (expect s e) hinv ho.2
    have hcov : Covered s e := by
      have := ho.1
      cases e with
      | reload => exact Or.inr ⟨_, h this⟩
      | restart => exact ⟨_, h this⟩
      | confirm c => exact this
      | purge k c => exact this
      | save o => exact this
    refine ⟨⟨hcov, h1⟩, ?_⟩
    rw [List.foldl_cons, List.foldl_cons, h2]
    congr 1
    cases e with
    | confirm c => rfl
    | purge k c => rfl
    | save o =>
      unfold expect edit
      cases s.unsaved with
      | false => rfl
      | true => cases s.file <;> cases o <;> rfl
    | reload => unfold expect edit; rw [h ho.1]
    | restart => unfold expect edit; rw [h ho.1]

/-- **C56.** In an orderly history the words are exactly the result of the edits: saves, failed saves, reloads and restarts in
between make no difference. -/
theorem history_is_its_edits (path : Str) (fs : FS) (old : Bytes) (hf : fs path = some old) (hp : PlainDict (load Utf8.utf8 old))
    (b : File) (hb : Agrees Utf8.utf8 b (fs (bak path))) (es : List LifeEvent)
    (he : Orderly (opened (words (load Utf8.utf8 old)) b) es) :
    words (es.foldl (live Utf8.utf8 path) (⟨load Utf8.utf8 old, false⟩, fs)).1.maps = es.foldl edit (words (load Utf8.utf8 old)) := by
  obtain ⟨hc, hm⟩ := orderly_covered es (opened (words (load Utf8.utf8 old)) b) (fun _ => rfl) he
  rw [(life_as_expected path fs old hf hp b hb es hc).1, hm]; rfl

/-- **C56.** What a save reports, and that a save which reports an error has changed nothing in memory. -/
theorem save_report (path : Str) (fs : FS) (d : UserDict) (o : Outcome) :
    (saveWith Utf8.utf8 path fs d o).2.2 =
      (if d.hasChange = false then some false else if o = .completes ∧ (fs path).isSome then some true else none) ∧
    (saveWith Utf8.utf8 path fs d o).1.maps = d.maps ∧
    ((saveWith Utf8.utf8 path fs d o).2.2 = none → (saveWith Utf8.utf8 path fs d o).1 = d ∧ d.hasChange = true) := by
  obtain ⟨bs, hbs⟩ := saveBytes_total total_utf8 d.maps
  unfold saveWith
  cases hd : d.hasChange with
  | false => simp
  | true =>
    cases hp : fs path with
    | none => simp [FsOp.run, hp, hd]
    | some c => cases o <;> simp [FsOp.run, hp, hbs, hd]

/-- A file that is missing stays missing and every later save of unsaved changes fails, whatever happens: `save_dictionary` begins
with a rename of the old file. -/
theorem missing_file_never_saved (cd : Codec) (path : Str) (st : UserDict × FS) (h : st.2 path = none) (es : List LifeEvent) :
    (es.foldl (live cd path) st).2 path = none ∧
    ∀ o, (es.foldl (live cd path) st).1.hasChange = true →
      (saveWith cd path (es.foldl (live cd path) st).2 (es.foldl (live cd path) st).1 o).2.2 = none := by
  have hnone : ∀ st : UserDict × FS, st.2 path = none → ∀ o,
      (saveWith cd path st.2 st.1 o).2.1 = st.2 ∧ (st.1.hasChange = true → (saveWith cd path st.2 st.1 o).2.2 = none) := by
    intro st h o
    unfold saveWith
    have : (FsOp.rename path (bak path)).run st.2 = none := by simp [FsOp.run, h]
    rw [this]
    cases st.1.hasChange with
    | false => simp
    | true => cases o <;> simp
  induction es generalizing st with
  | nil => exact ⟨h, fun o => (hnone st h o).2⟩
  | cons e es ih =>
    apply ih
    cases e with
    | save o => show (saveWith cd path st.2 st.1 o).2.1 path = none; rw [(hnone st h o).1]; exact h
    | _ => exact h

/-- That happens after a save whose `File::create` failed: the only copy is then the backup, until the user puts it back. -/
theorem create_failure_loses_file (cd : Codec) (path : Str) (fs : FS) (old : Bytes) (d : UserDict) (hd : d.hasChange = true)
    (hf : fs path = some old) :
    (saveWith cd path fs d .createFails).2.1 path = none ∧ (saveWith cd path fs d .createFails).2.1 (bak path) = some old := by
  have hb := DictSave.bak_ne path
  unfold saveWith
  simp [hd, FsOp.run, hf, Ne.symm hb]

/-- Two failed writes in a row destroy the file and the backup: the words are only in memory then. -/
theorem two_failures_lose_both (t t' : Words) (b : File) :
    let s : Life := ⟨t', true, .holds t, b⟩
    (expect s (.save (.stops 0))).backup = .holds t ∧
    (expect (expect s (.save (.stops 0))) (.save (.stops 0))).file = .damaged ∧
    (expect (expect s (.save (.stops 0))) (.save (.stops 0))).backup = .damaged := by
  exact ⟨rfl, rfl, rfl⟩

/-! ## A concrete history -/

/-- 愛 for あい. -/
def ai : Candidate := ⟨c%"あい", none, false, c%"愛", none, c%"愛"⟩
/-- 哀 for あい. -/
def ai2 : Candidate := ⟨c%"あい", none, false, c%"哀", some c%"grief", c%"哀"⟩
/-- 動 for うごk with the okurigana か. -/
def ugo : Candidate := ⟨c%"うごk", some c%"か", true, c%"動", none, c%"動"⟩

theorem candOk_plain (w : Str) (h0 : w ≠ []) (h1 : (w.all fun c => !decide (Special c)) = true)
    (h2 : LispFun.occurs c%"(concat " w = false) (h3 : '[' ∉ w) (h4 : ']' ∉ w) (h5 : '\n' ∉ w) : CandOk ⟨w, none⟩ :=
  ⟨⟨h0, DictFile.representable_of_dec w h1 h2, h3, h4, h5⟩, by intro a ha; cases ha⟩

theorem ai_plain : PlainCandidate ai :=
  ⟨by unfold PlainReading; decide, candOk_plain _ (by decide) (by decide) (by decide) (by decide) (by decide) (by decide), fun _ => rfl, fun h => by cases h⟩

theorem ai2_plain : PlainCandidate ai2 :=
  ⟨by unfold PlainReading; decide, ⟨⟨by decide, DictFile.representable_of_dec _ (by decide) (by decide), by decide, by decide, by decide⟩, by
    intro a ha; cases ha
    exact ⟨by decide, DictFile.representable_of_dec _ (by decide) (by decide), by decide⟩⟩, fun _ => rfl, fun h => by cases h⟩

theorem ugo_plain : PlainCandidate ugo := by
  refine ⟨by unfold PlainReading; decide, candOk_plain _ (by decide) (by decide) (by decide) (by decide) (by decide) (by decide), (fun h => by cases h), fun _ => ⟨?_, ?_, ?_⟩⟩
  · refine ⟨⟨'k', by decide, by decide, by decide⟩, ?_⟩
    intro x hx
    cases hx
    decide
  · decide
  · intro g hg; cases hg; decide

/-- Edits, a save that breaks off, another edit, a failed rename, a complete save, a restart, a purge, and a save after which
the program is started again. -/
def sampleLife : List LifeEvent :=
  [.confirm ai, .confirm ugo, .save (.stops 40), .confirm ai2, .save .renameFails, .save .completes, .restart, .purge ⟨c%"あい", none⟩ ai,
   .save .completes, .restart]

theorem sampleLife_orderly (b : File) : Orderly (opened noWords b) sampleLife := by
  refine ⟨ai_plain, ugo_plain, trivial, ai2_plain, trivial, trivial, rfl, ?_, trivial, rfl, trivial⟩
  intro h; cases h

example (fs : FS) (hf : fs c%"d" = some []) (hb : fs (bak c%"d") = none) :
    let m := (sampleLife.foldl (live Utf8.utf8 c%"d") (⟨load Utf8.utf8 [], false⟩, fs)).1.maps
    words m false c%"あい" [] = [⟨c%"哀", some c%"grief"⟩] ∧ words m true c%"うごk" c%"か" = [⟨c%"動", none⟩] := by
  have h := history_is_its_edits c%"d" fs [] hf empty_file_plain.1 .missing hb sampleLife
    (by rw [empty_file_plain.2]; exact sampleLife_orderly _)
  intro m
  have hm : words m = sampleLife.foldl edit noWords := by rw [← empty_file_plain.2]; exact h
  rw [hm]
  decide +kernel

end Cskk.Props.Persist
