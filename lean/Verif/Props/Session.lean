import Verif.Spec.Session
import Verif.Props.Persist
import Verif.Props.SameWords
import Verif.Props.ContextDicts

/-!
# C65: saving, reloading and restarting with all dictionaries of a context
-/

namespace Cskk.Props.Session
open Cskk.Spec Cskk.Spec.Session Cskk.Spec.Persist Cskk.Spec.SameWords Cskk.DictFile Cskk.Session
open Cskk.Spec.UserDict (WellFormed)
open Cskk.Props.UserDict (maps Edit applyEdit)

/-! ## One save -/

theorem bak_inj {p q : Str} (h : bak p = bak q) : p = q := List.append_cancel_right h

/-- A save touches only the file and its backup. -/
theorem saveWith_frame (cd : Codec) (path : Str) (fs : FS) (d : UserDict) (o : Outcome) (p : Str) (h1 : p ≠ path) (h2 : p ≠ bak path) :
    (saveWith cd path fs d o).2.1 p = fs p := by
  obtain ⟨m, b⟩ := d
  cases b
  · rfl
  · cases hf : fs path <;> cases hs : saveBytes cd m <;> cases o <;> simp [saveWith, FsOp.run, hf, hs, h1, h2]

/-- A save depends only on the file and, for the backup, on the backup. -/
theorem saveWith_local (cd : Codec) (path : Str) (fs fs' : FS) (d : UserDict) (o : Outcome) (h : fs' path = fs path) :
    (saveWith cd path fs' d o).1 = (saveWith cd path fs d o).1 ∧
    (saveWith cd path fs' d o).2.1 path = (saveWith cd path fs d o).2.1 path ∧
    (fs' (bak path) = fs (bak path) → (saveWith cd path fs' d o).2.1 (bak path) = (saveWith cd path fs d o).2.1 (bak path)) := by
  have hb : bak path ≠ path := DictSave.bak_ne path
  have hb' : path ≠ bak path := fun e => hb e.symm
  obtain ⟨m, b⟩ := d
  cases b
  · exact ⟨rfl, h, id⟩
  · cases hf : fs path <;> (rw [hf] at h; cases hs : saveBytes cd m <;> cases o <;> simp [saveWith, FsOp.run, hf, h, hs, hb, hb'])

theorem saveDict_frame (og : Source) (fs : FS) (d : CskkDict) (o : Outcome) (p : Str)
    (h : kindOf d = .user → p ≠ og.path ∧ p ≠ bak og.path) : (saveDict og fs d o).2 p = fs p := by
  unfold saveDict
  split
  · rename_i m b hk
    have hu : kindOf d = .user := by simp [kindOf, hk]
    exact saveWith_frame _ _ _ _ _ _ (h hu).1 (h hu).2
  · rfl

theorem saveDict_local (og : Source) (fs fs' : FS) (d : CskkDict) (o : Outcome) (h : fs' og.path = fs og.path) :
    (saveDict og fs' d o).1 = (saveDict og fs d o).1 ∧
    (saveDict og fs' d o).2 og.path = (saveDict og fs d o).2 og.path ∧
    (fs' (bak og.path) = fs (bak og.path) → (saveDict og fs' d o).2 (bak og.path) = (saveDict og fs d o).2 (bak og.path)) := by
  unfold saveDict
  split
  · rename_i m b hk
    obtain ⟨h1, h2, h3⟩ := saveWith_local og.cd og.path fs fs' ⟨m, b⟩ o h
    exact ⟨by dsimp only; rw [h1], h2, h3⟩
  · exact ⟨rfl, h, id⟩

theorem saveDict_readOnly (og : Source) (fs : FS) (d : CskkDict) (o : Outcome) (h : kindOf d ≠ .user) : saveDict og fs d o = (d, fs) := by
  unfold saveDict
  split
  · rename_i m b hk
    exact absurd (by simp [kindOf, hk]) h
  · rfl

/-! ## All saves -/

theorem apart_tail {a : Source} {ss : List Source} (h : Apart (a :: ss)) : Apart ss :=
  fun i j a b hij h1 h2 => h (i + 1) (j + 1) a b (by omega) h1 h2

theorem fits_cons {a : Source} {ss : List Source} {x : CskkDict} {ds : List CskkDict} (h : Fits (a :: ss) (x :: ds)) :
    kindOf x = a.wanted ∧ Fits ss ds := by
  unfold Fits at h ⊢
  simpa using h

theorem fits_at {ss : List Source} {ds : List CskkDict} (h : Fits ss ds) {i : Nat} {a : Source} {x : CskkDict} (h1 : ss[i]? = some a)
    (h2 : ds[i]? = some x) : kindOf x = a.wanted := by
  have := congrArg (fun l => l[i]?) h
  simpa [h1, h2] using this

theorem fits_length {ss : List Source} {ds : List CskkDict} (h : Fits ss ds) : ds.length = ss.length := by
  simpa using congrArg List.length h

/-- **C65, frame.** Saving all dictionaries touches only the files and backups of the writable ones. -/
theorem saveAll_frame (ss : List Source) (ds : List CskkDict) (os : Nat → Outcome) (fs : FS) (p : Str) (hf : Fits ss ds)
    (h : ∀ a ∈ ss, a.wanted = .user → p ≠ a.path ∧ p ≠ bak a.path) :
    (saveAll ss ds os fs).2 p = fs p := by
  induction ss generalizing ds os fs with
  | nil => rfl
  | cons og ogs ih =>
    cases ds with
    | nil => rfl
    | cons d ds =>
      obtain ⟨hk, hf⟩ := fits_cons hf
      show (saveAll ogs ds _ (saveDict og fs d (os 0)).2).2 p = fs p
      rw [ih ds _ _ hf fun a ha => h a (by simp [ha])]
      exact saveDict_frame og fs d (os 0) p fun hu => h og (by simp) (hk ▸ hu)

/-- **C65.** Saving all dictionaries: each one ends, in memory and on the disk, as if it alone had been saved, however the saves
of the others end. -/
theorem save_each (ss : List Source) (ds : List CskkDict) (os : Nat → Outcome) (fs : FS) (hf : Fits ss ds) (ha : Apart ss) (i : Nat)
    (og : Source) (d : CskkDict) (ho : ss[i]? = some og) (hd : ds[i]? = some d) :
    (saveAll ss ds os fs).1[i]? = some (saveDict og fs d (os i)).1 ∧
    (og.wanted = .user → (saveAll ss ds os fs).2 og.path = (saveDict og fs d (os i)).2 og.path ∧
      (saveAll ss ds os fs).2 (bak og.path) = (saveDict og fs d (os i)).2 (bak og.path)) := by
  induction ss generalizing ds os fs i with
  | nil => cases i <;> cases ho
  | cons a ogs ih =>
    cases ds with
    | nil => cases i <;> cases hd
    | cons x ds =>
      obtain ⟨hk, hf'⟩ := fits_cons hf
      cases i with
      | zero =>
        cases ho; cases hd
        refine ⟨rfl, fun hu => ?_⟩
        have hap : ∀ b ∈ ogs, b.wanted = .user →
            (og.path ≠ b.path ∧ og.path ≠ bak b.path) ∧ (bak og.path ≠ b.path ∧ bak og.path ≠ bak b.path) := by
          intro b hb hy
          obtain ⟨j, hj, h1⟩ := List.mem_iff_getElem.mp hb
          have h1 : ogs[j]? = some b := by rw [List.getElem?_eq_getElem hj, h1]
          have p1 := ha 0 (j + 1) og b (by omega) rfl h1 hu hy
          have p2 := ha (j + 1) 0 b og (by omega) h1 rfl hy hu
          exact ⟨p1, fun e => p2.2 e.symm, fun e => p1.1 (bak_inj e)⟩
        exact ⟨saveAll_frame ogs ds _ _ og.path hf' fun b hb hy => (hap b hb hy).1,
          saveAll_frame ogs ds _ _ (bak og.path) hf' fun b hb hy => (hap b hb hy).2⟩
      | succ i =>
        have h := ih ds (fun j => os (j + 1)) (saveDict a fs x (os 0)).2 hf' (apart_tail ha) i ho hd
        by_cases hu : og.wanted = .user
        · have hp : (saveDict a fs x (os 0)).2 og.path = fs og.path := saveDict_frame a fs x (os 0) og.path fun hx =>
            ha (i + 1) 0 og a (by omega) ho rfl hu (hk ▸ hx)
          have hb : (saveDict a fs x (os 0)).2 (bak og.path) = fs (bak og.path) := by
            refine saveDict_frame a fs x (os 0) (bak og.path) fun hx => ?_
            have p1 := ha (i + 1) 0 og a (by omega) ho rfl hu (hk ▸ hx)
            have p2 := ha 0 (i + 1) a og (by omega) rfl ho (hk ▸ hx) hu
            exact ⟨fun e => p2.2 e.symm, fun e => p1.1 (bak_inj e)⟩
          obtain ⟨l1, l2, l3⟩ := saveDict_local og fs _ d (os (i + 1)) hp
          exact ⟨h.1.trans (congrArg some l1), fun _ => ⟨(h.2 hu).1.trans l2, (h.2 hu).2.trans (l3 hb)⟩⟩
        · refine ⟨h.1.trans (congrArg some ?_), fun h => absurd h hu⟩
          have hd' : kindOf d ≠ .user := by rw [fits_at hf' ho hd]; exact hu
          rw [saveDict_readOnly _ _ _ _ hd', saveDict_readOnly _ _ _ _ hd']

theorem saveAll_length (ss : List Source) (ds : List CskkDict) (os : Nat → Outcome) (fs : FS) : (saveAll ss ds os fs).1.length = ds.length := by
  induction ss generalizing ds os fs with
  | nil => rfl
  | cons og ogs ih =>
    cases ds with
    | nil => rfl
    | cons d ds => exact congrArg (· + 1) (ih ds _ _)

theorem at_of_length {A B : Type} {l : List A} {l' : List B} (h : l.length = l'.length) {i : Nat} {x : A} (hx : l[i]? = some x) : ∃ y, l'[i]? = some y := by
  have hi : i < l.length := by
    by_cases hi : i < l.length
    · exact hi
    · rw [List.getElem?_eq_none (by omega)] at hx; cases hx
  exact ⟨_, List.getElem?_eq_getElem (by omega)⟩

/-! ## Dictionaries in step with their files -/

theorem open_inStep {fs : FS} {s : Source} {d : CskkDict} (h : openDict fs s = some d) : kindOf d = s.wanted ∧ InStep fs s d := by
  obtain ⟨path, cd, comp, w⟩ := s
  unfold openDict DictFile.new at h
  cases w
  · cases hf : fs path with
    | none => simp [hf] at h
    | some c =>
      simp [hf] at h; subst h
      exact ⟨rfl, rfl, fun m hm => by cases hm; exact ⟨c, hf, rfl⟩, fun m hm => (by cases hm), fun h => (by cases h)⟩
  · cases hf : fs path with
    | none => simp [hf] at h
    | some c =>
      simp [hf] at h; subst h
      exact ⟨rfl, rfl, fun m hm => (by cases hm), fun m hm => by cases hm; exact ⟨c, hf, Or.inl rfl⟩, fun _ => ⟨c, hf⟩⟩
  · simp at h; subst h
    exact ⟨rfl, rfl, fun m hm => (by cases hm), fun m hm => (by cases hm), fun h => (by cases h)⟩

theorem openAll_inStep {fs : FS} {ss : List Source} {ds : List CskkDict} (h : openAll fs ss = some ds) : AllInStep ss fs ds := by
  induction ss generalizing ds with
  | nil => cases h; exact ⟨rfl, fun i s d h => by cases i <;> cases h⟩
  | cons s ss ih =>
    unfold openAll at h
    cases ho : openDict fs s with
    | none => simp [ho] at h
    | some d =>
      cases hs : openAll fs ss with
      | none => simp [ho, hs] at h
      | some ds' =>
        simp [ho, hs] at h
        subst h
        have h1 := open_inStep ho
        have h2 := ih hs
        refine ⟨by unfold Fits; simp [h1.1]; exact h2.fits, fun i s' d' hs' hd' => ?_⟩
        cases i with
        | zero => cases hs'; cases hd'; exact h1.2
        | succ i => exact h2.each i s' d' hs' hd'

theorem saveWith_inStep (cd : Codec) (path : Str) (fs : FS) (m : DictMaps) (b : Bool) (o : Outcome) (ho : o ≠ .createFails)
    (hf : ∃ bs, fs path = some bs) (hb : b = false → ∃ bs, fs path = some bs ∧ (m = load cd bs ∨ saveBytes cd m = some bs)) :
    (∃ bs, (saveWith cd path fs ⟨m, b⟩ o).2.1 path = some bs) ∧ (saveWith cd path fs ⟨m, b⟩ o).1.maps = m ∧
    ((saveWith cd path fs ⟨m, b⟩ o).1.hasChange = false →
      ∃ bs, (saveWith cd path fs ⟨m, b⟩ o).2.1 path = some bs ∧ (m = load cd bs ∨ saveBytes cd m = some bs)) := by
  obtain ⟨old, hf⟩ := hf
  have hbk : bak path ≠ path := DictSave.bak_ne path
  have hbk' : path ≠ bak path := fun e => hbk e.symm
  cases b
  · exact ⟨⟨old, hf⟩, rfl, fun _ => hb rfl⟩
  · cases hs : saveBytes cd m <;> cases o <;> simp [saveWith, FsOp.run, hf, hs] at ho ⊢

theorem save_inStep {ss : List Source} {fs : FS} {ds : List CskkDict} (h : AllInStep ss fs ds) (ha : Apart ss) (hsa : StaticApart ss)
    (os : Nat → Outcome) (ho : ∀ i, os i ≠ .createFails) : AllInStep ss (saveAll ss ds os fs).2 (saveAll ss ds os fs).1 := by
  have key : ∀ (i : Nat) s d', ss[i]? = some s → (saveAll ss ds os fs).1[i]? = some d' →
      kindOf d' = s.wanted ∧ InStep (saveAll ss ds os fs).2 s d' := by
    intro i s d' hs hd'
    obtain ⟨d, hd⟩ := at_of_length (saveAll_length ss ds os fs) hd'
    obtain ⟨h1, h2⟩ := save_each ss ds os fs h.fits ha i s d hs hd
    rw [hd'] at h1
    cases h1
    have hk := fits_at h.fits hs hd
    have hi := h.each i s d hs hd
    by_cases hu : s.wanted = .user
    · obtain ⟨h2, -⟩ := h2 hu
      rw [hu] at hk
      cases hdk : d.kind with
      | static m => simp [kindOf, hdk] at hk
      | empty => simp [kindOf, hdk] at hk
      | user m b =>
        have hw := saveWith_inStep s.cd s.path fs m b (os i) (ho i) (hi.file hk) fun hb => hi.saved m (hb ▸ hdk)
        have e1 : (saveDict s fs d (os i)).1 = { d with kind := .user (saveWith s.cd s.path fs ⟨m, b⟩ (os i)).1.maps (saveWith s.cd s.path fs ⟨m, b⟩ (os i)).1.hasChange } := by
          unfold saveDict; rw [hdk]
        have e2 : (saveDict s fs d (os i)).2 = (saveWith s.cd s.path fs ⟨m, b⟩ (os i)).2.1 := by
          unfold saveDict; rw [hdk]
        rw [e2] at h2
        rw [e1, hu]
        refine ⟨rfl, hi.completable, fun m' hm' => (by cases hm'), fun m' hm' => ?_, fun _ => h2 ▸ hw.1⟩
        have hm2 := hm'
        injection hm2 with hm2 hb2
        rw [h2, ← hm2, hw.2.1]
        exact hw.2.2 hb2
    · have hnu : kindOf d ≠ .user := by rw [hk]; exact hu
      rw [saveDict_readOnly _ _ _ _ hnu]
      refine ⟨hk, hi.completable, fun m hm => ?_, fun m hm => absurd (show kindOf d = .user by unfold kindOf; rw [show d.kind = _ from hm]) hnu, fun hh => absurd hh hnu⟩
      have hst : s.wanted = .static := by rw [← hk]; unfold kindOf; rw [show d.kind = _ from hm]
      rw [saveAll_frame ss ds os fs s.path h.fits fun a hma hau => hsa s (List.mem_of_getElem? hs) a hma hst hau]
      exact hi.static m hm
  refine ⟨?_, fun i s d' hs hd' => (key i s d' hs hd').2⟩
  unfold Fits
  apply List.ext_getElem?
  intro i
  cases hs : ss[i]? with
  | none =>
    have : ss.length ≤ i := List.getElem?_eq_none_iff.mp hs
    rw [List.getElem?_eq_none (by rw [List.length_map, saveAll_length, fits_length h.fits]; exact this), List.getElem?_eq_none (by simpa using this)]
  | some s =>
    obtain ⟨d', hd'⟩ := at_of_length (l' := (saveAll ss ds os fs).1) (by rw [saveAll_length, fits_length h.fits]) hs
    simp [hs, hd', (key i s d' hs hd').1]

theorem edits_kind (es : List Edit) (d : CskkDict) :
    (es.foldl applyEdit d).completable = d.completable ∧ kindOf (es.foldl applyEdit d) = kindOf d := by
  induction es generalizing d with
  | nil => exact ⟨rfl, rfl⟩
  | cons x es ih =>
    obtain ⟨h1, h2⟩ := ih (applyEdit d x)
    rw [List.foldl_cons, h1, h2]
    obtain ⟨co, k⟩ := d
    cases x <;> cases k <;> exact ⟨rfl, rfl⟩

theorem edit_inStep {fs : FS} {s : Source} {d : CskkDict} (h : InStep fs s d) (es : List Edit) : InStep fs s (es.foldl applyEdit d) := by
  obtain ⟨h1, h2⟩ := edits_kind es d
  by_cases hu : kindOf d = .user
  · refine ⟨h1 ▸ h.completable, fun m hm => ?_, fun m hm => ?_, fun _ => h.file hu⟩
    · rw [hu] at h2; unfold kindOf at h2; rw [hm] at h2; cases h2
    · by_cases hne : es = []
      · subst hne; exact h.saved m hm
      · cases hk : d.kind with
        | user m' b =>
          obtain ⟨m2, hm2⟩ := ContextDicts.flag_after_edit es d m' b hk hne
          rw [hm2] at hm; cases hm
        | static m' => unfold kindOf at hu; rw [hk] at hu; cases hu
        | empty => unfold kindOf at hu; rw [hk] at hu; cases hu
  · have : es.foldl applyEdit d = d := by
      apply UserDict.read_only_unchanged
      intro m b hk
      exact hu (by unfold kindOf; rw [hk])
    rw [this]; exact h

theorem call_inStep {e : Env} {ss : List Source} {fs : FS} {c c' : Ctx} (h : AllInStep ss fs c.dicts) (op : Op)
    (ho : Ordinary (.call op)) (hs : c.step e op = .ok c') : AllInStep ss fs c'.dicts := by
  obtain ⟨es, he⟩ := ContextDicts.dictionaries_only_edited e c c'
    (.step .init (show ContextDicts.KeepsDictionaries c op by cases op <;> first | trivial | exact ho) hs)
  rw [he]
  refine ⟨?_, fun i s d hsi hd => ?_⟩
  · have := h.fits
    unfold Fits at this ⊢
    rw [← this, List.map_map]
    exact List.map_congr_left fun d _ => (edits_kind es d).2
  · rw [List.getElem?_map] at hd
    cases hd' : c.dicts[i]? with
    | none => rw [hd'] at hd; cases hd
    | some d' => rw [hd'] at hd; cases hd; exact edit_inStep (h.each i s d' hsi hd') es

theorem reloadDict_inStep {fs : FS} {s : Source} {d : CskkDict} (h : InStep fs s d) :
    kindOf (reloadDict fs s d) = kindOf d ∧ InStep fs s (reloadDict fs s d) := by
  obtain ⟨co, k⟩ := d
  cases k with
  | empty => exact ⟨rfl, h⟩
  | static m =>
    obtain ⟨bs, hb, rfl⟩ := h.static m rfl
    refine ⟨rfl, h.completable, fun m hm => ?_, fun m hm => (by cases hm), fun hh => (by cases hh)⟩
    refine ⟨bs, hb, ?_⟩
    have : (DictKind.static (reload s.cd s.path fs ⟨load s.cd bs, false⟩).maps) = .static m := hm
    cases this
    simp [reload, hb]
  | user m b =>
    obtain ⟨bs, hb⟩ := h.file rfl
    refine ⟨rfl, h.completable, fun m hm => (by cases hm), fun m' hm => ?_, fun _ => ⟨bs, hb⟩⟩
    refine ⟨bs, hb, ?_⟩
    have : (DictKind.user (reload s.cd s.path fs ⟨m, b⟩).maps (reload s.cd s.path fs ⟨m, b⟩).hasChange) = .user m' false := hm
    injection this with h1 h2
    left
    rw [← h1]
    simp [reload, hb]

theorem reload_inStep {ss : List Source} {fs : FS} {ds : List CskkDict} (h : AllInStep ss fs ds) : AllInStep ss fs (reloadAll fs ss ds) := by
  have hl := fits_length h.fits
  have key : ∀ (i : Nat) s d', ss[i]? = some s → (reloadAll fs ss ds)[i]? = some d' → ∃ d, ds[i]? = some d ∧ d' = reloadDict fs s d := by
    intro i s d' hs hd'
    unfold reloadAll at hd'
    rw [List.getElem?_zipWith, hs] at hd'
    cases hd : ds[i]? with
    | none => rw [hd] at hd'; cases hd'
    | some d => rw [hd] at hd'; cases hd'; exact ⟨d, rfl, rfl⟩
  refine ⟨?_, fun i s d' hs hd' => ?_⟩
  · have hf := h.fits
    unfold Fits at hf ⊢
    rw [← hf]
    apply List.ext_getElem?
    intro i
    rw [List.getElem?_map, List.getElem?_map]
    cases hs : ss[i]? with
    | none =>
      have hle : ss.length ≤ i := List.getElem?_eq_none_iff.mp hs
      rw [List.getElem?_eq_none (l := ds) (by omega), List.getElem?_eq_none (by unfold reloadAll; rw [List.length_zipWith]; omega)]
    | some s =>
      obtain ⟨d, hd⟩ := at_of_length (l' := ds) hl.symm hs
      have : (reloadAll fs ss ds)[i]? = some (reloadDict fs s d) := by unfold reloadAll; rw [List.getElem?_zipWith, hs, hd]
      rw [this, hd]
      exact congrArg some (reloadDict_inStep (h.each i s d hs hd)).1
  · obtain ⟨d, hd, rfl⟩ := key i s d' hs hd'
    exact (reloadDict_inStep (h.each i s d hs hd)).2

theorem act_inStep {e : Env} {ss : List Source} (ha : Apart ss) (hsa : StaticApart ss) {c c' : Ctx} {fs fs' : FS} (h : AllInStep ss fs c.dicts)
    (a : Act) (ho : Ordinary a) (hs : act e ss (c, fs) a = .ok (c', fs')) : AllInStep ss fs' c'.dicts := by
  cases a with
  | call op =>
    unfold act at hs
    cases hc : c.step e op with
    | error p => simp [hc, bind, Except.bind] at hs
    | ok c2 =>
      simp [hc, bind, Except.bind, pure, Except.pure] at hs
      obtain ⟨rfl, rfl⟩ := hs
      exact call_inStep h op ho hc
  | save os => cases hs; exact save_inStep h ha hsa os ho
  | reload => cases hs; exact reload_inStep h

theorem actAll_inStep {e : Env} {ss : List Source} (ha : Apart ss) (hsa : StaticApart ss) (as : List Act) (ho : ∀ a ∈ as, Ordinary a)
    {c c' : Ctx} {fs fs' : FS} (h : AllInStep ss fs c.dicts) (hs : actAll e ss (c, fs) as = .ok (c', fs')) : AllInStep ss fs' c'.dicts := by
  induction as generalizing c fs with
  | nil => cases hs; exact h
  | cons a as ih =>
    unfold actAll at hs
    cases hc : act e ss (c, fs) a with
    | error p => simp [hc, bind, Except.bind] at hs
    | ok r =>
      simp only [hc, bind, Except.bind] at hs
      exact ih (fun x hx => ho x (by simp [hx])) (act_inStep ha hsa h a (ho a (by simp)) hc) hs

theorem saveDict_kind (s : Source) (fs : FS) (d : CskkDict) (o : Outcome) : kindOf (saveDict s fs d o).1 = kindOf d := by
  obtain ⟨co, k⟩ := d
  cases k <;> rfl

theorem saveAll_fits {ss : List Source} {ds : List CskkDict} (h : Fits ss ds) (os : Nat → Outcome) (fs : FS) : Fits ss (saveAll ss ds os fs).1 := by
  have : ∀ (ss : List Source) (ds : List CskkDict) os fs, (saveAll ss ds os fs).1.map kindOf = ds.map kindOf := by
    intro ss
    induction ss with
    | nil => intro ds os fs; cases ds <;> rfl
    | cons s ss ih =>
      intro ds os fs
      cases ds with
      | nil => rfl
      | cons d ds =>
        unfold saveAll
        rw [List.map_cons, List.map_cons, saveDict_kind, ih]
  unfold Fits at h ⊢
  rw [this, h]

theorem reloadAll_fits {ss : List Source} {ds : List CskkDict} (h : Fits ss ds) (fs : FS) : Fits ss (reloadAll fs ss ds) := by
  unfold Fits at h ⊢
  rw [← h]
  have hl := fits_length h
  clear h
  induction ss generalizing ds with
  | nil => cases ds with
    | nil => rfl
    | cons => cases hl
  | cons s ss ih => cases ds with
    | nil => rfl
    | cons d ds =>
      have : kindOf (reloadDict fs s d) = kindOf d := by
        obtain ⟨co, k⟩ := d
        cases k <;> rfl
      show kindOf _ :: _ = kindOf d :: _
      rw [this]
      congr 1
      exact ih (by simpa using hl)

theorem actAll_append (e : Env) (ss : List Source) (s : Ctx × FS) (as bs : List Act) :
    actAll e ss s (as ++ bs) = (do let s' ← actAll e ss s as; actAll e ss s' bs) := by
  induction as generalizing s with
  | nil => rfl
  | cons a as ih =>
    have h : ∀ l, actAll e ss s (a :: l) = (do let s' ← act e ss s a; actAll e ss s' l) := fun _ => rfl
    rw [List.cons_append, h, h]
    cases act e ss s a with
    | error p => rfl
    | ok r => exact ih r

/-! ## The session -/

/-- **C65, in step.** A program opens its dictionaries and uses a context with them; it types, saves and reloads as it likes, and the
disk may refuse to rename or to write. At every moment each read-only dictionary is what its file says, each user dictionary has a
file, and each user dictionary without unsaved changes was loaded from its file as it now is or saved as it now is. -/
theorem session_in_step (e : Env) (ss : List Source) (fs₀ fs : FS) (c₀ c : Ctx) (ho : openAll fs₀ ss = some c₀.dicts) (ha : Apart ss)
    (hsa : StaticApart ss) (as : List Act) (hord : ∀ a ∈ as, Ordinary a) (hs : actAll e ss (c₀, fs₀) as = .ok (c, fs)) :
    AllInStep ss fs c.dicts :=
  actAll_inStep ha hsa as hord (openAll_inStep ho) hs

/-- **C65, other files.** Whatever is done with a context, and whatever the disk answers, only the files of its user dictionaries and
their backups change. -/
theorem other_files_untouched (e : Env) (ss : List Source) (as : List Act) (c c' : Ctx) (fs fs' : FS) (hf : Fits ss c.dicts)
    (hk : ∀ ds, .call (.setDictionaries ds) ∉ as)
    (hs : actAll e ss (c, fs) as = .ok (c', fs')) (p : Str) (hp : ∀ s ∈ ss, s.wanted = .user → p ≠ s.path ∧ p ≠ bak s.path) :
    fs' p = fs p := by
  induction as generalizing c fs with
  | nil => cases hs; rfl
  | cons a as ih =>
    unfold actAll at hs
    cases hc : act e ss (c, fs) a with
    | error q => simp [hc, bind, Except.bind] at hs
    | ok r =>
      simp only [hc, bind, Except.bind] at hs
      have hk' : ∀ ds, .call (.setDictionaries ds) ∉ as := fun ds h => hk ds (by simp [h])
      cases a with
      | call op =>
        unfold act at hc
        cases hst : c.step e op with
        | error q => simp [hst, bind, Except.bind] at hc
        | ok c2 =>
          simp [hst, bind, Except.bind, pure, Except.pure] at hc
          subst hc
          obtain ⟨es, he⟩ := ContextDicts.dictionaries_only_edited e c c2
            (.step .init (show ContextDicts.KeepsDictionaries c op by
              cases op <;> first | trivial | exact absurd List.mem_cons_self (hk _)) hst)
          refine ih c2 fs ?_ hk' hs
          unfold Fits at hf ⊢
          rw [he, ← hf, List.map_map]
          exact List.map_congr_left fun d _ => (edits_kind es d).2
      | save os =>
        cases hc
        rw [ih _ _ (saveAll_fits hf os fs) hk' hs]
        exact saveAll_frame ss c.dicts os fs p hf hp
      | reload => cases hc; exact ih _ _ (reloadAll_fits hf fs) hk' hs

/-- **C65, saving.** When a save completes and everything can be encoded, no dictionary has unsaved changes afterwards. -/
theorem save_completes (ss : List Source) (fs : FS) (ds : List CskkDict) (h : AllInStep ss fs ds) (ha : Apart ss)
    (ht : ∀ s ∈ ss, Persist.Total s.cd) : ∀ d ∈ (saveAll ss ds (fun _ => .completes) fs).1, ¬ Unsaved d := by
  intro d' hd' ⟨m', hm'⟩
  obtain ⟨i, hi⟩ := List.getElem?_of_mem hd'
  obtain ⟨d, hd⟩ := at_of_length (saveAll_length ss ds _ fs) hi
  obtain ⟨s, hs⟩ := at_of_length (l' := ss) (fits_length h.fits) hd
  obtain ⟨h1, -⟩ := save_each ss ds (fun _ => .completes) fs h.fits ha i s d hs hd
  rw [hi] at h1
  cases h1
  cases hk : d.kind with
  | static m => unfold saveDict at hm'; rw [hk] at hm'; rw [hk] at hm'; cases hm'
  | empty => unfold saveDict at hm'; rw [hk] at hm'; rw [hk] at hm'; cases hm'
  | user m b =>
    obtain ⟨bs, hb⟩ := (h.each i s d hs hd).file (by unfold kindOf; rw [hk])
    obtain ⟨out, hout⟩ := Persist.saveBytes_total (ht s (List.mem_of_getElem? hs)) m
    unfold saveDict at hm'
    rw [hk] at hm'
    cases b <;> simp [saveWith, FsOp.run, hb, hout] at hm'

theorem open_same {fs : FS} {s : Source} {d : CskkDict} (hk : kindOf d = s.wanted) (h : InStep fs s d) (hu : ¬ Unsaved d)
    (ht : Persist.Total s.cd) (hw : WellFormed (maps d)) (hp : kindOf d = .user → PlainDict (maps d)) :
    ∃ d', openDict fs s = some d' ∧ SameDict d d' := by
  obtain ⟨co, k⟩ := d
  have hc := h.completable
  cases k with
  | empty =>
    have hk : Wanted.empty = s.wanted := hk
    rw [← hk] at hc
    have hc : co = false := hc
    subst hc
    exact ⟨⟨false, .empty⟩, by unfold openDict; rw [← hk]; rfl, SameWords.same_refl _ hw⟩
  | static m =>
    have hk : Wanted.static = s.wanted := hk
    rw [← hk] at hc
    have hc : co = s.completable := hc
    obtain ⟨bs, hb, hm⟩ := h.static m rfl
    refine ⟨⟨s.completable, .static (load s.cd bs)⟩, by unfold openDict; rw [← hk, hb]; rfl, ?_⟩
    rw [← hm, ← hc]
    exact SameWords.same_refl _ hw
  | user m b =>
    have hk : Wanted.user = s.wanted := hk
    rw [← hk] at hc
    have hc : co = s.completable := hc
    cases b with
    | true => exact absurd ⟨m, rfl⟩ hu
    | false =>
      obtain ⟨bs, hb, hm⟩ := h.saved m rfl
      refine ⟨⟨s.completable, .user (load s.cd bs) false⟩, by unfold openDict DictFile.new; rw [← hk, hb]; rfl, ?_⟩
      subst hc
      have hp : PlainDict m := hp rfl
      rcases hm with rfl | hm
      · exact SameWords.same_refl _ hw
      · exact ⟨rfl, trivial, hw, (Persist.plain_saved hp hm).wf, Persist.words_saved ht hp hm⟩

theorem openAll_same {fs : FS} {ss : List Source} {ds : List CskkDict} (h : AllInStep ss fs ds) (hu : ∀ d ∈ ds, ¬ Unsaved d)
    (ht : ∀ s ∈ ss, Persist.Total s.cd) (hw : ∀ d ∈ ds, WellFormed (maps d)) (hp : ∀ d ∈ ds, kindOf d = .user → PlainDict (maps d)) :
    ∃ ds', openAll fs ss = some ds' ∧ AllSame ds ds' := by
  induction ss generalizing ds with
  | nil =>
    have := fits_length h.fits
    cases ds with
    | nil => exact ⟨[], rfl, .nil⟩
    | cons => cases this
  | cons s ss ih =>
    cases ds with
    | nil => cases fits_length h.fits
    | cons d ds =>
      have hf := h.fits
      unfold Fits at hf
      rw [List.map_cons, List.map_cons, List.cons.injEq] at hf
      obtain ⟨d', h1, h2⟩ := open_same hf.1 (h.each 0 s d rfl rfl) (hu d (by simp)) (ht s (by simp)) (hw d (by simp)) (hp d (by simp))
      obtain ⟨ds', h3, h4⟩ := ih (ds := ds) ⟨hf.2, fun i s d h1 h2 => h.each (i + 1) s d h1 h2⟩ (fun d hd => hu d (by simp [hd]))
        (fun d hd => ht d (by simp [hd])) (fun d hd => hw d (by simp [hd])) (fun d hd => hp d (by simp [hd]))
      exact ⟨d' :: ds', by unfold openAll; simp [h1, h3], .cons h2 h4⟩

/-- **C65, restart.** A program opens its dictionaries, uses a context with them (with saves and reloads at any time and whatever the
disk answers) and finally saves successfully; the program ends, and another one opens the same dictionaries. Whatever is done
then — typing, converting, registering — the new program delivers exactly the text that the old one would have delivered had it
gone on, for a new context of the same settings and for one in the state in which the old context was left. -/
theorem restart_forgets_nothing (e : Env) (ss : List Source) (fs₀ fs : FS) (c₀ c : Ctx) (ho : openAll fs₀ ss = some c₀.dicts)
    (ha : Apart ss) (hsa : StaticApart ss) (ht : ∀ s ∈ ss, Persist.Total s.cd) (as : List Act) (hord : ∀ a ∈ as, Ordinary a)
    (hs : actAll e ss (c₀, fs₀) (as ++ [.save fun _ => .completes]) = .ok (c, fs))
    (hw : ∀ d ∈ c.dicts, WellFormed (maps d)) (hp : ∀ d ∈ c.dicts, kindOf d = .user → PlainDict (maps d)) :
    ∃ ds', openAll fs ss = some ds' ∧ AllSame c.dicts ds' ∧
    ∀ (ops : List Op), (∀ op ∈ ops, GoodOp op) →
      SameResult (fun r r' => SameCtx r.1 r'.1 ∧ r'.2 = r.2) (deliver e c ops) (deliver e { c with dicts := ds' } ops) ∧
      ∀ cmds kana im cm, SameResult (fun r r' => SameCtx r.1 r'.1 ∧ r'.2 = r.2)
        (deliver e (Ctx.new cmds kana im cm c.dicts) ops) (deliver e (Ctx.new cmds kana im cm ds') ops) := by
  rw [actAll_append] at hs
  cases h1 : actAll e ss (c₀, fs₀) as with
  | error p => simp [h1, bind, Except.bind] at hs
  | ok r =>
    obtain ⟨c1, fs1⟩ := r
    have h2 := session_in_step e ss fs₀ fs1 c₀ c1 ho ha hsa as hord h1
    have h3 := save_inStep h2 ha hsa (fun _ => .completes) (fun _ => by decide)
    have h4 := save_completes ss fs1 c1.dicts h2 ha ht
    simp [h1, bind, Except.bind, actAll, act] at hs
    obtain ⟨rfl, rfl⟩ := hs
    obtain ⟨ds', h5, h6⟩ := openAll_same h3 h4 ht hw hp
    refine ⟨ds', h5, h6, fun ops hops => ⟨SameWords.same_words_same_text e _ _ ⟨rfl, h6⟩ ops hops, fun cmds kana im cm => ?_⟩⟩
    exact SameWords.same_words_same_text e _ _ ⟨rfl, h6⟩ ops hops

/-! ## What goes wrong when files are shared or lost -/

/-- A user dictionary that knows one word which its file does not have yet. -/
def unsaved (x : Candidate) : CskkDict := ⟨true, .user ((⟨[], []⟩ : DictMaps).select x) true⟩

/-- A user dictionary file. -/
def userFile (p : Str) : Source := ⟨p, Utf8.utf8, true, .user⟩

/-- An empty user dictionary `d`, and nothing else. -/
def disk : FS := fun p => if p = c%"d" then some [] else none

/-- **C65, the boundary.** Two user dictionaries that share a file: after a save that completes neither has unsaved changes, but the
file holds the words of the last one only; those of the first are in the backup, which the next save overwrites. -/
theorem shared_file_last_wins :
    let r := saveAll [userFile c%"d", userFile c%"d"] [unsaved Persist.ai, unsaved SameWords.umi] (fun _ => .completes) disk
    r.1.map (fun d => d.kind) = [.user ((⟨[], []⟩ : DictMaps).select Persist.ai) false, .user ((⟨[], []⟩ : DictMaps).select SameWords.umi) false] ∧
    (r.2 c%"d").map (load Utf8.utf8) = some ((⟨[], []⟩ : DictMaps).select SameWords.umi) ∧
    (r.2 c%"d.BAK").map (load Utf8.utf8) = some ((⟨[], []⟩ : DictMaps).select Persist.ai) := by
  decide +kernel

/-- **C65, the boundary.** A user dictionary whose file is the backup of another: the save of the other overwrites it, and its own
words survive only because it is saved later; if it has nothing to save, they are gone from its file. -/
theorem file_is_a_backup :
    let fs : FS := fun p => if p = c%"d.BAK" then saveBytes Utf8.utf8 ((⟨[], []⟩ : DictMaps).select SameWords.umi) else disk p
    let r := saveAll [userFile c%"d", userFile c%"d.BAK"] [unsaved Persist.ai, ⟨true, .user ((⟨[], []⟩ : DictMaps).select SameWords.umi) false⟩]
      (fun _ => .completes) fs
    r.1.map (fun d => d.kind) = [.user ((⟨[], []⟩ : DictMaps).select Persist.ai) false, .user ((⟨[], []⟩ : DictMaps).select SameWords.umi) false] ∧
    r.2 c%"d.BAK" = some [] := by
  decide +kernel

/-- **C65, the boundary.** When the file cannot be created after it was moved to its backup, no later save succeeds either: the file
is missing, so moving it fails, and nothing is written although the disk works again. -/
theorem lost_file_never_saved (s : Source) (m : DictMaps) (co : Bool) (fs : FS) (os : List Outcome) :
    let r := saveDict s fs ⟨co, .user m true⟩ .createFails
    let r' := os.foldl (fun r o => saveDict s r.2 r.1 o) r
    r' = r ∧ r.1 = ⟨co, .user m true⟩ ∧ r.2 s.path = none := by
  have hne : s.path ≠ bak s.path := fun e => DictSave.bak_ne s.path e.symm
  have h1 : (saveDict s fs ⟨co, .user m true⟩ .createFails).1 = ⟨co, .user m true⟩ := by
    cases hf : fs s.path <;> simp [saveDict, saveWith, FsOp.run, hf]
  have h2 : (saveDict s fs ⟨co, .user m true⟩ .createFails).2 s.path = none := by
    cases hf : fs s.path <;> simp [saveDict, saveWith, FsOp.run, hf, hne]
  refine ⟨?_, h1, h2⟩
  generalize saveDict s fs ⟨co, .user m true⟩ .createFails = r at h1 h2
  obtain ⟨d, fs'⟩ := r
  subst h1
  induction os with
  | nil => rfl
  | cons o os ih =>
    have : saveDict s fs' ⟨co, .user m true⟩ o = (⟨co, .user m true⟩, fs') := by
      have h2 : fs' s.path = none := h2
      cases o <;> simp [saveDict, saveWith, FsOp.run, h2]
    rw [List.foldl_cons]
    dsimp only
    rw [this]
    exact ih

/-! ## The hypotheses are met -/

/-- The dictionaries of the sample: one that comes with the system, the user's and the empty one. -/
def sources : List Source := [userFile c%"d", ⟨c%"jisyo", Utf8.utf8, true, .static⟩, ⟨[], Utf8.utf8, true, .empty⟩]

/-- The files of the sample. -/
def files : FS := fun p =>
  if p = c%"d" then some [] else if p = c%"jisyo" then Utf8.utf8.enc c%";; okuri-ari entries.\n;; okuri-nasi entries.\nあい /愛/\nうみ /海/\n" else none

theorem sources_apart : Apart sources ∧ StaticApart sources := by
  constructor
  · intro i j a b hij hi hj ha hb
    match i, j with
    | 0, 0 => exact absurd rfl hij
    | 0, 1 => cases hj; cases hb
    | 0, 2 => cases hj; cases hb
    | 1, _ => cases hi; cases ha
    | 2, _ => cases hi; cases ha
    | 0, n + 3 => cases hj
    | n + 3, _ => cases hi
  · intro a ha b hb h1 h2
    have ha' : a = userFile c%"d" ∨ a = ⟨c%"jisyo", Utf8.utf8, true, .static⟩ ∨ a = ⟨[], Utf8.utf8, true, .empty⟩ := by
      simpa [sources] using ha
    have hb' : b = userFile c%"d" ∨ b = ⟨c%"jisyo", Utf8.utf8, true, .static⟩ ∨ b = ⟨[], Utf8.utf8, true, .empty⟩ := by
      simpa [sources] using hb
    rcases ha' with rfl | rfl | rfl <;> rcases hb' with rfl | rfl | rfl <;> first | (cases h1; done) | (cases h2; done) | decide

/-- What the user of the sample does: 愛 is typed, a save fails half-way, 海 is typed, a save fails at once. -/
def acts : List Act :=
  (typed c%"Ai ").map (fun k => .call (.key k)) ++ [.call (.confirmAt 0), .save fun _ => .stops 40] ++
  (typed c%"Umi ").map (fun k => .call (.key k)) ++ [.call (.confirmAt 0), .save fun _ => .renameFails]

/-- The dictionaries of the sample after opening. -/
def openedDicts : List CskkDict := (openAll files sources).getD []

/-- The context of the sample. -/
def sampleCtx : Ctx := Ctx.new Assets.defaultCommands Assets.defaultKana .hiragana .direct openedDicts

/-- What the user of the sample has learned. -/
def learnt : DictMaps := ((⟨[], []⟩ : DictMaps).select Persist.ai).select SameWords.umi


theorem learnt_plain : PlainDict learnt := by
  have h0 : PlainDict ⟨[], []⟩ := by
    have h := Persist.empty_file_plain.1
    have : load Utf8.utf8 [] = ⟨[], []⟩ := by decide +kernel
    rwa [this] at h
  exact Persist.plain_select (Persist.plain_select h0 Persist.ai_plain) SameWords.umi_plain

/-- What the sample ends with: the words are learnt and saved; in the file they are in another order. -/
theorem sample_end :
    openAll files sources = some sampleCtx.dicts ∧
    ((actAll (Assets.env ⟨true⟩) sources (sampleCtx, files) (acts ++ [.save fun _ => .completes])).toOption.map fun r => r.1.dicts) =
      some [⟨true, .user learnt false⟩, ⟨true, .static learnt⟩, ⟨false, .empty⟩] ∧
    ((actAll (Assets.env ⟨true⟩) sources (sampleCtx, files) (acts ++ [.save fun _ => .completes])).toOption.bind fun r => (r.2 c%"d").map (load Utf8.utf8)) =
      some ⟨[], learnt.nashi.reverse⟩ := by
  decide +kernel

/-- After a restart the sample goes on as if nothing had happened. -/
theorem sample_restart (c : Ctx) (fs : FS)
    (hs : actAll (Assets.env ⟨true⟩) sources (sampleCtx, files) (acts ++ [.save fun _ => .completes]) = .ok (c, fs)) :
    ∃ ds', openAll fs sources = some ds' ∧ ∀ (ops : List Op), (∀ op ∈ ops, GoodOp op) →
      SameResult (fun r r' => SameCtx r.1 r'.1 ∧ r'.2 = r.2) (deliver (Assets.env ⟨true⟩) c ops) (deliver (Assets.env ⟨true⟩) { c with dicts := ds' } ops) := by
  obtain ⟨h1, h2, -⟩ := sample_end
  rw [hs] at h2
  have hd : c.dicts = [⟨true, .user learnt false⟩, ⟨true, .static learnt⟩, ⟨false, .empty⟩] := by simpa [Except.toOption] using h2
  have he : WellFormed (maps ⟨false, .empty⟩) := by
    have h := Persist.empty_file_plain.1
    have : load Utf8.utf8 [] = ⟨[], []⟩ := by decide +kernel
    rw [this] at h
    exact h.wf
  obtain ⟨ds', ho, -, h⟩ := restart_forgets_nothing (Assets.env ⟨true⟩) sources files fs sampleCtx c h1 sources_apart.1 sources_apart.2
    (by intro s hm
        have : s = userFile c%"d" ∨ s = ⟨c%"jisyo", Utf8.utf8, true, .static⟩ ∨ s = ⟨[], Utf8.utf8, true, .empty⟩ := by simpa [sources] using hm
        rcases this with rfl | rfl | rfl <;> exact Persist.total_utf8)
    acts
    (by intro a ha
        simp only [acts, List.mem_append, List.mem_map, List.mem_cons, List.not_mem_nil, or_false] at ha
        rcases ha with ((⟨k, -, rfl⟩ | rfl | rfl) | ⟨k, -, rfl⟩) | rfl | rfl <;> first | exact True.intro | exact fun i h => Outcome.noConfusion h)
    hs
    (by intro d hm
        rw [hd] at hm
        simp only [List.mem_cons, List.not_mem_nil, or_false] at hm
        rcases hm with rfl | rfl | rfl
        · exact learnt_plain.wf
        · exact learnt_plain.wf
        · exact he)
    (by intro d hm hk
        rw [hd] at hm
        simp only [List.mem_cons, List.not_mem_nil, or_false] at hm
        rcases hm with rfl | rfl | rfl
        · exact learnt_plain
        · cases hk
        · cases hk)
  exact ⟨ds', ho, fun ops hops => (h ops hops).1⟩

end Cskk.Props.Session
