import Verif.Spec.Life
import Verif.Props.Session
import Verif.Props.SameWords
import Verif.Props.Teach

/-!
# C81: a user's life with the engine is one life of the machine
-/

namespace Cskk.Props.Life
open Cskk Cskk.Spec.Machine Cskk.Spec.Life Cskk.Spec.Session Cskk.Spec.SameWords Cskk.Spec.Persist Cskk.DictFile Cskk.Session
open Cskk.Spec.UserDict (WellFormed side listed recordedIn)
open Cskk.Props.UserDict (maps find_select find_touch side_update prioritize_get new_get removeMatching_get)
open Cskk.Props.Machine (shipped names start fresh call answered seen At act_goes view_seen fresh_at)

/-! ## Dictionaries which hold no more than others -/

/-- The second dictionary has no reading and no group which the first does not have, and no reading without groups which has groups in the first. -/
def Less (m m' : DictMaps) : Prop :=
  ∀ o r e', (side m' o).find r = some e' → ∃ e, (side m o).find r = some e ∧
    (∀ g, (SMap.get e'.cands g).isSome → (SMap.get e.cands g).isSome) ∧ ((∀ g, SMap.get e'.cands g = none) → ∀ g, SMap.get e.cands g = none)

theorem less_refl (m : DictMaps) : Less m m := fun _ _ e' h => ⟨e', h, fun _ => id, id⟩

theorem less_trans {a b c : DictMaps} (h1 : Less a b) (h2 : Less b c) : Less a c := by
  intro o r e hc
  obtain ⟨e1, hb, g1, n1⟩ := h2 o r e hc
  obtain ⟨e2, ha, g2, n2⟩ := h1 o r e1 hb
  exact ⟨e2, ha, fun g hg => g2 g (g1 g hg), fun hn => n2 (n1 hn)⟩

theorem side_other (m : DictMaps) {o o' : Bool} (h : o' ≠ o) (f) : side (m.update o f) o' = side m o' := by
  rw [side_update, if_neg h]

theorem less_select {m m' : DictMaps} (h : Less m m') (c : Candidate) : Less (m.select c) (m'.select c) := by
  intro o r e' hf
  by_cases ho : o = c.okuri
  · subst ho
    rw [find_select] at hf ⊢
    by_cases hr : r = c.midashi
    · rw [if_pos hr] at hf ⊢
      have full : ∀ e0 : DictEntry, ¬ ∀ g, SMap.get (e0.prioritize c).cands g = none := fun e0 hn => by
        have := hn []
        rw [(prioritize_get e0 c []).1 (Or.inl rfl)] at this
        cases this
      have fullN : ¬ ∀ g, SMap.get (DictEntry.new c.midashi c).cands g = none := fun hn => by
        have := hn []
        rw [(new_get c.midashi c []).1 (Or.inl rfl)] at this
        cases this
      cases hm' : (side m' c.okuri).find c.midashi with
      | some e0 =>
        rw [hm'] at hf
        injection hf with hf
        subst hf
        obtain ⟨e1, h1, h2, -⟩ := h _ _ e0 hm'
        rw [h1]
        refine ⟨_, rfl, fun g hg => ?_, fun hn => absurd hn (full e0)⟩
        by_cases hrec : recordedIn c.strictOkuri g
        · rw [(prioritize_get e1 c g).1 hrec]; rfl
        · rw [(prioritize_get e0 c g).2 hrec] at hg
          rw [(prioritize_get e1 c g).2 hrec]
          exact h2 g hg
      | none =>
        rw [hm'] at hf
        injection hf with hf
        subst hf
        cases hm : (side m c.okuri).find c.midashi with
        | none => exact ⟨_, rfl, fun g hg => hg, fun hn => absurd hn fullN⟩
        | some e1 =>
          refine ⟨_, rfl, fun g hg => ?_, fun hn => absurd hn fullN⟩
          by_cases hrec : recordedIn c.strictOkuri g
          · rw [(prioritize_get e1 c g).1 hrec]; rfl
          · rw [(new_get c.midashi c g).2 hrec] at hg
            cases hg
    · rw [if_neg hr] at hf ⊢
      exact h _ _ _ hf
  · unfold DictMaps.select at hf ⊢
    rw [side_other _ ho] at hf ⊢
    exact h _ _ _ hf

theorem mem_of_find {l : Spec.Recency DictEntry} {r : Str} {e : DictEntry} (h : l.find r = some e) : (r, e) ∈ l := SMap.mem_of_get (m := l) h

theorem get_remove {e : DictEntry} (k : CompositeKey) (c : Candidate) (hd : ∀ g l, SMap.get e.cands g = some l → (l.map (·.kouho)).Nodup) (g : Str) :
    (SMap.get (e.removeMatching k c).cands g).isSome = (SMap.get e.cands g).isSome := by
  by_cases hr : recordedIn k.okuri g
  · rw [(removeMatching_get e k c g (hd g)).1 hr, Option.isSome_map]
  · rw [(removeMatching_get e k c g (hd g)).2 hr]

theorem less_purge {m m' : DictMaps} (h : Less m m') (hw : WellFormed m) (hw' : WellFormed m') (k : CompositeKey) (c : Candidate) :
    Less (m.purge k c) (m'.purge k c) := by
  intro o r e' hf
  unfold DictMaps.purge at hf ⊢
  by_cases ho : o = c.okuri
  · subst ho
    rw [side_update, if_pos rfl, find_touch] at hf ⊢
    by_cases hr : r = c.midashi
    · rw [if_pos hr] at hf ⊢
      obtain ⟨e0, h0, rfl⟩ := Option.map_eq_some_iff.mp hf
      obtain ⟨e1, h1, h2, h3⟩ := h _ _ e0 h0
      have d0 : ∀ g l, SMap.get e0.cands g = some l → (l.map (·.kouho)).Nodup := fun g l hl =>
        hw'.distinct _ _ (mem_of_find h0) (g, l) (SMap.mem_of_get hl)
      have d1 : ∀ g l, SMap.get e1.cands g = some l → (l.map (·.kouho)).Nodup := fun g l hl =>
        hw.distinct _ _ (mem_of_find h1) (g, l) (SMap.mem_of_get hl)
      refine ⟨e1.removeMatching k c, by rw [h1]; rfl, fun g hg => ?_, fun hn g => ?_⟩
      · rw [get_remove k c d0] at hg
        rw [get_remove k c d1]
        exact h2 g hg
      · have : ∀ g, SMap.get e0.cands g = none := fun g => by
          have := get_remove k c d0 g
          rw [hn g] at this
          exact Option.isNone_iff_eq_none.mp (by rw [← Option.not_isSome, ← this]; rfl)
        have h4 := get_remove k c d1 g
        rw [h3 this g] at h4
        exact Option.isNone_iff_eq_none.mp (by rw [← Option.not_isSome, h4]; rfl)
    · rw [if_neg hr] at hf ⊢
      exact h _ _ _ hf
  · rw [side_other _ ho] at hf ⊢
    exact h _ _ _ hf

/-- Two dictionaries with the same words, of which the second holds no more than the first. -/
structure Held (d d' : CskkDict) : Prop extends SameDict d d' where
  less : Less (maps d) (maps d')

/-- If a file can hold the words of the first, it can hold those of the second. -/
theorem held_plain {d d' : CskkDict} (h : Held d d') (hp : PlainDict (maps d)) : PlainDict (maps d') := by
  refine ⟨h.wf', fun o x hx => ?_⟩
  obtain ⟨r, e'⟩ := x
  have hf : (side (maps d') o).find r = some e' := Persist.find_of_mem (h.wf'.keys o) hx
  obtain ⟨e, h1, h2, h3⟩ := h.less o r e' hf
  have hmem := mem_of_find h1
  have he := hp.entries o _ hmem
  have hr : e.midashi = r := hp.wf.reading o _ hmem
  have hr' : e'.midashi = r := h.wf'.reading o _ hx
  dsimp only at he ⊢
  refine ⟨by rw [hr', ← hr]; exact he.reading, fun hari => by rw [hr', ← hr]; exact he.ari hari, ?_, fun g l hl => ?_⟩
  · apply Classical.byContradiction
    intro hn
    have hnone : ∀ g, SMap.get e'.cands g = none := fun g => by
      cases hg : SMap.get e'.cands g with
      | none => rfl
      | some l => exact absurd ⟨g, l, hg⟩ hn
    obtain ⟨g, l, hg⟩ := he.some
    rw [h3 hnone g] at hg
    cases hg
  · obtain ⟨l1, hl1⟩ := Option.isSome_iff_exists.mp (h2 g (by rw [hl]; rfl))
    have hw := congrFun (congrFun (congrFun h.words o) r) g
    unfold words listed at hw
    rw [hf, h1] at hw
    simp only [Option.bind_some, hl, hl1, Option.getD_some] at hw
    subst hw
    exact he.groups g _ hl1

theorem held_confirm {d d' : CskkDict} (h : Held d d') (x : Candidate) : Held (d.confirm x) (d'.confirm x) := by
  refine ⟨SameWords.same_confirm h.toSameDict x, ?_⟩
  have hl := h.less
  have hk := h.kind
  obtain ⟨co, k⟩ := d
  obtain ⟨co', k'⟩ := d'
  cases k <;> cases k' <;> first | exact hk.elim | exact hl | exact less_select hl x

theorem held_purge {d d' : CskkDict} (h : Held d d') (k : CompositeKey) (x : Candidate) : Held (d.purge k x) (d'.purge k x) := by
  refine ⟨SameWords.same_purge h.toSameDict k x, ?_⟩
  have hl := h.less
  have hk := h.kind
  have h1 := h.wf
  have h2 := h.wf'
  obtain ⟨co, kd⟩ := d
  obtain ⟨co', kd'⟩ := d'
  cases kd <;> cases kd' <;> first | exact hk.elim | exact hl | exact less_purge hl h1 h2 k x

/-- The same for lists of dictionaries, one by one. -/
inductive AllHeld : List CskkDict → List CskkDict → Prop where
  | nil : AllHeld [] []
  | cons {d d' ds ds'} : Held d d' → AllHeld ds ds' → AllHeld (d :: ds) (d' :: ds')

theorem AllHeld.same {ds ds' : List CskkDict} (h : AllHeld ds ds') : AllSame ds ds' := by
  induction h with
  | nil => exact .nil
  | cons h1 _ ih => exact .cons h1.toSameDict ih

theorem sim : DictSim AllHeld where
  confirm a b x h := by
    induction h with
    | nil => exact .nil
    | cons h1 _ ih => exact .cons (held_confirm h1 x) ih
  purge a b k x h := by
    induction h with
    | nil => exact .nil
    | cons h1 _ ih => exact .cons (held_purge h1 k x) ih
  getAll _ _ h := SameWords.sim.getAll _ _ h.same
  complete _ _ h := SameWords.sim.complete _ _ h.same
  relookup _ _ h := SameWords.sim.relookup _ _ h.same

theorem held_refl {d : CskkDict} (h : WellFormed (maps d)) : Held d d := ⟨SameWords.same_refl d h, less_refl _⟩

theorem allHeld_refl {ds : List CskkDict} (h : ∀ d ∈ ds, WellFormed (maps d)) : AllHeld ds ds := by
  induction ds with
  | nil => exact .nil
  | cons d ds ih => exact .cons (held_refl (h d (by simp))) (ih fun x hx => h x (by simp [hx]))

theorem sameKind_trans {a b c : DictKind} (h1 : SameKind a b) (h2 : SameKind b c) : SameKind a c := by
  cases a <;> cases b <;> cases c <;> first | exact h1.elim | exact h2.elim | trivial

theorem held_trans {a b c : CskkDict} (h1 : Held a b) (h2 : Held b c) : Held a c :=
  ⟨⟨h2.completable.trans h1.completable, sameKind_trans h1.kind h2.kind, h1.wf, h2.wf', h2.words.trans h1.words⟩, less_trans h1.less h2.less⟩

theorem allHeld_trans {a b c : List CskkDict} (h1 : AllHeld a b) (h2 : AllHeld b c) : AllHeld a c := by
  induction h1 generalizing c with
  | nil => cases h2; exact .nil
  | cons h _ ih => cases h2 with | cons h' t => exact .cons (held_trans h h') (ih t)

theorem kindOf_same {d d' : CskkDict} (h : SameKind d.kind d'.kind) : kindOf d' = kindOf d := by
  unfold kindOf
  cases h1 : d.kind <;> cases h2 : d'.kind <;> rw [h1, h2] at h <;> first | exact h.elim | rfl

theorem allHeld_writable {ds ds' : List CskkDict} (h : AllHeld ds ds') (hw : Writable ds) : Writable ds' := by
  induction h with
  | nil => exact hw
  | cons h1 _ ih =>
    intro x hx hk
    rcases List.mem_cons.mp hx with rfl | hx
    · exact held_plain h1 (hw _ (by simp) (by rw [← kindOf_same h1.kind]; exact hk))
    · exact ih (fun y hy => hw y (by simp [hy])) x hx hk

theorem allHeld_wf {ds ds' : List CskkDict} (h : AllHeld ds ds') : ∀ d ∈ ds', WellFormed (maps d) := by
  induction h with
  | nil => intro d hd; cases hd
  | cons h1 _ ih =>
    intro x hx
    rcases List.mem_cons.mp hx with rfl | hx
    · exact h1.wf'
    · exact ih x hx

/-! ## Saving, reading again and opening -/

theorem saveDict_held (s : Source) (fs : FS) (d : CskkDict) (o : Outcome) (h : WellFormed (maps d)) : Held d (saveDict s fs d o).1 := by
  have hk := Teach.saveDict_kept s fs d o
  refine ⟨⟨?_, ?_, h, by rw [hk.1]; exact h, by rw [hk.1]⟩, by rw [hk.1]; exact less_refl _⟩
  · obtain ⟨co, k⟩ := d
    cases k <;> rfl
  · obtain ⟨co, k⟩ := d
    cases k <;> exact trivial

theorem saveAll_held (ss : List Source) (ds : List CskkDict) (os : Nat → Outcome) (fs : FS) (h : ∀ d ∈ ds, WellFormed (maps d)) :
    AllHeld ds (saveAll ss ds os fs).1 := by
  induction ss generalizing ds os fs with
  | nil => cases ds <;> exact allHeld_refl h
  | cons s ss ih =>
    cases ds with
    | nil => exact .nil
    | cons d ds => exact .cons (saveDict_held s fs d (os 0) (h d (by simp))) (ih ds _ _ fun x hx => h x (by simp [hx]))

theorem saved_less {cd : Codec} {m : DictMaps} (h : PlainDict m) {bs : Bytes} (hs : saveBytes cd m = some bs) : Less m (load cd bs) := by
  rw [DictSave.load_saved cd m bs hs h.wf (Persist.savable_all h) (Persist.plain_ari h)]
  intro o r e' hf
  have hm : (r, e') ∈ DictSave.kept cd (side m o) := by
    have := mem_of_find hf
    cases o <;> exact List.mem_reverse.mp this
  obtain ⟨x, hx, h1, h2⟩ := Persist.kept_mem hm
  have := Persist.find_of_mem (h.wf.keys o) hx
  dsimp only at h1 h2
  subst h1; subst h2
  exact ⟨x.2, this, fun _ => id, id⟩

theorem open_held {fs : FS} {s : Source} {d : CskkDict} (hk : kindOf d = s.wanted) (h : InStep fs s d) (hu : ¬ Unsaved d)
    (ht : Persist.Total s.cd) (hw : WellFormed (maps d)) (hp : kindOf d = .user → PlainDict (maps d)) :
    ∃ d', openDict fs s = some d' ∧ Held d d' ∧ reloadDict fs s d = d' := by
  obtain ⟨d', h1, h2⟩ := Session.open_same hk h hu ht hw hp
  refine ⟨d', h1, ⟨h2, ?_⟩, ?_⟩
  all_goals
    obtain ⟨co, k⟩ := d
    have hc := h.completable
    cases k with
    | empty =>
      have hk : Wanted.empty = s.wanted := hk
      rw [← hk] at hc
      have hc : co = false := hc
      subst hc
      unfold openDict at h1
      rw [← hk] at h1
      cases h1
      first | exact less_refl _ | rfl
    | static m =>
      have hk : Wanted.static = s.wanted := hk
      rw [← hk] at hc
      have hc : co = s.completable := hc
      obtain ⟨bs, hb, hm⟩ := h.static m rfl
      unfold openDict at h1
      rw [← hk, hb] at h1
      cases h1
      first
        | (show Less m (load s.cd bs); rw [hm]; exact less_refl _)
        | (unfold reloadDict reload; simp only [hb]; rw [← hc])
    | user m b =>
      have hk : Wanted.user = s.wanted := hk
      rw [← hk] at hc
      have hc : co = s.completable := hc
      cases b with
      | true => exact absurd ⟨m, rfl⟩ hu
      | false =>
        obtain ⟨bs, hb, hm⟩ := h.saved m rfl
        unfold openDict DictFile.new at h1
        rw [← hk, hb] at h1
        cases h1
        have hp : PlainDict m := hp rfl
        first
          | (show Less m (load s.cd bs)
             rcases hm with hm | hm
             · rw [← hm]; exact less_refl _
             · exact saved_less hp hm)
          | (unfold reloadDict reload; simp only [hb]; subst hc; rfl)

theorem openAll_held {fs : FS} {ss : List Source} {ds : List CskkDict} (h : AllInStep ss fs ds) (hu : ∀ d ∈ ds, ¬ Unsaved d)
    (ht : ∀ s ∈ ss, Persist.Total s.cd) (hw : ∀ d ∈ ds, WellFormed (maps d)) (hp : Writable ds) :
    ∃ ds', openAll fs ss = some ds' ∧ AllHeld ds ds' ∧ reloadAll fs ss ds = ds' := by
  induction ss generalizing ds with
  | nil =>
    have := Session.fits_length h.fits
    cases ds with
    | nil => exact ⟨[], rfl, .nil, rfl⟩
    | cons => cases this
  | cons s ss ih =>
    cases ds with
    | nil => cases Session.fits_length h.fits
    | cons d ds =>
      have hf := h.fits
      unfold Fits at hf
      rw [List.map_cons, List.map_cons, List.cons.injEq] at hf
      obtain ⟨d', h1, h2, h5⟩ := open_held hf.1 (h.each 0 s d rfl rfl) (hu d (by simp)) (ht s (by simp)) (hw d (by simp)) (hp d (by simp))
      obtain ⟨ds', h3, h4, h6⟩ := ih (ds := ds) ⟨hf.2, fun i s d h1 h2 => h.each (i + 1) s d h1 h2⟩ (fun d hd => hu d (by simp [hd]))
        (fun d hd => ht d (by simp [hd])) (fun d hd => hw d (by simp [hd])) (fun d hd => hp d (by simp [hd]))
      refine ⟨d' :: ds', by unfold openAll; simp [h1, h3], .cons h2 h4, ?_⟩
      show reloadDict fs s d :: reloadAll fs ss ds = _
      rw [h5, h6]

/-! ## One chapter -/

section
variable {pr : Bool} {ss : List Source}

/-- The engine, with the files, stands for the machine: but for the layout of its dictionaries it is a context which stands for the machine, its dictionaries
hold the same words and no more, and they are in step with the files. -/
def Stands (pr : Bool) (ss : List Source) (s : Ctx × FS) (Z : Seat) : Prop := ∃ c, At pr c Z ∧ Twin AllHeld c s.1 ∧ AllInStep ss s.2 s.1.dicts

theorem twin_dicts {c c' : Ctx} (h : Twin AllHeld c c') : AllHeld c.dicts c'.dicts := by
  obtain ⟨ds, rfl, hs⟩ := h
  exact hs

theorem twin_answers {e : Env} {c c' : Ctx} (h : Twin AllHeld c c') (x : Spec.Machine.Act) {ans : Answer} (ha : answered e c x = .ok ans) : answered e c' x = .ok ans := by
  cases x with
  | key k =>
    have h1 := sim.processKeyEvent (e := e) h k.event
    simp only [answered] at ha ⊢
    cases hk : c.processKeyEvent e k.event with
    | error p => rw [hk] at ha; cases ha
    | ok r =>
      rw [hk] at h1 ha
      cases hk' : c'.processKeyEvent e k.event with
      | error p => rw [hk'] at h1; exact h1.elim
      | ok r' =>
        rw [hk'] at h1
        have : r'.2 = r.2 := h1.2
        simp only [bind, Except.bind, pure, Except.pure] at ha ⊢
        rw [this]; exact ha
  | poll =>
    have hd := twin_dicts h
    obtain ⟨ds, rfl, hs⟩ := h
    have := (SameWords.same_observations e c { c with dicts := ds } ⟨rfl, hs.same⟩).2.2.1
    unfold answered at ha ⊢
    rw [this]; exact ha
  | select n =>
    obtain ⟨ds, rfl, hs⟩ := h
    simp only [answered] at ha ⊢
    rw [← ha]
    unfold Ctx.selectCandidateAt
    dsimp only
    split
    · rfl
    · split
      · rfl
      · split <;> rfl
  | confirm n =>
    obtain ⟨ds, rfl, hs⟩ := h
    simp only [answered] at ha ⊢
    rw [← ha]
    unfold Ctx.confirmCandidateAt
    dsimp only
    split <;> rfl
  | _ => exact ha

theorem twin_seen {e : Env} {c c' : Ctx} (h : Twin AllHeld c c') : seen e c' = seen e c := by
  obtain ⟨ds, rfl, hs⟩ := h
  rfl

theorem keeps_op {x : Spec.Machine.Act} (h : Keeps x) : DictSim.OpSim AllHeld (call x) (call x) ∧ Ordinary (.call (call x)) := by
  cases x <;> first | exact h.elim | exact ⟨rfl, trivial⟩

theorem save_stands (ha : Apart ss) (hsa : StaticApart ss) {s : Ctx × FS} {Z : Seat} (h : Stands pr ss s Z) {os : Nat → Outcome}
    (ho : ∀ i, os i ≠ .createFails) : Stands pr ss ({ s.1 with dicts := (saveAll ss s.1.dicts os s.2).1 }, (saveAll ss s.1.dicts os s.2).2) Z := by
  obtain ⟨c, h1, h2, h3⟩ := h
  refine ⟨c, h1, ?_, Session.save_inStep h3 ha hsa os ho⟩
  obtain ⟨ds, hd, hs⟩ := h2
  refine ⟨(saveAll ss s.1.dicts os s.2).1, ?_, allHeld_trans hs ?_⟩
  · show ({ s.1 with dicts := _ } : Ctx) = _
    generalize (saveAll ss s.1.dicts os s.2).1 = x
    rw [hd]
  · rw [hd]; exact saveAll_held ss ds os s.2 (allHeld_wf hs)

/-- What is told of a chapter happens. -/
theorem told_happens (ha : Apart ss) (hsa : StaticApart ss) (ht : ∀ s ∈ ss, Persist.Total s.cd) {Z Z' : Seat} {l : List Event} {got : List (Answer × View)}
    (hl : Told pr Z l Z' got) : ∀ {s : Ctx × FS}, Stands pr ss s Z → ∃ s', happens (Assets.env ⟨pr⟩) ss s l = .ok (s', got) ∧ Stands pr ss s' Z' := by
  induction hl with
  | done Z => intro s h; exact ⟨s, rfl, h⟩
  | act hk hx hl ih =>
    intro s h
    obtain ⟨c, h1, h2, h3⟩ := h
    obtain ⟨g0, c1, g1, g2⟩ := act_goes h1 hx
    obtain ⟨o1, o2⟩ := keeps_op hk
    have hb := sim.step (e := Assets.env ⟨pr⟩) h2 o1
    rw [g1] at hb
    rename_i x ans l got
    cases hc : s.1.step (Assets.env ⟨pr⟩) (call x) with
    | error p => rw [hc] at hb; exact hb.elim
    | ok c' =>
      rw [hc] at hb
      obtain ⟨s', i1, i2⟩ := ih (s := (c', s.2)) ⟨c1, g2, hb, Session.call_inStep h3 (call x) o2 hc⟩
      refine ⟨s', ?_, i2⟩
      unfold happens
      rw [twin_answers h2 x g0, hc]
      simp only [bind, Except.bind, pure, Except.pure, i1, twin_seen hb, view_seen g2]
  | save ho hl ih =>
    intro s h
    obtain ⟨s', i1, i2⟩ := ih (save_stands ha hsa h ho)
    exact ⟨s', i1, i2⟩
  | refresh hw hl ih =>
    intro s h
    have h4 := save_stands ha hsa h (os := fun _ => .completes) (fun _ => by decide)
    obtain ⟨c, h1, h2, h3⟩ := h4
    have hd := twin_dicts h2
    have hu := Session.save_completes ss s.2 s.1.dicts (by obtain ⟨_, _, _, h⟩ := h; exact h) ha ht
    obtain ⟨ds', k1, k2, k3⟩ := openAll_held h3 hu ht (allHeld_wf hd) (allHeld_writable hd (by rw [h1.rel.dicts]; exact hw))
    obtain ⟨s', i1, i2⟩ := ih (s := ({ s.1 with dicts := ds' }, (saveAll ss s.1.dicts (fun _ => .completes) s.2).2)) ⟨c, h1, by
      obtain ⟨ds, e1, e2⟩ := h2
      refine ⟨ds', ?_, allHeld_trans hd k2⟩
      have : s.1 = { c with dicts := s.1.dicts } := by
        have e1 := congrArg (fun x : Ctx => { x with dicts := s.1.dicts }) e1
        exact e1
      show ({ s.1 with dicts := ds' } : Ctx) = _
      rw [this], Session.openAll_inStep k1⟩
    refine ⟨s', ?_, i2⟩
    unfold happens
    simp only [actAll, act, bind, Except.bind]
    rw [show reloadAll _ ss _ = ds' from k3]
    exact i1

theorem happens_append (e : Env) (s : Ctx × FS) (l l' : List Event) :
    happens e ss s (l ++ l') = (do let r ← happens e ss s l; let r' ← happens e ss r.1 l'; return (r'.1, r.2 ++ r'.2)) := by
  induction l generalizing s with
  | nil =>
    show happens e ss s l' = _
    simp only [happens, bind, Except.bind, pure, Except.pure, List.nil_append]
    cases happens e ss s l' <;> rfl
  | cons x l ih =>
    cases x with
    | act x =>
      simp only [List.cons_append, happens, bind, Except.bind, pure, Except.pure] at ih ⊢
      cases answered e s.1 x with
      | error p => rfl
      | ok ans =>
        simp only
        cases s.1.step e (call x) with
        | error p => rfl
        | ok c =>
          simp only [ih]
          cases happens e ss (c, s.2) l with
          | error p => rfl
          | ok r =>
            simp only
            cases happens e ss r.1 l' <;> rfl
    | save os => exact ih _
    | refresh => exact ih _

end

/-! ## The whole life -/

/-- **C81.** A user lives with the engine: programs with any shipped rule, configuration and input mode open the user's dictionaries, are used, save at any time
(the disk may refuse), read the dictionaries again, save at the end and end. Whatever the machine, which knows nothing of files and never forgets a word,
says about the life is what is answered and shown in it, from the first program to the last, and no program fails; and the files in the end hold the words the
machine knows in the end. (As long as the words are such as a dictionary file can hold, and no file is lost.) -/
theorem life_told (pr : Bool) (ss : List Source) (fs : FS) (ds ds' : List CskkDict) (ho : openAll fs ss = some ds) (hw : ∀ d ∈ ds, WellFormed (maps d))
    (ha : Apart ss) (hsa : StaticApart ss) (ht : ∀ s ∈ ss, Persist.Total s.cd) (l : List Chapter) (gots : List (List (Answer × View)))
    (hl : Lived pr ds l ds' gots) :
    ∃ fs' ds'', lives (Assets.env ⟨pr⟩) ss fs l = some (fs', gots) ∧ openAll fs' ss = some ds'' ∧ AllSame ds' ds'' := by
  suffices key : ∀ {ds ds' : List CskkDict} {l : List Chapter} {gots : List (List (Answer × View))}, Lived pr ds l ds' gots → ∀ (fs : FS) (dsE : List CskkDict),
      openAll fs ss = some dsE → AllHeld ds dsE →
      ∃ fs' ds'', lives (Assets.env ⟨pr⟩) ss fs l = some (fs', gots) ∧ openAll fs' ss = some ds'' ∧ AllSame ds' ds'' from
    key hl fs ds ho (allHeld_refl hw)
  intro ds ds' l gots hl
  induction hl with
  | done ds => intro fs dsE ho hs; exact ⟨fs, dsE, rfl, ho, hs.same⟩
  | chapter htold hwr _ ih =>
    intro fs dsE ho hs
    rename_i ds ds' x Z l got gots _
    obtain ⟨s', i1, i2⟩ := told_happens ha hsa ht htold (s := (fresh x.azik x.config x.mode dsE, fs))
      ⟨fresh x.azik x.config x.mode ds, fresh_at pr x.azik x.config x.mode ds, ⟨dsE, rfl, hs⟩, Session.openAll_inStep ho⟩
    have h4 := save_stands ha hsa i2 (os := fun _ => .completes) (fun _ => by decide)
    obtain ⟨c, h1, h2, h3⟩ := h4
    have hd := twin_dicts h2
    have hu := Session.save_completes ss s'.2 s'.1.dicts (by obtain ⟨_, _, _, h⟩ := i2; exact h) ha ht
    have hdz : c.dicts = Z.desk.dicts := h1.rel.dicts
    obtain ⟨ds1, k1, k2, -⟩ := openAll_held h3 hu ht (allHeld_wf hd) (allHeld_writable hd (by rw [hdz]; exact hwr))
    obtain ⟨fs', ds'', j1, j2, j3⟩ := ih _ ds1 k1 (by rw [← hdz]; exact allHeld_trans hd k2)
    refine ⟨fs', ds'', ?_, j2, j3⟩
    unfold lives
    rw [ho]
    simp only [Option.bind_eq_bind, Option.bind_some, happens_append, i1]
    simp only [happens, act, bind, Except.bind, pure, Except.pure, Option.bind_some, Except.toOption, j1, List.append_nil]

/-! ## The hypotheses are met -/

theorem told_acts {pr : Bool} (l : List Spec.Machine.Act) (hk : ∀ x ∈ l, Keeps x) {Z Z' Z'' : Seat} {got got' : List (Answer × View)} {es : List Event}
    (hl : Z.use (shipped pr) (names pr) l = some (Z', got)) (ht : Told pr Z' es Z'' got') : Told pr Z (l.map .act ++ es) Z'' (got ++ got') := by
  induction l generalizing Z got with
  | nil =>
    injection hl with hl; injection hl with h1 h2
    subst h1; subst h2
    exact ht
  | cons x l ih =>
    unfold Seat.use at hl
    cases hx : Z.act (shipped pr) x with
    | none => rw [hx] at hl; cases hl
    | some r =>
      rw [hx] at hl
      obtain ⟨Z1, ans⟩ := r
      simp only [Option.bind_some, Option.map_eq_some_iff] at hl
      obtain ⟨⟨Z2, rest⟩, hu, hl⟩ := hl
      injection hl with h1 h2
      dsimp only at h1 h2
      subst h1; subst h2
      exact .act (hk x (by simp)) hx (ih (fun y hy => hk y (by simp [hy])) hu)

/-- The first program: 愛 is confirmed, a save stops half-way, ブック is registered for ほん, a save is refused. -/
def morning : List Spec.Machine.Act := Machine.keys c%"Ai " ++ [.key .enter]
def noon : List Spec.Machine.Act := Machine.keys c%"Hon qbukku" ++ [.key .enter, .poll]

/-- The second program, with the AZIK rule and katakana: あい and ほん are typed and converted, in between the dictionaries are read again. -/
def evening : List Spec.Machine.Act := Machine.keys c%"Ai " ++ [.key .ctrlJ]
def night : List Spec.Machine.Act := Machine.keys c%"Hoq "

def chapters : List Chapter :=
  [⟨false, Config.default, .hiragana, morning.map .act ++ (.save fun _ => .stops 40) :: (noon.map .act ++ [.save fun _ => .renameFails])⟩,
   ⟨true, Config.default, .katakana, evening.map .act ++ .refresh :: (night.map .act ++ [])⟩]

/-- What the user has learned after the first program, and after the second. -/
def known : DictMaps := ((⟨[], []⟩ : DictMaps).select Persist.ai).select (Spec.Teach.taught c%"ほん" c%"ブック")
def known' : DictMaps := known.select Persist.ai

theorem empty_plain : PlainDict ⟨[], []⟩ := by
  have h := Persist.empty_file_plain.1
  have : load Utf8.utf8 [] = ⟨[], []⟩ := by decide +kernel
  rwa [this] at h

theorem known_plain : PlainDict known ∧ PlainDict known' := by
  have h : PlainDict known := Persist.plain_select (Persist.plain_select empty_plain Persist.ai_plain) Teach.taught_plain
  exact ⟨h, Persist.plain_select h Persist.ai_plain⟩

theorem shelf_writable {m : DictMaps} {b : Bool} (h : PlainDict m) : Writable [⟨true, .user m b⟩, ⟨true, .static Session.learnt⟩, ⟨false, .empty⟩] := by
  intro d hd hk
  simp only [List.mem_cons, List.not_mem_nil, or_false] at hd
  rcases hd with rfl | rfl | rfl
  · exact h
  · cases hk
  · cases hk

/-- A part of a chapter: what the machine shows, and the dictionaries after it. -/
theorem part {azik : Bool} {m : InputMode} {ds ds' : List CskkDict} {l : List Spec.Machine.Act} {shows : List Str}
    (h : (((start azik Config.default m ds).use (shipped true) (names true) l).map fun r => (r.2.map (·.2.line), r.1.desk.dicts)) = some (shows, ds')) :
    ∃ Z got, (start azik Config.default m ds).use (shipped true) (names true) l = some (Z, got) ∧ got.map (·.2.line) = shows ∧ Z.desk.dicts = ds' := by
  obtain ⟨⟨Z, got⟩, h1, h2⟩ := Option.map_eq_some_iff.mp h
  injection h2 with h2 h3
  exact ⟨Z, got, h1, h2, h3⟩

theorem use_append {pr : Bool} (l l' : List Spec.Machine.Act) : ∀ {Z : Seat} {r : Seat × List (Answer × View)}, Z.use (shipped pr) (names pr) (l ++ l') = some r →
    ∃ Z1 g1 g2, Z.use (shipped pr) (names pr) l = some (Z1, g1) ∧ Z1.use (shipped pr) (names pr) l' = some (r.1, g2) ∧ r.2 = g1 ++ g2 := by
  induction l with
  | nil => intro Z r h; exact ⟨Z, [], r.2, rfl, h, rfl⟩
  | cons x l ih =>
    intro Z r h
    rw [List.cons_append] at h
    unfold Seat.use at h
    cases hx : Z.act (shipped pr) x with
    | none => rw [hx] at h; cases h
    | some q =>
      rw [hx] at h
      simp only [Option.bind_some, Option.map_eq_some_iff] at h
      obtain ⟨⟨Z2, rest⟩, hu, h⟩ := h
      obtain ⟨Z1, g1, g2, i1, i2, i3⟩ := ih hu
      subst h
      refine ⟨Z1, (q.2, q.1.desk.view (shipped pr q.1.azik q.1.config) (names pr)) :: g1, g2, ?_, i2, ?_⟩
      · unfold Seat.use
        rw [hx]
        simp only [Option.bind_some, i1, Option.map_some]
      · show _ :: rest = _
        dsimp only at i3
        rw [i3]; rfl

/-- The theorem applied: what is shown in the two programs, the second of which knows what was learned in the first. -/
theorem life_seen : ∃ fs' gots, lives (Assets.env ⟨true⟩) Session.sources Session.files chapters = some (fs', gots) ∧
    gots.map (·.map (·.2.line)) =
      [[c%"▽あ", c%"▽あい", c%"▼愛", c%"愛", c%"愛▽h", c%"愛▽ほ", c%"愛▽ほn", c%"▼ほん【】", c%"▼ほん【】", c%"▼ほん【b】", c%"▼ほん【ブ】", c%"▼ほん【ブk】",
        c%"▼ほん【ブッk】", c%"▼ほん【ブック】", c%"愛ブック", []],
       [c%"▽ア", c%"▽アイ", c%"▼愛", c%"愛", c%"愛▽h", c%"愛▽ホ", c%"愛▽ホン", c%"愛▼ブック"]] := by
  obtain ⟨Z, got, h1, h2, h3⟩ := part (azik := false) (m := .hiragana) (ds := Session.openedDicts) (l := morning ++ noon)
    (ds' := [⟨true, .user known true⟩, ⟨true, .static Session.learnt⟩, ⟨false, .empty⟩])
    (shows := [c%"▽あ", c%"▽あい", c%"▼愛", c%"愛", c%"愛▽h", c%"愛▽ほ", c%"愛▽ほn", c%"▼ほん【】", c%"▼ほん【】", c%"▼ほん【b】", c%"▼ほん【ブ】", c%"▼ほん【ブk】",
        c%"▼ほん【ブッk】", c%"▼ほん【ブック】", c%"愛ブック", []]) (by decide +kernel)
  obtain ⟨Z', got', k1, k2, k3⟩ := part (azik := true) (m := .katakana) (ds := [⟨true, .user known true⟩, ⟨true, .static Session.learnt⟩, ⟨false, .empty⟩])
    (l := evening ++ night) (ds' := [⟨true, .user known' true⟩, ⟨true, .static Session.learnt⟩, ⟨false, .empty⟩])
    (shows := [c%"▽ア", c%"▽アイ", c%"▼愛", c%"愛", c%"愛▽h", c%"愛▽ホ", c%"愛▽ホン", c%"愛▼ブック"]) (by decide +kernel)
  have hm : ((start true Config.default .katakana [⟨true, .user known true⟩, ⟨true, .static Session.learnt⟩, ⟨false, .empty⟩]).use (shipped true) (names true)
      evening).map (fun r => r.1.desk.dicts) = some [⟨true, .user known' true⟩, ⟨true, .static Session.learnt⟩, ⟨false, .empty⟩] := by decide +kernel
  obtain ⟨Z1, g1, g2, a1, a2, a3⟩ := use_append morning noon h1
  obtain ⟨Z2, g3, g4, b1, b2, b3⟩ := use_append evening night k1
  dsimp only at a2 a3 b2 b3
  rw [b1] at hm
  injection hm with hm
  dsimp only at hm
  have keeps : ∀ (t : Str) (l : List Spec.Machine.Act), (∀ x ∈ l, Keeps x) → ∀ x ∈ Machine.keys t ++ l, Keeps x := by
    intro t l hl x hx
    rcases List.mem_append.mp hx with hx | hx
    · obtain ⟨ch, -, rfl⟩ := List.mem_map.mp hx
      trivial
    · exact hl x hx
  have t1 : Told true (start false Config.default .hiragana Session.openedDicts) chapters[0].events Z got := by
    rw [a3, ← List.append_nil g2]
    refine told_acts morning (keeps _ _ (by intro x hx; simp at hx; subst hx; trivial)) a1 (.save (fun _ h => Outcome.noConfusion h) ?_)
    exact told_acts noon (keeps _ _ (by intro x hx; simp at hx; rcases hx with rfl | rfl <;> trivial)) a2 (.save (fun _ h => Outcome.noConfusion h) (.done Z))
  have t2 : Told true (start true Config.default .katakana [⟨true, .user known true⟩, ⟨true, .static Session.learnt⟩, ⟨false, .empty⟩]) chapters[1].events Z' got' := by
    rw [b3, ← List.append_nil g4]
    refine told_acts evening (keeps _ _ (by intro x hx; simp at hx; subst hx; trivial)) b1 (.refresh (by rw [hm]; exact shelf_writable known_plain.2) ?_)
    exact told_acts night (fun x hx => keeps _ [] (by intro x hx; cases hx) x (by rw [List.append_nil]; exact hx)) b2 (.done Z')
  have hlife : Lived true Session.openedDicts chapters Z'.desk.dicts [got, got'] :=
    .chapter t1 (by rw [h3]; exact shelf_writable known_plain.1) (by rw [h3]; exact .chapter t2 (by rw [k3]; exact shelf_writable known_plain.2) (.done _))
  have hopen : openAll Session.files Session.sources = some Session.openedDicts := Session.sample_end.1
  have hod : Session.openedDicts = [⟨true, .user ⟨[], []⟩ false⟩, ⟨true, .static Session.learnt⟩, ⟨false, .empty⟩] := by decide +kernel
  obtain ⟨fs', ds'', r1, -, -⟩ := life_told true Session.sources Session.files Session.openedDicts _ hopen
    (by intro d hd
        rw [hod] at hd
        simp only [List.mem_cons, List.not_mem_nil, or_false] at hd
        rcases hd with rfl | rfl | rfl
        · exact empty_plain.wf
        · exact Session.learnt_plain.wf
        · exact empty_plain.wf)
    Session.sources_apart.1 Session.sources_apart.2
    (by intro s hm
        have : s = Session.userFile c%"d" ∨ s = ⟨c%"jisyo", Utf8.utf8, true, .static⟩ ∨ s = ⟨[], Utf8.utf8, true, .empty⟩ := by simpa [Session.sources] using hm
        rcases this with rfl | rfl | rfl <;> exact Persist.total_utf8)
    chapters [got, got'] hlife
  exact ⟨fs', [got, got'], r1, by simp only [List.map_cons, List.map_nil, h2, k2]⟩

end Cskk.Props.Life
