import Verif.Spec.Years
import Verif.Props.Life

/-!
# C85: years with several contexts which share dictionaries
-/

namespace Cskk.Props.Years
open Cskk Cskk.Spec.Machine Cskk.Spec.Office Cskk.Spec.Years Cskk.Spec.Session Cskk.Spec.SameWords Cskk.Spec.Persist Cskk.DictFile Cskk.Session
open Cskk.Spec.UserDict (WellFormed)
open Cskk.Props.UserDict (maps)
open Cskk.Props.Machine (shipped names start fresh call answered seen At act_goes view_seen fresh_at)
open Cskk.Props.Office (opening world told replied)
open Cskk.Props.Life (Held AllHeld sim allHeld_wf allHeld_writable held_trans saveAll_held openAll_held twin_answers twin_seen keeps_op)
open Cskk.World (sourceOf shelfOf written)
open Cskk.Spec.Life (Keeps Writable)

/-! ## Dictionaries on a shelf -/

theorem allHeld_map {f g : Nat → CskkDict} (h : ∀ d, Held (f d) (g d)) (ids : List Nat) : AllHeld (ids.map f) (ids.map g) := by
  induction ids with
  | nil => exact .nil
  | cons a l ih => exact .cons (h a) ih

theorem written_held {st st' : Nat → CskkDict} (h : ∀ d, Held (st d) (st' d)) : ∀ {ids : List Nat} {ds ds' : List CskkDict}, AllHeld ds ds' →
    ∀ d, Held (written ids ds st d) (written ids ds' st' d) := by
  intro ids
  induction ids with
  | nil => intro ds ds' hs d; cases hs <;> exact h d
  | cons a l ih =>
    intro ds ds' hs d
    cases hs with
    | nil => exact h d
    | cons h1 h2 =>
      unfold written
      split
      · exact h1
      · exact ih h2 d

theorem written_each {st : Nat → CskkDict} : ∀ {P : Nat → CskkDict → Prop} {ids : List Nat} {ds : List CskkDict}, ids.length = ds.length →
    (∀ (k d : Nat) (x : CskkDict), ids[k]? = some d → ds[k]? = some x → P d x) → (∀ d, d ∉ ids → P d (st d)) → ∀ d, P d (written ids ds st d) := by
  intro P ids
  induction ids generalizing P with
  | nil =>
    intro ds _ _ h d
    cases ds <;> exact h d (by simp)
  | cons a l ih =>
    intro ds hl h1 h2 d
    cases ds with
    | nil => cases hl
    | cons x ds =>
      unfold written
      split
      · rename_i hd; subst hd; exact h1 0 d x rfl rfl
      · rename_i hd
        refine ih (P := fun d' x => d' = d → P d' x) (by simpa using hl) (fun k d' x' e1 e2 _ => h1 (k + 1) d' x' e1 e2) (fun d' hd' e => h2 d' ?_) d rfl
        intro hm
        rcases List.mem_cons.mp hm with rfl | hm
        · exact hd e.symm
        · exact hd' hm

theorem written_mem {P : Nat → CskkDict → Prop} {st : Nat → CskkDict} {ids : List Nat} {ds : List CskkDict} (hl : ids.length = ds.length)
    (h1 : ∀ (k d : Nat) (x : CskkDict), ids[k]? = some d → ds[k]? = some x → P d x) {d : Nat} (hd : d ∈ ids) : P d (written ids ds st d) :=
  written_each (P := fun d x => d ∈ ids → P d x) hl (fun k d x e1 e2 _ => h1 k d x e1 e2) (fun _ h h' => absurd h' h) d hd

theorem written_same {st : Nat → CskkDict} (ids : List Nat) (d : Nat) : written ids (ids.map st) st d = st d :=
  written_each (P := fun d x => x = st d) (by simp)
    (by intro k d x e1 e2; rw [List.getElem?_map, e1] at e2; exact (Option.some.inj e2).symm) (fun _ _ => rfl) d

/-! ## The files of the shelf -/

theorem source_some {ss : List Source} {d : Nat} (h : (sourceOf ss d).wanted ≠ .empty) : ss[d]? = some (sourceOf ss d) := by
  unfold sourceOf at h ⊢
  cases hs : ss[d]? with
  | none => rw [hs] at h; exact absurd rfl h
  | some s => rfl

theorem sources_apart {ss : List Source} (ha : Apart ss) {ids : List Nat} (hn : ids.Nodup) : Apart (ids.map (sourceOf ss)) := by
  intro i j a b hij h1 h2 ua ub
  rw [List.getElem?_map] at h1 h2
  obtain ⟨d, hd, rfl⟩ := Option.map_eq_some_iff.mp h1
  obtain ⟨d', hd', rfl⟩ := Option.map_eq_some_iff.mp h2
  have hne : d ≠ d' := by
    rintro rfl
    obtain ⟨hi, e1⟩ := List.getElem?_eq_some_iff.mp hd
    obtain ⟨hj, e2⟩ := List.getElem?_eq_some_iff.mp hd'
    exact hij ((List.getElem_inj hn).mp (e1.trans e2.symm))
  exact ha d d' _ _ hne (source_some (by rw [ua]; decide)) (source_some (by rw [ub]; decide)) ua ub

theorem sources_static {ss : List Source} (ha : StaticApart ss) (ids : List Nat) : StaticApart (ids.map (sourceOf ss)) := by
  intro a h1 b h2 ua ub
  obtain ⟨d, _, rfl⟩ := List.mem_map.mp h1
  obtain ⟨d', _, rfl⟩ := List.mem_map.mp h2
  exact ha _ (List.mem_of_getElem? (source_some (by rw [ua]; decide))) _ (List.mem_of_getElem? (source_some (by rw [ub]; decide))) ua ub

theorem sources_total {ss : List Source} (ht : ∀ s ∈ ss, Persist.Total s.cd) (d : Nat) : Persist.Total (sourceOf ss d).cd := by
  unfold sourceOf
  cases hs : ss[d]? with
  | none => exact Persist.total_utf8
  | some s => exact ht s (List.mem_of_getElem? hs)

/-- Every dictionary on the shelf is in step with its file. -/
def Shelved (ss : List Source) (fs : FS) (st : Nat → CskkDict) : Prop := ∀ d, kindOf (st d) = (sourceOf ss d).wanted ∧ InStep fs (sourceOf ss d) (st d)

theorem shelved_list {ss : List Source} {fs : FS} {st : Nat → CskkDict} (h : Shelved ss fs st) (ids : List Nat) : AllInStep (ids.map (sourceOf ss)) fs (ids.map st) := by
  refine ⟨?_, ?_⟩
  · unfold Fits
    rw [List.map_map, List.map_map]
    exact List.map_congr_left fun d _ => (h d).1
  · intro i s d h1 h2
    rw [List.getElem?_map] at h1 h2
    obtain ⟨a, ha, rfl⟩ := Option.map_eq_some_iff.mp h1
    obtain ⟨b, hb, rfl⟩ := Option.map_eq_some_iff.mp h2
    rw [ha] at hb
    injection hb with hb
    subst hb
    exact (h a).2

theorem list_at {ss : List Source} {fs : FS} {ids : List Nat} {ds : List CskkDict} (h : AllInStep (ids.map (sourceOf ss)) fs ds) {k d : Nat} {x : CskkDict}
    (h1 : ids[k]? = some d) (h2 : ds[k]? = some x) : kindOf x = (sourceOf ss d).wanted ∧ InStep fs (sourceOf ss d) x := by
  have hs : (ids.map (sourceOf ss))[k]? = some (sourceOf ss d) := by rw [List.getElem?_map, h1]; rfl
  exact ⟨Session.fits_at h.fits hs h2, h.each k _ _ hs h2⟩

theorem list_length {ss : List Source} {fs : FS} {ids : List Nat} {ds : List CskkDict} (h : AllInStep (ids.map (sourceOf ss)) fs ds) : ids.length = ds.length := by
  have := Session.fits_length h.fits
  simpa using this.symm

theorem inStep_frame {fs fs' : FS} {s : Source} {x : CskkDict} (hk : kindOf x ≠ .empty → fs' s.path = fs s.path) (h : InStep fs s x) : InStep fs' s x := by
  refine ⟨h.completable, ?_, ?_, ?_⟩
  · intro m hm
    rw [hk (by unfold kindOf; rw [hm]; nofun)]; exact h.static m hm
  · intro m hm
    rw [hk (by unfold kindOf; rw [hm]; nofun)]; exact h.saved m hm
  · intro hu
    rw [hk (by rw [hu]; nofun)]; exact h.file hu

theorem call_shelved {ss : List Source} {fs : FS} {st : Nat → CskkDict} (h : Shelved ss fs st) {ids : List Nat} {ds : List CskkDict}
    (hs : AllInStep (ids.map (sourceOf ss)) fs ds) : Shelved ss fs (written ids ds st) :=
  written_each (P := fun d x => kindOf x = (sourceOf ss d).wanted ∧ InStep fs (sourceOf ss d) x) (list_length hs) (fun _ _ _ h1 h2 => list_at hs h1 h2) (fun d _ => h d)

theorem save_shelved {ss : List Source} (ha : Apart ss) (hsa : StaticApart ss) {fs : FS} {st : Nat → CskkDict} (h : Shelved ss fs st) {ids : List Nat} (hn : ids.Nodup)
    (os : Nat → Outcome) (ho : ∀ i, os i ≠ .createFails) :
    Shelved ss (saveAll (ids.map (sourceOf ss)) (ids.map st) os fs).2 (written ids (saveAll (ids.map (sourceOf ss)) (ids.map st) os fs).1 st) := by
  have hl := shelved_list h ids
  have hs := Session.save_inStep hl (sources_apart ha hn) (sources_static hsa ids) os ho
  refine written_each (P := fun d x => kindOf x = (sourceOf ss d).wanted ∧ InStep (saveAll (ids.map (sourceOf ss)) (ids.map st) os fs).2 (sourceOf ss d) x) (list_length hs)
    (fun _ _ _ h1 h2 => list_at hs h1 h2) ?_
  intro d hd
  refine ⟨(h d).1, inStep_frame ?_ (h d).2⟩
  intro hk
  rw [(h d).1] at hk
  refine Session.saveAll_frame _ _ _ _ _ hl.fits ?_
  intro a hm ua
  obtain ⟨d', hd', rfl⟩ := List.mem_map.mp hm
  have e1 := source_some hk
  have e2 := source_some (ss := ss) (d := d') (by rw [ua]; decide)
  cases hw : (sourceOf ss d).wanted with
  | empty => exact absurd hw hk
  | static => exact hsa _ (List.mem_of_getElem? e1) _ (List.mem_of_getElem? e2) hw ua
  | user => exact ha d d' _ _ (fun e => hd (e ▸ hd')) e1 e2 hw ua

/-! ## Saved dictionaries -/

theorem saveAll_from (ss : List Source) : ∀ (ds : List CskkDict) (os : Nat → Outcome) (fs : FS) (k : Nat) (x' : CskkDict), (saveAll ss ds os fs).1[k]? = some x' →
    ∃ x, ds[k]? = some x ∧ (¬ Unsaved x → ¬ Unsaved x') := by
  induction ss with
  | nil => intro ds os fs k x' h; exact ⟨x', by cases ds <;> exact h, id⟩
  | cons s ss ih =>
    intro ds os fs k x' h
    cases ds with
    | nil => exact ⟨x', h, id⟩
    | cons d ds =>
      cases k with
      | succ k => exact ih ds _ _ k x' h
      | zero =>
        refine ⟨d, rfl, ?_⟩
        have h : some (saveDict s fs d (os 0)).1 = some x' := h
        injection h with h
        subst h
        intro hu ⟨m, hm⟩
        obtain ⟨co, kd⟩ := d
        cases kd with
        | user m' b =>
          cases b with
          | true => exact hu ⟨m', rfl⟩
          | false =>
            have : (saveDict s fs ⟨co, .user m' false⟩ (os 0)).1.kind = .user m' false := rfl
            rw [this] at hm
            cases hm
        | _ => cases hm

/-! ## One day -/

section
variable {pr : Bool} {ss : List Source}

/-- The contexts, with the files, stand for the machines: but for the layout of the dictionaries they are contexts which do, the dictionaries hold the same words and no
more, and they are in step with the files. -/
structure Stands (pr : Bool) (ss : List Source) (s : World × FS) (O : Office) (w : World) : Prop where
  machines : Office.Stands pr w O
  held : ∀ d, Held (w.store d) (s.1.store d)
  ids : ∀ i, (s.1.clients i).ids = (w.clients i).ids
  nodup : ∀ i, ((w.clients i).ids).Nodup
  ctx : ∀ i, ∃ ds, (s.1.clients i).ctx = { (w.clients i).ctx with dicts := ds }
  files : Shelved ss s.2 s.1.store

variable {s : World × FS} {O O' : Office} {w : World}

theorem Stands.twin (h : Stands pr ss s O w) (i : Nat) : Twin AllHeld (w.view i) (s.1.view i) := by
  obtain ⟨ds, hd⟩ := h.ctx i
  refine ⟨(s.1.view i).dicts, ?_, ?_⟩
  · unfold World.view
    rw [hd]
  · show AllHeld ((w.clients i).ids.map w.store) ((s.1.clients i).ids.map s.1.store)
    rw [h.ids i]
    exact allHeld_map h.held _

theorem turn_stands (h : Stands pr ss s O w) {x : Turn} {ans : Answer} (ht : O.turn (shipped pr) x = some (O', ans)) :
    replied (Assets.env ⟨pr⟩) s.1 x = .ok ans ∧ ∃ s' w', World.act (Assets.env ⟨pr⟩) ss s (.op (told x)) = .ok s' ∧ Stands pr ss s' O' w' := by
  obtain ⟨ha, w', hw, hst⟩ := Office.turn_goes h.machines ht
  cases x with
  | use i l =>
    have hn : l.Nodup := by
      simp only [Office.turn] at ht
      split at ht
      · assumption
      · cases ht
    refine ⟨ha, _, w', rfl, ⟨hst, ?_, ?_, ?_, ?_, h.files⟩⟩
    all_goals
      injection hw with hw
      subst hw
    · exact h.held
    · intro j
      show (if j = i then _ else _ : Client).ids = (if j = i then _ else _ : Client).ids
      split
      · rfl
      · exact h.ids j
    · intro j
      show ((if j = i then _ else _ : Client).ids).Nodup
      split
      · exact hn
      · exact h.nodup j
    · intro j
      show ∃ ds, (if j = i then _ else _ : Client).ctx = { (if j = i then _ else _ : Client).ctx with dicts := ds }
      split
      · exact h.ctx i
      · exact h.ctx j
  | act i x =>
    have hk : Keeps x := by cases x <;> first | trivial | cases ht
    obtain ⟨o1, o2⟩ := keeps_op hk
    have tw := h.twin i
    have hb := sim.step (e := Assets.env ⟨pr⟩) tw o1
    have hw : (do let c ← (w.view i).step (Assets.env ⟨pr⟩) (call x); pure (⟨written (w.clients i).ids c.dicts w.store,
        fun j => if j = i then ⟨c, (w.clients i).ids⟩ else w.clients j⟩ : World)) = .ok w' := hw
    cases h0 : (w.view i).step (Assets.env ⟨pr⟩) (call x) with
    | error p => rw [h0] at hw; cases hw
    | ok c0 =>
      rw [h0] at hw hb
      injection hw with hw
      subst hw
      cases h1 : (s.1.view i).step (Assets.env ⟨pr⟩) (call x) with
      | error p => rw [h1] at hb; exact hb.elim
      | ok c1 =>
        rw [h1] at hb
        refine ⟨twin_answers tw x ha, (⟨written (s.1.clients i).ids c1.dicts s.1.store, fun j => if j = i then ⟨c1, (s.1.clients i).ids⟩ else s.1.clients j⟩, s.2), _, ?_,
          ⟨hst, ?_, ?_, ?_, ?_, ?_⟩⟩
        · show (do let w ← s.1.step (Assets.env ⟨pr⟩) (.call i (call x)); pure (w, s.2) : R (World × FS)) = _
          simp only [World.step, h1, bind, Except.bind, pure, Except.pure]
        · show ∀ d, Held (written (w.clients i).ids c0.dicts w.store d) (written (s.1.clients i).ids c1.dicts s.1.store d)
          rw [h.ids i]
          exact written_held h.held (Life.twin_dicts hb)
        · intro j
          show (if j = i then _ else _ : Client).ids = (if j = i then _ else _ : Client).ids
          split
          · exact h.ids i
          · exact h.ids j
        · intro j
          show ((if j = i then _ else _ : Client).ids).Nodup
          split
          · exact h.nodup i
          · exact h.nodup j
        · intro j
          show ∃ ds, (if j = i then _ else _ : Client).ctx = { (if j = i then _ else _ : Client).ctx with dicts := ds }
          split
          · obtain ⟨ds, e1, _⟩ := hb
            exact ⟨ds, e1⟩
          · exact h.ctx j
        · exact call_shelved h.files (Session.call_inStep (shelved_list h.files _) (call x) o2 h1)

theorem seen_stands (h : Stands pr ss s O w) : (fun i => seen (Assets.env ⟨pr⟩) (s.1.clients i).ctx) = O.view (shipped pr) (names pr) := by
  funext i
  rw [← Office.view_stands h.machines i]
  obtain ⟨ds, hd⟩ := h.ctx i
  rw [hd]
  rfl

/-- The state after application `i` has saved. -/
def afterSave (ss : List Source) (s : World × FS) (i : Nat) (os : Nat → Outcome) : World × FS :=
  (⟨written (s.1.clients i).ids (saveAll ((s.1.clients i).ids.map (sourceOf ss)) ((s.1.clients i).ids.map s.1.store) os s.2).1 s.1.store, s.1.clients⟩,
   (saveAll ((s.1.clients i).ids.map (sourceOf ss)) ((s.1.clients i).ids.map s.1.store) os s.2).2)

theorem save_stands (ha : Apart ss) (hsa : StaticApart ss) (h : Stands pr ss s O w) (i : Nat) {os : Nat → Outcome} (ho : ∀ j, os j ≠ .createFails) :
    Stands pr ss (afterSave ss s i os) O w := by
  refine ⟨h.machines, ?_, h.ids, h.nodup, h.ctx, ?_⟩
  · intro d
    have hw : ∀ x ∈ (s.1.clients i).ids.map s.1.store, WellFormed (maps x) := by
      intro x hx
      obtain ⟨d, _, rfl⟩ := List.mem_map.mp hx
      exact (h.held d).wf'
    refine held_trans (h.held d) ?_
    have := written_held (st := s.1.store) (st' := s.1.store) (fun d => Life.held_refl (h.held d).wf') (ids := (s.1.clients i).ids)
      (saveAll_held ((s.1.clients i).ids.map (sourceOf ss)) ((s.1.clients i).ids.map s.1.store) os s.2 hw) d
    rw [written_same] at this
    exact this
  · exact save_shelved ha hsa h.files (by rw [h.ids i]; exact h.nodup i) os ho

theorem save_saves (ha : Apart ss) (ht : ∀ s ∈ ss, Persist.Total s.cd) (h : Stands pr ss s O w) (i : Nat) :
    (∀ d, ¬ Unsaved (s.1.store d) → ¬ Unsaved ((afterSave ss s i fun _ => .completes).1.store d)) ∧
    ∀ d ∈ O.uses i, ¬ Unsaved ((afterSave ss s i fun _ => .completes).1.store d) := by
  have hn : (s.1.clients i).ids.Nodup := by rw [h.ids i]; exact h.nodup i
  have hl := shelved_list h.files (s.1.clients i).ids
  have hlen : (s.1.clients i).ids.length = (saveAll ((s.1.clients i).ids.map (sourceOf ss)) ((s.1.clients i).ids.map s.1.store) (fun _ => .completes) s.2).1.length := by
    rw [Session.saveAll_length]; simp
  constructor
  · refine written_each (P := fun d x => ¬ Unsaved (s.1.store d) → ¬ Unsaved x) hlen ?_ (fun _ _ => id)
    intro k d x h1 h2
    obtain ⟨y, e1, e2⟩ := saveAll_from _ _ _ _ _ _ h2
    rw [List.getElem?_map, h1] at e1
    injection e1 with e1
    rw [e1]
    exact e2
  · intro d hd
    rw [← h.machines.uses i, ← h.ids i] at hd
    refine written_mem (P := fun _ x => ¬ Unsaved x) hlen ?_ hd
    intro k d x _ h2
    refine Session.save_completes _ s.2 _ hl (sources_apart ha hn) ?_ x (List.mem_of_getElem? h2)
    intro a hm
    obtain ⟨d', _, rfl⟩ := List.mem_map.mp hm
    exact sources_total ht d'

theorem refresh_stands (ha : Apart ss) (hsa : StaticApart ss) (ht : ∀ s ∈ ss, Persist.Total s.cd) (h : Stands pr ss s O w) (i : Nat)
    (hw : Writable ((O.uses i).map O.shelf)) :
    ∃ s', World.act (Assets.env ⟨pr⟩) ss (afterSave ss s i fun _ => .completes) (.reload i) = .ok s' ∧ Stands pr ss s' O w := by
  have h' := save_stands ha hsa h i (os := fun _ => .completes) (fun _ => by decide)
  obtain ⟨-, hu⟩ := save_saves ha ht h i
  generalize hS : afterSave ss s i (fun _ => .completes) = S at h' hu ⊢
  have hids : (S.1.clients i).ids = O.uses i := by rw [h'.ids i, h'.machines.uses i]
  have hhe : AllHeld ((O.uses i).map O.shelf) ((O.uses i).map S.1.store) := by rw [← h'.machines.shelf]; exact allHeld_map h'.held _
  have hl := shelved_list h'.files (O.uses i)
  obtain ⟨ds', k1, k2, k3⟩ := openAll_held hl
    (by intro x hx
        obtain ⟨d, hd, rfl⟩ := List.mem_map.mp hx
        exact hu d hd)
    (by intro a hm
        obtain ⟨d', _, rfl⟩ := List.mem_map.mp hm
        exact sources_total ht d')
    (allHeld_wf hhe) (allHeld_writable hhe hw)
  refine ⟨({ S.1 with store := written (O.uses i) ds' S.1.store }, S.2), ?_, ⟨h'.machines, ?_, h'.ids, h'.nodup, h'.ctx, ?_⟩⟩
  · simp only [World.act, hids, k3]
  · intro d
    refine held_trans (h'.held d) ?_
    have := written_held (st := S.1.store) (st' := S.1.store) (fun d => Life.held_refl (h'.held d).wf') (ids := O.uses i) k2 d
    rw [written_same] at this
    exact this
  · exact call_shelved h'.files (Session.openAll_inStep k1)

/-- What the machines say of events happens. -/
theorem spent_spends (ha : Apart ss) (hsa : StaticApart ss) (ht : ∀ s ∈ ss, Persist.Total s.cd) {l : List Event} {got : List (Answer × (Nat → View))}
    (hl : Spent pr O l O' got) : ∀ {s : World × FS} {w : World}, Stands pr ss s O w → ∃ s' w', spends (Assets.env ⟨pr⟩) ss s l = .ok (s', got) ∧ Stands pr ss s' O' w' := by
  induction hl with
  | done O => intro s w h; exact ⟨s, w, rfl, h⟩
  | turn hx _ ih =>
    intro s w h
    obtain ⟨h1, s1, w1, h2, h3⟩ := turn_stands h hx
    obtain ⟨s', w', i1, i2⟩ := ih h3
    refine ⟨s', w', ?_, i2⟩
    simp only [spends, h1, h2, i1, bind, Except.bind, pure, Except.pure, seen_stands h3]
  | save ho _ ih =>
    intro s w h
    obtain ⟨s', w', i1, i2⟩ := ih (save_stands ha hsa h _ ho)
    exact ⟨s', w', i1, i2⟩
  | refresh hw _ ih =>
    intro s w h
    obtain ⟨s1, h1, h2⟩ := refresh_stands ha hsa ht h _ hw
    obtain ⟨s', w', i1, i2⟩ := ih h2
    refine ⟨s', w', ?_, i2⟩
    rename_i i l _ _
    show (do let s ← World.act (Assets.env ⟨pr⟩) ss (afterSave ss s i fun _ => .completes) (.reload i); spends (Assets.env ⟨pr⟩) ss s l) = _
    rw [h1]
    exact i1

/-- In the evening everything is saved. -/
theorem closing (ha : Apart ss) (hsa : StaticApart ss) (ht : ∀ s ∈ ss, Persist.Total s.cd) : ∀ {l : List Nat} {s : World × FS}, Stands pr ss s O w →
    ∃ s', spends (Assets.env ⟨pr⟩) ss s (l.map fun i => .save i fun _ => .completes) = .ok (s', []) ∧ Stands pr ss s' O w ∧
      (∀ d, ¬ Unsaved (s.1.store d) → ¬ Unsaved (s'.1.store d)) ∧ ∀ i ∈ l, ∀ d ∈ O.uses i, ¬ Unsaved (s'.1.store d) := by
  intro l
  induction l with
  | nil => intro s h; exact ⟨s, rfl, h, fun _ => id, fun i hi => absurd hi (by simp)⟩
  | cons i l ih =>
    intro s h
    obtain ⟨k1, k2⟩ := save_saves ha ht h i
    obtain ⟨s', h1, h2, h3, h4⟩ := ih (save_stands ha hsa h i (os := fun _ => .completes) (fun _ => by decide))
    refine ⟨s', h1, h2, fun d hd => h3 d (k1 d hd), ?_⟩
    intro j hj d hd
    rcases List.mem_cons.mp hj with rfl | hj
    · exact h3 d (k2 d hd)
    · exact h4 j hj d hd

end

theorem spends_append (e : Env) (ss : List Source) (s : World × FS) (l l' : List Event) :
    spends e ss s (l ++ l') = (do let r ← spends e ss s l; let r' ← spends e ss r.1 l'; return (r'.1, r.2 ++ r'.2)) := by
  induction l generalizing s with
  | nil =>
    show spends e ss s l' = _
    simp only [spends, bind, Except.bind, pure, Except.pure, List.nil_append]
    cases spends e ss s l' <;> rfl
  | cons x l ih =>
    cases x with
    | turn x =>
      simp only [List.cons_append, spends, bind, Except.bind, pure, Except.pure] at ih ⊢
      cases replied e s.1 x with
      | error p => rfl
      | ok ans =>
        simp only
        cases World.act e ss s (.op (told x)) with
        | error p => rfl
        | ok c =>
          simp only [ih]
          cases spends e ss c l with
          | error p => rfl
          | ok r =>
            simp only
            cases spends e ss r.1 l' <;> rfl
    | save i os => exact ih _
    | refresh i => exact ih _

/-! ## The years -/

theorem shelf_list {ss : List Source} {fs : FS} {st : Nat → CskkDict} (h : Shelved ss fs st) : AllInStep ss fs ((List.range ss.length).map st) := by
  have := shelved_list h (List.range ss.length)
  have hs : (List.range ss.length).map (sourceOf ss) = ss := by
    apply List.ext_getElem?
    intro i
    rw [List.getElem?_map]
    by_cases hi : i < ss.length
    · rw [List.getElem?_range hi]
      show some (sourceOf ss i) = _
      unfold sourceOf
      rw [List.getElem?_eq_getElem hi]; rfl
    · rw [List.getElem?_eq_none (by simpa using hi), List.getElem?_eq_none (by simpa using hi)]; rfl
  rwa [hs] at this

theorem opened_shelved {ss : List Source} {fs : FS} {ds : List CskkDict} (h : openAll fs ss = some ds) : Shelved ss fs (shelfOf ds) := by
  have hi := Session.openAll_inStep h
  have hl := Session.fits_length hi.fits
  intro d
  unfold shelfOf sourceOf
  by_cases hd : d < ss.length
  · have e1 := List.getElem?_eq_getElem hd
    have e2 := List.getElem?_eq_getElem (l := ds) (i := d) (by omega)
    rw [e1, e2]
    exact ⟨Session.fits_at hi.fits e1 e2, hi.each d _ _ e1 e2⟩
  · rw [List.getElem?_eq_none (by omega), List.getElem?_eq_none (by omega)]
    exact ⟨rfl, ⟨rfl, (fun m hm => by cases hm), (fun m hm => by cases hm), (fun hk => by cases hk)⟩⟩

theorem held_at {ds ds' : List CskkDict} (h : AllHeld ds ds') (d : Nat) : Held (shelfOf ds d) (shelfOf ds' d) := by
  induction h generalizing d with
  | nil => exact Life.held_refl Life.empty_plain.wf
  | cons h1 _ ih =>
    cases d with
    | zero => exact h1
    | succ d => exact ih d

theorem shelved_beyond {ss : List Source} {fs : FS} {st : Nat → CskkDict} (h : Shelved ss fs st) (d : Nat) : shelfOf ((List.range ss.length).map st) d = st d := by
  unfold shelfOf
  rw [List.getElem?_map]
  by_cases hd : d < ss.length
  · rw [List.getElem?_range hd]; rfl
  · rw [List.getElem?_eq_none (by simpa using hd)]
    obtain ⟨h1, h2⟩ := h d
    have hs : sourceOf ss d = ⟨[], Props.Utf8.utf8, false, .empty⟩ := by
      unfold sourceOf
      rw [List.getElem?_eq_none (by omega)]; rfl
    have h3 := h2.completable
    rw [hs] at h1 h3
    show (⟨false, .empty⟩ : CskkDict) = _
    generalize st d = x at h1 h3
    obtain ⟨co, k⟩ := x
    cases k with
    | empty => simp only at h3; rw [h3]; rfl
    | _ => cases h1

/-- **C85.** Years at the office: every day a program opens the user's dictionaries, several applications share them, with any rules, configurations, input modes and lists of
dictionaries; they are used in any order, save at any time (the disk may refuse), read dictionaries again, and in the evening the user's dictionaries are saved and the
program ends. Whatever the machines, which know nothing of files and never forget a word, say about the years is what the applications get and what is seen on all screens,
from the first day to the last, and no program fails; and the files in the end hold the words which are on the machines' shelf. (As long as the words are such as a
dictionary file can hold, and no file is lost.) -/
theorem years_told (pr : Bool) (ss : List Source) (fs : FS) (ds : List CskkDict) (shelf' : Nat → CskkDict) (ho : openAll fs ss = some ds) (hw : ∀ d ∈ ds, WellFormed (maps d))
    (ha : Apart ss) (hsa : StaticApart ss) (ht : ∀ s ∈ ss, Persist.Total s.cd) (l : List Day) (gots : List (List (Answer × (Nat → View))))
    (hl : Passed pr (shelfOf ds) l shelf' gots) :
    ∃ fs' ds', years (Assets.env ⟨pr⟩) ss fs l = some (fs', gots) ∧ openAll fs' ss = some ds' ∧ ∀ d, SameDict (shelf' d) (shelfOf ds' d) := by
  suffices key : ∀ {shelf shelf' : Nat → CskkDict} {l : List Day} {gots : List (List (Answer × (Nat → View)))}, Passed pr shelf l shelf' gots →
      ∀ (fs : FS) (dsE : List CskkDict), openAll fs ss = some dsE → (∀ d, Held (shelf d) (shelfOf dsE d)) →
      ∃ fs' ds', years (Assets.env ⟨pr⟩) ss fs l = some (fs', gots) ∧ openAll fs' ss = some ds' ∧ ∀ d, SameDict (shelf' d) (shelfOf ds' d) from
    key hl fs ds ho (held_at (Life.allHeld_refl hw))
  intro shelf shelf' l gots hl
  induction hl with
  | done shelf => intro fs dsE ho hs; exact ⟨fs, dsE, rfl, ho, fun d => (hs d).toSameDict⟩
  | day hn hsp hclose _ ih =>
    intro fs dsE ho hs
    rename_i shelf shelf' x O l got gots _
    have hstart : Office.Stands pr (world x.azik x.config x.mode x.uses shelf) (opening x.azik x.config x.mode x.uses shelf) :=
      ⟨rfl, fun _ => rfl, fun i => Office.at_dicts (fresh_at pr (x.azik i) (x.config i) (x.mode i) []) _⟩
    obtain ⟨s1, w1, h1, h2⟩ := spent_spends ha hsa ht hsp (s := (world x.azik x.config x.mode x.uses (shelfOf dsE), fs)) (w := world x.azik x.config x.mode x.uses shelf)
      ⟨hstart, hs, fun _ => rfl, hn, fun i => ⟨[], rfl⟩, opened_shelved ho⟩
    obtain ⟨s2, h3, h4, -, h5⟩ := closing (l := x.closers) ha hsa ht h2
    have hshelf : w1.store = O.shelf := h4.machines.shelf
    have hkind : ∀ d, kindOf (s2.1.store d) = kindOf (O.shelf d) := fun d => by rw [← hshelf]; exact Life.kindOf_same (h4.held d).kind
    have hu : ∀ d, ¬ Unsaved (s2.1.store d) := by
      intro d hd
      have hk : kindOf (O.shelf d) = .user := by
        rw [← hkind]
        obtain ⟨m, hm⟩ := hd
        unfold kindOf; rw [hm]
      obtain ⟨-, i, hi, hdi⟩ := hclose d hk
      exact h5 i hi d hdi hd
    obtain ⟨ds1, k1, k2, -⟩ := openAll_held (shelf_list h4.files)
      (by intro x hx
          obtain ⟨d, _, rfl⟩ := List.mem_map.mp hx
          exact hu d) ht
      (by intro x hx
          obtain ⟨d, _, rfl⟩ := List.mem_map.mp hx
          exact (h4.held d).wf')
      (by intro x hx hk
          obtain ⟨d, _, rfl⟩ := List.mem_map.mp hx
          refine Life.held_plain (h4.held d) ?_
          rw [hshelf]
          exact (hclose d (by rw [← hkind]; exact hk)).1)
    obtain ⟨fs', ds', j1, j2, j3⟩ := ih s2.2 ds1 k1 (fun d => by
      have := held_at k2 d
      rw [shelved_beyond h4.files d] at this
      rw [← hshelf]
      exact held_trans (h4.held d) this)
    refine ⟨fs', ds', ?_, j2, j3⟩
    unfold years
    rw [ho]
    simp only [Option.bind_eq_bind, Option.bind_some, spends_append, h1]
    simp only [bind, Except.bind, h3, pure, Except.pure, Except.toOption, Option.bind_some, j1, List.append_nil]

/-! ## The hypotheses are met -/

theorem spent_turns {pr : Bool} (l : List Turn) {O O' O'' : Office} {got got' : List (Answer × (Nat → View))} {es : List Event}
    (hl : O.day (shipped pr) (names pr) l = some (O', got)) (ht : Spent pr O' es O'' got') : Spent pr O (l.map .turn ++ es) O'' (got ++ got') := by
  induction l generalizing O got with
  | nil =>
    injection hl with hl; injection hl with h1 h2
    subst h1; subst h2
    exact ht
  | cons x l ih =>
    simp only [Office.day, Option.bind_eq_some_iff, Option.map_eq_some_iff] at hl
    obtain ⟨⟨O1, ans⟩, h1, ⟨O2, got2⟩, h2, h3⟩ := hl
    injection h3 with h3 h4
    dsimp only at h3 h4
    subst h3; subst h4
    exact .turn h1 (ih h2)

/-- The two days. On the first, application 0 registers ブック for ほん, application 1, which shares the dictionary of the user, finds it at once; a save of application 1
stops half-way, application 0 saves and reads again, and goes on; application 1 saves in the evening. On the second day an application with the AZIK rule asks for the word. -/
def first : List Turn := Life.noon.map (.act 0) ++ (Machine.keys c%"Hon " ++ [Spec.Machine.Act.key .ctrlJ]).map (.act 1)
def later : List Turn := (Machine.keys c%"Ai ").map (.act 0)
def second : List Turn := (Machine.keys c%"Hoq ").map (.act 0)

def days : List Day :=
  [⟨fun _ => false, fun _ => Config.default, fun _ => .hiragana, fun i => if i = 0 then [0, 1] else [1, 0],
      first.map .turn ++ .save 1 (fun _ => .stops 40) :: .refresh 0 :: (later.map .turn ++ []), [1]⟩,
   ⟨fun _ => true, fun _ => Config.default, fun _ => .katakana, fun _ => [0, 2], second.map .turn ++ [], [0]⟩]

/-- What the user has learned on the first day. -/
def learned : DictMaps := ((⟨[], []⟩ : DictMaps).select (Spec.Teach.taught c%"ほん" c%"ブック")).select (Spec.Teach.taught c%"ほん" c%"ブック")

theorem learned_plain : PlainDict learned := Persist.plain_select (Persist.plain_select Life.empty_plain Teach.taught_plain) Teach.taught_plain

theorem turn_kinds {pr : Bool} {w : World} {O O' : Office} (h : Office.Stands pr w O) {x : Turn} {ans : Answer} (ht : O.turn (shipped pr) x = some (O', ans)) (d : Nat) :
    kindOf (O'.shelf d) = kindOf (O.shelf d) := by
  obtain ⟨-, w', hw, hst⟩ := Office.turn_goes h ht
  rw [← hst.shelf, ← h.shelf]
  cases x with
  | use i l => injection hw with hw; subst hw; rfl
  | act i x =>
    have hk : Keeps x := by cases x <;> first | trivial | cases ht
    have hw : (do let c ← (w.view i).step (Assets.env ⟨pr⟩) (call x); pure (⟨written (w.clients i).ids c.dicts w.store,
        fun j => if j = i then ⟨c, (w.clients i).ids⟩ else w.clients j⟩ : World)) = .ok w' := hw
    cases h0 : (w.view i).step (Assets.env ⟨pr⟩) (call x) with
    | error p => rw [h0] at hw; cases hw
    | ok c0 =>
      rw [h0] at hw
      injection hw with hw
      subst hw
      obtain ⟨es, he⟩ := ContextDicts.dictionaries_only_edited (Assets.env ⟨pr⟩) (w.view i) c0
        (.step .init (show ContextDicts.KeepsDictionaries (w.view i) (call x) by cases x <;> first | trivial | exact hk) h0)
      have he : c0.dicts = ((w.clients i).ids.map w.store).map fun d => es.foldl UserDict.applyEdit d := he
      refine written_each (P := fun d x => kindOf x = kindOf (w.store d)) (by rw [he]; simp) ?_ (fun _ _ => rfl) d
      intro k d x h1 h2
      rw [he, List.getElem?_map, List.getElem?_map, h1] at h2
      injection h2 with h2
      rw [← h2]
      exact (Session.edits_kind es _).2

/-- No dictionary changes its kind. -/
theorem spent_kinds {pr : Bool} {l : List Event} {O O' : Office} {got : List (Answer × (Nat → View))} (hl : Spent pr O l O' got) :
    ∀ {w : World}, Office.Stands pr w O → ∀ d, kindOf (O'.shelf d) = kindOf (O.shelf d) := by
  induction hl with
  | done O => intro w _ d; rfl
  | turn hx _ ih =>
    intro w h d
    obtain ⟨-, w', -, hst⟩ := Office.turn_goes h hx
    exact (ih hst d).trans (turn_kinds h hx d)
  | save _ _ ih => intro w h; exact ih h
  | refresh _ _ ih => intro w h; exact ih h

theorem opening_stands (pr : Bool) (azik : Nat → Bool) (g : Nat → Config) (m : Nat → InputMode) (uses : Nat → List Nat) (shelf : Nat → CskkDict) :
    Office.Stands pr (world azik g m uses shelf) (opening azik g m uses shelf) :=
  ⟨rfl, fun _ => rfl, fun i => Office.at_dicts (fresh_at pr (azik i) (g i) (m i) []) _⟩

/-- The office in the morning of the first day, and what the machines say. -/
def morning : Office := opening (fun _ => false) (fun _ => Config.default) (fun _ => .hiragana) (fun i => if i = 0 then [0, 1] else [1, 0]) (shelfOf Session.openedDicts)

/-- The lines on two screens. -/
def lines (got : List (Answer × (Nat → View))) : List (Str × Str) := got.map fun x => ((x.2 0).line, (x.2 1).line)


/-- The office in the morning of the second day. -/
def next (shelf : Nat → CskkDict) : Office := opening (fun _ => true) (fun _ => Config.default) (fun _ => .katakana) (fun _ => [0, 2]) shelf

theorem any_some {A : Type} {o : Option A} {p : A → Bool} (h : o.any p = true) : ∃ x, o = some x ∧ p x = true := by
  cases o with
  | none => cases h
  | some x => exact ⟨x, rfl, h⟩

/-- What the machines say of the two days. -/
theorem days_said : ∃ O1 got1 O2 got2 O3 got3, morning.day (shipped true) (names true) first = some (O1, got1) ∧ O1.day (shipped true) (names true) later = some (O2, got2) ∧
    (next O2.shelf).day (shipped true) (names true) second = some (O3, got3) ∧
    (O1.shelf 0 = ⟨true, .user learned true⟩ ∧ O1.shelf 1 = ⟨true, .static Session.learnt⟩ ∧ O1.uses 0 = [0, 1]) ∧
    (O2.shelf 0 = ⟨true, .user learned true⟩ ∧ O2.uses 1 = [1, 0]) ∧ (O3.shelf 0 = ⟨true, .user learned true⟩ ∧ O3.uses 0 = [0, 2]) ∧
    lines (got1 ++ got2) = [(c%"▽h", []), (c%"▽ほ", []), (c%"▽ほn", []), (c%"▼ほん【】", []), (c%"▼ほん【】", []), (c%"▼ほん【b】", []), (c%"▼ほん【ブ】", []),
      (c%"▼ほん【ブk】", []), (c%"▼ほん【ブッk】", []), (c%"▼ほん【ブック】", []), (c%"ブック", []), ([], []), ([], c%"▽h"), ([], c%"▽ほ"), ([], c%"▽ほn"), ([], c%"▼ブック"), ([], c%"ブック"),
      (c%"▽あ", c%"ブック"), (c%"▽あい", c%"ブック"), (c%"▼愛", c%"ブック")] ∧ lines got3 = [(c%"▽h", []), (c%"▽ホ", []), (c%"▽ホン", []), (c%"▼ブック", [])] := by
  have h : ((morning.day (shipped true) (names true) first).any fun r => (r.1.day (shipped true) (names true) later).any fun q =>
      ((next q.1.shelf).day (shipped true) (names true) second).any fun t =>
      (decide (r.1.shelf 0 = ⟨true, .user learned true⟩) && decide (r.1.shelf 1 = ⟨true, .static Session.learnt⟩) && decide (r.1.uses 0 = [0, 1])) &&
      (decide (q.1.shelf 0 = ⟨true, .user learned true⟩) && decide (q.1.uses 1 = [1, 0])) &&
      (decide (t.1.shelf 0 = ⟨true, .user learned true⟩) && decide (t.1.uses 0 = [0, 2])) &&
      (decide (lines (r.2 ++ q.2) = [(c%"▽h", []), (c%"▽ほ", []), (c%"▽ほn", []), (c%"▼ほん【】", []), (c%"▼ほん【】", []), (c%"▼ほん【b】", []), (c%"▼ほん【ブ】", []),
      (c%"▼ほん【ブk】", []), (c%"▼ほん【ブッk】", []), (c%"▼ほん【ブック】", []), (c%"ブック", []), ([], []), ([], c%"▽h"), ([], c%"▽ほ"), ([], c%"▽ほn"), ([], c%"▼ブック"), ([], c%"ブック"),
      (c%"▽あ", c%"ブック"), (c%"▽あい", c%"ブック"), (c%"▼愛", c%"ブック")]) && decide (lines t.2 = [(c%"▽h", []), (c%"▽ホ", []), (c%"▽ホン", []), (c%"▼ブック", [])]))) = true := by decide +kernel
  obtain ⟨⟨O1, got1⟩, h1, h⟩ := any_some h
  obtain ⟨⟨O2, got2⟩, h2, h⟩ := any_some h
  obtain ⟨⟨O3, got3⟩, h3, h⟩ := any_some h
  simp only [Bool.and_eq_true, decide_eq_true_eq] at h
  exact ⟨O1, got1, O2, got2, O3, got3, h1, h2, h3, ⟨h.1.1.1.1.1, h.1.1.1.1.2, h.1.1.1.2⟩, h.1.1.2, h.1.2, h.2.1, h.2.2⟩

theorem only_user {d : Nat} (h : (sourceOf Session.sources d).wanted = .user) : d = 0 := by
  match d with
  | 0 => rfl
  | 1 => cases h
  | 2 => cases h
  | d + 3 => cases h

/-- **The theorem applied** to the two days. -/
theorem years_seen : ∃ fs' gots, years (Assets.env ⟨true⟩) Session.sources Session.files days = some (fs', gots) ∧ gots.map lines = [[(c%"▽h", []), (c%"▽ほ", []), (c%"▽ほn", []), (c%"▼ほん【】", []), (c%"▼ほん【】", []), (c%"▼ほん【b】", []), (c%"▼ほん【ブ】", []),
      (c%"▼ほん【ブk】", []), (c%"▼ほん【ブッk】", []), (c%"▼ほん【ブック】", []), (c%"ブック", []), ([], []), ([], c%"▽h"), ([], c%"▽ほ"), ([], c%"▽ほn"), ([], c%"▼ブック"), ([], c%"ブック"),
      (c%"▽あ", c%"ブック"), (c%"▽あい", c%"ブック"), (c%"▼愛", c%"ブック")], [(c%"▽h", []), (c%"▽ホ", []), (c%"▽ホン", []), (c%"▼ブック", [])]] := by
  obtain ⟨O1, got1, O2, got2, O3, got3, h1, h2, h3, ⟨a1, a2, a3⟩, ⟨b1, b2⟩, ⟨c1, c2⟩, l1, l2⟩ := days_said
  have hopen : openAll Session.files Session.sources = some Session.openedDicts := Session.sample_end.1
  have hod : Session.openedDicts = [⟨true, .user ⟨[], []⟩ false⟩, ⟨true, .static Session.learnt⟩, ⟨false, .empty⟩] := by decide +kernel
  have hwf : ∀ d ∈ Session.openedDicts, WellFormed (maps d) := by
    intro d hd
    rw [hod] at hd
    simp only [List.mem_cons, List.not_mem_nil, or_false] at hd
    rcases hd with rfl | rfl | rfl
    · exact Life.empty_plain.wf
    · exact Session.learnt_plain.wf
    · exact Life.empty_plain.wf
  have ht : ∀ s ∈ Session.sources, Persist.Total s.cd := by
    intro s hm
    have : s = Session.userFile c%"d" ∨ s = ⟨c%"jisyo", Utf8.utf8, true, .static⟩ ∨ s = ⟨[], Utf8.utf8, true, .empty⟩ := by simpa [Session.sources] using hm
    rcases this with rfl | rfl | rfl <;> exact Persist.total_utf8
  have hn1 : ∀ i : Nat, (if i = 0 then [0, 1] else [1, 0] : List Nat).Nodup := by intro i; split <;> decide
  have d1 : Spent true morning (first.map .turn ++ .save 1 (fun _ => .stops 40) :: .refresh 0 :: (later.map .turn ++ [])) O2 (got1 ++ (got2 ++ [])) := by
    refine spent_turns first h1 (.save (fun _ => by decide) (.refresh ?_ (spent_turns later h2 (.done _))))
    rw [a3]
    intro x hx hk
    simp only [List.map_cons, List.map_nil, a1, a2, List.mem_cons, List.not_mem_nil, or_false] at hx
    rcases hx with rfl | rfl
    · exact learned_plain
    · cases hk
  have hk2 : ∀ d, kindOf (O2.shelf d) = (sourceOf Session.sources d).wanted := fun d =>
    (spent_kinds d1 (opening_stands _ _ _ _ _ _) d).trans (opened_shelved hopen d).1
  have d2 : Spent true (next O2.shelf) (second.map .turn ++ []) O3 (got3 ++ []) := spent_turns second h3 (.done _)
  have hk3 : ∀ d, kindOf (O3.shelf d) = kindOf (O2.shelf d) := fun d => spent_kinds d2 (opening_stands true _ _ _ _ O2.shelf) d
  obtain ⟨fs', _, k1, -, -⟩ := years_told true Session.sources Session.files Session.openedDicts O3.shelf hopen hwf Session.sources_apart.1 Session.sources_apart.2 ht days
    [got1 ++ (got2 ++ []), got3 ++ []]
    (.day hn1 d1 (by
        intro d hd
        rw [hk2] at hd
        rw [only_user hd, b1]
        exact ⟨learned_plain, 1, by simp, by rw [b2]; simp⟩)
      (.day (fun _ => (by decide : [0, 2].Nodup)) d2 (by
        intro d hd
        rw [hk3, hk2] at hd
        rw [only_user hd, c1]
        exact ⟨learned_plain, 0, by simp, by rw [c2]; simp⟩) (.done _)))
  refine ⟨fs', _, k1, ?_⟩
  simp only [List.append_nil, List.map_cons, List.map_nil, l1, l2]

end Cskk.Props.Years
