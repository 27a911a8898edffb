import Verif.Spec.Handles

/-!
# C55: lifetimes of dictionaries, contexts and key events
-/

namespace Cskk.Props.Handles
open Cskk.Handles Cskk.Spec.Handles

/-- All references to dictionaries. -/
def refs (m : Mem) : List Nat := m.handles.map (·.2) ++ m.contexts.flatMap (·.2)

/-- Reference counts count. -/
structure Sound (m : Mem) : Prop where
  pos : 0 < m.next
  hkeys : (m.handles.map (·.1)).Nodup
  ckeys : (m.contexts.map (·.1)).Nodup
  evs : m.events.Nodup
  hfresh : ∀ p ∈ m.handles, 0 < p.1 ∧ p.1 < m.next
  cfresh : ∀ p ∈ m.contexts, 0 < p.1 ∧ p.1 < m.next
  efresh : ∀ a ∈ m.events, 0 < a ∧ a < m.next
  rfresh : ∀ d ∈ refs m, d < m.next
  counts : ∀ d, m.strong d = (refs m).count d

/-- The caller's view is right. -/
structure Agree (s : Held) (m : Mem) : Prop where
  handle : ∀ a, s.handle a = m.handle a
  context : ∀ a, s.context a = m.context a
  event : ∀ a, s.event a = decide (a ∈ m.events)

/-! ## Association lists -/

theorem find_mem {β : Type} (l : List (Nat × β)) (a : Nat) (b : β) (h : (l.find? fun p => decide (p.1 = a)).map (·.2) = some b) :
    (a, b) ∈ l := by
  induction l with
  | nil => cases h
  | cons p l ih =>
    simp only [List.find?_cons] at h
    by_cases hp : p.1 = a
    · simp only [hp, decide_true, Option.map_some, Option.some.injEq] at h
      subst hp; subst h; simp
    · simp only [hp, decide_false] at h
      exact List.mem_cons_of_mem _ (ih h)

theorem find_of_mem {β : Type} (l : List (Nat × β)) (a : Nat) (b : β) (hn : (l.map (·.1)).Nodup) (h : (a, b) ∈ l) :
    (l.find? fun p => decide (p.1 = a)).map (·.2) = some b := by
  induction l with
  | nil => cases h
  | cons p l ih =>
    simp only [List.find?_cons]
    simp only [List.map_cons, List.nodup_cons] at hn
    rcases List.mem_cons.mp h with rfl | h
    · simp
    · have : p.1 ≠ a := fun e => hn.1 (e ▸ List.mem_map_of_mem (f := (·.1)) h)
      simp only [this, decide_false]
      exact ih hn.2 h

theorem find_filter {β : Type} (l : List (Nat × β)) (a x : Nat) :
    ((l.filter fun p => decide (p.1 ≠ a)).find? fun p => decide (p.1 = x)).map (·.2) =
      if x = a then none else (l.find? fun p => decide (p.1 = x)).map (·.2) := by
  induction l with
  | nil => simp
  | cons p l ih =>
    rw [List.filter_cons]
    by_cases hp : p.1 = a
    · simp only [hp, ne_eq, not_true_eq_false, decide_false, Bool.false_eq_true, if_false]
      rw [ih, List.find?_cons]
      by_cases hx : x = a
      · simp [hx]
      · have : ¬ p.1 = x := fun e => hx (e ▸ hp)
        simp [hx, this]
    · simp only [ne_eq, hp, not_false_eq_true, decide_true, if_true, List.find?_cons]
      by_cases hx : p.1 = x
      · have : ¬ x = a := fun e => hp (hx.trans e)
        simp [hx, this]
      · simp only [hx, decide_false]
        exact ih

theorem find_set {β : Type} (l : List (Nat × β)) (a x : Nat) (b : β) (h : ((l.find? fun p => decide (p.1 = a)).map (·.2)).isSome) :
    ((l.map fun p => if p.1 = a then (a, b) else p).find? fun p => decide (p.1 = x)).map (·.2) =
      if x = a then some b else (l.find? fun p => decide (p.1 = x)).map (·.2) := by
  induction l with
  | nil => cases h
  | cons p l ih =>
    simp only [List.find?_cons, List.map_cons]
    by_cases hp : p.1 = a
    · simp only [hp, if_true]
      by_cases hx : x = a
      · simp [hx]
      · have h1 : ¬ a = x := fun e => hx e.symm
        simp only [h1, decide_false, hx, if_false]
        clear ih h
        induction l with
        | nil => rfl
        | cons q l ih =>
          simp only [List.map_cons, List.find?_cons]
          by_cases hq : q.1 = a
          · have h2 : ¬ q.1 = x := fun e => h1 (hq.symm.trans e)
            simp only [hq, if_true, h1, decide_false]
            rw [ih]
          · simp only [hq, if_false]
            by_cases hqx : q.1 = x
            · simp [hqx]
            · simp only [hqx, decide_false]; exact ih
    · simp only [hp, if_false]
      by_cases hx : p.1 = x
      · have : ¬ x = a := fun e => hp (hx.trans e)
        simp [hx, this]
      · simp only [hx, decide_false]
        apply ih
        simp only [List.find?_cons, hp, decide_false] at h
        exact h

theorem count_filter {β : Type} (l : List (Nat × β)) (f : β → List Nat) (a d : Nat) (b : β) (hn : (l.map (·.1)).Nodup) (h : (a, b) ∈ l) :
    (l.flatMap fun p => f p.2).count d = ((l.filter fun p => decide (p.1 ≠ a)).flatMap fun p => f p.2).count d + (f b).count d := by
  induction l with
  | nil => cases h
  | cons p l ih =>
    simp only [List.map_cons, List.nodup_cons] at hn
    rw [List.filter_cons]
    rcases List.mem_cons.mp h with rfl | h
    · have hf : l.filter (fun p => decide (p.1 ≠ a)) = l := by
        rw [List.filter_eq_self]
        intro q hq
        have : q.1 ≠ a := fun e => hn.1 (e ▸ List.mem_map_of_mem (f := (·.1)) hq)
        simp [this]
      simp only [ne_eq, not_true_eq_false, decide_false, Bool.false_eq_true, if_false, List.flatMap_cons, List.count_append]
      simp only [ne_eq] at hf
      rw [hf]; omega
    · have : p.1 ≠ a := fun e => hn.1 (e ▸ List.mem_map_of_mem (f := (·.1)) h)
      simp only [ne_eq, this, not_false_eq_true, decide_true, if_true, List.flatMap_cons, List.count_append]
      have := ih hn.2 h
      simp only [ne_eq] at this
      omega

theorem count_set {β : Type} (l : List (Nat × β)) (f : β → List Nat) (a d : Nat) (b new : β) (hn : (l.map (·.1)).Nodup) (h : (a, b) ∈ l) :
    ((l.map fun p => if p.1 = a then (a, new) else p).flatMap fun p => f p.2).count d + (f b).count d =
      (l.flatMap fun p => f p.2).count d + (f new).count d := by
  induction l with
  | nil => cases h
  | cons p l ih =>
    simp only [List.map_cons, List.nodup_cons] at hn
    rcases List.mem_cons.mp h with rfl | h
    · have hf : l.map (fun p => if p.1 = a then (a, new) else p) = l := by
        have : ∀ q ∈ l, (if q.1 = a then (a, new) else q) = q := by
          intro q hq
          have : q.1 ≠ a := fun e => hn.1 (e ▸ List.mem_map_of_mem (f := (·.1)) hq)
          simp [this]
        exact (List.map_congr_left this).trans (List.map_id' l)
      simp only [List.map_cons, if_true, List.flatMap_cons, List.count_append, hf]
      omega
    · have : p.1 ≠ a := fun e => hn.1 (e ▸ List.mem_map_of_mem (f := (·.1)) h)
      simp only [List.map_cons, this, if_false, List.flatMap_cons, List.count_append]
      have := ih hn.2 h
      omega

/-! ## Reference counts -/

theorem dropAll_ok (ds : List Nat) : ∀ (m : Mem), (∀ d, ds.count d ≤ m.strong d) →
    dropAll m ds = .ok { m with strong := fun d => m.strong d - ds.count d } := by
  induction ds with
  | nil => intro m _; simp [dropAll]
  | cons x ds ih =>
    intro m h
    have hx := h x
    rw [List.count_cons_self] at hx
    unfold dropAll dropArc
    rw [if_neg (by omega)]
    simp only [bind, Except.bind]
    rw [ih]
    · congr 2
      funext d
      by_cases hd : d = x
      · subst hd; simp; omega
      · simp [hd, List.count_cons, Ne.symm hd]
    · intro d
      have := h d
      by_cases hd : d = x
      · subst hd; simp at this ⊢; omega
      · rw [List.count_cons_of_ne (Ne.symm hd)] at this; simpa [hd] using this

theorem cloneAll_ok (ds : List Nat) : ∀ (m : Mem), (∀ d ∈ ds, m.strong d ≠ 0) →
    cloneAll m ds = .ok { m with strong := fun d => m.strong d + ds.count d } := by
  induction ds with
  | nil => intro m _; simp [cloneAll]
  | cons x ds ih =>
    intro m h
    unfold cloneAll clone
    rw [if_neg (h x (by simp))]
    simp only [bind, Except.bind]
    rw [ih]
    · congr 2
      funext d
      by_cases hd : d = x
      · subst hd; simp; omega
      · simp [hd, List.count_cons, Ne.symm hd]
    · intro d hd
      simp only
      split
      · omega
      · exact h d (by simp [hd])

theorem cloneHandles_ok (as : List Nat) : ∀ (m : Mem), (∀ a ∈ as, ∃ d, m.handle a = some d ∧ m.strong d ≠ 0) →
    cloneHandles m as = .ok ({ m with strong := fun d => m.strong d + (as.filterMap m.handle).count d }, as.filterMap m.handle) := by
  induction as with
  | nil => intro m _; simp [cloneHandles]
  | cons a as ih =>
    intro m h
    obtain ⟨x, hx, hs⟩ := h a (by simp)
    unfold cloneHandles
    rw [hx]
    simp only [clone, if_neg hs, bind, Except.bind]
    rw [ih]
    · have he : ∀ f : Nat → Nat, Mem.handle { m with strong := f } = m.handle := fun _ => rfl
      simp only [he, List.filterMap_cons, hx, pure, Except.pure]
      congr 3
      funext d
      by_cases hd : d = x
      · subst hd; simp; omega
      · simp [hd, List.count_cons, Ne.symm hd]
    · intro b hb
      obtain ⟨d, h1, h2⟩ := h b (by simp [hb])
      refine ⟨d, h1, ?_⟩
      simp only
      split
      · omega
      · exact h2

theorem handle_mem {m : Mem} {a d : Nat} (h : m.handle a = some d) : (a, d) ∈ m.handles := find_mem m.handles a d h

theorem context_mem {m : Mem} {a : Nat} {ds : List Nat} (h : m.context a = some ds) : (a, ds) ∈ m.contexts := find_mem m.contexts a ds h

theorem handle_ref {m : Mem} {a d : Nat} (h : m.handle a = some d) : d ∈ refs m :=
  List.mem_append_left _ (List.mem_map_of_mem (f := (·.2)) (handle_mem h))

theorem context_ref {m : Mem} {a d : Nat} {ds : List Nat} (h : m.context a = some ds) (hd : d ∈ ds) : d ∈ refs m :=
  List.mem_append_right _ (List.mem_flatMap.mpr ⟨_, context_mem h, hd⟩)

theorem Sound.alive {m : Mem} (h : Sound m) {d : Nat} (hd : d ∈ refs m) : m.strong d ≠ 0 := by
  rw [h.counts]; exact fun e => (List.count_eq_zero.mp e) hd

/-- The array is accepted, and its dictionaries get one more reference each. -/
theorem fromCRepr_ok {s : Held} {m : Mem} (hm : Sound m) (ha : Agree s m) {as : List Nat} (h : ArrayOk s as) :
    fromCRepr m as = .ok ({ m with strong := fun d => m.strong d + (passed s as).count d }, passed s as) ∧
      ∀ d ∈ passed s as, d ∈ refs m := by
  have hf : s.handle = m.handle := funext ha.handle
  unfold fromCRepr passed
  cases as with
  | nil => simp
  | cons a as =>
    simp only [List.head?_cons, Option.some.injEq]
    by_cases h0 : a = 0
    · simp [h0]
    · simp only [h0, if_false]
      unfold ArrayOk at h
      simp only [List.head?_cons, Option.some.injEq, h0, false_or, hf] at h
      constructor
      · rw [hf, cloneHandles_ok]
        intro b hb
        obtain ⟨d, hd⟩ := Option.isSome_iff_exists.mp (h b hb)
        exact ⟨d, hd, hm.alive (handle_ref hd)⟩
      · intro d hd
        obtain ⟨b, hb, hd⟩ := List.mem_filterMap.mp hd
        exact handle_ref (hf ▸ hd)


/-! ## Each call -/

theorem sound_empty : Sound Mem.empty :=
  ⟨by decide, by simp [Mem.empty], by simp [Mem.empty], by simp [Mem.empty], by simp [Mem.empty], by simp [Mem.empty], by simp [Mem.empty],
    by simp [Mem.empty, refs], by simp [Mem.empty, refs]⟩

theorem agree_empty : Agree Held.nothing Mem.empty :=
  ⟨fun _ => rfl, fun _ => rfl, fun _ => by simp [Held.nothing, Mem.empty]⟩

theorem newDict_good {s : Held} {m : Mem} (hm : Sound m) (ha : Agree s m) (ok : Bool) :
    ∃ m' r, step m (.newDict ok) = .ok (m', r) ∧ Sound m' ∧ Agree (after s r (.newDict ok)) m' ∧ (r ≠ 0 ↔ ok = true) := by
  cases ok with
  | false => exact ⟨m, 0, rfl, hm, by simpa [after] using ha, by simp⟩
  | true =>
    have hp := hm.pos
    refine ⟨_, _, rfl, ?_, ?_, by simp [newDict]; omega⟩
    · have hnew : m.next ∉ refs m := fun h => Nat.lt_irrefl _ (hm.rfresh _ h)
      have hstrong : m.strong m.next = 0 := by rw [hm.counts]; exact List.count_eq_zero.mpr hnew
      refine ⟨by simp [newDict], ?_, hm.ckeys, hm.evs, ?_, ?_, ?_, ?_, ?_⟩
      · simp only [newDict, if_true, List.map_cons, List.nodup_cons]
        refine ⟨?_, hm.hkeys⟩
        intro h
        obtain ⟨p, hp1, hp2⟩ := List.mem_map.mp h
        have := (hm.hfresh p hp1).2; omega
      · intro p hmem
        simp only [newDict, if_true, List.mem_cons] at hmem ⊢
        rcases hmem with rfl | hmem
        · simp; omega
        · have := hm.hfresh p hmem; omega
      · intro p hmem; have := hm.cfresh p hmem; simp only [newDict, if_true]; omega
      · intro p hmem; have := hm.efresh p hmem; simp only [newDict, if_true]; omega
      · intro d hd
        simp only [newDict, if_true, refs, List.map_cons, List.cons_append, List.mem_cons] at hd ⊢
        rcases hd with rfl | hd
        · omega
        · have := hm.rfresh d hd; omega
      · intro d
        simp only [newDict, if_true, refs, List.map_cons, List.cons_append]
        by_cases hd : d = m.next
        · subst hd
          rw [List.count_cons_self, if_pos rfl]
          have := hm.counts m.next
          rw [refs] at this; omega
        · rw [if_neg hd, List.count_cons_of_ne (Ne.symm hd)]; exact hm.counts d
    · have hr : m.next ≠ 0 := by omega
      have he : after s m.next (.newDict true) = { s with handle := fun a => if a = m.next then some m.next else s.handle a } := by
        simp [after, hr]
      rw [he]
      refine ⟨?_, ha.context, ha.event⟩
      intro a
      simp only [newDict, if_true, Mem.handle, List.find?_cons]
      by_cases h : a = m.next
      · simp [h]
      · simp [h, Ne.symm h, ha.handle a, Mem.handle]

theorem context_added {s : Held} {m : Mem} (hm : Sound m) (ha : Agree s m) (ds : List Nat) (hds : ∀ d ∈ ds, d ∈ refs m) (as : List Nat)
    (ok : Bool) (hp : passed s as = ds) :
    let m' : Mem := { m with next := m.next + 1, contexts := (m.next, ds) :: m.contexts, strong := fun d => m.strong d + ds.count d }
    Sound m' ∧ Agree (after s m.next (.newContext ok as)) m' := by
  have hpos := hm.pos
  intro m'
  constructor
  · refine ⟨by simp [m'], hm.hkeys, ?_, hm.evs, ?_, ?_, ?_, ?_, ?_⟩
    · simp only [m', List.map_cons, List.nodup_cons]
      refine ⟨?_, hm.ckeys⟩
      intro h
      obtain ⟨p, hp1, hp2⟩ := List.mem_map.mp h
      have := (hm.cfresh p hp1).2; omega
    · intro p hmem; have := hm.hfresh p hmem; simp only [m']; omega
    · intro p hmem
      simp only [m', List.mem_cons] at hmem ⊢
      rcases hmem with rfl | hmem
      · simp; omega
      · have := hm.cfresh p hmem; omega
    · intro p hmem; have := hm.efresh p hmem; simp only [m']; omega
    · intro d hd
      simp only [m', refs, List.flatMap_cons, List.mem_append] at hd ⊢
      have : d ∈ refs m := by
        rcases hd with h | h | h
        · exact List.mem_append_left _ h
        · exact hds d h
        · exact List.mem_append_right _ h
      have := hm.rfresh d this; omega
    · intro d
      simp only [m', refs, List.flatMap_cons, List.count_append]
      have := hm.counts d
      rw [refs, List.count_append] at this; omega
  · have hr : m.next ≠ 0 := by omega
    have he : after s m.next (.newContext ok as) = { s with context := fun a => if a = m.next then some ds else s.context a } := by
      simp [after, hr, hp]
    rw [he]
    refine ⟨ha.handle, ?_, ha.event⟩
    intro a
    simp only [m', Mem.context, List.find?_cons]
    by_cases h : a = m.next
    · simp [h]
    · simp [h, Ne.symm h, ha.context a, Mem.context]

theorem newContext_good {s : Held} {m : Mem} (hm : Sound m) (ha : Agree s m) (ok : Bool) (as : List Nat) (h : ArrayOk s as) :
    ∃ m' r, step m (.newContext ok as) = .ok (m', r) ∧ Sound m' ∧ Agree (after s r (.newContext ok as)) m' ∧ (r ≠ 0 ↔ ok = true) := by
  obtain ⟨h1, h2⟩ := fromCRepr_ok hm ha h
  have hpos := hm.pos
  simp only [step, newContext, h1, bind, Except.bind]
  cases ok with
  | true =>
    have := context_added hm ha _ h2 as true rfl
    exact ⟨_, _, rfl, this.1, this.2, by simp; omega⟩
  | false =>
    simp only [Bool.false_eq_true, if_false]
    rw [dropAll_ok _ _ (fun d => Nat.le_add_left _ _)]
    refine ⟨m, 0, ?_, hm, by simpa [after] using ha, by simp⟩
    simp [pure, Except.pure]

theorem newContextFallback_good {s : Held} {m : Mem} (hm : Sound m) (ha : Agree s m) (ok : Bool) (as : List Nat) (h : ArrayOk s as) :
    ∃ m' r, step m (.newContextFallback ok as) = .ok (m', r) ∧ Sound m' ∧ Agree (after s r (.newContextFallback ok as)) m' ∧ r ≠ 0 := by
  obtain ⟨h1, h2⟩ := fromCRepr_ok hm ha h
  have hpos := hm.pos
  simp only [step, newContextFallback, h1, bind, Except.bind]
  rw [cloneAll_ok _ _ (by
    intro d hd
    have := hm.alive (h2 d hd)
    simp only; omega)]
  simp only
  rw [dropAll_ok _ _ (fun d => Nat.le_add_left _ _)]
  have := context_added hm ha _ h2 as true rfl
  refine ⟨_, m.next, ?_, this.1, this.2, by omega⟩
  simp [pure, Except.pure]

theorem freeContext_good {s : Held} {m : Mem} (hm : Sound m) (ha : Agree s m) (c : Nat) (h : c = 0 ∨ (s.context c).isSome) :
    ∃ m' r, step m (.freeContext c) = .ok (m', r) ∧ Sound m' ∧ Agree (after s r (.freeContext c)) m' := by
  simp only [step, freeContext]
  by_cases h0 : c = 0
  · refine ⟨m, 0, by simp [h0, bind, Except.bind, pure, Except.pure], hm, ha.handle, ?_, ha.event⟩
    intro a
    simp only [after]
    by_cases hac : a = c
    · rw [if_pos hac]
      cases hx : m.context a with
      | none => rfl
      | some ds => have := (hm.cfresh _ (context_mem hx)).1; simp at this; omega
    · rw [if_neg hac]; exact ha.context a
  · rw [if_neg h0]
    obtain ⟨ds, hds⟩ := Option.isSome_iff_exists.mp (h.resolve_left h0)
    rw [ha.context] at hds
    rw [hds]
    simp only
    have hc := fun d => count_filter m.contexts id c d ds hm.ckeys (context_mem hds)
    simp only [id] at hc
    rw [dropAll_ok]
    · refine ⟨_, 0, rfl, ?_, ?_⟩
      · refine ⟨hm.pos, hm.hkeys, hm.ckeys.sublist (List.filter_sublist.map _), hm.evs, hm.hfresh,
          fun p hp => hm.cfresh p (List.mem_filter.mp hp).1, hm.efresh, ?_, ?_⟩
        · intro d hd
          apply hm.rfresh
          simp only [refs, List.mem_append] at hd ⊢
          rcases hd with h | h
          · exact .inl h
          · obtain ⟨p, hp, hd⟩ := List.mem_flatMap.mp h
            exact .inr (List.mem_flatMap.mpr ⟨p, (List.mem_filter.mp hp).1, hd⟩)
        · intro d
          have h1 := hm.counts d
          have h2 := hc d
          simp only [refs, List.count_append] at h1 ⊢
          omega
      · refine ⟨ha.handle, ?_, ha.event⟩
        intro a
        simp only [after, Mem.context]
        rw [find_filter, ha.context a]; rfl
    · intro d
      have h1 := hm.counts d
      have h2 := hc d
      simp only [refs, List.count_append] at h1 ⊢
      omega

theorem freeDict_good {s : Held} {m : Mem} (hm : Sound m) (ha : Agree s m) (c : Nat) (h : c = 0 ∨ (s.handle c).isSome) :
    ∃ m' r, step m (.freeDict c) = .ok (m', r) ∧ Sound m' ∧ Agree (after s r (.freeDict c)) m' := by
  simp only [step, freeDict]
  by_cases h0 : c = 0
  · refine ⟨m, 0, by simp [h0, bind, Except.bind, pure, Except.pure], hm, ?_, ha.context, ha.event⟩
    intro a
    simp only [after]
    by_cases hac : a = c
    · rw [if_pos hac]
      cases hx : m.handle a with
      | none => rfl
      | some ds => have := (hm.hfresh _ (handle_mem hx)).1; simp at this; omega
    · rw [if_neg hac]; exact ha.handle a
  · rw [if_neg h0]
    obtain ⟨x, hx⟩ := Option.isSome_iff_exists.mp (h.resolve_left h0)
    rw [ha.handle] at hx
    rw [hx]
    simp only
    have hc := fun d => count_filter m.handles (fun x => [x]) c d x hm.hkeys (handle_mem hx)
    have hmap : ∀ l : List (Nat × Nat), (l.flatMap fun p => [p.2]) = l.map (·.2) := by
      intro l; induction l with
      | nil => rfl
      | cons p l ih => simp [List.flatMap_cons, ih]
    simp only [hmap] at hc
    have halive := hm.alive (handle_ref hx)
    rw [dropArc, if_neg halive]
    refine ⟨_, 0, rfl, ?_, ?_⟩
    · refine ⟨hm.pos, hm.hkeys.sublist (List.filter_sublist.map _), hm.ckeys, hm.evs, fun p hp => hm.hfresh p (List.mem_filter.mp hp).1,
          hm.cfresh, hm.efresh, ?_, ?_⟩
      · intro d hd
        apply hm.rfresh
        simp only [refs, List.mem_append] at hd ⊢
        rcases hd with h | h
        · obtain ⟨p, hp, hd⟩ := List.mem_map.mp h
          exact .inl (List.mem_map.mpr ⟨p, (List.mem_filter.mp hp).1, hd⟩)
        · exact .inr h
      · intro d
        have h1 := hm.counts d
        have h2 := hc d
        simp only [refs, List.count_append] at h1 ⊢
        by_cases hd : d = x
        · subst hd
          rw [List.count_singleton_self] at h2
          simp only [if_true]; omega
        · rw [List.count_singleton, if_neg (by simpa using Ne.symm hd)] at h2
          simp only [hd, if_false]; omega
    · refine ⟨?_, ha.context, ha.event⟩
      intro a
      simp only [after, Mem.handle]
      rw [find_filter, ha.handle a]; rfl

theorem useContext_good {s : Held} {m : Mem} (hm : Sound m) (ha : Agree s m) (c : Nat) (h : (s.context c).isSome) :
    useContext m c = .ok m := by
  obtain ⟨ds, hds⟩ := Option.isSome_iff_exists.mp h
  rw [ha.context] at hds
  unfold useContext
  rw [hds]
  simp only
  rw [if_pos]
  rw [List.all_eq_true]
  intro d hd
  simpa using hm.alive (context_ref hds hd)

theorem setDictionaries_good {s : Held} {m : Mem} (hm : Sound m) (ha : Agree s m) (c : Nat) (as : List Nat)
    (h : (s.context c).isSome) (hok : ArrayOk s as) :
    ∃ m' r, step m (.setDictionaries c as) = .ok (m', r) ∧ Sound m' ∧ Agree (after s r (.setDictionaries c as)) m' := by
  obtain ⟨old, hold⟩ := Option.isSome_iff_exists.mp h
  rw [ha.context] at hold
  obtain ⟨h1, h2⟩ := fromCRepr_ok hm ha hok
  have hc := fun d => count_set m.contexts id c d old (passed s as) hm.ckeys (context_mem hold)
  simp only [id] at hc
  simp only [step, setDictionaries, hold, h1, bind, Except.bind]
  rw [dropAll_ok]
  · refine ⟨_, 0, rfl, ?_, ?_⟩
    · have hk : (m.contexts.map fun p => if p.1 = c then (c, passed s as) else p).map (·.1) = m.contexts.map (·.1) := by
        rw [List.map_map]
        apply List.map_congr_left
        intro p _
        simp only [Function.comp]
        split
        · rename_i h; exact h.symm
        · rfl
      refine ⟨hm.pos, hm.hkeys, by simpa only [hk] using hm.ckeys, hm.evs, hm.hfresh, ?_, hm.efresh, ?_, ?_⟩
      · intro p hp
        obtain ⟨q, hq, rfl⟩ := List.mem_map.mp hp
        have := hm.cfresh q hq
        split
        · rename_i he; simpa [he] using this
        · exact this
      · intro d hd
        apply hm.rfresh
        simp only [refs, List.mem_append] at hd
        rcases hd with hd | hd
        · exact List.mem_append_left _ hd
        · obtain ⟨p, hp, hd⟩ := List.mem_flatMap.mp hd
          obtain ⟨q, hq, rfl⟩ := List.mem_map.mp hp
          split at hd
          · exact h2 d hd
          · exact List.mem_append_right _ (List.mem_flatMap.mpr ⟨q, hq, hd⟩)
      · intro d
        have h3 := hm.counts d
        have h4 := hc d
        simp only [refs, List.count_append] at h3 ⊢
        omega
    · refine ⟨ha.handle, ?_, ha.event⟩
      intro a
      simp only [after, Mem.context]
      rw [find_set _ _ _ _ (by show (m.context c).isSome = true; rw [hold]; rfl), ha.context a]; rfl
  · intro d
    have h3 := hm.counts d
    have h4 := hc d
    simp only [refs, List.count_append] at h3 ⊢
    omega

theorem newEvent_good {s : Held} {m : Mem} (hm : Sound m) (ha : Agree s m) :
    ∃ m' r, step m .newEvent = .ok (m', r) ∧ Sound m' ∧ Agree (after s r .newEvent) m' ∧ r ≠ 0 := by
  have hp := hm.pos
  refine ⟨_, _, rfl, ?_, ?_, by simp [newEvent]; omega⟩
  · refine ⟨by simp [newEvent], hm.hkeys, hm.ckeys, ?_, ?_, ?_, ?_, ?_, hm.counts⟩
    · simp only [newEvent, List.nodup_cons]
      exact ⟨fun h => Nat.lt_irrefl _ (hm.efresh _ h).2, hm.evs⟩
    · intro p h; have := hm.hfresh p h; simp only [newEvent]; omega
    · intro p h; have := hm.cfresh p h; simp only [newEvent]; omega
    · intro p h
      simp only [newEvent, List.mem_cons] at h ⊢
      rcases h with rfl | h
      · omega
      · have := hm.efresh p h; omega
    · intro p h; have := hm.rfresh p h; simp only [newEvent]; omega
  · refine ⟨ha.handle, ha.context, ?_⟩
    intro a
    simp only [after, newEvent]
    by_cases h : a = m.next <;> simp [h, ha.event a]

theorem processEvent_good {s : Held} {m : Mem} (hm : Sound m) (ha : Agree s m) (c ev : Nat) (h : (s.context c).isSome) (he : s.event ev = true) :
    ∃ m' r, step m (.processEvent c ev) = .ok (m', r) ∧ Sound m' ∧ Agree (after s r (.processEvent c ev)) m' := by
  have hmem : ev ∈ m.events := by simpa [ha.event] using he
  simp only [step, processEvent, if_pos hmem, useContext_good hm ha c h, bind, Except.bind]
  refine ⟨_, 0, rfl, ⟨hm.pos, hm.hkeys, hm.ckeys, hm.evs.sublist List.filter_sublist, hm.hfresh, hm.cfresh,
    fun a ha => hm.efresh a (List.mem_filter.mp ha).1, hm.rfresh, hm.counts⟩, ha.handle, ha.context, ?_⟩
  intro a
  simp only [after]
  by_cases hx : a = ev
  · simp [hx]
  · simp [hx, ha.event a]

theorem allowed_good {s : Held} {m : Mem} (hm : Sound m) (ha : Agree s m) (call : Call) (h : Allowed s call) :
    ∃ m' r, step m call = .ok (m', r) ∧ Sound m' ∧ Agree (after s r call) m' := by
  cases call with
  | newDict ok => obtain ⟨m', r, h1, h2, h3, _⟩ := newDict_good hm ha ok; exact ⟨m', r, h1, h2, h3⟩
  | newContext ok as => obtain ⟨m', r, h1, h2, h3, _⟩ := newContext_good hm ha ok as h; exact ⟨m', r, h1, h2, h3⟩
  | newContextFallback ok as => obtain ⟨m', r, h1, h2, h3, _⟩ := newContextFallback_good hm ha ok as h; exact ⟨m', r, h1, h2, h3⟩
  | setDictionaries c as => exact setDictionaries_good hm ha c as h.1 h.2
  | useContext c => exact ⟨m, 0, by simp [step, useContext_good hm ha c h, bind, Except.bind, pure, Except.pure], hm, ha⟩
  | freeContext c => exact freeContext_good hm ha c h
  | freeDict a => exact freeDict_good hm ha a h
  | newEvent => obtain ⟨m', r, h1, h2, h3, _⟩ := newEvent_good hm ha; exact ⟨m', r, h1, h2, h3⟩
  | processEvent c ev => exact processEvent_good hm ha c ev h.1 h.2

theorem runs_good {s : Held} {m : Mem} {calls : List Call} {s' : Held} {m' : Mem} (h : Runs s m calls s' m') (hm : Sound m) (ha : Agree s m) :
    Sound m' ∧ Agree s' m' := by
  induction h with
  | nil => exact ⟨hm, ha⟩
  | cons hall hstep _ ih =>
    obtain ⟨m₂, r₂, h1, h2, h3⟩ := allowed_good hm ha _ hall
    rw [hstep] at h1
    cases h1
    exact ih h2 h3

theorem runs_snoc {s₀ : Held} {m₀ : Mem} {calls : List Call} {s : Held} {m : Mem} (h : Runs s₀ m₀ calls s m) {call : Call} {m' : Mem} {r : Nat}
    (hc : Allowed s call) (h1 : step m call = .ok (m', r)) : Runs s₀ m₀ (calls ++ [call]) (after s r call) m' := by
  induction h with
  | nil => exact .cons hc h1 (.nil _ _)
  | cons a b _ ih => exact .cons a b (ih hc h1)

/-! ## C55 -/

/-- C55: **no call fails**: whatever a program did with the library so far, keeping the rules, the next call which keeps them does not use or release
memory which is not in use. -/
theorem allowed_never_fails {calls : List Call} {s : Held} {m : Mem} (h : Runs .nothing .empty calls s m) (call : Call) (hc : Allowed s call) :
    ∃ m' r, step m call = .ok (m', r) ∧ Runs .nothing .empty (calls ++ [call]) (after s r call) m' := by
  obtain ⟨hm, ha⟩ := runs_good h sound_empty agree_empty
  obtain ⟨m', r, h1, _, _⟩ := allowed_good hm ha call hc
  exact ⟨m', r, h1, runs_snoc h hc h1⟩

/-- C55: **a dictionary lives exactly as long as it is used**, by a handle which was not released or a context it was given to and which was
not released; it does not matter in which order they are released. -/
theorem lives_while_used {calls : List Call} {s : Held} {m : Mem} (h : Runs .nothing .empty calls s m) (d : Nat) :
    m.strong d ≠ 0 ↔ InUse s d := by
  obtain ⟨hm, ha⟩ := runs_good h sound_empty agree_empty
  rw [hm.counts, ne_eq, List.count_eq_zero, Decidable.not_not]
  unfold InUse
  simp only [refs, List.mem_append, List.mem_map, List.mem_flatMap, Prod.exists, ha.handle, ha.context]
  constructor
  · rintro (⟨a, b, hab, rfl⟩ | ⟨c, ds, hc, hd⟩)
    · exact .inl ⟨a, find_of_mem _ _ _ hm.hkeys hab⟩
    · exact .inr ⟨c, ds, find_of_mem _ _ _ hm.ckeys hc, hd⟩
  · rintro (⟨a, h⟩ | ⟨c, ds, h, hd⟩)
    · exact .inl ⟨a, d, handle_mem h, rfl⟩
    · exact .inr ⟨c, ds, context_mem h, hd⟩

/-- C55: **nothing leaks**: a program which has given back all it got leaves no object in memory. -/
theorem nothing_leaks {calls : List Call} {s : Held} {m : Mem} (h : Runs .nothing .empty calls s m) (h1 : ∀ a, s.handle a = none)
    (h2 : ∀ a, s.context a = none) (h3 : ∀ a, s.event a = false) :
    m.handles = [] ∧ m.contexts = [] ∧ m.events = [] ∧ ∀ d, m.strong d = 0 := by
  obtain ⟨hm, ha⟩ := runs_good h sound_empty agree_empty
  have e1 : m.handles = [] := by
    cases hl : m.handles with
    | nil => rfl
    | cons p l =>
      have := find_of_mem m.handles p.1 p.2 hm.hkeys (by rw [hl]; simp)
      have h4 := ha.handle p.1
      rw [h1] at h4
      rw [show m.handle p.1 = some p.2 from this] at h4; cases h4
  have e2 : m.contexts = [] := by
    cases hl : m.contexts with
    | nil => rfl
    | cons p l =>
      have := find_of_mem m.contexts p.1 p.2 hm.ckeys (by rw [hl]; simp)
      have h4 := ha.context p.1
      rw [h2] at h4
      rw [show m.context p.1 = some p.2 from this] at h4; cases h4
  refine ⟨e1, e2, ?_, fun d => by rw [hm.counts]; simp [refs, e1, e2]⟩
  cases hl : m.events with
  | nil => rfl
  | cons p l =>
    have := ha.event p
    rw [h3, hl] at this
    simp at this

/-- C55: the pointers which are returned: a new one for every object that could be made, NULL otherwise. -/
theorem returned_pointers {calls : List Call} {s : Held} {m : Mem} (h : Runs .nothing .empty calls s m) (ok : Bool) (as : List Nat)
    (hok : ArrayOk s as) (m' : Mem) (r : Nat) :
    (step m (.newDict ok) = .ok (m', r) → (r ≠ 0 ↔ ok = true)) ∧ (step m (.newContext ok as) = .ok (m', r) → (r ≠ 0 ↔ ok = true)) ∧
      (step m (.newContextFallback ok as) = .ok (m', r) → r ≠ 0) ∧ (step m .newEvent = .ok (m', r) → r ≠ 0) := by
  obtain ⟨hm, ha⟩ := runs_good h sound_empty agree_empty
  refine ⟨fun h => ?_, fun h => ?_, fun h => ?_, fun h => ?_⟩
  · obtain ⟨_, _, h1, _, _, h4⟩ := newDict_good hm ha ok; rw [h] at h1; cases h1; exact h4
  · obtain ⟨_, _, h1, _, _, h4⟩ := newContext_good hm ha ok as hok; rw [h] at h1; cases h1; exact h4
  · obtain ⟨_, _, h1, _, _, h4⟩ := newContextFallback_good hm ha ok as hok; rw [h] at h1; cases h1; exact h4
  · obtain ⟨_, _, h1, _, _, h4⟩ := newEvent_good hm ha; rw [h] at h1; cases h1; exact h4

/-- C55: a NULL handle (a dictionary which could not be loaded) at the start of an array makes the context use none of the dictionaries in it. -/
theorem first_null_drops_all {calls : List Call} {s : Held} {m : Mem} (h : Runs .nothing .empty calls s m) (as : List Nat) :
    ∃ m' c, step m (.newContext true (0 :: as)) = .ok (m', c) ∧ m'.context c = some [] := by
  refine ⟨_, _, rfl, ?_⟩
  simp [Mem.context]

/-- C55: a NULL handle at another place of an array is used as if it were one: undefined behaviour. -/
theorem later_null_fails : ∃ s m, Runs .nothing .empty [.newDict true] s m ∧ step m (.newContext true [1, 0]) = .error .badFree :=
  ⟨_, _, .cons (r := 1) trivial rfl (.nil _ _), rfl⟩

/-- C55: the rules are needed: an object which was given back must not be used again. -/
theorem used_again_fails : ∃ s m, Runs .nothing .empty [.newDict true, .newContext true [1], .newEvent, .processEvent 2 3, .freeContext 2] s m ∧
    step m (.processEvent 2 3) = .error .badFree ∧ step m (.freeContext 2) = .error .badFree ∧ step m (.useContext 2) = .error .badFree := by
  refine ⟨_, _, .cons (r := 1) trivial rfl (.cons (r := 2) (.inr ?_) rfl (.cons (r := 3) trivial rfl (.cons (r := 0) ⟨?_, ?_⟩ rfl
    (.cons (r := 0) (.inr ?_) rfl (.nil _ _))))), rfl, rfl, rfl⟩
  · simp [after]
  · simp [after]
  · simp [after]
  · simp [after]

/-- A program which gives its handles back as soon as the context has the dictionaries: the dictionaries live until the context is released. -/
example : ∃ s m, Runs .nothing .empty
    [.newDict true, .newDict true, .newContext true [1, 2], .freeDict 1, .freeDict 2, .newEvent, .processEvent 3 4] s m ∧
    InUse s 1 ∧ InUse s 2 ∧ Allowed s (.freeContext 3) ∧ m.strong 1 = 1 ∧ m.strong 2 = 1 := by
  refine ⟨_, _, .cons (r := 1) trivial rfl (.cons (r := 2) trivial rfl (.cons (r := 3) (.inr ?_) rfl (.cons (r := 0) (.inr ?_) rfl
    (.cons (r := 0) (.inr ?_) rfl (.cons (r := 4) trivial rfl (.cons (r := 0) ⟨?_, ?_⟩ rfl (.nil _ _))))))), ?_, ?_, ?_, rfl, rfl⟩
  · simp [after]
  · simp [after]
  · simp [after]
  · simp [after]
  · simp [after]
  · exact .inr ⟨3, [1, 2], by simp [after, passed], by simp⟩
  · exact .inr ⟨3, [1, 2], by simp [after, passed], by simp⟩
  · exact .inr (by simp [after])

end Cskk.Props.Handles
