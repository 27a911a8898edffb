import Verif.Spec.UserDict
import Verif.Lemmas.DictEntry

/-!
# Confirming and purging: properties C08, C09, C10 (dictionary level)
-/

namespace Cskk.Props.UserDict
open Cskk.Spec Cskk.Spec.UserDict

/-! ## Recency lists -/

theorem find_erase {V} (l : Recency V) (k k' : Str) : (l.erase k).find k' = if k' = k then none else l.find k' := by
  induction l with
  | nil => simp [Recency.erase, Recency.find]
  | cons e l ih =>
    unfold Recency.erase Recency.find at *
    by_cases h : e.1 = k
    · simp only [h, ne_eq, not_true, decide_false, Bool.false_eq_true, not_false_eq_true, List.filter_cons_of_neg]
      rw [ih]
      by_cases h' : k' = k
      · simp [h']
      · have : ¬ e.1 = k' := fun x => h' (x.symm.trans h)
        simp [h', this]
    · rw [List.filter_cons_of_pos (by simpa using h), List.find?_cons, List.find?_cons]
      by_cases h' : e.1 = k'
      · have : ¬ k' = k := fun x => h (h'.trans x)
        simp [h', this]
      · simp only [h', decide_false]; exact ih

theorem find_push {V} (l : Recency V) (k k' : Str) (v : V) :
    (l.push k v).find k' = if k' = k then some v else l.find k' := by
  unfold Recency.push
  have := find_erase l k k'
  unfold Recency.find at *
  rw [List.find?_cons]
  by_cases h : k' = k
  · subst h; simp
  · simp only [Ne.symm h, decide_false, this, h, if_false]

theorem find_touch {V} (l : Recency V) (k k' : Str) (f : V → V) :
    (l.touch k f).find k' = if k' = k then (l.find k).map f else l.find k' := by
  unfold Recency.touch
  cases hf : l.find k with
  | none =>
    by_cases h : k' = k
    · subst h; simp [hf]
    · simp [h]
  | some v =>
    have := find_push l k k' (f v)
    unfold Recency.push at this
    simp only [this, Option.map_some]

theorem keys_erase {V} (l : Recency V) (k : Str) (h : (l.map (·.1)).Nodup) : ((l.erase k).map (·.1)).Nodup ∧
    k ∉ (l.erase k).map (·.1) := by
  constructor
  · exact h.sublist (List.Sublist.map _ List.filter_sublist)
  · intro hm
    obtain ⟨e, he, rfl⟩ := List.mem_map.mp hm
    simp [Recency.erase] at he

theorem mem_touch {V} {l : Recency V} {k : Str} {f : V → V} {e : Str × V} (h : e ∈ l.touch k f) :
    e ∈ l ∨ ∃ v, (k, v) ∈ l ∧ e = (k, f v) := by
  unfold Recency.touch at h
  cases hf : l.find k with
  | none => rw [hf] at h; exact .inl h
  | some v =>
    rw [hf] at h
    rcases List.mem_cons.mp h with h | h
    · exact .inr ⟨v, SMap.mem_of_get (m := l) hf, h⟩
    · exact .inl (List.mem_filter.mp h).1

theorem keys_touch {V} (l : Recency V) (k : Str) (f : V → V) (h : (l.map (·.1)).Nodup) : ((l.touch k f).map (·.1)).Nodup := by
  unfold Recency.touch
  split
  · exact h
  · rw [List.map_cons, List.nodup_cons]; exact (keys_erase l k h).symm

theorem keys_push {V} (l : Recency V) (k : Str) (v : V) (h : (l.map (·.1)).Nodup) : ((l.push k v).map (·.1)).Nodup := by
  unfold Recency.push
  rw [List.map_cons, List.nodup_cons]; exact (keys_erase l k h).symm

/-! ## One entry -/

/-- The effect of confirming on one group. -/
def front (c : Candidate) (old : List DictCand) : List DictCand :=
  match old.findIdx? (fun it => decide (it.kouho = c.kouho)) with
  | some i => swapFirst old i
  | none => DictCand.fromCandidate c :: old

theorem prioritizeForOkuri_get (e : DictEntry) (o g : Str) (c : Candidate) :
    SMap.get (e.prioritizeForOkuri o c).cands g =
      if g = o then some (front c ((SMap.get e.cands o).getD [])) else SMap.get e.cands g := by
  unfold DictEntry.prioritizeForOkuri
  cases h : SMap.get e.cands o with
  | none => simp [SMap.get_insert, front]
  | some cs =>
    simp only [front, Option.getD_some]
    cases hf : cs.findIdx? (fun it => decide (it.kouho = c.kouho)) <;> simp [SMap.get_insert]

theorem front_spec (c : Candidate) (old : List DictCand) : MovedToFront c old (front c old) := by
  unfold front
  have := findIdx?_spec (fun it : DictCand => decide (it.kouho = c.kouho)) old
  cases hf : old.findIdx? (fun it => decide (it.kouho = c.kouho)) with
  | none =>
    rw [hf] at this
    apply MovedToFront.added
    rintro ⟨d, hd, he⟩
    have := this d hd
    simp [he] at this
  | some i =>
    rw [hf] at this
    obtain ⟨x, pre, post, h1, h2, h3, _⟩ := this
    obtain ⟨t, ht, hp⟩ := swapFirst_spec old i x (by rw [h1, ← h2]; simp)
    simp only [ht]
    exact MovedToFront.known ⟨x, by rw [h1]; simp, by simpa using h3⟩ (by simpa using h3) hp

theorem front_head (c : Candidate) (old : List DictCand) : ∃ d t, front c old = d :: t ∧ d.kouho = c.kouho := by
  have := front_spec c old
  cases h : front c old with
  | nil => rw [h] at this; cases this
  | cons d t =>
    rw [h] at this
    refine ⟨d, t, rfl, ?_⟩
    cases this with
    | known _ h _ => exact h
    | added _ => rfl

theorem front_front (c : Candidate) (old : List DictCand) : front c (front c old) = front c old := by
  obtain ⟨d, t, h, hk⟩ := front_head c old
  rw [h]
  unfold front
  rw [List.findIdx?_cons]
  simp [hk, swapFirst]

/-- The effect of confirming on every group of the entry. -/
theorem prioritize_get (e : DictEntry) (c : Candidate) (g : Str) :
    (recordedIn c.strictOkuri g → SMap.get (e.prioritize c).cands g = some (front c ((SMap.get e.cands g).getD []))) ∧
    (¬ recordedIn c.strictOkuri g → SMap.get (e.prioritize c).cands g = SMap.get e.cands g) := by
  unfold DictEntry.prioritize recordedIn
  cases hs : c.strictOkuri with
  | none =>
    simp only [prioritizeForOkuri_get]
    constructor
    · rintro (rfl | h)
      · simp
      · cases h
    · intro h
      simp only [not_or] at h
      simp [h.1]
  | some o =>
    simp only [prioritizeForOkuri_get, Option.some.injEq]
    constructor
    · rintro (rfl | rfl)
      · by_cases ho : [] = o
        · subst ho; simp [front_front]
        · simp [ho]
      · by_cases ho : o = []
        · subst ho; simp [front_front]
        · simp [ho]
    · intro h
      simp only [not_or] at h
      simp [h.1, Ne.symm h.2]

theorem new_get (midashi : Str) (c : Candidate) (g : Str) :
    (recordedIn c.strictOkuri g → SMap.get (DictEntry.new midashi c).cands g = some [⟨c.kouho, c.annotation⟩]) ∧
    (¬ recordedIn c.strictOkuri g → SMap.get (DictEntry.new midashi c).cands g = none) := by
  unfold DictEntry.new recordedIn
  cases hs : c.strictOkuri with
  | none =>
    simp only [SMap.get_insert]
    constructor
    · rintro (rfl | h)
      · simp [DictCand.fromCandidate]
      · cases h
    · intro h
      simp only [not_or] at h
      simp [h.1, SMap.get]
  | some o =>
    simp only [SMap.get_insert, Option.some.injEq]
    constructor
    · rintro (rfl | rfl)
      · simp [DictCand.fromCandidate]
      · simp [DictCand.fromCandidate]
    · intro h
      simp only [not_or] at h
      simp [h.1, Ne.symm h.2, SMap.get]

/-! ## C08 -/

theorem side_update (m : DictMaps) (o o' : Bool) (f) :
    side (m.update o f) o' = if o' = o then f (side m o) else side m o' := by
  cases o <;> cases o' <;> rfl

theorem find_select (m : DictMaps) (c : Candidate) (k : Str) :
    (side (m.select c) c.okuri).find k =
      if k = c.midashi then
        match (side m c.okuri).find c.midashi with
        | some e => some (e.prioritize c)
        | none => some (DictEntry.new c.midashi c)
      else (side m c.okuri).find k := by
  unfold DictMaps.select
  rw [side_update]
  simp only [if_true]
  cases hf : (side m c.okuri).find c.midashi with
  | none =>
    simp only [find_push]
  | some e =>
    simp only [find_touch, hf, Option.map_some]

/-- **C08.** Confirming a candidate puts its word in front of the general group of its reading and, if it was
converted with okurigana, of the group of exactly this okurigana; all other words of these groups are kept exactly once. -/
theorem confirm_moves_to_front (m : DictMaps) (c : Candidate) (g : Str) (hg : recordedIn c.strictOkuri g) :
    ∃ new, listed (m.select c) c.okuri c.midashi g = some new ∧
      MovedToFront c ((listed m c.okuri c.midashi g).getD []) new := by
  unfold listed
  rw [find_select]
  simp only [if_true]
  cases hf : (side m c.okuri).find c.midashi with
  | none =>
    refine ⟨[⟨c.kouho, c.annotation⟩], ?_, ?_⟩
    · simp [(new_get c.midashi c g).1 hg]
    · exact MovedToFront.added (by rintro ⟨d, hd, _⟩; cases hd)
  | some e =>
    refine ⟨_, ?_, front_spec c _⟩
    simp [(prioritize_get e c g).1 hg]

/-- **C08.** Confirming a candidate changes nothing else: other okurigana groups of the reading, other readings and the
other side of the dictionary list what they listed before. -/
theorem confirm_changes_nothing_else (m : DictMaps) (c : Candidate) (o : Bool) (midashi g : Str)
    (h : o ≠ c.okuri ∨ midashi ≠ c.midashi ∨ ¬ recordedIn c.strictOkuri g) :
    listed (m.select c) o midashi g = listed m o midashi g := by
  unfold listed
  by_cases ho : o = c.okuri
  · subst ho
    rw [find_select]
    by_cases hk : midashi = c.midashi
    · subst hk
      have hg : ¬ recordedIn c.strictOkuri g := by
        rcases h with h | h | h
        · exact absurd rfl h
        · exact absurd rfl h
        · exact h
      simp only [if_true]
      cases hf : (side m c.okuri).find c.midashi with
      | none => simp [(new_get c.midashi c g).2 hg]
      | some e => simp [(prioritize_get e c g).2 hg]
    · simp [hk]
  · unfold DictMaps.select
    rw [side_update]; simp [ho]

/-- The first word listed after a confirmation is the confirmed one. -/
theorem confirmed_first (m : DictMaps) (c : Candidate) (g : Str) (hg : recordedIn c.strictOkuri g) :
    ∃ d rest, listed (m.select c) c.okuri c.midashi g = some (d :: rest) ∧ d.kouho = c.kouho := by
  obtain ⟨new, h1, h2⟩ := confirm_moves_to_front m c g hg
  cases h2 with
  | known _ h _ => exact ⟨_, _, h1, h⟩
  | added _ => exact ⟨_, _, h1, rfl⟩

/-- The swap is not a stable move to the front: the words in between are not kept in order. -/
theorem confirm_is_a_swap :
    let m : DictMaps := ⟨[], [(c%"あい", ⟨c%"あい", false, [([], [⟨c%"愛", none⟩, ⟨c%"哀", none⟩, ⟨c%"相", none⟩])]⟩)]⟩
    listed (m.select ⟨c%"あい", none, false, c%"相", none, c%"相"⟩) false c%"あい" []
      = some [⟨c%"相", none⟩, ⟨c%"哀", none⟩, ⟨c%"愛", none⟩] := by decide +kernel

/-! ## C09 -/

/-- Removing the first occurrence of a word. -/
def without (w : Str) (old : List DictCand) : List DictCand := old.eraseP fun d => decide (d.kouho = w)

theorem removeForOkuri_get (e : DictEntry) (o g : Str) (c : Candidate) :
    SMap.get (e.removeForOkuri o c).cands g =
      if g = o then (SMap.get e.cands o).map (without c.kouho) else SMap.get e.cands g := by
  unfold DictEntry.removeForOkuri
  cases h : SMap.get e.cands o with
  | none => by_cases hg : g = o <;> simp [hg, h]
  | some cs =>
    have hs := findIdx?_spec (fun it : DictCand => decide (it.kouho = c.kouho)) cs
    simp only [Option.map_some]
    cases hf : cs.findIdx? (fun it => decide (it.kouho = c.kouho)) with
    | none =>
      rw [hf] at hs
      have : without c.kouho cs = cs := by
        unfold without; rw [List.eraseP_of_forall_not]; intro a ha; simpa using hs a ha
      by_cases hg : g = o <;> simp [hg, h, this]
    | some i =>
      rw [hf] at hs
      obtain ⟨x, pre, post, h1, h2, h3, h4⟩ := hs
      have e1 : without c.kouho cs = pre ++ post := by
        unfold without; rw [h1, List.eraseP_append_right, List.eraseP_cons_of_pos (by simpa using h3)]
        intro b hb; simpa using h4 b hb
      have e2 : cs.eraseIdx i = pre ++ post := by
        rw [h1, ← h2, List.eraseIdx_append_of_length_le (Nat.le_refl _)]; simp
      simp [SMap.get_insert, e1, e2]

theorem without_mem {w : Str} {l : List DictCand} (h : (l.map (·.kouho)).Nodup) : ¬ HasWord (without w l) w := by
  induction l with
  | nil => rintro ⟨d, hd, _⟩; cases hd
  | cons a l ih =>
    rw [List.map_cons, List.nodup_cons] at h
    unfold without
    by_cases ha : a.kouho = w
    · rw [List.eraseP_cons_of_pos (by simpa using ha)]
      rintro ⟨d, hd, he⟩
      exact h.1 (List.mem_map.mpr ⟨d, hd, by rw [he, ha]⟩)
    · rw [List.eraseP_cons_of_neg (by simpa using ha)]
      rintro ⟨d, hd, he⟩
      rcases List.mem_cons.mp hd with rfl | hd
      · exact ha he
      · exact ih h.2 ⟨d, hd, he⟩

theorem without_filter {w : Str} {l : List DictCand} (h : (l.map (·.kouho)).Nodup) :
    without w l = l.filter fun d => decide (d.kouho ≠ w) := by
  induction l with
  | nil => rfl
  | cons a l ih =>
    rw [List.map_cons, List.nodup_cons] at h
    unfold without
    by_cases ha : a.kouho = w
    · rw [List.eraseP_cons_of_pos (by simpa using ha), List.filter_cons_of_neg (by simpa using ha), List.filter_eq_self.mpr]
      intro d hd
      simp only [ne_eq, decide_eq_true_eq]
      intro he
      exact h.1 (List.mem_map.mpr ⟨d, hd, by rw [he, ha]⟩)
    · rw [List.eraseP_cons_of_neg (by simpa using ha), List.filter_cons_of_pos (by simpa using ha)]
      have := ih h.2
      unfold without at this
      rw [this]

theorem without_without {w : Str} {l : List DictCand} (h : (l.map (·.kouho)).Nodup) :
    without w (without w l) = without w l := by
  have h1 := without_filter (w := w) h
  have : ((without w l).map (·.kouho)).Nodup := h.sublist (List.Sublist.map _ List.eraseP_sublist)
  rw [without_filter this, h1, List.filter_filter]; simp

theorem removeMatching_get (e : DictEntry) (k : CompositeKey) (c : Candidate) (g : Str)
    (hd : ∀ l, SMap.get e.cands g = some l → (l.map (·.kouho)).Nodup) :
    (recordedIn k.okuri g → SMap.get (e.removeMatching k c).cands g = (SMap.get e.cands g).map (without c.kouho)) ∧
    (¬ recordedIn k.okuri g → SMap.get (e.removeMatching k c).cands g = SMap.get e.cands g) := by
  unfold DictEntry.removeMatching recordedIn
  cases hs : k.okuri with
  | none =>
    simp only [removeForOkuri_get]
    constructor
    · rintro (rfl | h)
      · simp
      · cases h
    · intro h
      simp only [not_or] at h
      simp [h.1]
  | some o =>
    simp only [removeForOkuri_get, Option.some.injEq]
    constructor
    · rintro (rfl | rfl)
      · by_cases ho : [] = o
        · subst ho
          cases hl : SMap.get e.cands [] with
          | none => simp
          | some l => simp [without_without (hd l hl)]
        · simp [ho]
      · by_cases ho : o = []
        · subst ho
          cases hl : SMap.get e.cands [] with
          | none => simp
          | some l => simp [without_without (hd l hl)]
        · simp [ho]
    · intro h
      simp only [not_or] at h
      simp [h.1, Ne.symm h.2]

theorem listed_distinct {m : DictMaps} (h : WellFormed m) {o : Bool} {midashi g : Str} {l : List DictCand}
    (hl : listed m o midashi g = some l) : (l.map (·.kouho)).Nodup := by
  unfold listed at hl
  obtain ⟨e, he, hg⟩ := Option.bind_eq_some_iff.mp hl
  exact h.distinct o (midashi, e) (SMap.mem_of_get (m := side m o) he) (g, l) (SMap.mem_of_get hg)

/-- **C09.** Purging a candidate removes its word from the general group of its reading and from the group of the
okurigana it was looked up with; the other words stay, in the same order. -/
theorem purge_removes (m : DictMaps) (hm : WellFormed m) (k : CompositeKey) (c : Candidate) (g : Str)
    (hg : recordedIn k.okuri g) :
    listed (m.purge k c) c.okuri c.midashi g =
      (listed m c.okuri c.midashi g).map fun l => l.filter fun d => decide (d.kouho ≠ c.kouho) := by
  have hd := @listed_distinct m hm c.okuri c.midashi g
  unfold listed at *
  unfold DictMaps.purge
  rw [side_update]
  simp only [if_true, find_touch]
  cases hf : (side m c.okuri).find c.midashi with
  | none => simp
  | some e =>
    rw [hf] at hd
    simp only [Option.bind_some, Option.map_some] at hd ⊢
    rw [(removeMatching_get e k c g @hd).1 hg]
    cases hl : SMap.get e.cands g with
    | none => rfl
    | some l => simp [without_filter (hd hl)]

/-- **C09.** Purging changes nothing else. -/
theorem purge_changes_nothing_else (m : DictMaps) (hm : WellFormed m) (k : CompositeKey) (c : Candidate) (o : Bool)
    (midashi g : Str) (h : o ≠ c.okuri ∨ midashi ≠ c.midashi ∨ ¬ recordedIn k.okuri g) :
    listed (m.purge k c) o midashi g = listed m o midashi g := by
  have hd := @listed_distinct m hm c.okuri c.midashi g
  unfold listed at *
  unfold DictMaps.purge
  rw [side_update]
  by_cases ho : o = c.okuri
  · subst ho
    simp only [if_true, find_touch]
    by_cases hk : midashi = c.midashi
    · subst hk
      have hg : ¬ recordedIn k.okuri g := by
        rcases h with h | h | h
        · exact absurd rfl h
        · exact absurd rfl h
        · exact h
      cases hf : (side m c.okuri).find c.midashi with
      | none => simp
      | some e =>
        rw [hf] at hd
        simp only [Option.bind_some, if_true, Option.map_some] at hd ⊢
        exact (removeMatching_get e k c g @hd).2 hg
    · simp [hk]
  · simp [ho]

/-- A hand-edited file may list one word twice; then one purge is not enough. -/
theorem purge_duplicate_survives :
    let m : DictMaps := ⟨[], [(c%"あい", ⟨c%"あい", false, [([], [⟨c%"愛", none⟩, ⟨c%"愛", some c%"love"⟩])]⟩)]⟩
    listed (m.purge ⟨c%"あい", none⟩ ⟨c%"あい", none, false, c%"愛", none, c%"愛"⟩) false c%"あい" []
      = some [⟨c%"愛", some c%"love"⟩] := by decide +kernel

/-- Purging a word leaves it in the groups of other okurigana. -/
theorem purge_keeps_other_okuri :
    let m : DictMaps := ⟨[(c%"うごk", ⟨c%"うごk", true,
      [([], [⟨c%"動", none⟩]), (c%"か", [⟨c%"動", none⟩]), (c%"く", [⟨c%"動", none⟩])]⟩)], []⟩
    (listed (m.purge ⟨c%"うご", some c%"か"⟩ ⟨c%"うごk", some c%"か", true, c%"動", none, c%"動"⟩) true c%"うごk" c%"く")
      = some [⟨c%"動", none⟩] := by decide +kernel

/-! ## Well-formedness is kept by every history -/

theorem nodup_front {c : Candidate} {l : List DictCand} (h : (l.map (·.kouho)).Nodup) : ((front c l).map (·.kouho)).Nodup := by
  have := front_spec c l
  cases hf : front c l with
  | nil => simp
  | cons d t =>
    rw [hf] at this
    cases this with
    | known _ _ hp => exact (hp.map _).nodup_iff.mpr h
    | added hn =>
      rw [List.map_cons, List.nodup_cons]
      refine ⟨?_, h⟩
      intro hm
      obtain ⟨d, hd, he⟩ := List.mem_map.mp hm
      exact hn ⟨d, hd, he⟩

/-- The part of well-formedness that concerns one entry. -/
structure EntryWf (e : DictEntry) : Prop where
  sorted : SMap.Sorted e.cands
  distinct : ∀ g ∈ e.cands, (g.2.map (·.kouho)).Nodup

theorem entryWf_set {e : DictEntry} (h : EntryWf e) (o : Str) (l : List DictCand) (hl : (l.map (·.kouho)).Nodup) :
    EntryWf { e with cands := SMap.insert e.cands o l } := by
  refine ⟨SMap.sorted_insert _ _ _ h.sorted, ?_⟩
  intro g hg
  rcases SMap.mem_insert _ _ _ _ hg with rfl | hg
  · exact hl
  · exact h.distinct g hg

theorem entryWf_prioritizeFor {e : DictEntry} (h : EntryWf e) (o : Str) (c : Candidate) : EntryWf (e.prioritizeForOkuri o c) := by
  unfold DictEntry.prioritizeForOkuri
  cases hg : SMap.get e.cands o with
  | none => exact entryWf_set h o _ (by simp)
  | some cs =>
    have hcs := nodup_front (c := c) (h.distinct _ (SMap.mem_of_get hg))
    unfold front at hcs
    simp only at hcs ⊢
    cases hf : cs.findIdx? (fun it => decide (it.kouho = c.kouho)) with
    | none => rw [hf] at hcs; exact entryWf_set h o _ hcs
    | some i => rw [hf] at hcs; exact entryWf_set h o _ hcs

theorem entryWf_prioritize {e : DictEntry} (h : EntryWf e) (c : Candidate) : EntryWf (e.prioritize c) := by
  unfold DictEntry.prioritize
  apply entryWf_prioritizeFor
  split
  · exact entryWf_prioritizeFor h _ _
  · exact h

theorem entryWf_removeFor {e : DictEntry} (h : EntryWf e) (o : Str) (c : Candidate) : EntryWf (e.removeForOkuri o c) := by
  unfold DictEntry.removeForOkuri
  cases hg : SMap.get e.cands o with
  | none => exact h
  | some cs =>
    simp only
    cases hf : cs.findIdx? (fun it => decide (it.kouho = c.kouho)) with
    | none => exact h
    | some i =>
      exact entryWf_set h o _ ((h.distinct _ (SMap.mem_of_get hg)).sublist (List.Sublist.map _ (List.eraseIdx_sublist _ _)))

theorem entryWf_remove {e : DictEntry} (h : EntryWf e) (k : CompositeKey) (c : Candidate) : EntryWf (e.removeMatching k c) := by
  unfold DictEntry.removeMatching
  apply entryWf_removeFor
  split
  · exact entryWf_removeFor h _ _
  · exact h

theorem entryWf_new (midashi : Str) (c : Candidate) : EntryWf (DictEntry.new midashi c) := by
  have h0 : EntryWf ⟨midashi, c.okuri, []⟩ := ⟨List.Pairwise.nil, by intro g hg; cases hg⟩
  unfold DictEntry.new
  cases hs : c.strictOkuri with
  | none => exact entryWf_set h0 [] [DictCand.fromCandidate c] (by simp)
  | some o => exact entryWf_set (entryWf_set h0 o [DictCand.fromCandidate c] (by simp)) [] [DictCand.fromCandidate c] (by simp)

theorem midashi_prioritizeFor (e : DictEntry) (o : Str) (c : Candidate) : (e.prioritizeForOkuri o c).midashi = e.midashi := by
  unfold DictEntry.prioritizeForOkuri
  split
  · split <;> rfl
  · rfl

theorem midashi_prioritize (e : DictEntry) (c : Candidate) : (e.prioritize c).midashi = e.midashi := by
  unfold DictEntry.prioritize
  simp only [midashi_prioritizeFor]
  split
  · exact midashi_prioritizeFor _ _ _
  · rfl

theorem midashi_removeFor (e : DictEntry) (o : Str) (c : Candidate) : (e.removeForOkuri o c).midashi = e.midashi := by
  unfold DictEntry.removeForOkuri
  split
  · split <;> rfl
  · rfl

theorem midashi_remove (e : DictEntry) (k : CompositeKey) (c : Candidate) : (e.removeMatching k c).midashi = e.midashi := by
  unfold DictEntry.removeMatching
  simp only [midashi_removeFor]
  split
  · exact midashi_removeFor _ _ _
  · rfl

theorem wf_update {m : DictMaps} (h : WellFormed m) (o : Bool) (f : Recency DictEntry → Recency DictEntry)
    (hk : ((f (side m o)).map (·.1)).Nodup)
    (he : ∀ e ∈ f (side m o), e.2.midashi = e.1 ∧ EntryWf e.2) : WellFormed (m.update o f) := by
  refine ⟨?_, ?_, ?_, ?_⟩
  · intro o'; rw [side_update]; split
    · exact hk
    · exact h.keys o'
  · intro o' e hm; rw [side_update] at hm; split at hm
    · exact (he e hm).1
    · exact h.reading o' e hm
  · intro o' e hm; rw [side_update] at hm; split at hm
    · exact (he e hm).2.sorted
    · exact h.sorted o' e hm
  · intro o' e hm; rw [side_update] at hm; split at hm
    · exact (he e hm).2.distinct
    · exact h.distinct o' e hm

theorem wf_select {m : DictMaps} (h : WellFormed m) (c : Candidate) : WellFormed (m.select c) := by
  have old : ∀ e ∈ side m c.okuri, e.2.midashi = e.1 ∧ EntryWf e.2 := fun e he =>
    ⟨h.reading _ e he, h.sorted _ e he, h.distinct _ e he⟩
  unfold DictMaps.select
  apply wf_update h
  · split
    · exact keys_touch _ _ _ (h.keys _)
    · exact keys_push _ _ _ (h.keys _)
  · intro e he
    split at he
    · rcases mem_touch he with he | ⟨v, hv, rfl⟩
      · exact old e he
      · have := old _ hv
        exact ⟨by simpa [midashi_prioritize] using this.1, entryWf_prioritize this.2 c⟩
    · unfold Recency.push at he
      rcases List.mem_cons.mp he with rfl | he
      · exact ⟨rfl, entryWf_new _ _⟩
      · exact old e (List.mem_filter.mp he).1

theorem wf_purge {m : DictMaps} (h : WellFormed m) (k : CompositeKey) (c : Candidate) : WellFormed (m.purge k c) := by
  unfold DictMaps.purge
  apply wf_update h
  · exact keys_touch _ _ _ (h.keys _)
  · intro e he
    have old : ∀ e ∈ side m c.okuri, e.2.midashi = e.1 ∧ EntryWf e.2 := fun e he =>
      ⟨h.reading _ e he, h.sorted _ e he, h.distinct _ e he⟩
    rcases mem_touch he with he | ⟨v, hv, rfl⟩
    · exact old e he
    · have := old _ hv
      exact ⟨by simpa [midashi_remove] using this.1, entryWf_remove this.2 k c⟩

/-- Everything a user's key presses can do to a dictionary. -/
inductive Edit where
  | confirm (c : Candidate)
  | purge (k : CompositeKey) (c : Candidate)

def applyEdit (d : CskkDict) : Edit → CskkDict
  | .confirm c => d.confirm c
  | .purge k c => d.purge k c

/-- The maps of a dictionary. -/
def maps (d : CskkDict) : DictMaps :=
  match d.kind with
  | .static m => m
  | .user m _ => m
  | .empty => ⟨[], []⟩

/-- After every history of confirmations and purges a dictionary is well-formed. -/
theorem wf_history (d : CskkDict) (h : WellFormed (maps d)) (es : List Edit) : WellFormed (maps (es.foldl applyEdit d)) := by
  induction es generalizing d with
  | nil => exact h
  | cons e es ih =>
    apply ih
    cases e with
    | confirm c =>
      unfold applyEdit CskkDict.confirm
      cases hk : d.kind with
      | user m b => unfold maps at h; rw [hk] at h; exact wf_select h c
      | static m => exact h
      | empty => exact h
    | purge k c =>
      unfold applyEdit CskkDict.purge
      cases hk : d.kind with
      | user m b => unfold maps at h; rw [hk] at h; exact wf_purge h k c
      | static m => exact h
      | empty => exact h

/-- **C09 over histories.** Starting from a well-formed user dictionary, after any history of confirmations and purges,
a purge leaves the dictionary without the purged word for this key, until it is confirmed again. -/
theorem purged_not_listed (m0 : DictMaps) (h0 : WellFormed m0) (b : Bool) (es : List Edit) (k : CompositeKey) (c : Candidate)
    (g : Str) (hg : recordedIn k.okuri g) (l : List DictCand)
    (hl : listed (maps (applyEdit (es.foldl applyEdit ⟨false, .user m0 b⟩) (.purge k c))) c.okuri c.midashi g = some l) :
    ¬ HasWord l c.kouho := by
  have hw := wf_history ⟨false, .user m0 b⟩ h0 es
  have huser : ∀ (es : List Edit) (d : CskkDict) m b, d.kind = .user m b → ∃ m' b', (es.foldl applyEdit d).kind = .user m' b' := by
    intro es
    induction es with
    | nil => intro d m b h; exact ⟨m, b, h⟩
    | cons e es ih =>
      intro d m b h
      cases e with
      | confirm c => exact ih (d.confirm c) (m.select c) true (by simp [CskkDict.confirm, h])
      | purge k c => exact ih (d.purge k c) (m.purge k c) true (by simp [CskkDict.purge, h])
  obtain ⟨m', b', hk⟩ := huser es ⟨false, .user m0 b⟩ m0 b rfl
  have hm : maps (applyEdit (es.foldl applyEdit ⟨false, .user m0 b⟩) (.purge k c)) = m'.purge k c := by
    simp only [applyEdit, CskkDict.purge, hk, maps]
  have hm' : maps (es.foldl applyEdit ⟨false, .user m0 b⟩) = m' := by simp only [maps, hk]
  rw [hm'] at hw
  rw [hm, purge_removes m' hw k c g hg] at hl
  obtain ⟨l', _, rfl⟩ := Option.map_eq_some_iff.mp hl
  rintro ⟨d, hd, he⟩
  have := (List.mem_filter.mp hd).2
  simp [he] at this

/-! ## C10 -/

/-- A dictionary that is not a user dictionary. -/
def ReadOnly (d : CskkDict) : Prop := ∀ m b, d.kind ≠ .user m b

/-- **C10 (dictionary level).** No history of confirmations and purges changes a read-only dictionary at all. -/
theorem read_only_unchanged (d : CskkDict) (h : ReadOnly d) (es : List Edit) : es.foldl applyEdit d = d := by
  induction es with
  | nil => rfl
  | cons e es ih =>
    have : applyEdit d e = d := by
      cases e with
      | confirm c => simp only [applyEdit, CskkDict.confirm]; split; exact absurd ‹_› (h _ _); rfl
      | purge k c => simp only [applyEdit, CskkDict.purge]; split; exact absurd ‹_› (h _ _); rfl
    rw [List.foldl_cons, this]; exact ih

/-- Non-vacuity: a well-formed dictionary with two words under one reading. -/
example : WellFormed ⟨[], [(c%"あい", ⟨c%"あい", false, [([], [⟨c%"愛", none⟩, ⟨c%"哀", none⟩])]⟩)]⟩ := by
  refine ⟨?_, ?_, ?_, ?_⟩ <;> intro o <;> cases o <;> simp [side] 

end Cskk.Props.UserDict
