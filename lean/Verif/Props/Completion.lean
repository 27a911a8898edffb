import Verif.Props.Candidates

/-!
# Completion: property C28
-/

namespace Cskk.Props.Completion
open Cskk.Spec Cskk.Spec.UserDict Cskk.Dicts Cskk.Props.UserDict DictMaps

/-! ## The sorted view -/

theorem insertByKey_perm (e : Str × DictEntry) (l) : (insertByKey e l).Perm (e :: l) := by
  induction l with
  | nil => exact List.Perm.refl _
  | cons x xs ih =>
    rw [insertByKey]; split
    · exact (List.Perm.cons x ih).trans (List.Perm.swap e x xs)
    · exact List.Perm.refl _

theorem sortedView_perm (l : Recency DictEntry) : (sortedView l).Perm l := by
  induction l with
  | nil => exact List.Perm.refl _
  | cons x xs ih => exact (insertByKey_perm x _).trans (List.Perm.cons x ih)

theorem insertByKey_sorted (e : Str × DictEntry) (l) (hl : l.Pairwise fun a b => strLt a.1 b.1 = true)
    (hne : ∀ x ∈ l, x.1 ≠ e.1) : (insertByKey e l).Pairwise fun a b => strLt a.1 b.1 = true := by
  induction l with
  | nil => simp [insertByKey]
  | cons x xs ih =>
    rw [List.pairwise_cons] at hl
    rw [insertByKey]; split
    · rename_i hxe
      rw [List.pairwise_cons]
      refine ⟨?_, ih hl.2 fun y hy => hne y (by simp [hy])⟩
      intro b hb
      rcases List.mem_cons.mp ((insertByKey_perm e xs).mem_iff.mp hb) with rfl | hb
      · exact hxe
      · exact hl.1 b hb
    · rename_i hxe
      have hex : strLt e.1 x.1 = true := by
        rcases strLt_total x.1 e.1 with h | h | h
        · exact absurd h hxe
        · exact absurd h (hne x (by simp))
        · exact h
      rw [List.pairwise_cons]
      refine ⟨?_, List.pairwise_cons.mpr hl⟩
      intro b hb
      rcases List.mem_cons.mp hb with rfl | hb
      · exact hex
      · exact strLt_trans hex (hl.1 b hb)

/-- The model's sorted view is the view the container provides (`Props.Lru.container_refines`). -/
theorem sortedView_ok (l : Recency DictEntry) (h : (l.map (·.1)).Nodup) : l.IsSortedView (sortedView l) := by
  refine ⟨sortedView_perm l, ?_⟩
  induction l with
  | nil => exact List.Pairwise.nil
  | cons x xs ih =>
    rw [List.map_cons, List.nodup_cons] at h
    apply insertByKey_sorted x _ (ih h.2)
    intro y hy e
    exact h.1 (List.mem_map.mpr ⟨y, (sortedView_perm xs).mem_iff.mp hy, e⟩)

/-! ## Prefixes are contiguous -/

theorem prefix_convex (p a b c : Str) (ha : p <+: a) (hc : p <+: c) (h1 : strLt a b = true) (h2 : strLt b c = true) : p <+: b := by
  induction p generalizing a b c with
  | nil => exact List.nil_prefix
  | cons x p ih =>
    obtain ⟨a', rfl⟩ := ha
    obtain ⟨c', rfl⟩ := hc
    cases b with
    | nil => simp [strLt] at h1
    | cons y b =>
      simp only [List.cons_append, strLt] at h1 h2
      have hxy : x = y := by
        split at h1
        · split at h2
          · omega
          · split at h2
            · rename_i h; exact h.symm
            · cases h2
        · split at h1
          · assumption
          · cases h1
      subst hxy
      simp only [Nat.lt_irrefl, if_false, if_true] at h1 h2
      rw [List.cons_prefix_cons]
      exact ⟨rfl, ih _ _ _ (List.prefix_append _ _) (List.prefix_append _ _) h1 h2⟩

theorem takeWhile_prefix (p : Str) (l : List (Str × DictEntry)) (hl : l.Pairwise fun a b => strLt a.1 b.1 = true)
    (hh : ∀ x, l.head? = some x → p <+: x.1) :
    l.takeWhile (fun e => p.isPrefixOf e.1) = l.filter fun e => p.isPrefixOf e.1 := by
  induction l with
  | nil => rfl
  | cons a l ih =>
    have ha := hh a rfl
    have hap : p.isPrefixOf a.1 = true := List.isPrefixOf_iff_prefix.mpr ha
    rw [List.pairwise_cons] at hl
    rw [List.takeWhile_cons_of_pos (by exact hap), List.filter_cons_of_pos (by exact hap)]
    congr 1
    cases l with
    | nil => rfl
    | cons b l =>
      by_cases hb : p.isPrefixOf b.1 = true
      · exact ih hl.2 (by intro x hx; cases hx; exact List.isPrefixOf_iff_prefix.mp hb)
      · rw [List.takeWhile_cons_of_neg (by exact hb), List.filter_cons_of_neg (by exact hb)]
        symm
        rw [List.filter_eq_nil_iff]
        intro c hc hcp
        have h2 := (List.pairwise_cons.mp hl.2).1 c hc
        exact hb (List.isPrefixOf_iff_prefix.mpr
          (prefix_convex p a.1 b.1 c.1 ha (List.isPrefixOf_iff_prefix.mp hcp) (hl.1 b (by simp)) h2))

theorem window_filter (p : Str) (l : List (Str × DictEntry)) (hl : l.Pairwise fun a b => strLt a.1 b.1 = true) :
    ((l.dropWhile fun e => !p.isPrefixOf e.1).takeWhile fun e => p.isPrefixOf e.1) = l.filter fun e => p.isPrefixOf e.1 := by
  induction l with
  | nil => rfl
  | cons a l ih =>
    by_cases ha : p.isPrefixOf a.1 = true
    · rw [List.dropWhile_cons_of_neg (by simp [ha])]
      exact takeWhile_prefix p _ hl (by intro x hx; cases hx; exact List.isPrefixOf_iff_prefix.mp ha)
    · rw [List.dropWhile_cons_of_pos (by show (!p.isPrefixOf a.1) = true; rw [Bool.not_eq_true] at ha; rw [ha]; rfl), List.filter_cons_of_neg (by exact ha)]
      exact ih (List.pairwise_cons.mp hl).2

/-- **C28.** Completing a reading yields exactly the entries of its side whose reading starts with it, in strictly
ascending order of the readings. (Without okurigana the side is okuri-nashi, and the heading `p` is the reading itself.) -/
theorem complete_exact (d : CskkDict) (hd : WellFormed (maps d)) (k : CompositeKey) (p : Str) (hp : k.getDictKey = .ok p) :
    ∃ es, d.complete k = .ok es ∧
      (∀ e, e ∈ es ↔ (e.midashi, e) ∈ side (maps d) k.okuri.isSome ∧ p <+: e.midashi) ∧
      es.Pairwise fun a b => strLt a.midashi b.midashi = true := by
  have key : ∀ m : DictMaps, WellFormed m → ∃ es, m.complete k = .ok es ∧
      (∀ e, e ∈ es ↔ (e.midashi, e) ∈ side m k.okuri.isSome ∧ p <+: e.midashi) ∧
      es.Pairwise fun a b => strLt a.midashi b.midashi = true := by
    intro m hm
    have hside : (if k.hasOkuri then m.ari else m.nashi) = side m k.okuri.isSome := rfl
    obtain ⟨hperm, hs⟩ := sortedView_ok (side m k.okuri.isSome) (hm.keys k.okuri.isSome)
    have hr := hm.reading k.okuri.isSome
    refine ⟨((sortedView (side m k.okuri.isSome)).filter fun e => p.isPrefixOf e.1).map (·.2), ?_, ?_, ?_⟩
    · unfold DictMaps.complete
      rw [hside]
      cases hv : sortedView (side m k.okuri.isSome) with
      | nil => rfl
      | cons x xs =>
        rw [hv] at hs
        simp only [hp, bind, Except.bind, pure, Except.pure]
        rw [window_filter p _ hs]
    · intro e
      constructor
      · intro he
        obtain ⟨x, hx, rfl⟩ := List.mem_map.mp he
        obtain ⟨hx1, hx2⟩ := List.mem_filter.mp hx
        have hx1 := hperm.mem_iff.mp hx1
        have := hr x hx1
        rw [this]
        exact ⟨hx1, List.isPrefixOf_iff_prefix.mp hx2⟩
      · rintro ⟨h1, h2⟩
        exact List.mem_map.mpr ⟨_, List.mem_filter.mpr ⟨hperm.mem_iff.mpr h1, List.isPrefixOf_iff_prefix.mpr h2⟩, rfl⟩
    · rw [List.pairwise_map]
      apply (hs.filter _).imp_of_mem
      intro a b ha hb hab
      rw [hr a (hperm.mem_iff.mp (List.mem_filter.mp ha).1), hr b (hperm.mem_iff.mp (List.mem_filter.mp hb).1)]
      exact hab
  unfold CskkDict.complete maps at *
  cases hk : d.kind with
  | static m => rw [hk] at hd; exact key m hd
  | user m b => rw [hk] at hd; exact key m hd
  | empty => exact ⟨[], rfl, by simp [side], List.Pairwise.nil⟩

/-- A completion the dictionaries justify: a word of an entry whose reading starts with the heading `p` of what was typed, in a
dictionary enabled for completion. Without okurigana: an okuri-nashi entry, and its general group; with it: an okuri-ari entry,
and its group for exactly this okurigana. -/
def Justified (ds : List CskkDict) (okuri : Option Str) (p midashi w : Str) : Prop :=
  ∃ d ∈ ds, d.completable = true ∧ p <+: midashi ∧ ∃ e, (midashi, e) ∈ side (maps d) okuri.isSome ∧
    ∃ l, SMap.get e.cands (okuri.getD []) = some l ∧ HasWord l w

theorem getCandidates_eq (e : DictEntry) (o : Option Str) : e.getCandidates o = SMap.get e.cands (o.getD []) := by
  cases o <;> rfl

theorem completeInner_mem (ds : List CskkDict) (hds : ∀ d ∈ ds, WellFormed (maps d)) (k : CompositeKey) (p : Str)
    (hp : k.getDictKey = .ok p) :
    ∃ cs, completeInner ds k = .ok cs ∧ (∀ c ∈ cs, c.okuri = k.okuri) ∧
      ∀ midashi w, (∃ c ∈ cs, c.midashi = midashi ∧ c.kouho = w) ↔ Justified ds k.okuri p midashi w := by
  induction ds with
  | nil => exact ⟨[], rfl, by simp, by intro m w; simp [Justified]⟩
  | cons d ds ih =>
    obtain ⟨rest, h1, h0, h2⟩ := ih fun x hx => hds x (by simp [hx])
    obtain ⟨es, g1, g2, _⟩ := complete_exact d (hds d (by simp)) k p hp
    have hr := (hds d (by simp)).reading k.okuri.isSome
    by_cases hc : d.completable = true
    · refine ⟨completionsOf es k ++ rest, ?_, ?_, ?_⟩
      · simp only [completeInner, hc, if_true, g1, h1, bind, Except.bind, pure, Except.pure]
      · intro c hcm
        rcases List.mem_append.mp hcm with hcm | hcm
        · obtain ⟨e, he, hce⟩ := List.mem_flatMap.mp hcm
          obtain ⟨x, hx, rfl⟩ := List.mem_map.mp hce
          rfl
        · exact h0 c hcm
      · intro m w
        constructor
        · rintro ⟨c, hcm, rfl, rfl⟩
          rcases List.mem_append.mp hcm with hcm | hcm
          · obtain ⟨e, he, hce⟩ := List.mem_flatMap.mp hcm
            obtain ⟨x, hx, rfl⟩ := List.mem_map.mp hce
            obtain ⟨hm1, hm2⟩ := (g2 e).mp he
            refine ⟨d, by simp, hc, hm2, e, hm1, ?_⟩
            rw [getCandidates_eq] at hx
            cases hl : SMap.get e.cands (k.okuri.getD []) with
            | none => rw [hl] at hx; cases hx
            | some l => rw [hl] at hx; exact ⟨l, rfl, x, hx, rfl⟩
          · obtain ⟨d', hd', r⟩ := (h2 _ _).mp ⟨c, hcm, rfl, rfl⟩
            exact ⟨d', by simp [hd'], r⟩
        · rintro ⟨d', hd', hcomp, hpre, e, he, l, hl, x, hx, rfl⟩
          rcases List.mem_cons.mp hd' with rfl | hd'
          · have hm := hr _ he
            refine ⟨⟨e.midashi, k.okuri, x.kouho, x.annotation⟩, ?_, hm, rfl⟩
            apply List.mem_append.mpr; left
            apply List.mem_flatMap.mpr
            refine ⟨e, (g2 e).mpr ?_, ?_⟩
            · simp only at hm
              rw [hm]; exact ⟨he, hpre⟩
            · rw [getCandidates_eq, hl, Option.getD_some]
              exact List.mem_map.mpr ⟨x, hx, rfl⟩
          · obtain ⟨c, hcm, r⟩ := (h2 m x.kouho).mpr ⟨d', hd', hcomp, hpre, e, he, l, hl, x, hx, rfl⟩
            exact ⟨c, List.mem_append.mpr (.inr hcm), r⟩
    · refine ⟨rest, ?_, h0, ?_⟩
      · have : d.completable = false := by simpa using hc
        simp only [completeInner, this, h1, bind, Except.bind, pure, Except.pure, completionsOf]
        rfl
      · intro m w
        rw [h2]
        constructor
        · rintro ⟨d', hd', r⟩; exact ⟨d', by simp [hd'], r⟩
        · rintro ⟨d', hd', hcomp, r⟩
          rcases List.mem_cons.mp hd' with rfl | hd'
          · exact absurd hcomp hc
          · exact ⟨d', hd', hcomp, r⟩

/-- **C28, all dictionaries.** Every completion offered is justified by a dictionary enabled for completion, every
justified word is offered (possibly under one of its readings only), and nothing is offered twice. A completion belongs to the
okuri-ari side if and only if okurigana was typed (then it is for that okurigana), so that confirming it files it there. -/
theorem completions (ds : List CskkDict) (hds : ∀ d ∈ ds, WellFormed (maps d)) (k : CompositeKey) (p : Str)
    (hp : k.getDictKey = .ok p) :
    ∃ cs, getAllComplete ds k = .ok cs ∧
      (∀ c ∈ cs, Justified ds k.okuri p c.midashi c.output ∧ c.strictOkuri = k.okuri ∧ c.okuri = k.okuri.isSome) ∧
      (∀ midashi w, Justified ds k.okuri p midashi w → ∃ c ∈ cs, c.output = w) ∧
      cs.Nodup := by
  obtain ⟨cs, h1, h0, h2⟩ := completeInner_mem ds hds k p hp
  obtain ⟨q1, q2⟩ := dedup_eq completionLt_strictTotal (fun c : CompletionCand => c.kouho) cs
  obtain ⟨q3, q4⟩ := survivors_covers completionLt_strictTotal (fun c : CompletionCand => c.kouho) cs
  refine ⟨(dedup completionLt (·.kouho) cs).map fromCompletion, ?_, ?_, ?_, ?_⟩
  · simp only [getAllComplete, h1, bind, Except.bind, pure, Except.pure]
  · intro c hc
    obtain ⟨x, hx, rfl⟩ := List.mem_map.mp hc
    rw [q1] at hx
    have hx' := (firstOcc_sublist _ _).mem hx
    exact ⟨(h2 _ _).mp ⟨x, hx', rfl, rfl⟩, h0 x hx', congrArg Option.isSome (h0 x hx')⟩
  · intro m w hj
    obtain ⟨c, hc, rfl, rfl⟩ := (h2 m w).mpr hj
    obtain ⟨y, hy, hyk, _⟩ := q4 c hc
    refine ⟨fromCompletion y, List.mem_map.mpr ⟨y, ?_, rfl⟩, hyk⟩
    rw [q1]
    exact (mem_firstOcc _ _ q2 y).mpr ⟨hy, q3 y hy⟩
  · rw [q1]
    have := firstOcc_nodup _ cs q2
    generalize firstOcc (survivors completionLt (fun c : CompletionCand => c.kouho) cs) cs = F at this
    induction F with
    | nil => exact List.nodup_nil
    | cons a F ih =>
      rw [List.nodup_cons] at this
      rw [List.map_cons, List.nodup_cons]
      refine ⟨?_, ih this.2⟩
      intro hm
      obtain ⟨b, hb, he⟩ := List.mem_map.mp hm
      have : b = a := by
        cases a; cases b
        simp only [fromCompletion, Candidate.mk.injEq] at he
        simp_all
      subst this
      exact absurd hb ‹_ ∧ _›.1

/-- C28 for a reading without okurigana: the heading is the reading. -/
theorem completions_of_reading (ds : List CskkDict) (hds : ∀ d ∈ ds, WellFormed (maps d)) (reading : Str) :
    ∃ cs, getAllComplete ds ⟨reading, none⟩ = .ok cs ∧
      (∀ c ∈ cs, Justified ds none reading c.midashi c.output ∧ c.strictOkuri = none ∧ c.okuri = false) ∧
      (∀ midashi w, Justified ds none reading midashi w → ∃ c ∈ cs, c.output = w) ∧ cs.Nodup :=
  completions ds hds ⟨reading, none⟩ reading rfl

/-- A completable dictionary with readings that share a prefix. -/
def demo : CskkDict := ⟨true, .static ⟨[(c%"あi", ⟨c%"あi", true, [([], [⟨c%"開", none⟩])]⟩)],
  [(c%"い", ⟨c%"い", false, [([], [⟨c%"胃", none⟩])]⟩),
   (c%"あいさつ", ⟨c%"あいさつ", false, [([], [⟨c%"挨拶", none⟩, ⟨c%"愛", none⟩])]⟩),
   (c%"あい", ⟨c%"あい", false, [([], [⟨c%"愛", none⟩])]⟩)]⟩⟩

example : (demo.complete ⟨c%"あ", none⟩).map (·.map (·.midashi)) = .ok [c%"あい", c%"あいさつ"] := by decide +kernel

/-- With okurigana: the okuri-ari entries with the group for it. -/
def demoAri : CskkDict := ⟨true, .static ⟨[(c%"あk", ⟨c%"あk", true, [([], [⟨c%"空", none⟩]), (c%"く", [⟨c%"開", none⟩])]⟩)], []⟩⟩

example : (getAllComplete [demo, demoAri] ⟨c%"あ", some c%"く"⟩).map (·.map fun c => (c.midashi, c.output, c.strictOkuri, c.okuri))
    = .ok [(c%"あk", c%"開", some c%"く", true)] := by decide +kernel

/-- A word listed under two readings is offered under one of them only — the longer one when the entries are adjacent
in the order: completing `あ` does not offer `愛` as a completion to `あい`. -/
theorem completion_drops_reading :
    (getAllComplete [demo] ⟨c%"あ", none⟩).map (·.map fun c => (c.midashi, c.output))
      = .ok [(c%"あいさつ", c%"挨拶"), (c%"あいさつ", c%"愛")] := by decide +kernel

end Cskk.Props.Completion
