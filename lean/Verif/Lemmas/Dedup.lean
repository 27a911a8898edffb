import Verif.Model.Dictionary

/-! # Lemmas: sorting and removing duplicates -/

namespace Cskk.Dicts

/-- A strict total order given as a boolean function. -/
structure StrictTotal {T} (lt : T → T → Bool) : Prop where
  irrefl : ∀ a, lt a a = false
  trans : ∀ a b c, lt a b = true → lt b c = true → lt a c = true
  total : ∀ a b, lt a b = true ∨ a = b ∨ lt b a = true

namespace StrictTotal
variable {T} {lt : T → T → Bool} (h : StrictTotal lt)
include h

theorem asymm {a b : T} (hab : lt a b = true) : lt b a = false := by
  cases hb : lt b a with
  | false => rfl
  | true => have := h.trans _ _ _ hab hb; rw [h.irrefl] at this; cases this

/-- Not-less is transitive. -/
theorem nlt_trans {a b c : T} (h1 : lt a b = false) (h2 : lt b c = false) : lt a c = false := by
  cases hc : lt a c with
  | false => rfl
  | true =>
    rcases h.total a b with e | e | e
    · rw [e] at h1; cases h1
    · subst e; rw [hc] at h2; cases h2
    · have := h.trans _ _ _ e hc; rw [this] at h2; cases h2

theorem antisymm {a b : T} (h1 : lt a b = false) (h2 : lt b a = false) : a = b := by
  rcases h.total a b with e | e | e
  · rw [e] at h1; cases h1
  · exact e
  · rw [e] at h2; cases h2

end StrictTotal

theorem strLt_strictTotal : StrictTotal strLt := ⟨strLt_irrefl, fun _ _ _ => strLt_trans, strLt_total⟩

theorem optLt_strictTotal : StrictTotal optLt where
  irrefl a := by cases a <;> simp [optLt, strLt_irrefl]
  trans a b c := by
    cases a <;> cases b <;> cases c <;> simp only [optLt] <;> intro h1 h2 <;> first | trivial | cases h1 | cases h2 | skip
    exact strLt_trans h1 h2
  total a b := by
    cases a <;> cases b <;> simp only [optLt] <;> simp
    rename_i x y
    exact strLt_total x y

/-- Lexicographic combination. -/
theorem lex_strictTotal {T A B} [DecidableEq A] {la : A → A → Bool} {lb : B → B → Bool} (ha : StrictTotal la) (hb : StrictTotal lb)
    (f : T → A) (g : T → B) (inj : ∀ x y, f x = f y → g x = g y → x = y) :
    StrictTotal fun x y : T => la (f x) (f y) || (decide (f x = f y) && lb (g x) (g y)) where
  irrefl a := by simp [ha.irrefl, hb.irrefl]
  trans a b c h1 h2 := by
    simp only [Bool.or_eq_true, Bool.and_eq_true, decide_eq_true_eq] at h1 h2 ⊢
    rcases h1 with h1 | ⟨e1, h1⟩
    · rcases h2 with h2 | ⟨e2, h2⟩
      · exact .inl (ha.trans _ _ _ h1 h2)
      · exact .inl (e2 ▸ h1)
    · rcases h2 with h2 | ⟨e2, h2⟩
      · exact .inl (e1 ▸ h2)
      · exact .inr ⟨e1.trans e2, hb.trans _ _ _ h1 h2⟩
  total a b := by
    simp only [Bool.or_eq_true, Bool.and_eq_true, decide_eq_true_eq]
    rcases ha.total (f a) (f b) with h | h | h
    · exact .inl (.inl h)
    · rcases hb.total (g a) (g b) with h' | h' | h'
      · exact .inl (.inr ⟨h, h'⟩)
      · exact .inr (.inl (inj _ _ h h'))
      · exact .inr (.inr (.inr ⟨h.symm, h'⟩))
    · exact .inr (.inr (.inl h))

theorem candLt_strictTotal : StrictTotal candLt :=
  lex_strictTotal strLt_strictTotal optLt_strictTotal (fun c : DictCand => c.kouho) (fun c => c.annotation) (by
    intro x y h1 h2; cases x; cases y; simp_all)

theorem completionLt_strictTotal : StrictTotal completionLt := by
  have h3 : StrictTotal (fun x y : Str × Option Str => strLt x.1 y.1 || (decide (x.1 = y.1) && optLt x.2 y.2)) :=
    lex_strictTotal strLt_strictTotal optLt_strictTotal _ _ (by intro x y h1 h2; exact Prod.ext h1 h2)
  have h2 := lex_strictTotal (T := Option Str × Str × Option Str) optLt_strictTotal h3 (·.1) (·.2) (by
    intro x y h1 h2; exact Prod.ext h1 h2)
  have h1 := lex_strictTotal (T := CompletionCand) strLt_strictTotal h2 (fun c => c.midashi)
    (fun c => (c.okuri, c.kouho, c.annotation)) (by intro x y h1 h2; cases x; cases y; simp_all)
  exact h1

/-! ## Sorting -/

theorem insertSorted_perm {T} (lt : T → T → Bool) (e : T) (l : List T) : (insertSorted lt e l).Perm (e :: l) := by
  induction l with
  | nil => exact List.Perm.refl _
  | cons x xs ih =>
    rw [insertSorted]; split
    · exact (List.Perm.cons x ih).trans (List.Perm.swap e x xs)
    · exact List.Perm.refl _

theorem sort_perm {T} (lt : T → T → Bool) (l : List T) : (sort lt l).Perm l := by
  induction l with
  | nil => exact List.Perm.refl _
  | cons x xs ih => exact (insertSorted_perm lt x _).trans (List.Perm.cons x ih)

theorem insertSorted_sorted {T} {lt : T → T → Bool} (h : StrictTotal lt) (e : T) (l : List T)
    (hl : l.Pairwise fun a b => lt b a = false) : (insertSorted lt e l).Pairwise fun a b => lt b a = false := by
  induction l with
  | nil => simp [insertSorted]
  | cons x xs ih =>
    rw [List.pairwise_cons] at hl
    rw [insertSorted]; split
    · rename_i hxe
      rw [List.pairwise_cons]
      refine ⟨?_, ih hl.2⟩
      intro b hb
      rcases List.mem_cons.mp ((insertSorted_perm lt e xs).mem_iff.mp hb) with rfl | hb
      · exact h.asymm hxe
      · exact hl.1 b hb
    · rename_i hxe
      have hxe : lt x e = false := by simpa using hxe
      rw [List.pairwise_cons]
      refine ⟨?_, List.pairwise_cons.mpr hl⟩
      intro b hb
      rcases List.mem_cons.mp hb with rfl | hb
      · exact hxe
      · exact h.nlt_trans (hl.1 b hb) hxe

theorem sort_sorted {T} {lt : T → T → Bool} (h : StrictTotal lt) (l : List T) :
    (sort lt l).Pairwise fun a b => lt b a = false := by
  induction l with
  | nil => exact List.Pairwise.nil
  | cons x xs ih => exact insertSorted_sorted h x _ ih

/-! ## `dedup_by` -/

theorem dedupBy_head {T} (key : T → Str) (x : T) (xs : List T) : ∃ t, dedupBy key (x :: xs) = x :: t := by
  rw [dedupBy]
  split
  · exact ⟨_, rfl⟩
  · split <;> exact ⟨_, rfl⟩

theorem dedupBy_sublist {T} (key : T → Str) (l : List T) : (dedupBy key l).Sublist l := by
  induction l with
  | nil => exact List.Sublist.refl _
  | cons x xs ih =>
    rw [dedupBy]
    split
    · exact List.Sublist.cons₂ _ (List.nil_sublist _)
    · rename_i y ys hy
      rw [hy] at ih
      split
      · exact List.Sublist.cons₂ _ ((List.sublist_cons_self y ys).trans ih)
      · exact List.Sublist.cons₂ _ ih

theorem dedupBy_covers {T} {lt : T → T → Bool} (irr : ∀ a, lt a a = false) (key : T → Str) (l : List T)
    (hl : l.Pairwise fun a b => lt a b = false) :
    ∀ x ∈ l, ∃ y ∈ dedupBy key l, key y = key x ∧ lt y x = false := by
  induction l with
  | nil => intro x hx; cases hx
  | cons x xs ih =>
    rw [List.pairwise_cons] at hl
    have ih := ih hl.2
    intro z hz
    rw [dedupBy]
    rcases List.mem_cons.mp hz with rfl | hz
    · refine ⟨z, ?_, rfl, irr z⟩
      split
      · simp
      · split <;> simp
    · obtain ⟨y, hy, hk, hlt⟩ := ih z hz
      split
      · rename_i hnil; rw [hnil] at hy; cases hy
      · rename_i w ws hw
        rw [hw] at hy
        split
        · rename_i hxw
          rcases List.mem_cons.mp hy with rfl | hy
          · exact ⟨x, by simp, hxw.trans hk, hl.1 z hz⟩
          · exact ⟨y, by simp [hy], hk, hlt⟩
        · exact ⟨y, List.mem_cons_of_mem _ hy, hk, hlt⟩

theorem dedupBy_keys_nodup {T} {lt : T → T → Bool} (key : T → Str)
    (contig : ∀ x y z, lt x y = false → lt y z = false → key x = key z → key y = key x) (l : List T)
    (hl : l.Pairwise fun a b => lt a b = false) : ((dedupBy key l).map key).Nodup := by
  induction l with
  | nil => exact List.nodup_nil
  | cons x xs ih =>
    have hl' := hl
    rw [List.pairwise_cons] at hl
    have ih := ih hl.2
    rw [dedupBy]
    split
    · simp
    · rename_i y ys hy
      rw [hy] at ih
      have hsub := dedupBy_sublist key xs
      rw [hy] at hsub
      have hpw := (hl.2.sublist hsub)
      rw [List.pairwise_cons] at hpw
      split
      · rename_i hxy
        rw [List.map_cons, List.nodup_cons] at ih ⊢
        rw [hxy]; exact ih
      · rename_i hxy
        rw [List.map_cons, List.nodup_cons]
        refine ⟨?_, ih⟩
        intro hmem
        rw [List.mem_map] at hmem
        obtain ⟨z, hz, hzk⟩ := hmem
        rcases List.mem_cons.mp hz with rfl | hz
        · exact hxy hzk.symm
        · exact hxy (contig x y z (hl.1 y (hsub.mem (by simp))) (hpw.1 z hz) hzk.symm).symm

theorem dedupBy_nodup {T} {lt : T → T → Bool} (h : StrictTotal lt) (key : T → Str) (l : List T)
    (hl : l.Pairwise fun a b => lt a b = false) : (dedupBy key l).Nodup := by
  induction l with
  | nil => exact List.nodup_nil
  | cons x xs ih =>
    rw [List.pairwise_cons] at hl
    have ih := ih hl.2
    rw [dedupBy]
    split
    · simp
    · rename_i y ys hy
      rw [hy] at ih
      have hsub := dedupBy_sublist key xs
      rw [hy] at hsub
      have hpw := (hl.2.sublist hsub)
      rw [List.pairwise_cons] at hpw
      rw [List.nodup_cons] at ih
      have hxys : x ∉ ys := by
        intro hx
        have := h.antisymm (hl.1 y (hsub.mem (by simp))) (hpw.1 x hx)
        subst this; exact ih.1 hx
      split
      · rw [List.nodup_cons]; exact ⟨hxys, ih.2⟩
      · rename_i hxy
        rw [List.nodup_cons]
        refine ⟨?_, List.nodup_cons.mpr ih⟩
        intro hx
        rcases List.mem_cons.mp hx with rfl | hx
        · exact hxy rfl
        · exact hxys hx

/-! ## The selection loop -/

variable {T : Type} [DecidableEq T]

/-- Keep the first occurrence of each element of `D`. -/
def firstOcc : List T → List T → List T
  | _, [] => []
  | D, c :: l => if c ∈ D then c :: firstOcc (D.erase c) l else firstOcc D l

theorem lastIdx_none {c : T} {D : List T} (h : c ∉ D) : lastIdx c D = none := by
  induction D with
  | nil => rfl
  | cons x xs ih =>
    simp only [List.mem_cons, not_or] at h
    rw [lastIdx, ih h.2]
    simp [Ne.symm h.1]

theorem lastIdx_erase {c : T} {D : List T} (h : c ∈ D) (hn : D.Nodup) :
    ∃ i, lastIdx c D = some i ∧ D.eraseIdx i = D.erase c := by
  induction D with
  | nil => cases h
  | cons x xs ih =>
    rw [List.nodup_cons] at hn
    by_cases hx : x = c
    · subst hx
      refine ⟨0, ?_, ?_⟩
      · rw [lastIdx, lastIdx_none hn.1]; simp
      · simp
    · obtain ⟨i, h1, h2⟩ := ih (by simpa [Ne.symm hx] using h) hn.2
      refine ⟨i + 1, by rw [lastIdx, h1], ?_⟩
      rw [List.eraseIdx_cons_succ, h2, List.erase_cons_tail (by simpa using hx)]

theorem filter_eq_nodup {c : T} {D : List T} (hn : D.Nodup) :
    D.filter (fun d => decide (d = c)) = if c ∈ D then [c] else [] := by
  induction D with
  | nil => rfl
  | cons x xs ih =>
    rw [List.nodup_cons] at hn
    by_cases hx : x = c
    · subst hx
      simp [ih hn.2, hn.1]
    · simp [hx, Ne.symm hx, ih hn.2]

theorem foldl_dedupStep (l r D : List T) (hn : D.Nodup) :
    (l.foldl dedupStep (r, D)).1 = r ++ firstOcc D l := by
  induction l generalizing r D with
  | nil => simp [firstOcc]
  | cons c l ih =>
    rw [List.foldl_cons]
    by_cases hc : c ∈ D
    · obtain ⟨i, h1, h2⟩ := lastIdx_erase hc hn
      have : dedupStep (r, D) c = (r ++ [c], D.erase c) := by
        simp [dedupStep, filter_eq_nodup hn, hc, h1, h2]
      rw [this, ih _ _ (hn.erase c)]
      simp [firstOcc, hc]
    · have : dedupStep (r, D) c = (r, D) := by
        simp [dedupStep, filter_eq_nodup hn, hc, lastIdx_none hc]
      rw [this, ih _ _ hn]
      simp [firstOcc, hc]

theorem firstOcc_sublist (D l : List T) : (firstOcc D l).Sublist l := by
  induction l generalizing D with
  | nil => exact List.Sublist.refl _
  | cons c l ih =>
    rw [firstOcc]; split
    · exact List.Sublist.cons₂ _ (ih _)
    · exact List.Sublist.cons _ (ih _)

theorem mem_firstOcc (D l : List T) (hn : D.Nodup) (x : T) : x ∈ firstOcc D l ↔ x ∈ D ∧ x ∈ l := by
  induction l generalizing D with
  | nil => simp [firstOcc]
  | cons c l ih =>
    rw [firstOcc]; split
    · rename_i hc
      rw [List.mem_cons, ih _ (hn.erase c), hn.mem_erase_iff, List.mem_cons]
      by_cases hx : x = c
      · subst hx; simp [hc]
      · simp [hx]
    · rename_i hc
      rw [ih _ hn, List.mem_cons]
      constructor
      · rintro ⟨h1, h2⟩; exact ⟨h1, .inr h2⟩
      · rintro ⟨h1, rfl | h2⟩
        · exact absurd h1 hc
        · exact ⟨h1, h2⟩

theorem firstOcc_nodup (D l : List T) (hn : D.Nodup) : (firstOcc D l).Nodup := by
  induction l generalizing D with
  | nil => exact List.nodup_nil
  | cons c l ih =>
    rw [firstOcc]; split
    · rw [List.nodup_cons]
      refine ⟨?_, ih _ (hn.erase c)⟩
      intro hx
      rw [mem_firstOcc _ _ (hn.erase c), hn.mem_erase_iff] at hx
      exact hx.1.1 rfl
    · exact ih _ hn

/-- The survivors before the order is restored. -/
def survivors (lt : T → T → Bool) (key : T → Str) (l : List T) : List T := (dedupBy key (sort lt l).reverse).reverse

theorem dedup_eq {lt : T → T → Bool} (h : StrictTotal lt) (key : T → Str) (l : List T) :
    dedup lt key l = firstOcc (survivors lt key l) l ∧ (survivors lt key l).Nodup := by
  have hs : (sort lt l).reverse.Pairwise fun a b => lt a b = false := List.pairwise_reverse.mpr (sort_sorted h l)
  have hn : (survivors lt key l).Nodup := by
    exact (List.reverse_perm _).nodup_iff.mpr (dedupBy_nodup h key _ hs)
  refine ⟨?_, hn⟩
  unfold dedup
  split
  · rename_i he
    rw [List.isEmpty_iff.mp he]; rfl
  · rw [show (dedupBy key (sort lt l).reverse).reverse = survivors lt key l from rfl, foldl_dedupStep _ _ _ hn]; simp

theorem survivors_covers {lt : T → T → Bool} (h : StrictTotal lt) (key : T → Str) (l : List T) :
    (∀ x ∈ survivors lt key l, x ∈ l) ∧
    ∀ x ∈ l, ∃ y ∈ survivors lt key l, key y = key x ∧ lt y x = false := by
  have hs : (sort lt l).reverse.Pairwise fun a b => lt a b = false := List.pairwise_reverse.mpr (sort_sorted h l)
  have hm : ∀ x, x ∈ (sort lt l).reverse ↔ x ∈ l := by
    intro x; rw [List.mem_reverse]; exact (sort_perm lt l).mem_iff
  constructor
  · intro x hx
    unfold survivors at hx
    rw [List.mem_reverse] at hx
    exact (hm x).mp ((dedupBy_sublist key _).mem hx)
  · intro x hx
    obtain ⟨y, h1, h2⟩ := dedupBy_covers h.irrefl key _ hs x ((hm x).mpr hx)
    exact ⟨y, by unfold survivors; rw [List.mem_reverse]; exact h1, h2⟩

end Cskk.Dicts
