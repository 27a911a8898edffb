import Verif.Spec.Merge
import Verif.Props.NumericOffer

/-! # C07, C35: the merged list of candidates in closed form -/

namespace Cskk.Props.Merge
open Cskk.Spec Cskk.Spec.Merge Cskk.Spec.UserDict Cskk.Dicts Cskk.Props.UserDict Cskk.Props.Candidates Cskk.Props.NumericOffer

theorem mem_firsts (l : List DictCand) (x : DictCand) : x ∈ firsts l ↔ x ∈ l := by
  induction l with
  | nil => rfl
  | cons c l ih =>
    rw [firsts, List.mem_cons, List.mem_cons, List.mem_filter, ih]
    by_cases h : x = c <;> simp [h]

theorem firsts_filter (p : DictCand → Bool) (l : List DictCand) : firsts (l.filter p) = (firsts l).filter p := by
  induction l with
  | nil => rfl
  | cons c l ih =>
    by_cases h : p c = true
    · rw [List.filter_cons_of_pos h, firsts, firsts, List.filter_cons_of_pos h, ih, List.filter_filter, List.filter_filter]
      congr 1
      apply List.filter_congr
      intro x _
      rw [Bool.and_comm]
    · rw [List.filter_cons_of_neg h, firsts, List.filter_cons_of_neg h, ih, List.filter_filter]
      apply List.filter_congr
      intro x _
      by_cases hx : x = c
      · subst hx; simp [h]
      · simp [hx]

theorem firstOcc_eq (D l : List DictCand) (hn : D.Nodup) : firstOcc D l = (firsts l).filter fun d => decide (d ∈ D) := by
  induction l generalizing D with
  | nil => rfl
  | cons c l ih =>
    rw [firstOcc, firsts]
    split
    · rename_i hc
      rw [List.filter_cons_of_pos (by simpa using hc), ih _ (hn.erase c), List.filter_filter]
      congr 1
      apply List.filter_congr
      intro x _
      rw [Bool.eq_iff_iff]
      simp [hn.mem_erase_iff, and_comm]
    · rename_i hc
      rw [List.filter_cons_of_neg (by simpa using hc), ih _ hn, List.filter_filter]
      apply List.filter_congr
      intro x _
      rw [Bool.eq_iff_iff]
      simp only [Bool.and_eq_true, decide_eq_true_eq]
      exact ⟨fun h => ⟨h, fun e => hc (e ▸ h)⟩, fun h => h.1⟩

theorem strLt_iff (a b : Str) : strLt a b = true ↔ a.map Char.toNat < b.map Char.toNat := by
  induction a generalizing b with
  | nil => cases b <;> simp [strLt]
  | cons x a ih =>
    cases b with
    | nil => simp [strLt]
    | cons y b =>
      rw [strLt, List.map_cons, List.map_cons, List.cons_lt_cons_iff]
      by_cases h : x.toNat < y.toNat
      · simp [h]
      · rw [if_neg h]
        by_cases he : x = y
        · subst he; simp [ih]
        · have : x.toNat ≠ y.toNat := fun e => he (Char.toNat_inj' e)
          simp [he, h, this]

theorem candLt_note {d x : DictCand} (h : x.kouho = d.kouho) : candLt d x = false ↔ ¬ NoteLess d.annotation x.annotation := by
  unfold candLt
  rw [h, strLt_strictTotal.irrefl]
  cases d.annotation <;> cases x.annotation <;> simp [optLt, NoteLess, ← strLt_iff]

theorem inj_of_nodup {S : List DictCand} (h : (S.map (·.kouho)).Nodup) : ∀ x ∈ S, ∀ y ∈ S, x.kouho = y.kouho → x = y := by
  induction S with
  | nil => intro x hx; cases hx
  | cons a S ih =>
    rw [List.map_cons, List.nodup_cons] at h
    intro x hx y hy hxy
    rcases List.mem_cons.mp hx with rfl | hx'
    · rcases List.mem_cons.mp hy with h' | hy'
      · exact h'.symm
      · exact absurd (List.mem_map.mpr ⟨y, hy', hxy.symm⟩) h.1
    · rcases List.mem_cons.mp hy with h' | hy'
      · exact absurd (List.mem_map.mpr ⟨x, hx', h' ▸ hxy⟩) h.1
      · exact ih h.2 x hx' y hy' hxy

theorem mem_dedup (l : List DictCand) (x : DictCand) : x ∈ dedup candLt (·.kouho) l ↔ x ∈ l ∧ Greatest l x := by
  obtain ⟨h1, h2, h3⟩ := dedup_spec l
  have hinj : ∀ y ∈ dedup candLt (·.kouho) l, ∀ z ∈ dedup candLt (·.kouho) l, y.kouho = z.kouho → y = z := by
    intro y hy z hz
    exact inj_of_nodup h2 y hy z hz
  constructor
  · intro hx
    refine ⟨h1.mem hx, ?_⟩
    intro y hy hk
    obtain ⟨d, hd, hdk, hlt⟩ := h3 y hy
    have := hinj d hd x hx (hdk.trans hk)
    exact (candLt_note hk).mp (this ▸ hlt)
  · rintro ⟨hx, hg⟩
    obtain ⟨d, hd, hdk, hlt⟩ := h3 x hx
    have h' := (candLt_note hdk).mpr (hg d (h1.mem hd) hdk)
    have : d = x := candLt_strictTotal.antisymm hlt h'
    exact this ▸ hd

/-- **C35, in closed form.** -/
theorem dedup_merge (l : List DictCand) : dedup candLt (·.kouho) l = merge l := by
  obtain ⟨h1, h2⟩ := dedup_eq candLt_strictTotal (fun c : DictCand => c.kouho) l
  have hm : ∀ x, x ∈ l → (x ∈ survivors candLt (fun c : DictCand => c.kouho) l ↔ Greatest l x) := by
    intro x hx
    have := mem_dedup l x
    rw [h1, mem_firstOcc _ _ h2] at this
    exact ⟨fun h => (this.mp ⟨h, hx⟩).2, fun h => (this.mpr ⟨hx, h⟩).1⟩
  rw [h1, firstOcc_eq _ _ h2]
  unfold merge
  apply List.filter_congr
  intro x hx
  rw [Bool.eq_iff_iff, decide_eq_true_iff, decide_eq_true_iff]
  exact hm x ((mem_firsts l x).mp hx)

/-- **C07/C35.** For a reading without digits the candidate list is the merged list of the words which the dictionaries list under
its heading: nothing more, nothing less, in this order. -/
theorem offered_exactly (ds : List CskkDict) (k : CompositeKey) (key : Str) (hkey : k.getDictKey = .ok key)
    (hnum : (Numeric.numericKey k.toComposite).1 = k.toComposite) :
    getAll ds k = .ok ((merge (ds.flatMap fun d => answers d k.okuri key)).map fun d => offer k.okuri key d d.kouho) := by
  simp only [getAll, exact_eq ds k key hkey, bind, Except.bind, dedup_merge]
  rw [if_pos (by rw [hnum])]
  rfl

/-- A word that is taken out of the dictionaries disappears from the merged list; the other candidates stay as they are. -/
theorem merge_without (l : List DictCand) (w : Str) :
    merge (l.filter fun d => decide (d.kouho ≠ w)) = (merge l).filter fun d => decide (d.kouho ≠ w) := by
  unfold merge
  rw [firsts_filter, List.filter_filter, List.filter_filter]
  apply List.filter_congr
  intro x _
  by_cases hx : x.kouho = w
  · simp [hx]
  · have : Greatest (l.filter fun d => decide (d.kouho ≠ w)) x ↔ Greatest l x := by
      unfold Greatest
      constructor
      · intro h y hy hk
        exact h y (List.mem_filter.mpr ⟨hy, by simp [hk, hx]⟩) hk
      · intro h y hy hk
        exact h y (List.mem_filter.mp hy).1 hk
    rw [decide_eq_decide.mpr this, Bool.and_comm]

example : merge [⟨c%"愛", none⟩, ⟨c%"哀", none⟩, ⟨c%"愛", some c%"love"⟩, ⟨c%"哀", none⟩] = [⟨c%"哀", none⟩, ⟨c%"愛", some c%"love"⟩] := by
  decide +kernel

end Cskk.Props.Merge
