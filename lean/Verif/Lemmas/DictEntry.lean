import Verif.Model.Dictionary
import Verif.Lemmas.LruMap

/-! # Lemmas: ordered maps, entries, recency lists -/

namespace Cskk

namespace SMap
variable {V : Type}

theorem get_insert (m : SMap V) (k k' : Str) (v : V) :
    get (insert m k v) k' = if k' = k then some v else get m k' := by
  induction m with
  | nil => by_cases h : k = k' <;> simp [insert, get, h, eq_comm]
  | cons e m ih =>
    obtain ⟨a, w⟩ := e
    rw [insert]
    split
    · rename_i h; subst h
      by_cases h : k = k'
      · simp [get, h]
      · simp [get, h, Ne.symm h]
    · rename_i h
      split
      · by_cases h' : k = k'
        · simp [get, h']
        · simp [get, h', Ne.symm h']
      · unfold get at ih ⊢
        rw [List.find?_cons, List.find?_cons]
        by_cases h' : a = k'
        · subst h'; simp [Ne.symm h]
        · simp only [h', decide_false]
          exact ih

theorem mem_insert (m : SMap V) (k : Str) (v : V) (e : Str × V) (h : e ∈ insert m k v) : e = (k, v) ∨ e ∈ m := by
  induction m with
  | nil => simp [insert] at h; exact .inl h
  | cons x m ih =>
    obtain ⟨a, w⟩ := x
    rw [insert] at h
    split at h
    · rcases List.mem_cons.mp h with h | h
      · exact .inl h
      · exact .inr (by simp [h])
    · split at h
      · rcases List.mem_cons.mp h with h | h
        · exact .inl h
        · exact .inr h
      · rcases List.mem_cons.mp h with h | h
        · exact .inr (by simp [h])
        · rcases ih h with h | h
          · exact .inl h
          · exact .inr (by simp [h])

/-- `BTreeMap` order. -/
def Sorted (m : SMap V) : Prop := m.Pairwise fun a b => strLt a.1 b.1 = true

theorem sorted_insert (m : SMap V) (k : Str) (v : V) (h : Sorted m) : Sorted (insert m k v) := by
  unfold Sorted at *
  induction m with
  | nil => simp [insert]
  | cons x m ih =>
    obtain ⟨a, w⟩ := x
    rw [List.pairwise_cons] at h
    rw [insert]
    split
    · rename_i he; subst he
      exact List.pairwise_cons.mpr h
    · rename_i hne
      split
      · rename_i hlt
        rw [List.pairwise_cons]
        refine ⟨?_, List.pairwise_cons.mpr h⟩
        intro b hb
        rcases List.mem_cons.mp hb with rfl | hb
        · exact hlt
        · exact strLt_trans hlt (h.1 b hb)
      · rename_i hnlt
        rw [List.pairwise_cons]
        refine ⟨?_, ih h.2⟩
        intro b hb
        rcases mem_insert m k v b hb with rfl | hb
        · rcases strLt_total a k with h1 | h1 | h1
          · exact h1
          · exact absurd h1.symm hne
          · exact absurd h1 hnlt
        · exact h.1 b hb

theorem mem_of_get {m : SMap V} {k : Str} {v : V} (h : get m k = some v) : (k, v) ∈ m := by
  unfold get at h
  obtain ⟨e, he, rfl⟩ := Option.map_eq_some_iff.mp h
  have := List.find?_some he
  have hm := List.mem_of_find?_eq_some he
  simp only [decide_eq_true_eq] at this
  rw [← this]; exact hm

theorem get_of_mem {m : SMap V} (hs : Sorted m) {k : Str} {v : V} (h : (k, v) ∈ m) : get m k = some v := by
  induction m with
  | nil => cases h
  | cons x m ih =>
    unfold Sorted at hs
    rw [List.pairwise_cons] at hs
    unfold get
    rw [List.find?_cons]
    rcases List.mem_cons.mp h with rfl | h
    · simp
    · have := strLt_ne (hs.1 _ h)
      simp only [this, decide_false]
      exact ih hs.2 h

end SMap

/-! ## Swapping -/

theorem swapFirst_spec {α} (l : List α) (i : Nat) (x : α) (h : l[i]? = some x) :
    ∃ t, swapFirst l i = x :: t ∧ (x :: t).Perm l := by
  cases l with
  | nil => simp at h
  | cons a l =>
    unfold swapFirst
    rw [h]
    cases i with
    | zero =>
      simp at h; subst h
      exact ⟨l, by simp, List.Perm.refl _⟩
    | succ i =>
      have hx : l[i]? = some x := by simpa using h
      refine ⟨l.set i a, by simp, ?_⟩
      clear h
      induction l generalizing i with
      | nil => simp at hx
      | cons b l ih =>
        cases i with
        | zero => simp at hx; subst hx; exact List.Perm.swap _ _ _
        | succ i =>
          rw [List.set_cons_succ]
          exact (List.Perm.swap _ _ _).trans ((List.Perm.cons b (ih i (by simpa using hx))).trans (List.Perm.swap _ _ _))

theorem findIdx?_spec {α} (p : α → Bool) (l : List α) :
    match l.findIdx? p with
    | some i => ∃ x pre post, l = pre ++ x :: post ∧ pre.length = i ∧ p x = true ∧ ∀ y ∈ pre, p y = false
    | none => ∀ x ∈ l, p x = false := by
  induction l with
  | nil => simp
  | cons a l ih =>
    rw [List.findIdx?_cons]
    cases hp : p a with
    | true => exact ⟨a, [], l, rfl, rfl, hp, by simp⟩
    | false =>
      cases hf : l.findIdx? p with
      | none =>
        rw [hf] at ih
        simp only [Option.map_none]
        intro x hx
        rcases List.mem_cons.mp hx with rfl | hx
        · exact hp
        · exact ih x hx
      | some i =>
        rw [hf] at ih
        obtain ⟨x, pre, post, h1, h2, h3, h4⟩ := ih
        refine ⟨x, a :: pre, post, by simp [h1], by simp [h2], h3, ?_⟩
        intro y hy
        rcases List.mem_cons.mp hy with rfl | hy
        · exact hp
        · exact h4 y hy

end Cskk
