import Verif.Lemmas.Numeric2

/-! # Helper lemmas: style of kanji numerals (where 一 is written) -/

namespace Cskk.Numeric
open Cskk.Spec.Numeric

theorem kanjiDigit_none_of_small {c : Char} (h : (smallUnit c).isSome) : kanjiDigit c = none := by
  obtain ⟨U, hU⟩ := Option.isSome_iff_exists.mp h
  exact kanjiDigit_unit hU

theorem small_none_of_digit {c : Char} {d : Nat} (h : kanjiDigit c = some d) : smallUnit c = none := by
  cases hs : smallUnit c with
  | none => rfl
  | some U => have := kanjiDigit_unit hs; rw [this] at h; cases h

theorem explicit_append {a b : Str} (ha : ExplicitOnes a) (hb : ExplicitOnes b) : ExplicitOnes (a ++ b) := by
  intro pre u post h hu
  rcases List.append_eq_append_iff.mp h with ⟨c, h1, h2⟩ | ⟨c, h1, h2⟩
  · obtain ⟨p', c', d, e1, e2, e3⟩ := hb c u post h2 hu
    exact ⟨a ++ p', c', d, by rw [h1, e1]; simp, e2, e3⟩
  · cases c with
    | nil =>
      simp at h1 h2
      obtain ⟨p', c', d, e1, e2, e3⟩ := hb [] u post (by simpa using h2.symm) hu
      simp at e1
    | cons x xs =>
      simp at h2
      obtain ⟨rfl, rfl⟩ := h2
      exact ha pre u xs h1 hu

theorem explicit_unitPart {d : Nat} {u : Char} (hd : d < 10) : ExplicitOnes (unitPart true d u) := by
  unfold unitPart
  by_cases h0 : d = 0
  · subst h0; intro pre u' post h; simp at h
  · rw [if_pos h0]
    simp only [Bool.or_true, if_true, List.singleton_append]
    intro pre u' post h hu
    have hk := kanjiDigits_spec d hd
    match pre, h with
    | [], h =>
      simp at h
      obtain ⟨h, _⟩ := h
      rw [← h] at hu
      have h1 := kanjiDigit_none_of_small hu
      rw [List.getD_eq_getElem?_getD] at hk
      rw [hk] at h1; cases h1
    | [x], h =>
      simp at h
      exact ⟨[], x, d, rfl, by rw [← h.1]; rw [List.getD_eq_getElem?_getD] at hk; exact hk, by omega⟩
    | x :: y :: pre, h =>
      have := congrArg List.length h; simp at this

theorem explicit_nosmall {s : Str} (h : ∀ c ∈ s, smallUnit c = none) : ExplicitOnes s := by
  intro pre u post e hu
  rw [h u (by rw [e]; simp)] at hu; cases hu

theorem explicit_groupPart {d3 d2 d1 d0 : Nat} {ku : Str} (h3 : d3 < 10) (h2 : d2 < 10) (h1 : d1 < 10) (h0 : d0 < 10)
    (hku : ∀ c ∈ ku, smallUnit c = none) : ExplicitOnes (groupPart true d3 d2 d1 d0 ku) := by
  unfold groupPart
  split
  · refine explicit_append (explicit_append (explicit_append (explicit_append (explicit_unitPart h3)
      (explicit_unitPart h2)) (explicit_unitPart h1)) ?_) (explicit_nosmall hku)
    apply explicit_nosmall
    intro c hc
    split at hc
    · simp only [List.mem_singleton] at hc
      rw [hc]; exact small_none_of_digit (kanjiDigits_spec d0 h0)
    · cases hc
  · exact explicit_nosmall (by simp)

theorem kurai_nosmall : ∀ i < 5, ∀ c ∈ kurai.getD i [], smallUnit c = none := by decide

theorem keta_getD_lt (n i : Nat) : (keta 20 n).getD i 0 < 10 := by
  rw [List.getD_eq_getElem?_getD]
  cases hi : (keta 20 n)[i]? with
  | none => simp
  | some d => exact keta_lt 20 n d (List.mem_of_getElem? hi)

theorem formatKanji_explicit (n : Nat) (h : n < 10 ^ 19) : ExplicitOnes (formatKanji n true) := by
  unfold formatKanji
  rw [if_neg (by omega)]
  split
  · exact explicit_nosmall (by decide)
  · have : ∀ is : List Nat, (∀ i ∈ is, i < 5) → ExplicitOnes (groupsPart true (keta 20 n) is) := by
      intro is
      induction is with
      | nil => intro _; exact explicit_nosmall (by simp [groupsPart])
      | cons i is ih =>
        intro hi
        exact explicit_append (explicit_groupPart (keta_getD_lt _ _) (keta_getD_lt _ _) (keta_getD_lt _ _)
          (keta_getD_lt _ _) (kurai_nosmall i (hi i (by simp)))) (ih (fun j hj => hi j (by simp [hj])))
    exact this _ (by decide)

/-- The text does not end with the digit one. -/
def EndsNotOne (s : Str) : Prop := ∀ pre c, s = pre ++ [c] → kanjiDigit c ≠ some 1

theorem omits_append {a b : Str} (ha : OmitsOnes a) (he : EndsNotOne a) (hb : OmitsOnes b) : OmitsOnes (a ++ b) := by
  intro pre c u post h hu
  rcases List.append_eq_append_iff.mp h with ⟨x, h1, h2⟩ | ⟨x, h1, h2⟩
  · exact hb x c u post h2 hu
  · match x, h1, h2 with
    | [], _, h2 => exact hb [] c u post (by simpa using h2.symm) hu
    | [y], h1, h2 =>
      simp at h2
      obtain ⟨rfl, h2⟩ := h2
      exact he pre c h1
    | y :: z :: zs, h1, h2 =>
      simp at h2
      obtain ⟨rfl, rfl, rfl⟩ := h2
      exact ha pre c u zs h1 hu

theorem endsNotOne_append {a b : Str} (ha : EndsNotOne a) (hb : EndsNotOne b) : EndsNotOne (a ++ b) := by
  intro pre c h
  rcases List.append_eq_append_iff.mp h with ⟨x, h1, h2⟩ | ⟨x, h1, h2⟩
  · exact hb x c h2
  · match x, h1, h2 with
    | [], _, h2 => exact hb [] c (by simpa using h2.symm)
    | [y], h1, h2 =>
      simp at h2
      obtain ⟨rfl, _⟩ := h2
      exact ha pre c h1
    | y :: z :: zs, _, h2 => simp at h2

theorem omits_short {s : Str} (h : s.length ≤ 1) : OmitsOnes s := by
  intro pre c u post e
  have := congrArg List.length e
  simp at this; omega

theorem endsNotOne_unitPart {ex : Bool} {d : Nat} {u : Char} (hu : (smallUnit u).isSome) : EndsNotOne (unitPart ex d u) := by
  intro pre c h
  unfold unitPart at h
  split at h
  · have : c = u := by
      have := congrArg List.getLast? h
      simpa using this.symm
    rw [this, kanjiDigit_none_of_small hu]; simp
  · have := congrArg List.length h; simp at this

theorem omits_unitPart {d : Nat} {u : Char} (hd : d < 10) (hu : (smallUnit u).isSome) : OmitsOnes (unitPart false d u) := by
  unfold unitPart
  by_cases h0 : d = 0
  · subst h0; exact omits_short (by simp)
  · rw [if_pos h0]
    by_cases h1 : d = 1
    · subst h1; exact omits_short (by simp)
    · simp only [Bool.or_false, ne_eq, h1, not_false_eq_true, decide_true, if_true, List.singleton_append]
      intro pre c u' post h hu'
      have hk := kanjiDigits_spec d hd
      match pre, h with
      | [], h =>
        have hc : kanjiDigits.getD d '〇' = c := (List.cons.inj h).1
        rw [← hc, hk]; intro e; cases e; exact h1 rfl
      | x :: pre, h =>
        have := congrArg List.length h; simp at this; omega

theorem omits_body {d3 d2 d1 d0 : Nat} (h3 : d3 < 10) (h2 : d2 < 10) (h1 : d1 < 10) :
    OmitsOnes (unitPart false d3 '千' ++ unitPart false d2 '百' ++ unitPart false d1 '十' ++
      (if d0 ≠ 0 then [kanjiDigits.getD d0 '〇'] else [])) := by
  have s1 : (smallUnit '千').isSome := rfl
  have s2 : (smallUnit '百').isSome := rfl
  have s3 : (smallUnit '十').isSome := rfl
  refine omits_append (omits_append (omits_append (omits_unitPart h3 s1) (endsNotOne_unitPart s1) (omits_unitPart h2 s2))
    (endsNotOne_append (endsNotOne_unitPart s1) (endsNotOne_unitPart s2)) (omits_unitPart h1 s3))
    (endsNotOne_append (endsNotOne_append (endsNotOne_unitPart s1) (endsNotOne_unitPart s2)) (endsNotOne_unitPart s3))
    (omits_short (by split <;> simp))

theorem omits_append_big {a : Str} (ha : OmitsOnes a) {u : Char} (hu : smallUnit u = none) : OmitsOnes (a ++ [u]) := by
  intro pre c v post h hv
  rcases List.append_eq_append_iff.mp h with ⟨x, h1, h2⟩ | ⟨x, h1, h2⟩
  · exact omits_short (by simp) x c v post h2 hv
  · match x, h1, h2 with
    | [], _, h2 => have := congrArg List.length h2; simp at this
    | [y], h1, h2 =>
      simp at h2; obtain ⟨_, rfl, _⟩ := h2; rw [hu] at hv; cases hv
    | y :: z :: zs, h1, h2 =>
      simp at h2
      obtain ⟨rfl, rfl, rfl⟩ := h2
      exact ha pre c v zs h1 hv

theorem omits_groupPart_big {d3 d2 d1 d0 : Nat} {u : Char} (h3 : d3 < 10) (h2 : d2 < 10) (h1 : d1 < 10)
    (hu : (bigUnit u).isSome) :
    OmitsOnes (groupPart false d3 d2 d1 d0 [u]) ∧ EndsNotOne (groupPart false d3 d2 d1 d0 [u]) := by
  obtain ⟨U, hU⟩ := Option.isSome_iff_exists.mp hu
  obtain ⟨k1, k2⟩ := kanjiDigit_big hU
  unfold groupPart
  split
  · refine ⟨omits_append_big (omits_body h3 h2 h1) k2, ?_⟩
    intro pre c h
    have : c = u := by
      have := congrArg List.getLast? h
      simp at this; exact this.symm
    rw [this, k1]; simp
  · exact ⟨omits_short (by simp), by intro pre c h; have := congrArg List.length h; simp at this⟩

theorem formatKanji_omits (n : Nat) (h : n < 10 ^ 19) : OmitsOnes (formatKanji n false) := by
  unfold formatKanji
  rw [if_neg (by omega)]
  split
  · exact omits_short (by simp)
  · simp only [groupsPart, kurai, List.getD_cons_succ, List.getD_cons_zero, List.append_nil]
    have b4 := omits_groupPart_big (u := '京') (d0 := (keta 20 n).getD (4 * 4) 0) (keta_getD_lt n (4 * 4 + 3)) (keta_getD_lt n (4 * 4 + 2)) (keta_getD_lt n (4 * 4 + 1)) rfl
    have b3 := omits_groupPart_big (u := '兆') (d0 := (keta 20 n).getD (3 * 4) 0) (keta_getD_lt n (3 * 4 + 3)) (keta_getD_lt n (3 * 4 + 2)) (keta_getD_lt n (3 * 4 + 1)) rfl
    have b2 := omits_groupPart_big (u := '億') (d0 := (keta 20 n).getD (2 * 4) 0) (keta_getD_lt n (2 * 4 + 3)) (keta_getD_lt n (2 * 4 + 2)) (keta_getD_lt n (2 * 4 + 1)) rfl
    have b1 := omits_groupPart_big (u := '万') (d0 := (keta 20 n).getD (1 * 4) 0) (keta_getD_lt n (1 * 4 + 3)) (keta_getD_lt n (1 * 4 + 2)) (keta_getD_lt n (1 * 4 + 1)) rfl
    have b0 : OmitsOnes (groupPart false ((keta 20 n).getD (0 * 4 + 3) 0) ((keta 20 n).getD (0 * 4 + 2) 0)
        ((keta 20 n).getD (0 * 4 + 1) 0) ((keta 20 n).getD (0 * 4) 0) []) := by
      unfold groupPart
      split
      · rw [List.append_nil]; exact omits_body (keta_getD_lt _ _) (keta_getD_lt _ _) (keta_getD_lt _ _)
      · exact omits_short (by simp)
    exact omits_append b4.1 b4.2 (omits_append b3.1 b3.2 (omits_append b2.1 b2.2 (omits_append b1.1 b1.2 b0)))

theorem explicit_map {f : Char → Char} {s : Str} (hs : ∀ c ∈ s, kanjiDigit (f c) = kanjiDigit c ∧ smallUnit (f c) = smallUnit c)
    (h : ExplicitOnes s) : ExplicitOnes (s.map f) := by
  intro pre u post e hu
  rw [List.map_eq_append_iff] at e
  obtain ⟨p, q, rfl, rfl, e2⟩ := e
  rw [List.map_eq_cons_iff] at e2
  obtain ⟨v, post', rfl, rfl, rfl⟩ := e2
  have hv := hs v (by simp)
  rw [hv.2] at hu
  obtain ⟨p', c, d, rfl, e1, e2⟩ := h p v post' rfl hu
  exact ⟨p'.map f, f c, d, by simp, by rw [(hs c (by simp)).1]; exact e1, e2⟩

end Cskk.Numeric
