import Verif.Props.Forms
import Verif.Spec.FormTables

/-!
# C23 and C24 for the shipped tables: exactly which text comes out, for every text
-/

namespace Cskk.Props.Forms

open Spec.FormTables

theorem assocGet_none {m : List (Str × Str)} {k : Str} (h : ∀ p ∈ m, p.1 ≠ k) : assocGet m k = none := by
  cases hg : assocGet m k with
  | none => rfl
  | some v => exact absurd rfl (h _ (mem_of_assocGet hg))

/-- **C23 for the shipped table.** The full-width form of every character. -/
theorem shipped_wide (c : Char) : shippedAscii.adjustChar c = [wide c] := by
  have h1 : ((List.range 0x80).all fun n => decide (shippedAscii.adjustChar (Char.ofNat n) = [wide (Char.ofNat n)])) = true := by
    decide +kernel
  have h2 : (shippedAscii.zenkakuMap.all fun p => p.1.all fun d => decide (d.toNat < 0x80)) = true := by decide +kernel
  by_cases hc : c.toNat < 0x80
  · have := List.all_eq_true.mp h1 c.toNat (by simpa using hc)
    rw [Char.ofNat_toNat] at this
    exact of_decide_eq_true this
  · have hn : assocGet shippedAscii.zenkakuMap [c] = none := by
      apply assocGet_none
      intro p hp e
      have := List.all_eq_true.mp h2 p hp
      rw [e] at this
      simp at this
      omega
    have hw : wide c = c := by
      have hne : ∀ d : Char, d.toNat < 0x80 → c ≠ d := by
        intro d hd e
        rw [e] at hc
        exact hc hd
      unfold wide
      rw [if_neg (hne ' ' (by decide)), if_neg (hne '"' (by decide)), if_neg (hne '\'' (by decide)), if_neg (hne '-' (by decide)),
        if_neg (hne '~' (by decide)), if_neg (hne '`' (by decide)), if_neg (by omega)]
    rw [hw]
    unfold AsciiFormChanger.adjustChar
    rw [hn]

/-- A text becomes full-width character by character. -/
theorem shipped_wide_text (s : Str) : shippedAscii.adjustString s = s.map wide := by
  rw [ascii_string_charwise]
  induction s with
  | nil => rfl
  | cons c s ih => rw [List.flatMap_cons, ih, shipped_wide]; rfl

/-! ## Kana -/

theorem kata_char (c : Char) : (assocGet Assets.katakana [c] = some [katakana c]) ∨ (assocGet Assets.katakana [c] = none ∧ katakana c = c) := by
  have h1 : ((List.range 0x100).all fun n => decide (assocGet Assets.katakana [Char.ofNat (0x3000 + n)] = some [katakana (Char.ofNat (0x3000 + n))] ∨
      (assocGet Assets.katakana [Char.ofNat (0x3000 + n)] = none ∧ katakana (Char.ofNat (0x3000 + n)) = Char.ofNat (0x3000 + n)))) = true := by
    decide +kernel
  have h2 : (Assets.katakana.all fun p => p.1.all fun d => decide (0x3000 ≤ d.toNat ∧ d.toNat < 0x3100)) = true := by decide +kernel
  by_cases hc : 0x3000 ≤ c.toNat ∧ c.toNat < 0x3100
  · have := List.all_eq_true.mp h1 (c.toNat - 0x3000) (by simp; omega)
    rw [show 0x3000 + (c.toNat - 0x3000) = c.toNat by omega, Char.ofNat_toNat] at this
    exact of_decide_eq_true this
  · right
    constructor
    · apply assocGet_none
      intro p hp e
      have := List.all_eq_true.mp h2 p hp
      rw [e] at this
      simp at this
      omega
    · unfold katakana
      rw [if_neg]
      rintro (h | h | h)
      · omega
      · subst h; exact hc (by decide)
      · subst h; exact hc (by decide)

theorem kata_long {k v : Str} (h : assocGet Assets.katakana k = some v) : k.length = 1 ∨ (k = c%"う゛" ∧ v = c%"ヴ") := by
  have h2 : (Assets.katakana.all fun p => decide (p.1.length = 1 ∨ (p.1 = c%"う゛" ∧ p.2 = c%"ヴ"))) = true := by decide +kernel
  exact of_decide_eq_true (List.all_eq_true.mp h2 _ (mem_of_assocGet h))

/-- One step of the rewriting where no sequence of two characters is known. -/
theorem greedy_char {get : Str → Option Str} {c : Char} {rest out v : Str} (h : get [c] = some v ∨ (get [c] = none ∧ v = [c]))
    (hl : ∀ d tail rest', rest = (d :: tail) ++ rest' → get (c :: d :: tail) = none) (hr : Greedy get rest out) :
    Greedy get (c :: rest) (v ++ out) := by
  rcases h with h | ⟨h, rfl⟩
  · refine Greedy.repl [c] rest v out (by simp) h ?_ hr
    intro ext rest' e hext
    cases ext with
    | nil => exact absurd rfl hext
    | cons d tail => exact hl d tail rest' e
  · refine Greedy.keep c rest out ?_ hr
    intro pre rest' e hpre
    cases pre with
    | nil => exact absurd rfl hpre
    | cons a pre =>
      rw [List.cons_append, List.cons.injEq] at e
      obtain ⟨rfl, e⟩ := e
      cases pre with
      | nil => exact h
      | cons d tail => exact hl d tail rest' e

/-- **C24 for the shipped table.** The katakana of every text. -/
theorem shipped_katakana (s : Str) : shippedKana.adjust .katakana s = katakanas s := by
  apply (kana_form_greedy shippedKana s _).1.mpr
  show Greedy (assocGet Assets.katakana) s (katakanas s)
  fun_induction katakanas s with
  | case1 rest ih =>
    refine Greedy.repl c%"う゛" rest c%"ヴ" _ (by simp) (by decide +kernel) ?_ ih
    intro ext rest' _ hext
    cases hg : assocGet Assets.katakana (c%"う゛" ++ ext) with
    | none => rfl
    | some v =>
      rcases kata_long hg with h | ⟨h, _⟩
      · simp at h
      · exact absurd (List.append_right_eq_self.mp h) hext
  | case2 c rest hno ih =>
    have hc : assocGet Assets.katakana [c] = some [katakana c] ∨ (assocGet Assets.katakana [c] = none ∧ [katakana c] = [c]) := by
      rcases kata_char c with h | ⟨h1, h2⟩
      · exact .inl h
      · exact .inr ⟨h1, by rw [h2]⟩
    refine greedy_char hc ?_ ih
    intro d tail rest' e
    cases hg : assocGet Assets.katakana (c :: d :: tail) with
    | none => rfl
    | some v =>
      rcases kata_long hg with h | ⟨h, _⟩
      · simp at h
      · injection h with h1 h2
        injection h2 with h2 h3
        subst h1 h2 h3
        exact absurd e (hno rest' rfl)
  | case3 => exact .nil

theorem half_char (c : Char) : (assocGet Assets.jisx0201 [c] = some (half c)) ∨ (assocGet Assets.jisx0201 [c] = none ∧ half c = [c]) := by
  have h1 : ((List.range 0x100).all fun n => decide (assocGet Assets.jisx0201 [Char.ofNat (0x3000 + n)] = some (half (Char.ofNat (0x3000 + n))) ∨
      (assocGet Assets.jisx0201 [Char.ofNat (0x3000 + n)] = none ∧ half (Char.ofNat (0x3000 + n)) = [Char.ofNat (0x3000 + n)]))) = true := by
    decide +kernel
  have h2 : (Assets.jisx0201.all fun p => p.1.all fun d => decide ((0x3000 ≤ d.toNat ∧ d.toNat < 0x3100) ∨ d = '．' ∨ d = '，')) = true := by decide +kernel
  have h3 : ((voiced ++ halfVoiced ++ halfOrder ++ c%"ゔゐゑゎゕゖ").all fun d => decide (0x3000 ≤ d.toNat ∧ d.toNat < 0x3100)) = true := by decide +kernel
  by_cases hc : 0x3000 ≤ c.toNat ∧ c.toNat < 0x3100
  · have := List.all_eq_true.mp h1 (c.toNat - 0x3000) (by simp; omega)
    rw [show 0x3000 + (c.toNat - 0x3000) = c.toNat by omega, Char.ofNat_toNat] at this
    exact of_decide_eq_true this
  by_cases hp : c = '．'
  · subst hp; left; decide +kernel
  by_cases hq : c = '，'
  · subst hq; left; decide +kernel
  right
  constructor
  · apply assocGet_none
    intro p hp' e
    have := List.all_eq_true.mp h2 p hp'
    rw [e] at this
    simp [hp, hq] at this
    omega
  · have hn : ∀ d ∈ voiced ++ halfVoiced ++ halfOrder ++ c%"ゔゐゑゎゕゖ", c ≠ d := by
      intro d hd e
      subst e
      exact hc (of_decide_eq_true (List.all_eq_true.mp h3 _ hd))
    have hi : halfOrder.idxOf? c = none := by
      rw [List.idxOf?_eq_none_iff]
      intro h
      exact hn c (by simp [h]) rfl
    unfold half
    rw [if_neg (fun h => hn c (by simp [h]) rfl), if_neg (fun h => hn c (by simp [h]) rfl), if_neg (hn 'ゔ' (by simp)), if_neg (hn 'ゐ' (by simp)),
      if_neg (hn 'ゑ' (by simp)), if_neg (hn 'ゎ' (by simp)), if_neg (hn 'ゕ' (by simp)), if_neg (hn 'ゖ' (by simp)), if_neg hp, if_neg hq]
    unfold half₁
    rw [hi]

/-- **C24 for the shipped table.** The half-width katakana of every text. -/
theorem shipped_half (s : Str) : shippedKana.adjust .hankakuKatakana s = s.flatMap half := by
  apply (kana_form_greedy shippedKana s _).2.1.mpr
  show Greedy (assocGet Assets.jisx0201) s (s.flatMap half)
  have h2 : (Assets.jisx0201.all fun p => decide (p.1.length = 1)) = true := by decide +kernel
  induction s with
  | nil => exact .nil
  | cons c rest ih =>
    refine greedy_char (half_char c) ?_ ih
    intro d tail rest' _
    apply assocGet_none
    intro p hp e
    have := of_decide_eq_true (List.all_eq_true.mp h2 p hp)
    rw [e] at this
    simp at this

/-- A text with letters of all kinds, in the forms. -/
theorem forms_seen : shippedAscii.adjustString c%"a-1 ~`(あ)" = c%"ａ−１　〜`（あ）" ∧ shippedKana.adjust .katakana c%"う゛ぁゝABCがヴ" = c%"ヴァヽABCガヴ" ∧
    shippedKana.adjust .hankakuKatakana c%"がっこう、ぱゎヴ．" = c%"ｶﾞｯｺｳ､ﾊﾟﾜヴ." := by decide +kernel

end Cskk.Props.Forms
