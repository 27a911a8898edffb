import Verif.Props.Numeric

/-!
# C17, C18, C19: the number can be read back from what is written
-/

namespace Cskk.Props.Numeric

open Cskk.Numeric Spec.Numeric

/-- Conversion `#5` of a number which is too large gives the fixed text. -/
theorem daiji_too_large (s : Str) (n : Nat) (legal : Bool) (h : Denotes s n) (hn : 10 ^ 19 ≤ n) (hm : n < 2 ^ 64) :
    daijiNum s legal = .ok c%"数字が大きすぎます" := by
  obtain ⟨h1, h2, _⟩ := denotes_parse h
  rw [daijiNum, replaceFirstRun_all (all_isNd_of_ascii h1) h2, parse_of_denotes h, if_pos hm]
  have hk : formatKanji n true = c%"数字が大きすぎます" := by
    unfold formatKanji
    exact if_pos (by omega)
  simp only [hk]
  cases legal <;> decide

/-- Different numbers are never rendered alike by `#5`, in one variant or the other. -/
theorem daiji_injective (s s' : Str) (n n' : Nat) (legal legal' : Bool) (h : Denotes s n) (h' : Denotes s' n') (hn : n < 10 ^ 19)
    (hn' : n' < 10 ^ 19) (e : daijiNum s legal = daijiNum s' legal') : n = n' := by
  obtain ⟨t, h1, h2, _⟩ := daiji_reads_back s n legal h hn
  obtain ⟨t', h1', h2', _⟩ := daiji_reads_back s' n' legal' h' hn'
  rw [h1, h1'] at e; cases e; rw [h2] at h2'; cases h2'; rfl

theorem digit_eq {a b : Char} (h : a.toNat = b.toNat) : a = b := by
  rw [← Char.ofNat_toNat a, h, Char.ofNat_toNat]

/-- Full-width digits can be read back: texts of digits written alike are the same. -/
theorem zenkaku_reversible (s s' : Str) (h : ∀ c ∈ s, isAsciiDigit c = true) (h' : ∀ c ∈ s', isAsciiDigit c = true) (e : zenkaku s = zenkaku s') : s = s' := by
  obtain ⟨l, c1⟩ := zenkaku_charwise s
  obtain ⟨l', c2⟩ := zenkaku_charwise s'
  apply List.ext_getElem? 
  intro i
  have hl : s.length = s'.length := by rw [← l, ← l', e]
  by_cases hi : i < s.length
  · have hi' : i < s'.length := by omega
    obtain ⟨d, d1, d2, _⟩ := c1 i s[i] (List.getElem?_eq_getElem hi)
    obtain ⟨d', d1', d2', _⟩ := c2 i s'[i] (List.getElem?_eq_getElem hi')
    rw [e, d1'] at d1
    cases d1
    have e1 := d2 (h _ (List.getElem_mem hi))
    have e2 := d2' (h' _ (List.getElem_mem hi'))
    rw [List.getElem?_eq_getElem hi, List.getElem?_eq_getElem hi', digit_eq (a := s[i]) (b := s'[i]) (by omega)]
  · rw [List.getElem?_eq_none (by omega), List.getElem?_eq_none (by omega)]

/-- Kanji digits can be read back. -/
theorem kanji_each_reversible (s s' : Str) (h : ∀ c ∈ s, isAsciiDigit c = true) (h' : ∀ c ∈ s', isAsciiDigit c = true) (e : kanjiEach s = kanjiEach s') : s = s' := by
  obtain ⟨l, c1⟩ := kanji_each_charwise s
  obtain ⟨l', c2⟩ := kanji_each_charwise s'
  apply List.ext_getElem? 
  intro i
  have hl : s.length = s'.length := by rw [← l, ← l', e]
  by_cases hi : i < s.length
  · have hi' : i < s'.length := by omega
    obtain ⟨d, d1, d2, _⟩ := c1 i s[i] (List.getElem?_eq_getElem hi)
    obtain ⟨d', d1', d2', _⟩ := c2 i s'[i] (List.getElem?_eq_getElem hi')
    rw [e, d1'] at d1
    cases d1
    have e1 := (d2 (h _ (List.getElem_mem hi))).1
    have e2 := (d2' (h' _ (List.getElem_mem hi'))).1
    rw [e1] at e2
    have g1 := h _ (List.getElem_mem hi)
    have g2 := h' _ (List.getElem_mem hi')
    simp only [isAsciiDigit, Bool.and_eq_true, decide_eq_true_eq] at g1 g2
    have e2 := Option.some.inj e2
    rw [List.getElem?_eq_getElem hi, List.getElem?_eq_getElem hi', digit_eq (a := s[i]) (b := s'[i]) (by omega)]
  · rw [List.getElem?_eq_none (by omega), List.getElem?_eq_none (by omega)]

/-- Numbers with separators can be read back. -/
theorem thousand_reversible (s s' : Str) (n n' : Nat) (h : Denotes s n) (h' : Denotes s' n') (e : thousandSep s = thousandSep s') : s = s' := by
  rw [← thousand_separator_removable s n h, e, thousand_separator_removable s' n' h']

example : daijiNum c%"10000000000000000000" true = .ok c%"数字が大きすぎます" ∧ daijiNum c%"1024" false = .ok c%"壱阡弐拾四" ∧ zenkaku c%"0129" = c%"０１２９" ∧
    kanjiEach c%"0129" = c%"〇一二九" ∧ thousandSep c%"1234567" = c%"1,234,567" := by decide +kernel

end Cskk.Props.Numeric
