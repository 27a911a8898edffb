import Verif.Lemmas.Numeric3
import Verif.Spec.Digits

/-!
# C16–C22 — numeric conversions
-/

namespace Cskk.Props.Numeric
open Cskk Cskk.Numeric Cskk.Spec.Numeric

/-- **C16.** For every decimal numeral denoting a number below `10^19`, conversion `#3` produces a well-formed
kanji numeral that reads as exactly this number, and writes no redundant 一 before 十/百/千. -/
theorem simple_kanji_reads_back (s : Str) (n : Nat) (h : Denotes s n) (hn : n < 10 ^ 19) :
    ∃ t, simpleKanji s = .ok t ∧ readKanji t = some n ∧ OmitsOnes t ∧ ∀ c ∈ t, c ∈ plainNumerals := by
  obtain ⟨h1, h2, _⟩ := denotes_parse h
  refine ⟨formatKanji n false, ?_, formatKanji_read n false hn, formatKanji_omits n hn, formatKanji_chars n false hn⟩
  rw [simpleKanji, replaceFirstRun_all (all_isNd_of_ascii h1) h2, parse_of_denotes h, if_pos (by omega)]

example : Denotes c%"120304050607" 120304050607 := ⟨by decide, _, rfl, rfl⟩
example : simpleKanji c%"120304050607" = .ok c%"千二百三億四百五万六百七" := by decide +kernel

/-- **C16 (large numbers).** Numbers of `10^19` or more that still fit 64 bits give the fixed error text. -/
theorem simple_kanji_too_large (s : Str) (n : Nat) (h : Denotes s n) (hn : 10 ^ 19 ≤ n) (hm : n < 2 ^ 64) :
    simpleKanji s = .ok c%"数字が大きすぎます" := by
  obtain ⟨h1, h2, _⟩ := denotes_parse h
  rw [simpleKanji, replaceFirstRun_all (all_isNd_of_ascii h1) h2, parse_of_denotes h, if_pos hm]
  simp only [formatKanji]
  rw [if_pos (by omega)]
example : Denotes c%"10000000000000000000" (10 ^ 19) := ⟨by decide, _, rfl, by decide⟩

/-- Different numbers are never rendered alike. -/
theorem simple_kanji_injective (s s' : Str) (n n' : Nat) (h : Denotes s n) (h' : Denotes s' n') (hn : n < 10 ^ 19)
    (hn' : n' < 10 ^ 19) (e : simpleKanji s = simpleKanji s') : n = n' := by
  obtain ⟨t, h1, h2, _⟩ := simple_kanji_reads_back s n h hn
  obtain ⟨t', h1', h2', _⟩ := simple_kanji_reads_back s' n' h' hn'
  rw [h1, h1'] at e; cases e; rw [h2] at h2'; cases h2'; rfl
example : Denotes c%"007" 7 ∧ Denotes c%"7" 7 := ⟨⟨by decide, _, rfl, rfl⟩, ⟨by decide, _, rfl, rfl⟩⟩

/-- **C17.** Conversion `#5` (both variants) produces a numeral that reads as exactly the number, writes 一
explicitly before every unit, and contains none of the easily altered plain characters. -/
theorem daiji_reads_back (s : Str) (n : Nat) (legal : Bool) (h : Denotes s n) (hn : n < 10 ^ 19) :
    ∃ t, daijiNum s legal = .ok t ∧ readKanji t = some n ∧ ExplicitOnes t ∧
      (∀ c ∈ t, c ∉ ['一', '二', '三', '十'] ∧ (legal = false → c ∉ ['〇', '五', '千', '万'])) ∧
      ∀ c ∈ t, c ∈ if legal then legalNumerals else formalNumerals := by
  obtain ⟨h1, h2, _⟩ := denotes_parse h
  have hch := formatKanji_chars n true hn
  refine ⟨(formatKanji n true).map (tableFun (kanjiNums.zip (if legal then legalDaiji else daiji))), ?_, ?_, ?_, ?_, ?_⟩
  · rw [daijiNum, replaceFirstRun_all (all_isNd_of_ascii h1) h2, parse_of_denotes h, if_pos (by omega)]
    simp only [replaceTable_map]
  · rw [readKanji_map _ (daiji_table legal) _ hch, formatKanji_read n true hn]
  · exact explicit_map (fun c hc => ⟨(daiji_table legal c (hch c hc)).1, (daiji_table legal c (hch c hc)).2.1⟩)
      (formatKanji_explicit n hn)
  · intro c hc
    obtain ⟨d, hd, rfl⟩ := List.mem_map.mp hc
    have hk := hch d hd
    have table : ∀ legal : Bool, ∀ d ∈ kanjiNums,
        (tableFun (kanjiNums.zip (if legal then legalDaiji else daiji)) d) ∉ ['一', '二', '三', '十'] ∧
        (legal = false → (tableFun (kanjiNums.zip (if legal then legalDaiji else daiji)) d) ∉ ['〇', '五', '千', '万']) := by
      intro legal; cases legal <;> decide +kernel
    exact table legal d hk
  · intro c hc
    obtain ⟨d, hd, rfl⟩ := List.mem_map.mp hc
    have table : ∀ legal : Bool, ∀ d ∈ kanjiNums,
        (tableFun (kanjiNums.zip (if legal then legalDaiji else daiji)) d) ∈ if legal then legalNumerals else formalNumerals := by
      intro legal; cases legal <;> decide +kernel
    exact table legal d (hch d hd)

example : daijiNum c%"1995" false = .ok c%"壱阡九百九拾伍" := by decide +kernel
example : daijiNum c%"1995" true = .ok c%"壱千九百九拾五" := by decide +kernel

/-- **C18.** Conversion `#8` cuts every decimal numeral into groups of three counted from the right. -/
theorem thousand_separator_groups (s : Str) (n : Nat) (h : Denotes s n) : ThousandGrouped s (thousandSep s) := by
  obtain ⟨h1, h2, _⟩ := denotes_parse h
  exact thousandSep_grouped h1 h2

/-- **C18.** Removing the commas gives back the digits. -/
theorem thousand_separator_removable (s : Str) (n : Nat) (h : Denotes s n) :
    (thousandSep s).filter (· ≠ ',') = s := by
  obtain ⟨h1, h2, _⟩ := denotes_parse h
  obtain ⟨g, gs, e, _, _, _, e'⟩ := thousandSep_grouped h1 h2
  have hc : ∀ c ∈ s, c ≠ ',' := by
    intro c hc e
    simp only [List.all_eq_true] at h1
    have := h1 c hc
    rw [e] at this; exact absurd this (by decide)
  rw [e', e]
  simp only [List.filter_append]
  have hg : g.filter (· ≠ ',') = g := by
    apply List.filter_eq_self.mpr
    intro c hcg; simp; exact hc c (by rw [e]; simp [hcg])
  rw [hg]
  congr 1
  have : ∀ gs : List Str, (∀ x ∈ gs, ∀ c ∈ x, c ≠ ',') →
      (gs.flatMap fun x => ',' :: x).filter (· ≠ ',') = gs.flatten := by
    intro gs
    induction gs with
    | nil => intro _; rfl
    | cons x xs ih =>
      intro hx
      simp only [List.flatMap_cons, List.cons_append, List.flatten_cons]
      rw [List.filter_cons_of_neg (by simp), List.filter_append, ih (fun y hy => hx y (by simp [hy]))]
      congr 1
      apply List.filter_eq_self.mpr
      intro c hcx; simp; exact hx x (by simp) c hcx
  apply this
  intro x hx c hcx
  exact hc c (by rw [e]; simp; right; exact ⟨x, hx, hcx⟩)

theorem sepLoop_removable (len cnt : Nat) (s : Str) (h : ∀ c ∈ s, isNd c = true) : (sepLoop len cnt s).filter (· ≠ ',') = s := by
  induction s generalizing cnt with
  | nil => rfl
  | cons c cs ih =>
    have hc : c ≠ ',' := by
      rintro rfl
      exact absurd (h _ (List.mem_cons_self ..)) (by decide +kernel)
    unfold sepLoop
    rw [List.filter_cons_of_pos (by simpa using hc), List.filter_append, ih _ fun x hx => h x (List.mem_cons_of_mem _ hx)]
    congr 1
    split <;> simp

/-- **C18.** With the digits of every script, removing the commas gives back the digits. -/
theorem thousand_any_digits (s : Str) (h : ∀ c ∈ s, isNd c = true) : (thousandSep s).filter (· ≠ ',') = s := by
  cases s with
  | nil => rfl
  | cons c cs =>
    have e2 : (c :: cs).dropWhile (fun c => !isNd c) = c :: cs := List.dropWhile_cons_of_neg (by simp [h c (List.mem_cons_self ..)])
    simp only [thousandSep, e2, takeWhile_all_true (l := c :: cs) (by simpa using h), List.isEmpty_cons, Bool.false_eq_true, if_false]
    split
    · apply List.filter_eq_self.mpr
      intro d hd
      have := h d hd
      simp only [ne_eq, decide_not, Bool.not_eq_eq_eq_not, Bool.not_true, decide_eq_false_iff_not]
      rintro rfl
      exact absurd this (by decide +kernel)
    · exact sepLoop_removable _ _ _ h

theorem sepLoop_wide (len cnt : Nat) (s : Str) (hc : cnt % 3 = 0) (hl : cnt + s.length ≤ len) : sepLoop len cnt s = commaAfterThree s := by
  match s with
  | [] => rfl
  | [a] =>
    simp only [sepLoop, commaAfterThree, hc]
    rfl
  | [a, b] =>
    simp only [sepLoop, commaAfterThree, hc]
    have : (cnt + 1) % 3 = 1 := by omega
    rw [this]; rfl
  | a :: b :: c :: s =>
    simp only [List.length_cons] at hl
    have h1 : (cnt + 1) % 3 = 1 := by omega
    have h2 : (cnt + 1 + 1) % 3 = 2 := by omega
    have h3 : cnt + 1 + 1 < len := by omega
    have ih := sepLoop_wide len (cnt + 1 + 1 + 1) s (by omega) (by omega)
    simp only [sepLoop, commaAfterThree, hc, h1, h2, h3, ih]
    simp

/-- **C18.** The groups are counted in bytes: digits of three bytes, as the full-width ones, get a comma after every third digit counted from the left, even
after the last. -/
theorem thousand_wide_digits (s : Str) (h : ∀ c ∈ s, isNd c = true ∧ c.utf8Size = 3) : thousandSep s = commaAfterThree s := by
  cases s with
  | nil => rfl
  | cons c cs =>
    have hnd : ∀ c' ∈ c :: cs, isNd c' = true := fun c' hc' => (h c' hc').1
    have e2 : (c :: cs).dropWhile (fun c => !isNd c) = c :: cs := List.dropWhile_cons_of_neg (by simp [hnd c (List.mem_cons_self ..)])
    have hlen : ∀ l : Str, (∀ c' ∈ l, isNd c' = true ∧ c'.utf8Size = 3) → (l.map utf8Len).sum = 3 * l.length := by
      intro l
      induction l with
      | nil => intro _; rfl
      | cons x xs ih =>
        intro hx
        have h3 := (hx x (List.mem_cons_self ..)).2
        have : utf8Len x = 3 := by
          unfold Char.utf8Size at h3
          unfold utf8Len
          simp only [Char.toNat, UInt32.le_iff_toNat_le, UInt32.toNat_ofNatLT] at h3 ⊢
          split at h3
          · cases h3
          · split at h3
            · cases h3
            · split at h3
              · rw [if_neg (by omega), if_neg (by omega), if_pos (by omega)]
              · cases h3
        rw [List.map_cons, List.sum_cons, this, ih fun c' hc' => hx c' (List.mem_cons_of_mem _ hc'), List.length_cons]
        omega
    simp only [thousandSep, e2, takeWhile_all_true (l := c :: cs) (by simpa using hnd), List.isEmpty_cons, Bool.false_eq_true, if_false, hlen _ h]
    split
    · rename_i hlt
      have : cs = [] := by
        cases cs with
        | nil => rfl
        | cons x xs => simp only [List.length_cons] at hlt; omega
      subst this; rfl
    · rename_i hlt
      simp only [List.length_cons] at hlt ⊢
      exact sepLoop_wide _ _ _ (by omega) (by simp only [List.length_cons]; omega)

example : thousandSep c%"１２３４" = c%"１２３,４" ∧ thousandSep c%"１２３" = c%"１２３," := by decide +kernel
example : thousandSep c%"1234567" = c%"1,234,567" := by decide +kernel
example : thousandSep c%"123456" = c%"123,456" := by decide +kernel

/-- **C19.** Conversion `#1` maps each ASCII digit to the full-width digit at offset `0xFEE0` and keeps every
other character. -/
theorem zenkaku_charwise (s : Str) :
    (zenkaku s).length = s.length ∧ ∀ (i : Nat) (c : Char), s[i]? = some c → ∃ d, (zenkaku s)[i]? = some d ∧
      (isAsciiDigit c = true → d.toNat = c.toNat + 0xFEE0) ∧ (isAsciiDigit c = false → d = c) := by
  rw [zenkaku, replaceTable_map]
  refine ⟨by simp, ?_⟩
  intro i c hc
  refine ⟨_, by simp [hc]; rfl, ?_, ?_⟩
  · intro hd
    simp only [isAsciiDigit, Bool.and_eq_true, decide_eq_true_eq] at hd
    have table : ∀ k < 10, (tableFun (digitChars.zip zenkakuChars) (Char.ofNat (0x30 + k))).toNat = 0x30 + k + 0xFEE0 := by
      decide +kernel
    have := table (c.toNat - 0x30) (by omega)
    rw [show 0x30 + (c.toNat - 0x30) = c.toNat by omega, Char.ofNat_toNat] at this
    exact this
  · intro hd
    apply tableFun_not_mem
    intro e he hce
    have : ∀ e ∈ digitChars.zip zenkakuChars, isAsciiDigit e.1 = true := by decide
    rw [hce, this e he] at hd; cases hd

/-- **C19.** Conversion `#2` maps each ASCII digit to a kanji digit with the same value and keeps every other
character. -/
theorem kanji_each_charwise (s : Str) :
    (kanjiEach s).length = s.length ∧ ∀ (i : Nat) (c : Char), s[i]? = some c → ∃ d, (kanjiEach s)[i]? = some d ∧
      (isAsciiDigit c = true → kanjiDigit d = some (c.toNat - 0x30) ∧ d ∈ plainNumerals) ∧ (isAsciiDigit c = false → d = c) := by
  rw [kanjiEach, replaceTable_map]
  refine ⟨by simp, ?_⟩
  intro i c hc
  refine ⟨_, by simp [hc]; rfl, ?_, ?_⟩
  · intro hd
    simp only [isAsciiDigit, Bool.and_eq_true, decide_eq_true_eq] at hd
    have table : ∀ k < 10, kanjiDigit (tableFun (digitChars.zip kanjiDigits) (Char.ofNat (0x30 + k))) = some k ∧
        tableFun (digitChars.zip kanjiDigits) (Char.ofNat (0x30 + k)) ∈ plainNumerals := by
      decide +kernel
    have := table (c.toNat - 0x30) (by omega)
    rw [show 0x30 + (c.toNat - 0x30) = c.toNat by omega, Char.ofNat_toNat] at this
    exact this
  · intro hd
    apply tableFun_not_mem
    intro e he hce
    have : ∀ e ∈ digitChars.zip kanjiDigits, isAsciiDigit e.1 = true := by decide
    rw [hce, this e he] at hd; cases hd

example : zenkaku c%"1a2" = c%"１a２" := by decide +kernel
example : kanjiEach c%"1995" = c%"一九九五" := by decide +kernel

/-- **C20.** The numeric dictionary key of every reading is the reading with each maximal digit run replaced by
one `#`; the remembered numbers are exactly the maximal runs, in order. -/
theorem numeric_key_correct (s : Str) :
    (numericKey s).1 = hashRuns isNd false s ∧ RunSplit isNd s (numericKey s).2 := by
  refine ⟨?_, digitRuns_split s⟩
  have := foldl_replace (digitRuns_split s) [] (by simp)
  simpa [numericKey] using this

/-- **C20.** Digits are the decimal digits of all scripts. -/
theorem digits_of_scripts (c : Char) : isNd c = true ↔ ∃ n, Spec.Digit c n := by
  have ht : Spec.zeros.map (·.2) = ndZeros := by decide +kernel
  unfold isNd Spec.Digit
  rw [← ht, List.any_eq_true]
  constructor
  · rintro ⟨z, hz, h⟩
    rw [List.mem_map] at hz
    obtain ⟨s, hs, rfl⟩ := hz
    rw [Bool.and_eq_true, decide_eq_true_eq, decide_eq_true_eq] at h
    exact ⟨c.toNat - s.2, by omega, s, hs, by omega⟩
  · rintro ⟨n, hn, s, hs, h⟩
    refine ⟨s.2, List.mem_map.mpr ⟨s, hs, rfl⟩, ?_⟩
    rw [Bool.and_eq_true, decide_eq_true_eq, decide_eq_true_eq]
    omega

example : Spec.Digit '３' 3 ∧ Spec.Digit '٧' 7 := by
  refine ⟨⟨by decide, ("Fullwidth", 0xFF10), by decide +kernel, by decide⟩, ⟨by decide, ("Arabic-Indic", 0x660), by decide +kernel, by decide⟩⟩
example : numericKey c%"３がつ٧にち" = (c%"#がつ#にち", [c%"３", c%"٧"]) := by decide +kernel

/-- **C20.** Readings without digits are their own key. -/
theorem numeric_key_no_digits (s : Str) (h : ∀ c ∈ s, isNd c = false) : numericKey s = (s, []) := by
  have h1 := numeric_key_correct s
  have hr : digitRuns s = [] := by
    cases hrs : digitRuns s with
    | nil => rfl
    | cons r rs =>
      have := digitRuns_split s
      rw [hrs] at this
      cases this with
      | run n r s' rs hn hr hrd hs hrest =>
        cases r with
        | nil => exact absurd rfl hr
        | cons c cs =>
          have := h c (by simp)
          rw [hrd c (by simp)] at this; cases this
  simp [numericKey, hr]
example : numericKey c%"12がつ6にち" = (c%"#がつ#にち", [c%"12", c%"6"]) := by decide +kernel
example : numericKey c%"1と11と1" = (c%"#と#と#", [c%"1", c%"11", c%"1"]) := by decide +kernel

/-- The number of remembered runs never exceeds the number of `#` in the key. -/
theorem numeric_key_count (s : Str) : (numericKey s).2.length ≤ (numericKey s).1.count '#' := by
  rw [(numeric_key_correct s).1]
  generalize hr : (numericKey s).2 = runs
  have h := (numeric_key_correct s).2
  rw [hr] at h
  clear hr
  induction h with
  | none n hn => simp
  | run n r s rs hn hr hrd hs _ ih =>
    rw [List.append_assoc, hashRuns_nodigit n _ hn]
    simp only [List.count_append, List.length_cons]
    split <;> rw [hashRuns_run r s hrd hr hs] <;> simp only [List.count_cons_self] <;> omega

/-- **C21.** For every word template whose `#` are all markers and for every list of numbers: if the
conversions of the numbers do not panic and contain no `#`, then the offered texts are exactly the template
with the k-th marker replaced by the conversions of the k-th number (in the order of the alternatives);
markers beyond the last number stay. -/
theorem template_filled (lookup : Str → List Str) (conv : Char → Str → List Str) (ps : List Piece)
    (hw : ∀ p ∈ ps, match p with | .lit c => c ≠ '#' | .mark d => d ∈ ['0', '1', '2', '3', '4', '5', '8'])
    (ns : List Str) (hconv : ∀ d n t, t ∈ conv d n → '#' ∉ t)
    (hm : ∀ d, Piece.mark d ∈ ps → ∀ n ∈ ns, markerTexts lookup d n = .ok (conv d n)) :
    replaceNumericString lookup (ps.flatMap Piece.text) ns = .ok (fill conv ps ns) := by
  have hwf : WellFormed ps := by
    intro p hp
    have := hw p hp
    cases p with
    | lit c => exact this
    | mark d =>
      simp only at this ⊢
      have : ∀ d ∈ ['0', '1', '2', '3', '4', '5', '8'], isMarkerDigit d = true := by decide
      exact this d ‹_›
  have hmarks : ∀ ps : List Piece, ∀ d ∈ marksOf ps, Piece.mark d ∈ ps := by
    intro ps
    induction ps with
    | nil => simp [marksOf]
    | cons p ps ih =>
      intro d hd
      cases p with
      | lit c => exact List.mem_cons_of_mem _ (ih d hd)
      | mark e =>
        simp only [marksOf, List.mem_cons] at hd
        rcases hd with h | h
        · subst h; simp
        · exact List.mem_cons_of_mem _ (ih d h)
  have := replaceLoop_fill lookup conv hconv ps.length ps (Nat.le_refl _) hwf ns
    (fun d hd n hn => hm d (hmarks ps d hd) n hn) [[]] (by simp)
  simp only [textOf, List.map_cons, List.nil_append, List.map_nil, List.flatMap_cons, List.flatMap_nil,
    List.append_nil] at this
  have hmk := markers_textOf hwf
  simp only [textOf] at hmk
  rw [replaceNumericString, hmk, this]
  simp

example : replaceNumericString (fun _ => []) c%"#1月#3日" [c%"12", c%"25"] = .ok [c%"１２月二十五日"] := by decide +kernel
example : replaceNumericString (fun _ => []) c%"#5と#5" [c%"1", c%"5"] =
    .ok [c%"壱と伍", c%"壱と五", c%"壱と伍", c%"壱と五"] := by decide +kernel

theorem zenkaku_full_width (s : Str) : FullWidthDigits s (zenkaku s) := by
  obtain ⟨h1, h2⟩ := zenkaku_charwise s
  refine ⟨h1, fun i c hc => ?_⟩
  obtain ⟨d, hd, ha, hb⟩ := h2 i c hc
  refine ⟨d, hd, fun h => ha ?_, fun h => hb ?_⟩
  · unfold asciiDigit at h; split at h
    · rename_i hr; simp [isAsciiDigit, hr]
    · cases h
  · unfold asciiDigit at h; split at h
    · cases h
    · rename_i hr; simp only [isAsciiDigit]; rw [Bool.eq_false_iff]; simpa using hr

theorem kanjiEach_digits (s : Str) : KanjiDigits s (kanjiEach s) := by
  obtain ⟨h1, h2⟩ := kanji_each_charwise s
  refine ⟨h1, fun i c hc => ?_⟩
  obtain ⟨d, hd, ha, hb⟩ := h2 i c hc
  refine ⟨d, hd, fun k h => ?_, fun h => hb ?_⟩
  · unfold asciiDigit at h; split at h
    · rename_i hr; cases h; exact ha (by simp [isAsciiDigit, hr])
    · cases h
  · unfold asciiDigit at h; split at h
    · cases h
    · rename_i hr; simp only [isAsciiDigit]; rw [Bool.eq_false_iff]; simpa using hr

/-- **C21.** What each marker stands for, for decimal numerals below `10^19`, stated through the specifications only: `#0` the digits
themselves, `#1` full-width digits, `#2` one kanji per digit, `#3` a kanji number with units, `#4` the words found for the number, `#5` the
two kinds of formal numbers, `#8` groups of three digits. -/
theorem marker_meaning (lookup : Str → List Str) (s : Str) (n : Nat) (h : Denotes s n) (hn : n < 10 ^ 19) :
    markerTexts lookup '0' s = .ok [s] ∧
    (∃ t, markerTexts lookup '1' s = .ok [t] ∧ FullWidthDigits s t) ∧
    (∃ t, markerTexts lookup '2' s = .ok [t] ∧ KanjiDigits s t) ∧
    (∃ t, markerTexts lookup '3' s = .ok [t] ∧ readKanji t = some n ∧ OmitsOnes t ∧ ∀ c ∈ t, c ∈ plainNumerals) ∧
    markerTexts lookup '4' s = .ok (lookup s) ∧
    (∃ t u, markerTexts lookup '5' s = .ok [t, u] ∧ readKanji t = some n ∧ readKanji u = some n ∧ ExplicitOnes t ∧ ExplicitOnes u ∧
      (∀ c ∈ t, c ∈ formalNumerals) ∧ ∀ c ∈ u, c ∈ legalNumerals) ∧
    (∃ t, markerTexts lookup '8' s = .ok [t] ∧ ThousandGrouped s t) := by
  refine ⟨by simp [markerTexts], ⟨_, by simp [markerTexts], zenkaku_full_width s⟩, ⟨_, by simp [markerTexts], kanjiEach_digits s⟩, ?_,
    by simp [markerTexts], ?_, ?_⟩
  · obtain ⟨t, h1, h2, h3⟩ := simple_kanji_reads_back s n h hn
    exact ⟨t, by simp [markerTexts, h1, bind, Except.bind, pure, Except.pure], h2, h3⟩
  · obtain ⟨t, h1, h2, h3, _, h4⟩ := daiji_reads_back s n false h hn
    obtain ⟨u, h1', h2', h3', _, h4'⟩ := daiji_reads_back s n true h hn
    exact ⟨t, u, by simp [markerTexts, h1, h1', bind, Except.bind, pure, Except.pure], h2, h2', h3, h3', h4, h4'⟩
  · exact ⟨_, by simp [markerTexts], thousand_separator_groups s n h⟩

/-- **Violation of C21.** A `#` that is not part of a marker can combine with an inserted number into a new
marker: the second number is then inserted at the wrong place. -/
theorem template_filled_counterexample :
    replaceNumericString (fun _ => []) c%"##0-#5" [c%"5", c%"6"] = .ok [c%"六-#5", c%"六-#5"] := by decide +kernel

/-- **Violation of C22.** Every numeral of `2^64` or more makes the conversions `#3` and `#5` panic. -/
theorem huge_number_panics (s : Str) (n : Nat) (h : Denotes s n) (hn : 2 ^ 64 ≤ n) (legal : Bool) :
    simpleKanji s = .error .unwrap ∧ daijiNum s legal = .error .unwrap := by
  obtain ⟨h1, h2, _⟩ := denotes_parse h
  rw [simpleKanji, daijiNum, replaceFirstRun_all (all_isNd_of_ascii h1) h2, replaceFirstRun_all (all_isNd_of_ascii h1) h2,
    parse_of_denotes h, if_neg (by omega)]
  exact ⟨rfl, rfl⟩
example : Denotes c%"18446744073709551616" (2 ^ 64) := ⟨by decide, _, rfl, by decide⟩

/-- **Violation of C22.** So does any reading with a non-ASCII decimal digit, e.g. a full-width one. -/
theorem fullwidth_digit_panics : simpleKanji c%"１" = .error .unwrap := by decide +kernel

/-- **C22.** Numerals below `2^64` never panic, in any of the conversions. Not covered by the claim: numerals of
`2^64` or more and non-ASCII digits, for which the code does panic (`huge_number_panics`,
`fullwidth_digit_panics`). -/
theorem numeric_no_panic (lookup : Str → List Str) (s : Str) (n : Nat) (h : Denotes s n) (hn : n < 2 ^ 64)
    (d : Char) : ∃ ts, markerTexts lookup d s = .ok ts := by
  obtain ⟨h1, h2, _⟩ := denotes_parse h
  have hp := parse_of_denotes h
  rw [if_pos hn] at hp
  have hk : simpleKanji s = .ok (formatKanji n false) := by
    rw [simpleKanji, replaceFirstRun_all (all_isNd_of_ascii h1) h2, hp]
  have hd : ∀ legal, ∃ t, daijiNum s legal = .ok t := by
    intro legal
    rw [daijiNum, replaceFirstRun_all (all_isNd_of_ascii h1) h2, hp]; exact ⟨_, rfl⟩
  obtain ⟨a, ha⟩ := hd false
  obtain ⟨b, hb⟩ := hd true
  simp only [markerTexts]
  split <;> try exact ⟨_, rfl⟩
  split <;> try exact ⟨_, rfl⟩
  split <;> try exact ⟨_, rfl⟩
  split
  · rw [hk]; exact ⟨_, rfl⟩
  · split <;> try exact ⟨_, rfl⟩
    split
    · rw [ha, hb]; exact ⟨_, rfl⟩
    · exact ⟨_, rfl⟩

end Cskk.Props.Numeric
