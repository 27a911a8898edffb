import Verif.Model.Numeric
import Verif.Spec.Numeric

/-! # Helper lemmas for the numeric conversions -/

namespace Cskk.Numeric
open Cskk.Spec.Numeric

/-! ## Digits -/

theorem isNd_of_ascii {c : Char} (h : isAsciiDigit c = true) : isNd c = true := by
  simp only [isAsciiDigit, Bool.and_eq_true, decide_eq_true_eq] at h
  simp only [isNd, ndZeros, List.any_cons, Bool.or_eq_true, Bool.and_eq_true, decide_eq_true_eq]
  left; omega

theorem asciiDigit_eq {c : Char} : (asciiDigit c).isSome = isAsciiDigit c := by
  simp only [asciiDigit, isAsciiDigit]
  split
  · rename_i h; simp [h.1, h.2]
  · rename_i h
    have h' : 48 ≤ c.toNat → ¬ c.toNat ≤ 57 := fun a b => h ⟨a, b⟩
    by_cases h1 : 48 ≤ c.toNat <;> simp [h1] <;> omega

theorem foldl_asciiVal (s : Str) (a : Nat) :
    s.foldl (fun a c => a * 10 + (c.toNat - 0x30)) a = a * 10 ^ s.length + asciiVal s := by
  unfold asciiVal
  induction s generalizing a with
  | nil => simp
  | cons c cs ih =>
    simp only [List.foldl_cons, List.length_cons]
    rw [ih, ih (0 * 10 + (c.toNat - 48))]
    rw [Nat.pow_succ, Nat.zero_mul, Nat.zero_add, Nat.add_mul, Nat.mul_assoc, Nat.mul_comm 10, Nat.add_assoc]

theorem mapM_asciiDigit {s : Str} {ds : List Nat} (h : s.mapM asciiDigit = some ds) :
    s.all isAsciiDigit = true ∧ asciiVal s = decVal ds ∧ ds.length = s.length := by
  induction s generalizing ds with
  | nil => simp at h; subst h; exact ⟨rfl, rfl, rfl⟩
  | cons c cs ih =>
    simp only [List.mapM_cons, bind, Option.bind_eq_some_iff] at h
    obtain ⟨d, hd, ds', hds, he⟩ := h
    cases he
    obtain ⟨h1, h2, h3⟩ := ih hds
    have hc : isAsciiDigit c = true := by rw [← asciiDigit_eq, hd]; rfl
    refine ⟨by simp [hc] at h1 ⊢; exact h1, ?_, by simp [h3]⟩
    have hd' : d = c.toNat - 48 := by
      simp only [asciiDigit] at hd
      split at hd
      · cases hd; rfl
      · cases hd
    unfold asciiVal
    simp only [List.foldl_cons]
    rw [foldl_asciiVal, h2]
    simp [decVal, h3, hd']

theorem denotes_parse {s : Str} {n : Nat} (h : Denotes s n) :
    s.all isAsciiDigit = true ∧ s ≠ [] ∧ asciiVal s = n := by
  obtain ⟨h0, ds, h1, h2⟩ := h
  obtain ⟨h3, h4, _⟩ := mapM_asciiDigit h1
  exact ⟨h3, h0, by rw [h4, h2]⟩

theorem parse_of_denotes {s : Str} {n : Nat} (h : Denotes s n) :
    parseU64 s = if n < 2 ^ 64 then some n else none := by
  obtain ⟨h1, h2, h3⟩ := denotes_parse h
  cases s with
  | nil => exact absurd rfl h2
  | cons c cs => simp only [parseU64, h1, h3, List.isEmpty_cons, Bool.not_false, Bool.and_self, if_true]

theorem takeWhile_all_true {α} {p : α → Bool} {l : List α} (h : l.all p = true) : l.takeWhile p = l := by
  induction l with
  | nil => rfl
  | cons x xs ih => simp at h; rw [List.takeWhile_cons_of_pos h.1, ih (by simpa using h.2)]

theorem dropWhile_all_true {α} {p : α → Bool} {l : List α} (h : l.all p = true) : l.dropWhile p = [] := by
  induction l with
  | nil => rfl
  | cons x xs ih => simp at h; rw [List.dropWhile_cons_of_pos h.1, ih (by simpa using h.2)]

theorem replaceFirstRun_all {f : Str → R Str} {s : Str} (h : s.all isNd = true) (hne : s ≠ []) :
    replaceFirstRun f s = f s := by
  cases s with
  | nil => exact absurd rfl hne
  | cons c cs =>
    have hc : isNd c = true := by simp at h; exact h.1
    have e1 : (c :: cs).takeWhile (fun c => !isNd c) = [] := List.takeWhile_cons_of_neg (by simp [hc])
    have e2 : (c :: cs).dropWhile (fun c => !isNd c) = c :: cs := List.dropWhile_cons_of_neg (by simp [hc])
    simp only [replaceFirstRun, e1, e2, takeWhile_all_true h, dropWhile_all_true h]
    simp only [List.isEmpty_cons, Bool.false_eq_true, if_false, List.nil_append, List.append_nil]
    cases f (c :: cs) <;> rfl

theorem all_isNd_of_ascii {s : Str} (h : s.all isAsciiDigit = true) : s.all isNd = true := by
  simp only [List.all_eq_true] at h ⊢
  exact fun c hc => isNd_of_ascii (h c hc)

/-! ## Kanji numerals -/

/-- Value of least-significant-first digits. -/
def leVal : List Nat → Nat
  | [] => 0
  | d :: ds => d + 10 * leVal ds

theorem keta_length (k n : Nat) : (keta k n).length = k := by
  induction k generalizing n with
  | zero => rfl
  | succ k ih => simp [keta, ih]

theorem keta_lt (k n : Nat) : ∀ d ∈ keta k n, d < 10 := by
  induction k generalizing n with
  | zero => simp [keta]
  | succ k ih =>
    intro d hd
    rcases List.mem_cons.mp hd with h | h
    · omega
    · exact ih _ d h

theorem keta_val (k n : Nat) : leVal (keta k n) = n % 10 ^ k := by
  induction k generalizing n with
  | zero => simp [keta, leVal, Nat.mod_one]
  | succ k ih =>
    simp only [keta, leVal, ih]
    rw [Nat.pow_succ, Nat.mul_comm (10 ^ k) 10, Nat.mod_mul]

theorem kanjiDigits_spec : ∀ d < 10, kanjiDigit (kanjiDigits.getD d '〇') = some d := by decide

theorem run_append (r : Reader) (a b : Str) : r.run (a ++ b) = (r.run a).bind fun r' => r'.run b := by
  induction a generalizing r with
  | nil => rfl
  | cons c cs ih =>
    simp only [List.cons_append, Reader.run, Option.bind_assoc]
    cases r.step c with
    | none => rfl
    | some r' => simp [ih]

theorem kanjiDigit_unit {u : Char} {U : Nat} (h : smallUnit u = some U) : kanjiDigit u = none := by
  unfold smallUnit at h
  split at h <;> first | rfl | cases h

theorem unitPart_run {ex : Bool} {d : Nat} {u : Char} {U T S lb B : Nat} (hd : d < 10) (hu : smallUnit u = some U)
    (hlb : U < lb) :
    ∃ lb', Reader.run ⟨T, S, none, lb, B⟩ (unitPart ex d u) = some ⟨T, S + d * U, none, lb', B⟩ ∧ U ≤ lb' := by
  unfold unitPart
  have hk := kanjiDigit_unit hu
  by_cases h0 : d = 0
  · subst h0; exact ⟨lb, by simp [Reader.run], by omega⟩
  · refine ⟨U, ?_, Nat.le_refl _⟩
    rw [if_pos h0]
    by_cases h1 : d ≠ 1 || ex
    · rw [if_pos h1]
      simp only [List.singleton_append, Reader.run, Reader.step, kanjiDigits_spec d hd]
      simp [hk, hu, hlb, h0, Reader.run, Reader.step]
    · rw [if_neg h1]
      have : d = 1 := by simp at h1; exact h1.1
      subst this
      simp [Reader.run, Reader.step, hk, hu, hlb]

/-- The digit part of a group. -/
theorem group_run {ex : Bool} {d3 d2 d1 d0 T B : Nat} (h3 : d3 < 10) (h2 : d2 < 10) (h1 : d1 < 10) (h0 : d0 < 10) :
    ∃ S g lb, Reader.run ⟨T, 0, none, 10 ^ 4, B⟩
      (unitPart ex d3 '千' ++ unitPart ex d2 '百' ++ unitPart ex d1 '十' ++
        (if d0 ≠ 0 then [kanjiDigits.getD d0 '〇'] else [])) = some ⟨T, S, g, lb, B⟩ ∧
      S + g.getD 0 = d3 * 1000 + d2 * 100 + d1 * 10 + d0 := by
  obtain ⟨l3, e3, b3⟩ := unitPart_run (ex := ex) (u := '千') (U := 1000) (T := T) (S := 0) (lb := 10 ^ 4) (B := B) h3 rfl (by omega)
  obtain ⟨l2, e2, b2⟩ := unitPart_run (ex := ex) (u := '百') (U := 100) (T := T) (S := 0 + d3 * 1000) (lb := l3) (B := B) h2 rfl (by omega)
  obtain ⟨l1, e1, b1⟩ := unitPart_run (ex := ex) (u := '十') (U := 10) (T := T) (S := 0 + d3 * 1000 + d2 * 100) (lb := l2) (B := B) h1 rfl (by omega)
  rw [run_append, run_append, run_append, e3]
  simp only [Option.bind_some, e2, e1]
  by_cases hz : d0 = 0
  · subst hz; exact ⟨_, none, l1, rfl, by simp⟩
  · rw [if_pos hz]
    refine ⟨0 + d3 * 1000 + d2 * 100 + d1 * 10, some d0, l1, ?_, ?_⟩
    · simp only [Reader.run, Reader.step, kanjiDigits_spec d0 h0]; rfl
    · simp

theorem kanjiDigit_big {u : Char} {U : Nat} (h : bigUnit u = some U) : kanjiDigit u = none ∧ smallUnit u = none := by
  unfold bigUnit at h
  split at h <;> first | exact ⟨rfl, rfl⟩ | cases h

/-- A whole group with its big unit. -/
theorem groupPart_run {ex : Bool} {d3 d2 d1 d0 T B U : Nat} {u : Char} (h3 : d3 < 10) (h2 : d2 < 10) (h1 : d1 < 10)
    (h0 : d0 < 10) (hu : bigUnit u = some U) (hB : U < B) :
    ∃ B', Reader.run ⟨T, 0, none, 10 ^ 4, B⟩ (groupPart ex d3 d2 d1 d0 [u]) =
      some ⟨T + (d3 * 1000 + d2 * 100 + d1 * 10 + d0) * U, 0, none, 10 ^ 4, B'⟩ ∧ U ≤ B' := by
  unfold groupPart
  split
  · rename_i hnz
    obtain ⟨S, g, lb, e, hv⟩ := group_run (ex := ex) (T := T) (B := B) h3 h2 h1 h0
    refine ⟨U, ?_, Nat.le_refl _⟩
    rw [run_append, e]
    obtain ⟨k1, k2⟩ := kanjiDigit_big hu
    have hpos : 0 < S + g.getD 0 := by
      rw [hv]; simp at hnz; omega
    simp only [Option.bind_some, Reader.run, Reader.step, k1, k2, hu]
    rw [if_pos ⟨hB, hpos⟩]
    simp [hv, Reader.run]
  · rename_i hz
    refine ⟨B, ?_, by omega⟩
    simp at hz
    simp [hz, Reader.run]

theorem formatKanji_read_aux (ex : Bool) (kt : List Nat) (hl : kt.length = 20) (hd : ∀ d ∈ kt, d < 10)
    (T0 : Nat) :
    ∃ r, Reader.run ⟨T0, 0, none, 10 ^ 4, 10 ^ 20⟩ (groupsPart ex kt [4, 3, 2, 1, 0]) = some r ∧
      r.total + r.group + r.digit.getD 0 = T0 + leVal kt := by
  match kt, hl with
  | [a0, a1, a2, a3, b0, b1, b2, b3, c0, c1, c2, c3, e0, e1, e2, e3, f0, f1, f2, f3], _ =>
    simp only [List.mem_cons, List.not_mem_nil, or_false, forall_eq_or_imp, forall_eq] at hd
    obtain ⟨ha0, ha1, ha2, ha3, hb0, hb1, hb2, hb3, hc0, hc1, hc2, hc3, he0, he1, he2, he3, hf0, hf1, hf2, hf3⟩ := hd
    obtain ⟨B4, r4, l4⟩ := groupPart_run (ex := ex) (u := '京') (U := 10 ^ 16) (T := T0) (B := 10 ^ 20) hf3 hf2 hf1 hf0 rfl (by omega)
    obtain ⟨B3, r3, l3⟩ := groupPart_run (ex := ex) (u := '兆') (U := 10 ^ 12) (B := B4)
      (T := T0 + (f3 * 1000 + f2 * 100 + f1 * 10 + f0) * 10 ^ 16) he3 he2 he1 he0 rfl (by omega)
    obtain ⟨B2, r2, l2⟩ := groupPart_run (ex := ex) (u := '億') (U := 10 ^ 8) (B := B3)
      (T := T0 + (f3 * 1000 + f2 * 100 + f1 * 10 + f0) * 10 ^ 16 + (e3 * 1000 + e2 * 100 + e1 * 10 + e0) * 10 ^ 12)
      hc3 hc2 hc1 hc0 rfl (by omega)
    obtain ⟨B1, r1, l1⟩ := groupPart_run (ex := ex) (u := '万') (U := 10 ^ 4) (B := B2)
      (T := T0 + (f3 * 1000 + f2 * 100 + f1 * 10 + f0) * 10 ^ 16 + (e3 * 1000 + e2 * 100 + e1 * 10 + e0) * 10 ^ 12
        + (c3 * 1000 + c2 * 100 + c1 * 10 + c0) * 10 ^ 8)
      hb3 hb2 hb1 hb0 rfl (by omega)
    simp only [groupsPart, kurai, run_append, List.getD_cons_succ, List.getD_cons_zero, List.append_nil,
      Nat.reduceMul, Nat.reduceAdd, r4, r3, r2, r1, Option.bind_some]
    have final : ∃ r, Reader.run ⟨T0 + (f3 * 1000 + f2 * 100 + f1 * 10 + f0) * 10 ^ 16 + (e3 * 1000 + e2 * 100 + e1 * 10 + e0) * 10 ^ 12
        + (c3 * 1000 + c2 * 100 + c1 * 10 + c0) * 10 ^ 8 + (b3 * 1000 + b2 * 100 + b1 * 10 + b0) * 10 ^ 4, 0, none, 10 ^ 4, B1⟩
        (groupPart ex a3 a2 a1 a0 []) = some r ∧ r.total + r.group + r.digit.getD 0 =
        T0 + (f3 * 1000 + f2 * 100 + f1 * 10 + f0) * 10 ^ 16 + (e3 * 1000 + e2 * 100 + e1 * 10 + e0) * 10 ^ 12
        + (c3 * 1000 + c2 * 100 + c1 * 10 + c0) * 10 ^ 8 + (b3 * 1000 + b2 * 100 + b1 * 10 + b0) * 10 ^ 4
        + (a3 * 1000 + a2 * 100 + a1 * 10 + a0) := by
      unfold groupPart
      split
      · obtain ⟨S, g, lb, e, hv⟩ := group_run (ex := ex) (T := T0 + (f3 * 1000 + f2 * 100 + f1 * 10 + f0) * 10 ^ 16 + (e3 * 1000 + e2 * 100 + e1 * 10 + e0) * 10 ^ 12
          + (c3 * 1000 + c2 * 100 + c1 * 10 + c0) * 10 ^ 8 + (b3 * 1000 + b2 * 100 + b1 * 10 + b0) * 10 ^ 4) (B := B1) ha3 ha2 ha1 ha0
        rw [List.append_nil, e]
        exact ⟨_, rfl, by simp only; omega⟩
      · rename_i hz
        simp at hz
        exact ⟨_, rfl, by simp [hz]⟩
    obtain ⟨r, hr, hv⟩ := final
    refine ⟨r, hr, ?_⟩
    rw [hv]; simp only [leVal]; omega

theorem groupsPart_ne_nil (ex : Bool) (kt : List Nat) (hl : kt.length = 20) (hd : ∀ d ∈ kt, d < 10)
    (hv : leVal kt ≠ 0) : groupsPart ex kt [4, 3, 2, 1, 0] ≠ [] := by
  intro h
  obtain ⟨r, hr, hr'⟩ := formatKanji_read_aux ex kt hl hd 0
  rw [h] at hr
  simp [Reader.run] at hr
  subst hr
  simp at hr'; omega

theorem formatKanji_read (n : Nat) (ex : Bool) (h : n < 10 ^ 19) : readKanji (formatKanji n ex) = some n := by
  unfold formatKanji
  rw [if_neg (by omega)]
  split
  · rename_i h0; subst h0; decide
  · rename_i h0
    have hv : leVal (keta 20 n) = n := by rw [keta_val]; omega
    obtain ⟨r, hr, hr'⟩ := formatKanji_read_aux ex (keta 20 n) (keta_length 20 n) (keta_lt 20 n) 0
    have hne := groupsPart_ne_nil ex (keta 20 n) (keta_length 20 n) (keta_lt 20 n) (by omega)
    unfold readKanji
    split
    · rename_i heq; exact absurd heq hne
    · rw [hr]; simp; omega

/-! ### Tables -/

theorem replaceChar_map (p q : Char) (s : Str) : replaceChar p [q] s = s.map fun c => if c = p then q else c := by
  induction s with
  | nil => rfl
  | cons c cs ih =>
    simp only [replaceChar, List.flatMap_cons, List.map_cons] at ih ⊢
    rw [ih]; split <;> simp

/-- Composition of the successive one-character replacements. -/
def tableFun (tbl : List (Char × Char)) (c : Char) : Char :=
  tbl.foldl (fun c e => if c = e.1 then e.2 else c) c

theorem replaceTable_map (tbl : List (Char × Char)) (s : Str) : replaceTable tbl s = s.map (tableFun tbl) := by
  unfold replaceTable tableFun
  induction tbl generalizing s with
  | nil => simp
  | cons e es ih =>
    rw [List.foldl_cons, ih, replaceChar_map, List.map_map]; rfl

theorem tableFun_not_mem {tbl : List (Char × Char)} {c : Char} (h : ∀ e ∈ tbl, c ≠ e.1) : tableFun tbl c = c := by
  unfold tableFun
  induction tbl with
  | nil => rfl
  | cons e es ih =>
    simp only [List.foldl_cons, if_neg (h e (by simp))]
    exact ih (fun e he => h e (by simp [he]))

/-! ### Which characters occur -/

theorem formatKanji_chars (n : Nat) (ex : Bool) (h : n < 10 ^ 19) : ∀ c ∈ formatKanji n ex, c ∈ kanjiNums := by
  have hdig : ∀ d < 10, kanjiDigits.getD d '〇' ∈ kanjiNums := by decide
  have hunit : ∀ d < 10, ∀ u ∈ kanjiNums, ∀ c ∈ unitPart ex d u, c ∈ kanjiNums := by
    intro d hd u hu c hc
    unfold unitPart at hc
    split at hc
    · rcases List.mem_append.mp hc with h | h
      · split at h
        · simp at h; rw [h]; exact hdig d hd
        · cases h
      · simp at h; rw [h]; exact hu
    · cases hc
  have hgroup : ∀ d3 < 10, ∀ d2 < 10, ∀ d1 < 10, ∀ d0 < 10, ∀ ku : Str, (∀ c ∈ ku, c ∈ kanjiNums) →
      ∀ c ∈ groupPart ex d3 d2 d1 d0 ku, c ∈ kanjiNums := by
    intro d3 h3 d2 h2 d1 h1 d0 h0 ku hku c hc
    unfold groupPart at hc
    split at hc
    · simp only [List.mem_append] at hc
      rcases hc with (((h | h) | h) | h) | h
      · exact hunit d3 h3 _ (by decide) c h
      · exact hunit d2 h2 _ (by decide) c h
      · exact hunit d1 h1 _ (by decide) c h
      · split at h
        · simp at h; rw [h]; exact hdig d0 h0
        · cases h
      · exact hku c h
    · cases hc
  have hget : ∀ i, (keta 20 n).getD i 0 < 10 := by
    intro i
    rw [List.getD_eq_getElem?_getD]
    cases hi : (keta 20 n)[i]? with
    | none => simp
    | some d => exact keta_lt 20 n d (List.mem_of_getElem? hi)
  have hgroups : ∀ is : List Nat, (∀ i ∈ is, i < 5) → ∀ c ∈ groupsPart ex (keta 20 n) is, c ∈ kanjiNums := by
    intro is
    induction is with
    | nil => simp [groupsPart]
    | cons i is ih =>
      intro hi c hc
      simp only [groupsPart, List.mem_append] at hc
      rcases hc with h | h
      · refine hgroup _ (hget _) _ (hget _) _ (hget _) _ (hget _) _ ?_ c h
        have : ∀ i < 5, ∀ c ∈ kurai.getD i [], c ∈ kanjiNums := by decide
        exact this i (hi i (by simp))
      · exact ih (fun j hj => hi j (by simp [hj])) c h
  unfold formatKanji
  rw [if_neg (by omega)]
  split
  · decide
  · exact hgroups _ (by decide)

/-! ### Formal numerals read the same -/

theorem reader_run_map (f : Char → Char) (hf : ∀ c ∈ kanjiNums, kanjiDigit (f c) = kanjiDigit c ∧
    smallUnit (f c) = smallUnit c ∧ bigUnit (f c) = bigUnit c) (r : Reader) (s : Str) (hs : ∀ c ∈ s, c ∈ kanjiNums) :
    r.run (s.map f) = r.run s := by
  induction s generalizing r with
  | nil => rfl
  | cons c cs ih =>
    obtain ⟨h1, h2, h3⟩ := hf c (hs c (by simp))
    simp only [List.map_cons, Reader.run]
    have : r.step (f c) = r.step c := by simp only [Reader.step, h1, h2, h3]
    rw [this]
    cases r.step c with
    | none => rfl
    | some r' => simp [ih r' (fun c hc => hs c (by simp [hc]))]

theorem readKanji_map (f : Char → Char) (hf : ∀ c ∈ kanjiNums, kanjiDigit (f c) = kanjiDigit c ∧
    smallUnit (f c) = smallUnit c ∧ bigUnit (f c) = bigUnit c) (s : Str) (hs : ∀ c ∈ s, c ∈ kanjiNums) :
    readKanji (s.map f) = readKanji s := by
  cases s with
  | nil => rfl
  | cons c cs =>
    have := reader_run_map f hf ⟨0, 0, none, 10 ^ 4, 10 ^ 20⟩ (c :: cs) hs
    simp only [List.map_cons] at this
    simp only [readKanji, List.map_cons, this]

theorem daiji_table (legal : Bool) : ∀ c ∈ kanjiNums,
    kanjiDigit (tableFun (kanjiNums.zip (if legal then legalDaiji else daiji)) c) = kanjiDigit c ∧
    smallUnit (tableFun (kanjiNums.zip (if legal then legalDaiji else daiji)) c) = smallUnit c ∧
    bigUnit (tableFun (kanjiNums.zip (if legal then legalDaiji else daiji)) c) = bigUnit c := by
  cases legal <;> decide +kernel

end Cskk.Numeric
