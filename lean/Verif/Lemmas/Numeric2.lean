import Verif.Lemmas.Numeric

/-! # Helper lemmas: thousands separators, digit runs, numeric templates -/

theorem List.flatMap_congr' {α β} {l : List α} {f g : α → List β} (h : ∀ x ∈ l, f x = g x) :
    l.flatMap f = l.flatMap g := by
  induction l with
  | nil => rfl
  | cons x xs ih =>
    rw [List.flatMap_cons, List.flatMap_cons, h x (by simp), ih (fun y hy => h y (by simp [hy]))]

namespace Cskk.Numeric
open Cskk.Spec.Numeric

/-! ## Thousands separators -/

theorem sepLoop_append (len cnt : Nat) (a b : Str) :
    sepLoop len cnt (a ++ b) = sepLoop len cnt a ++ sepLoop len (cnt + a.length) b := by
  induction a generalizing cnt with
  | nil => simp [sepLoop]
  | cons c cs ih =>
    simp only [List.cons_append, sepLoop, ih, List.length_cons, List.append_assoc]
    rw [show cnt + 1 + cs.length = cnt + (cs.length + 1) by omega]

/-- The tail of the loop, three characters at a time: at a group boundary with the groups `g :: gs` left. -/
theorem sepLoop_groups (len : Nat) (g : Str) (gs : List Str) (hg : ∀ x ∈ g :: gs, x.length = 3) (cnt : Nat)
    (h0 : cnt % 3 = 0) (hlo : len + 1 ≤ cnt + 3 * (gs.length + 1)) (hhi : cnt + 3 * (gs.length + 1) ≤ len + 3) :
    sepLoop len cnt (g ++ gs.flatten) = g ++ gs.flatMap fun x => ',' :: x := by
  induction gs generalizing cnt g with
  | nil =>
    have h3 := hg g (by simp)
    match g, h3 with
    | [x, y, z], _ =>
      simp at hlo hhi
      have e0 : (cnt % 3 == 2 && decide (cnt < len)) = false := by simp; omega
      have e1 : ((cnt + 1) % 3 == 2 && decide (cnt + 1 < len)) = false := by simp; omega
      have e2 : ((cnt + 1 + 1) % 3 == 2 && decide (cnt + 1 + 1 < len)) = false := by simp; omega
      simp only [List.flatten_nil, List.append_nil, sepLoop, e0, e1, e2]
      simp
  | cons g' gs ih =>
    have h3 := hg g (by simp)
    match g, h3 with
    | [x, y, z], _ =>
      simp only [List.length_cons] at hlo hhi
      have e0 : (cnt % 3 == 2 && decide (cnt < len)) = false := by simp; omega
      have e1 : ((cnt + 1) % 3 == 2 && decide (cnt + 1 < len)) = false := by simp; omega
      have e2 : ((cnt + 1 + 1) % 3 == 2 && decide (cnt + 1 + 1 < len)) = true := by
        simp only [Bool.and_eq_true, beq_iff_eq, decide_eq_true_eq]; omega
      have := ih g' (fun x hx => hg x (List.mem_cons_of_mem _ hx)) (cnt + 3) (by omega) (by omega) (by omega)
      simp only [List.flatten_cons] at this ⊢
      simp only [List.cons_append, List.nil_append, sepLoop, e0, e1, e2]
      rw [show cnt + 1 + 1 + 1 = cnt + 3 by omega, this]
      simp

/-- Every list splits into a short first group and full groups. -/
theorem exists_groups (s : Str) (h : s ≠ []) : ∃ (g : Str) (gs : List Str), s = g ++ gs.flatten ∧ 1 ≤ g.length ∧ g.length ≤ 3 ∧
    (∀ x ∈ gs, x.length = 3) := by
  suffices H : ∀ n (s : Str), s.length ≤ n → s ≠ [] → ∃ (g : Str) (gs : List Str), s = g ++ gs.flatten ∧ 1 ≤ g.length ∧ g.length ≤ 3 ∧
      (∀ x ∈ gs, x.length = 3) from H s.length s (Nat.le_refl _) h
  intro n
  induction n with
  | zero => intro s hs hne; cases s with
    | nil => exact absurd rfl hne
    | cons => simp at hs
  | succ n ih =>
    intro s hs hne
    by_cases h3 : s.length ≤ 3
    · exact ⟨s, [], by simp, List.length_pos_iff.mpr hne, h3, by simp⟩
    · have hsplit : s = s.take (s.length - 3) ++ s.drop (s.length - 3) := (List.take_append_drop _ _).symm
      obtain ⟨g, gs, e, h1, h2, h4⟩ := ih (s.take (s.length - 3)) (by simp; omega)
        (by intro h; have := congrArg List.length h; simp at this; omega)
      refine ⟨g, gs ++ [s.drop (s.length - 3)], ?_, h1, h2, ?_⟩
      · simp only [List.flatten_append, List.flatten_cons, List.flatten_nil, List.append_nil]
        rw [← List.append_assoc, ← e]; exact hsplit
      · intro x hx
        rcases List.mem_append.mp hx with h | h
        · exact h4 x h
        · simp at h; subst h; simp; omega

theorem flatten_length_three (gs : List Str) (h : ∀ x ∈ gs, x.length = 3) : gs.flatten.length = 3 * gs.length := by
  induction gs with
  | nil => rfl
  | cons g gs ih =>
    simp only [List.flatten_cons, List.length_append, List.length_cons]
    rw [h g (by simp), ih (fun x hx => h x (by simp [hx]))]; omega

theorem sepLoop_grouped (s : Str) (h4 : 4 ≤ s.length) :
    ThousandGrouped s (sepLoop s.length (3 - s.length % 3) s) := by
  obtain ⟨g, gs, e, h1, h2, h3⟩ := exists_groups s (by intro h; simp [h] at h4)
  refine ⟨g, gs, e, h1, h2, h3, ?_⟩
  have hf := flatten_length_three gs h3
  have hlen : s.length = g.length + 3 * gs.length := by rw [e]; simp [hf]
  have hgne : gs ≠ [] := by
    intro h; subst h; simp at hlen; omega
  have hgp : 1 ≤ gs.length := List.length_pos_iff.mpr hgne
  generalize hL : s.length = L at *
  rw [e, sepLoop_append]
  have hcnt : (3 - L % 3 + g.length) % 3 = 0 := by omega
  -- the first group ends with a comma
  have hfirst : sepLoop L (3 - L % 3) g = g ++ [','] := by
    match g, h1, h2 with
    | [a], _, _ =>
      simp only [List.length_singleton] at hlen
      have e0 : ((3 - L % 3) % 3 == 2 && decide (3 - L % 3 < L)) = true := by
        simp only [Bool.and_eq_true, beq_iff_eq, decide_eq_true_eq]; omega
      simp only [sepLoop, e0]; rfl
    | [a, b], _, _ =>
      simp at hlen
      have e0 : ((3 - L % 3) % 3 == 2 && decide (3 - L % 3 < L)) = false := by simp; omega
      have e1 : ((3 - L % 3 + 1) % 3 == 2 && decide (3 - L % 3 + 1 < L)) = true := by
        simp only [Bool.and_eq_true, beq_iff_eq, decide_eq_true_eq]; omega
      simp only [sepLoop, e0, e1]; rfl
    | [a, b, c], _, _ =>
      simp at hlen
      have e0 : ((3 - L % 3) % 3 == 2 && decide (3 - L % 3 < L)) = false := by simp; omega
      have e1 : ((3 - L % 3 + 1) % 3 == 2 && decide (3 - L % 3 + 1 < L)) = false := by simp; omega
      have e2 : ((3 - L % 3 + 1 + 1) % 3 == 2 && decide (3 - L % 3 + 1 + 1 < L)) = true := by
        simp only [Bool.and_eq_true, beq_iff_eq, decide_eq_true_eq]; omega
      simp only [sepLoop, e0, e1, e2]; rfl
  rw [hfirst]
  cases gs with
  | nil => exact absurd rfl hgne
  | cons g' gs' =>
    simp only [List.length_cons] at hlen
    rw [List.flatten_cons, sepLoop_groups L g' gs' h3 (3 - L % 3 + g.length) hcnt (by omega) (by omega)]
    simp

theorem utf8Len_ascii {c : Char} (h : isAsciiDigit c = true) : utf8Len c = 1 := by
  simp only [isAsciiDigit, Bool.and_eq_true, decide_eq_true_eq] at h
  simp only [utf8Len]; rw [if_pos (by omega)]

theorem sum_utf8Len_ascii {s : Str} (h : s.all isAsciiDigit = true) : (s.map utf8Len).sum = s.length := by
  induction s with
  | nil => rfl
  | cons c cs ih =>
    simp at h
    simp only [List.map_cons, List.sum_cons, List.length_cons]
    rw [utf8Len_ascii h.1, ih (by simpa using h.2)]; omega

theorem thousandSep_grouped {s : Str} (h : s.all isAsciiDigit = true) (hne : s ≠ []) :
    ThousandGrouped s (thousandSep s) := by
  have hnd := all_isNd_of_ascii h
  cases s with
  | nil => exact absurd rfl hne
  | cons c cs =>
    have hc : isNd c = true := by simp at hnd; exact hnd.1
    have e2 : (c :: cs).dropWhile (fun c => !isNd c) = c :: cs := List.dropWhile_cons_of_neg (by simp [hc])
    simp only [thousandSep, e2, takeWhile_all_true hnd, sum_utf8Len_ascii h]
    simp only [List.isEmpty_cons, Bool.false_eq_true, if_false]
    split
    · exact ⟨c :: cs, [], by simp, by simp, by omega, by simp, by simp⟩
    · exact sepLoop_grouped (c :: cs) (by omega)

/-! ## Digit runs -/

theorem digitRunsAux_split (acc s : Str) (ha : ∀ c ∈ acc, isNd c = true) (n : Str) (hn : ∀ c ∈ n, isNd c = false) :
    (acc = [] → RunSplit isNd (n ++ s) (digitRunsAux acc s)) ∧
    (acc ≠ [] → RunSplit isNd (n ++ acc ++ s) (digitRunsAux acc s)) := by
  induction s generalizing acc n with
  | nil =>
    refine ⟨fun h => ?_, fun h => ?_⟩
    · subst h; simp [digitRunsAux]; exact .none n hn
    · have : digitRunsAux acc [] = [acc] := by cases acc with
        | nil => exact absurd rfl h
        | cons => rfl
      rw [this]
      exact .run n acc [] [] hn h ha (by simp) (.none [] (by simp))
  | cons c cs ih =>
    by_cases hc : isNd c = true
    · have e : digitRunsAux acc (c :: cs) = digitRunsAux (acc ++ [c]) cs := by simp [digitRunsAux, hc]
      have := (ih (acc ++ [c]) (by intro x hx; rcases List.mem_append.mp hx with h | h
                                   · exact ha x h
                                   · simp at h; rw [h]; exact hc) n hn).2 (by simp)
      rw [e]
      refine ⟨fun h => by subst h; simpa using this, fun _ => by simpa using this⟩
    · have hc' : isNd c = false := by simpa using hc
      refine ⟨fun h => ?_, fun h => ?_⟩
      · subst h
        have e : digitRunsAux [] (c :: cs) = digitRunsAux [] cs := by simp [digitRunsAux, hc']
        have := (ih [] (by simp) (n ++ [c]) (by intro x hx; rcases List.mem_append.mp hx with h | h
                                                · exact hn x h
                                                · simp at h; rw [h]; exact hc')).1 rfl
        rw [e]; simpa using this
      · have e : digitRunsAux acc (c :: cs) = acc :: digitRunsAux [] cs := by
          cases acc with
          | nil => exact absurd rfl h
          | cons => simp [digitRunsAux, hc']
        rw [e]
        have := (ih [] (by simp) [c] (by simpa using hc')).1 rfl
        exact .run n acc (c :: cs) _ hn h ha (by simp [hc']) this

theorem digitRuns_split (s : Str) : RunSplit isNd s (digitRuns s) := by
  have := (digitRunsAux_split [] s (by simp) [] (by simp)).1 rfl
  rw [List.nil_append] at this; exact this

theorem hash_not_digit : isNd '#' = false := by decide

theorem replaceFirst_skip {n : Str} (hn : ∀ c ∈ n, isNd c = false) {r : Str} (hr : r ≠ []) (hrd : ∀ c ∈ r, isNd c = true)
    (rep s : Str) : replaceFirst r rep (n ++ r ++ s) = n ++ rep ++ s := by
  induction n with
  | nil =>
    cases r with
    | nil => exact absurd rfl hr
    | cons d ds =>
      have hp : List.isPrefixOf (d :: ds) ((d :: ds) ++ s) = true := by
        rw [List.isPrefixOf_iff_prefix]; exact List.prefix_append _ _
      simp only [List.nil_append, List.cons_append, replaceFirst] at hp ⊢
      rw [if_pos hp]; simp
  | cons c cs ih =>
    have hc := hn c (by simp)
    cases r with
    | nil => exact absurd rfl hr
    | cons d ds =>
      have hd := hrd d (by simp)
      have hcd : ¬ (d == c) = true := by
        simp; intro e; subst e; rw [hc] at hd; cases hd
      have hp : List.isPrefixOf (d :: ds) (c :: (cs ++ (d :: ds) ++ s)) = false := by
        simp [List.isPrefixOf]; intro e; subst e; rw [hc] at hd; cases hd
      have := ih (fun c hc => hn c (by simp [hc]))
      simp only [List.cons_append, replaceFirst] at hp this ⊢
      simp only [hp, Bool.false_eq_true, if_false, this]

theorem hashRuns_nodigit (n s : Str) (hn : ∀ c ∈ n, isNd c = false) (b : Bool) :
    hashRuns isNd b (n ++ s) = n ++ (if n = [] then hashRuns isNd b s else hashRuns isNd false s) := by
  induction n generalizing b with
  | nil => simp
  | cons c cs ih =>
    simp only [List.cons_append, hashRuns, hn c (by simp), Bool.false_eq_true, if_false]
    rw [ih (fun c hc => hn c (by simp [hc]))]
    split <;> simp

theorem hashRuns_true_digits (r s : Str) (hr : ∀ c ∈ r, isNd c = true) :
    hashRuns isNd true (r ++ s) = hashRuns isNd true s := by
  induction r with
  | nil => rfl
  | cons c cs ih =>
    simp only [List.cons_append, hashRuns, hr c (by simp), if_true]
    exact ih (fun c hc => hr c (by simp [hc]))

theorem hashRuns_run (r s : Str) (hr : ∀ c ∈ r, isNd c = true) (hne : r ≠ [])
    (hs : ∀ c, s.head? = some c → isNd c = false) :
    hashRuns isNd false (r ++ s) = '#' :: hashRuns isNd false s := by
  cases r with
  | nil => exact absurd rfl hne
  | cons c cs =>
    simp only [List.cons_append, hashRuns, hr c (by simp), if_true, Bool.false_eq_true, if_false]
    rw [hashRuns_true_digits cs s (fun c hc => hr c (by simp [hc]))]
    cases s with
    | nil => rfl
    | cons d ds =>
      have := hs d rfl
      simp only [hashRuns, this, Bool.false_eq_true, if_false]

theorem foldl_replace {s : Str} {runs : List Str} (h : RunSplit isNd s runs) (p : Str) (hp : ∀ c ∈ p, isNd c = false) :
    runs.foldl (fun k r => replaceFirst r ['#'] k) (p ++ s) = p ++ hashRuns isNd false s := by
  induction h generalizing p with
  | none n hn =>
    have := hashRuns_nodigit n [] hn false
    simp only [List.append_nil] at this
    simp only [List.foldl_nil, this]
    split <;> simp [hashRuns]
  | run n r s rs hn hr hrd hs _ ih =>
    simp only [List.foldl_cons]
    have hpn : ∀ c ∈ p ++ n, isNd c = false := by
      intro c hc; rcases List.mem_append.mp hc with h | h
      · exact hp c h
      · exact hn c h
    have e1 : replaceFirst r ['#'] (p ++ (n ++ r ++ s)) = (p ++ n ++ ['#']) ++ s := by
      have := replaceFirst_skip hpn hr hrd ['#'] s
      simpa [List.append_assoc] using this
    rw [e1, ih (p ++ n ++ ['#']) (by
      intro c hc; rcases List.mem_append.mp hc with h | h
      · exact hpn c h
      · simp at h; rw [h]; exact hash_not_digit)]
    have e2 : hashRuns isNd false (n ++ (r ++ s)) = n ++ '#' :: hashRuns isNd false s := by
      rw [hashRuns_nodigit n _ hn]
      split <;> rw [hashRuns_run r s hrd hr hs]
    rw [show n ++ r ++ s = n ++ (r ++ s) by simp, e2]
    simp

/-! ## Templates -/

/-- Text of a list of pieces. -/
def textOf (ps : List Piece) : Str := ps.flatMap Piece.text

/-- Marker digits of a template. -/
def marksOf : List Piece → List Char
  | [] => []
  | .lit _ :: ps => marksOf ps
  | .mark d :: ps => d :: marksOf ps

/-- A template whose only `#` are those of its markers. -/
def WellFormed (ps : List Piece) : Prop :=
  ∀ p ∈ ps, match p with
    | .lit c => c ≠ '#'
    | .mark d => isMarkerDigit d = true

theorem markers_lit {c : Char} (h : c ≠ '#') (s : Str) : markers (c :: s) = markers s := by
  match s with
  | [] => simp [markers, h]
  | d :: ds =>
    conv => lhs; unfold markers
    split
    · rename_i heq; cases heq; exact absurd rfl h
    · rename_i heq; cases heq; rfl
    · rename_i heq; cases heq

theorem markers_textOf {ps : List Piece} (h : WellFormed ps) : markers (textOf ps) = marksOf ps := by
  induction ps with
  | nil => rfl
  | cons p ps ih =>
    have ih' := ih (fun q hq => h q (by simp [hq]))
    have hp := h p (by simp)
    cases p with
    | lit c =>
      simp only at hp
      simp only [textOf, List.flatMap_cons, Piece.text, List.singleton_append] at ih' ⊢
      rw [markers_lit hp]; exact ih'
    | mark d =>
      simp only at hp
      simp only [textOf, List.flatMap_cons, Piece.text, List.cons_append, List.nil_append] at ih' ⊢
      simp only [markers, hp, if_true, marksOf, ih']

theorem replaceFirst_marker {p : Str} (hp : '#' ∉ p) (d : Char) (rep s : Str) :
    replaceFirst ['#', d] rep (p ++ '#' :: d :: s) = p ++ rep ++ s := by
  induction p with
  | nil => simp [replaceFirst, List.isPrefixOf]
  | cons c cs ih =>
    simp only [List.mem_cons, not_or] at hp
    simp only [List.cons_append, replaceFirst]
    rw [if_neg]
    · rw [ih hp.2]
    · simp [List.isPrefixOf, hp.1]

/-- Skip the literal prefix of a template. -/
def litPrefix : List Piece → Str
  | .lit c :: ps => c :: litPrefix ps
  | _ => []

/-- The rest after the literal prefix. -/
def afterLits : List Piece → List Piece
  | .lit _ :: ps => afterLits ps
  | ps => ps

theorem textOf_split (ps : List Piece) : textOf ps = litPrefix ps ++ textOf (afterLits ps) := by
  induction ps with
  | nil => rfl
  | cons p ps ih => cases p with
    | lit c => simp only [textOf, List.flatMap_cons, Piece.text, litPrefix, afterLits, List.cons_append] at ih ⊢; simp [ih]
    | mark d => simp [litPrefix, afterLits]

theorem marksOf_after (ps : List Piece) : marksOf ps = marksOf (afterLits ps) := by
  induction ps with
  | nil => rfl
  | cons p ps ih => cases p with
    | lit c => simpa [marksOf, afterLits] using ih
    | mark d => rfl

theorem fill_after (conv) (ps : List Piece) (ns : List Str) :
    fill conv ps ns = (fill conv (afterLits ps) ns).map (litPrefix ps ++ ·) := by
  induction ps with
  | nil => simp [afterLits, litPrefix]
  | cons p ps ih => cases p with
    | lit c => simp only [fill, afterLits, litPrefix, ih, List.map_map]; rfl
    | mark d => simp [afterLits, litPrefix]

theorem wf_after {ps : List Piece} (h : WellFormed ps) : WellFormed (afterLits ps) := by
  induction ps with
  | nil => exact h
  | cons p ps ih => cases p with
    | lit c => exact ih (fun q hq => h q (by simp [hq]))
    | mark d => exact h

theorem hash_litPrefix {ps : List Piece} (h : WellFormed ps) : '#' ∉ litPrefix ps := by
  induction ps with
  | nil => simp [litPrefix]
  | cons p ps ih => cases p with
    | lit c =>
      have hc := h (.lit c) (by simp)
      simp only at hc
      simp only [litPrefix, List.mem_cons, not_or]
      exact ⟨fun e => hc e.symm, ih (fun q hq => h q (by simp [hq]))⟩
    | mark d => simp [litPrefix]

theorem afterLits_length (ps : List Piece) : (afterLits ps).length ≤ ps.length := by
  induction ps with
  | nil => simp [afterLits]
  | cons p ps ih => cases p with
    | lit c => simp only [afterLits, List.length_cons]; omega
    | mark d => simp [afterLits]

theorem afterLits_not_lit (ps : List Piece) (c : Char) (qs : List Piece) : afterLits ps ≠ .lit c :: qs := by
  induction ps with
  | nil => simp [afterLits]
  | cons p ps ih => cases p with
    | lit c' => exact ih
    | mark d' => simp [afterLits]

/-- The loop over the markers of a well-formed template. `done` are the texts produced so far. -/
theorem replaceLoop_fill (lookup : Str → List Str) (conv : Char → Str → List Str)
    (hconv : ∀ d n t, t ∈ conv d n → '#' ∉ t) (n : Nat) (ps : List Piece) (hn : ps.length ≤ n) (hw : WellFormed ps)
    (ns : List Str) (hm : ∀ d ∈ marksOf ps, ∀ m ∈ ns, markerTexts lookup d m = .ok (conv d m))
    (done : List Str) (hd : ∀ t ∈ done, '#' ∉ t) :
    replaceLoop lookup (marksOf ps) ns (done.map (· ++ textOf ps)) =
      .ok (done.flatMap fun t => (fill conv ps ns).map (t ++ ·)) := by
  induction n generalizing ps ns done with
  | zero =>
    have : ps = [] := by cases ps with
      | nil => rfl
      | cons => simp at hn
    subst this
    simp only [marksOf, replaceLoop, fill, textOf, List.flatMap_nil, List.append_nil, List.map_cons, List.map_nil]
    rw [List.map_id', List.flatMap_singleton']
  | succ n ih =>
    -- move the literal prefix into `done`
    have hal := afterLits_length ps
    let done' := done.map (· ++ litPrefix ps)
    have e0 : done.map (· ++ textOf ps) = done'.map (· ++ textOf (afterLits ps)) := by
      simp only [done', List.map_map]
      apply List.map_congr_left
      intro t _; simp only [Function.comp_apply]
      rw [textOf_split ps, List.append_assoc]
    have e1 : (done.flatMap fun t => (fill conv ps ns).map (t ++ ·)) =
        done'.flatMap fun t => (fill conv (afterLits ps) ns).map (t ++ ·) := by
      simp only [done', List.flatMap_map]
      congr 1; funext t
      rw [fill_after]; simp [Function.comp_def]
    have hd' : ∀ t ∈ done', '#' ∉ t := by
      intro t ht
      simp only [done', List.mem_map] at ht
      obtain ⟨u, hu, rfl⟩ := ht
      simp only [List.mem_append, not_or]
      exact ⟨hd u hu, hash_litPrefix hw⟩
    rw [marksOf_after, e0, e1]
    have hm' : ∀ d ∈ marksOf (afterLits ps), ∀ m ∈ ns, markerTexts lookup d m = .ok (conv d m) := by
      rw [← marksOf_after]; exact hm
    have hw' := wf_after hw
    generalize hq : afterLits ps = qs at *
    cases qs with
    | nil =>
      simp only [marksOf, replaceLoop, fill, textOf, List.flatMap_nil, List.append_nil, List.map_cons, List.map_nil]
      rw [List.map_id', List.flatMap_singleton']
    | cons q qs =>
      cases q with
      | lit c =>
        -- impossible: after the literals comes no literal
        exact absurd hq (afterLits_not_lit ps c qs)
      | mark d =>
        cases ns with
        | nil =>
          have e : marksOf (.mark d :: qs) = d :: marksOf qs := rfl
          simp only [e, replaceLoop]
          congr 1
          -- nothing is replaced
          have hfill : ∀ ps : List Piece, fill conv ps [] = [textOf ps] := by
            intro ps
            induction ps with
            | nil => rfl
            | cons p ps ih => cases p <;> simp [fill, ih, textOf, Piece.text]
          rw [hfill]
          simp only [List.map_cons, List.map_nil]
          exact List.map_eq_flatMap
        | cons m ms =>
          have e : marksOf (.mark d :: qs) = d :: marksOf qs := rfl
          rw [e] at hm' ⊢
          simp only [replaceLoop]
          have hmt := hm' d (by simp) m (by simp)
          have hqlen : qs.length ≤ n := by simp at hal; omega
          have hwq : WellFormed qs := fun q hq => hw' q (by simp [hq])
          have hmq : ∀ d ∈ marksOf qs, ∀ m ∈ ms, markerTexts lookup d m = .ok (conv d m) :=
            fun d' hd' m' hm'' => hm' d' (by simp [hd']) m' (by simp [hm''])
          split
          · rename_i hemp
            have hdone : done' = [] := by simpa using hemp
            have := ih qs hqlen hwq ms hmq [] (by simp)
            simp only [List.map_nil, List.flatMap_nil] at this
            rw [this, hdone]; rfl
          · rw [hmt]
            simp only [bind, Except.bind]
            let done2 := done'.flatMap fun t => (conv d m).map fun r => t ++ r
            have e2 : (List.map (fun x => x ++ textOf (.mark d :: qs)) done').flatMap
                (fun t => (conv d m).map fun r => replaceFirst ['#', d] r t) = done2.map (· ++ textOf qs) := by
              simp only [done2, List.flatMap_map, List.map_flatMap]
              apply List.flatMap_congr'
              intro t ht
              rw [List.map_map]
              apply List.map_congr_left
              intro r _
              have : t ++ textOf (.mark d :: qs) = t ++ '#' :: d :: textOf qs := by
                simp [textOf, Piece.text]
              rw [this, replaceFirst_marker (hd' t ht)]; rfl
            rw [e2]
            rw [ih qs hqlen hwq ms hmq done2 (by
              intro t ht
              simp only [done2, List.mem_flatMap, List.mem_map] at ht
              obtain ⟨u, hu, r, hr, rfl⟩ := ht
              simp only [List.mem_append, not_or]
              exact ⟨hd' u hu, hconv d m r hr⟩)]
            congr 1
            simp only [done2, fill, List.flatMap_assoc, List.map_flatMap, List.flatMap_map, List.map_map]
            apply List.flatMap_congr'
            intro t _
            apply List.flatMap_congr'
            intro r _
            apply List.map_congr_left
            intro u _; simp

end Cskk.Numeric
