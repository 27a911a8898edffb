import Verif.Model.LispFun

/-! # Lemmas about `(concat "…")` escaping -/

namespace Cskk.LispFun

/-- The two characters with a meaning in a dictionary line. -/
def isSpecial (c : Char) : Bool := c == '/' || c == ';'

/-- Escape of one character. -/
def esc1 (c : Char) : Str :=
  if c = '/' then c%"\\057" else if c = ';' then c%"\\073" else if c = '"' then c%"\\\"" else [c]

theorem escape_special (w : Str) (h : (w.contains ';' || w.contains '/') = true) :
    escape w = c%"(concat \"" ++ w.flatMap esc1 ++ c%"\")" := by
  unfold escape
  rw [if_pos h]
  have : ∀ l : Str, replaceChar '"' c%"\\\"" (replaceChar ';' c%"\\073" (replaceChar '/' c%"\\057" l)) = l.flatMap esc1 := by
    intro l
    induction l with
    | nil => rfl
    | cons c l ih =>
      simp only [replaceChar, List.flatMap_cons, List.flatMap_append] at ih ⊢
      rw [ih]
      congr 1
      unfold esc1
      by_cases h1 : c = '/'
      · subst h1; decide
      · by_cases h2 : c = ';'
        · subst h2; decide
        · by_cases h3 : c = '"'
          · subst h3; decide
          · simp [h1, h2, h3]
  simp only [this]

/-- Result after the octal replacement: quotes stay escaped unless their backslash was swallowed by the octal match. -/
def midB (afterSpecial : Bool) : Str → Str
  | [] => []
  | c :: cs =>
    if isSpecial c then c :: midB true cs
    else if c = '"' then (if afterSpecial then ['"'] else ['\\', '"']) ++ midB false cs
    else c :: midB false cs

/-- `midB` at the start of a text. -/
abbrev mid (s : Str) : Str := midB false s

theorem mid_special_quote (c : Char) (cs : Str) (hs : isSpecial c = true) :
    mid (c :: '"' :: cs) = c :: '"' :: mid cs := by
  have : isSpecial '"' = false := by decide
  simp [midB, hs, this]

theorem mid_special (c : Char) (cs : Str) (hs : isSpecial c = true) (hq : ¬ ∃ cs', cs = '"' :: cs') :
    mid (c :: cs) = c :: mid cs := by
  simp only [mid, midB, hs, if_true]
  cases cs with
  | nil => rfl
  | cons d cs =>
    have : d ≠ '"' := fun e => hq ⟨cs, by rw [e]⟩
    simp [midB, this]

theorem mid_quote (cs : Str) : mid ('"' :: cs) = '\\' :: '"' :: mid cs := by
  have : isSpecial '"' = false := by decide
  simp [midB, this]

theorem mid_plain (c : Char) (cs : Str) (hs : isSpecial c = false) (hq : c ≠ '"') : mid (c :: cs) = c :: mid cs := by
  simp [midB, hs, hq]

/-- No two specials in a row. -/
def noAdjacent : Str → Bool
  | a :: b :: cs => !(isSpecial a && isSpecial b) && noAdjacent (b :: cs)
  | _ => true

theorem noAdjacent_tail {a : Char} {cs : Str} (h : noAdjacent (a :: cs) = true) : noAdjacent cs = true := by
  cases cs with
  | nil => rfl
  | cons b cs => simp [noAdjacent] at h; exact h.2

/-- A text in which no backslash is followed by an octal digit and which does not end with a backslash. -/
def Quiet : Str → Prop
  | [] => True
  | c :: cs => (c = '\\' → ∃ d ds, cs = d :: ds ∧ isOctal d = false) ∧ Quiet cs

theorem quiet_append {a b : Str} (ha : Quiet a) (hb : Quiet b) : Quiet (a ++ b) := by
  induction a with
  | nil => exact hb
  | cons c cs ih =>
    refine ⟨?_, ih ha.2⟩
    intro h
    obtain ⟨d, ds, e, ho⟩ := ha.1 h
    exact ⟨d, ds ++ b, by simp [e], ho⟩

theorem replaceFirst_quiet (d : Char) (om rep pre rest : Str) (hd : isOctal d = true) (hq : Quiet pre) :
    replaceFirst ('\\' :: d :: om) rep (pre ++ ('\\' :: d :: om) ++ rest) = pre ++ rep ++ rest := by
  induction pre with
  | nil =>
    simp only [List.nil_append, List.cons_append, replaceFirst]
    rw [if_pos (by simp [List.isPrefixOf])]
    simp
  | cons c cs ih =>
    simp only [List.cons_append, replaceFirst]
    rw [if_neg]
    · have := ih hq.2
      simp only [List.append_assoc, List.cons_append] at this ⊢
      rw [this]
    · intro hp
      rw [List.isPrefixOf_iff_prefix] at hp
      obtain ⟨t, ht⟩ := hp
      simp at ht
      obtain ⟨d', ds, e, ho⟩ := hq.1 ht.1.symm
      have := ht.2; rw [e] at this; simp at this
      rw [← this.1, hd] at ho; cases ho

theorem octalMatches_skip (l rest : Str) : octalMatches l.length (l ++ rest) = octalMatches 0 rest := by
  induction l with
  | nil => rfl
  | cons c l ih => simpa [octalMatches] using ih

theorem octalMatches_plain (c : Char) (cs : Str) (h : c ≠ '\\') : octalMatches 0 (c :: cs) = octalMatches 0 cs := by
  have : octalMatchLen (c :: cs) = none := by
    unfold octalMatchLen; split
    · rename_i h'; simp at h'; exact absurd h'.1 h
    · rfl
  simp [octalMatches, this]

theorem octalMatches_quote (c : Char) (cs : Str) (h : isOctal c = false) :
    octalMatches 0 ('\\' :: c :: cs) = octalMatches 0 (c :: cs) := by
  have : octalMatchLen ('\\' :: c :: cs) = none := by simp [octalMatchLen, h]
  rw [octalMatches, this]

theorem octal_match3 (a b d : Char) (rest : Str) (h1 : isOctal a = true) (h2 : isOctal b = true) (h3 : isOctal d = true)
    (hr : rest.head? ≠ some '\\') :
    octalMatches 0 ('\\' :: a :: b :: d :: rest) = ['\\', a, b, d] :: octalMatches 0 rest := by
  have : octalMatchLen ('\\' :: a :: b :: d :: rest) = some 4 := by
    simp only [octalMatchLen, List.take_succ_cons, List.take_zero]
    simp only [List.takeWhile_cons, h1, h2, h3, if_true, List.takeWhile_nil]
    cases rest with
    | nil => simp
    | cons r rs => simp at hr; simp [hr]
  rw [octalMatches, this]
  simp only [List.take_succ_cons, List.take_zero]
  refine congrArg _ ?_
  exact octalMatches_skip [a, b, d] rest

theorem octal_match3' (a b d : Char) (rest : Str) (h1 : isOctal a = true) (h2 : isOctal b = true) (h3 : isOctal d = true) :
    octalMatches 0 ('\\' :: a :: b :: d :: '\\' :: rest) = ['\\', a, b, d, '\\'] :: octalMatches 0 rest := by
  have : octalMatchLen ('\\' :: a :: b :: d :: '\\' :: rest) = some 5 := by
    simp only [octalMatchLen, List.take_succ_cons, List.take_zero]
    simp only [List.takeWhile_cons, h1, h2, h3, if_true, List.takeWhile_nil]
    simp
  rw [octalMatches, this]
  simp only [List.take_succ_cons, List.take_zero]
  refine congrArg _ ?_
  exact octalMatches_skip [a, b, d, '\\'] rest

theorem isSpecial_iff {c : Char} : isSpecial c = true ↔ c = '/' ∨ c = ';' := by simp [isSpecial]

theorem esc1_special {c : Char} (h : isSpecial c = true) :
    ∃ a b d, esc1 c = ['\\', a, b, d] ∧ isOctal a = true ∧ isOctal b = true ∧ isOctal d = true ∧
      octalChar ['\\', a, b, d] = c ∧ octalChar ['\\', a, b, d, '\\'] = c := by
  rcases isSpecial_iff.mp h with rfl | rfl
  · exact ⟨'0', '5', '7', by decide, by decide, by decide, by decide, by decide, by decide⟩
  · exact ⟨'0', '7', '3', by decide, by decide, by decide, by decide, by decide, by decide⟩

theorem esc1_plain {c : Char} (h : isSpecial c = false) (h' : c ≠ '"') : esc1 c = [c] := by
  have : c ≠ '/' ∧ c ≠ ';' := by
    constructor <;> (intro e; subst e; exact absurd h (by decide))
  simp [esc1, this, h']

/-- The head of an escaped text is a backslash only if the text starts with a special or a quote. -/
theorem esc_head (cs : Str) (hb : '\\' ∉ cs) (h : (cs.flatMap esc1).head? = some '\\') :
    ∃ c t, cs = c :: t ∧ (isSpecial c = true ∨ c = '"') := by
  cases cs with
  | nil => simp at h
  | cons c t =>
    refine ⟨c, t, rfl, ?_⟩
    by_cases hs : isSpecial c = true
    · exact .inl hs
    · by_cases hq : c = '"'
      · exact .inr hq
      · rw [List.flatMap_cons, esc1_plain (by simpa using hs) hq] at h
        simp at h; subst h; simp at hb

theorem quiet_single {c : Char} (h : c ≠ '\\') : Quiet [c] := ⟨fun e => absurd e h, trivial⟩

theorem special_ne_bs {c : Char} (h : isSpecial c = true) : c ≠ '\\' := by
  intro e; subst e; exact absurd h (by decide)

theorem octal_fold (n : Nat) (w pre : Str) (hn : w.length ≤ n) (hb : '\\' ∉ w) (ha : noAdjacent w = true)
    (hq : Quiet pre) :
    (octalMatches 0 (w.flatMap esc1)).foldl (fun s om => replaceFirst om [octalChar om] s) (pre ++ w.flatMap esc1)
      = pre ++ mid w := by
  induction n generalizing w pre with
  | zero =>
    have : w = [] := List.length_eq_zero_iff.mp (by omega)
    subst this; simp [octalMatches, midB]
  | succ n ih =>
    cases w with
    | nil => simp [octalMatches, midB]
    | cons c cs =>
      simp only [List.mem_cons, not_or] at hb
      have hbs : '\\' ∉ cs := hb.2
      have hac := noAdjacent_tail ha
      have hlen : cs.length ≤ n := by simp at hn; omega
      rw [List.flatMap_cons]
      by_cases hs : isSpecial c = true
      · obtain ⟨a, b, d, he, o1, o2, o3, v1, v2⟩ := esc1_special hs
        rw [he]
        by_cases hcs : ∃ cs', cs = '"' :: cs'
        · obtain ⟨cs', rfl⟩ := hcs
          have hesc : (('"' :: cs').flatMap esc1) = '\\' :: '"' :: cs'.flatMap esc1 := by
            rw [List.flatMap_cons]; rfl
          rw [hesc]
          simp only [List.cons_append, List.nil_append]
          rw [octal_match3' a b d _ o1 o2 o3, octalMatches_plain _ _ (by decide), List.foldl_cons]
          have hr := replaceFirst_quiet a [b, d, '\\'] [octalChar ['\\', a, b, d, '\\']] pre
            ('"' :: cs'.flatMap esc1) o1 hq
          simp only [List.append_assoc, List.cons_append, List.nil_append] at hr
          rw [hr, v2]
          have hmid := mid_special_quote c cs' hs
          rw [hmid]
          have h2 : Quiet (pre ++ [c, '"']) :=
            quiet_append hq ⟨fun e => absurd e (special_ne_bs hs), quiet_single (by decide)⟩
          have := ih cs' (pre ++ [c, '"']) (by simp at hlen; omega)
            (fun h => hbs (by simp [h])) (noAdjacent_tail hac) h2
          simpa using this
        · have hhead : (cs.flatMap esc1).head? ≠ some '\\' := by
            intro h
            obtain ⟨c', t, e, h'⟩ := esc_head cs hbs h
            rcases h' with h' | h'
            · subst e; simp [noAdjacent, hs, h'] at ha
            · exact hcs ⟨t, by rw [e, h']⟩
          simp only [List.cons_append, List.nil_append]
          rw [octal_match3 a b d _ o1 o2 o3 hhead, List.foldl_cons]
          have hr := replaceFirst_quiet a [b, d] [octalChar ['\\', a, b, d]] pre (cs.flatMap esc1) o1 hq
          simp only [List.append_assoc, List.cons_append, List.nil_append] at hr
          rw [hr, v1]
          have hmid := mid_special c cs hs hcs
          rw [hmid]
          have := ih cs (pre ++ [c]) hlen hbs hac (quiet_append hq (quiet_single (special_ne_bs hs)))
          simpa using this
      · have hs' : isSpecial c = false := by simpa using hs
        by_cases hqt : c = '"'
        · subst hqt
          have he : esc1 '"' = ['\\', '"'] := by decide
          have hmid := mid_quote cs
          rw [he, hmid]
          simp only [List.cons_append, List.nil_append]
          rw [octalMatches_quote _ _ (by decide), octalMatches_plain _ _ (by decide)]
          have h2 : Quiet (pre ++ ['\\', '"']) :=
            quiet_append hq ⟨fun _ => ⟨'"', [], rfl, by decide⟩, quiet_single (by decide)⟩
          have := ih cs (pre ++ ['\\', '"']) hlen hbs hac h2
          simpa using this
        · rw [esc1_plain hs' hqt]
          have hmid := mid_plain c cs hs' hqt
          rw [hmid]
          simp only [List.cons_append, List.nil_append]
          rw [octalMatches_plain _ _ (Ne.symm hb.1)]
          have := ih cs (pre ++ [c]) hlen hbs hac (quiet_append hq (quiet_single (Ne.symm hb.1)))
          simpa using this

theorem unescape_plain (c : Char) (cs : Str) (h : c ≠ '\\') : unescape (c :: cs) = c :: unescape cs := by
  rw [unescape.eq_2]
  intro c' cs' h'; exact absurd h' h

theorem unescape_quote (cs : Str) : unescape ('\\' :: '"' :: cs) = '"' :: unescape cs := by
  rw [unescape.eq_1]; simp [isOctal]

theorem unescape_mid (n : Nat) (w : Str) (hn : w.length ≤ n) (hb : '\\' ∉ w) : unescape (mid w) = w := by
  induction n generalizing w with
  | zero =>
    have : w = [] := List.length_eq_zero_iff.mp (by omega)
    subst this; simp [midB, unescape]
  | succ n ih =>
    cases w with
    | nil => simp [midB, unescape]
    | cons c cs =>
      simp only [List.mem_cons, not_or] at hb
      have hlen : cs.length ≤ n := by simp at hn; omega
      have hi := ih cs hlen hb.2
      by_cases hs : isSpecial c = true
      · by_cases hcs : ∃ cs', cs = '"' :: cs'
        · obtain ⟨cs', rfl⟩ := hcs
          have hmid := mid_special_quote c cs' hs
          rw [hmid, unescape_plain _ _ (special_ne_bs hs), unescape_plain _ _ (by decide)]
          rw [ih cs' (by simp at hlen; omega) (fun h => hb.2 (by simp [h]))]
        · have hmid := mid_special c cs hs hcs
          rw [hmid, unescape_plain _ _ (special_ne_bs hs), hi]
      · have hs' : isSpecial c = false := by simpa using hs
        by_cases hqt : c = '"'
        · subst hqt
          have hmid := mid_quote cs
          rw [hmid, unescape_quote, hi]
        · have hmid := mid_plain c cs hs' hqt
          rw [hmid, unescape_plain _ _ (Ne.symm hb.1), hi]

theorem takeWhile_all {p : Char → Bool} {l : Str} (h : ∀ c ∈ l, p c = true) : l.takeWhile p = l := by
  induction l with
  | nil => rfl
  | cons a l ih => rw [List.takeWhile_cons, if_pos (h a (by simp)), ih fun c hc => h c (by simp [hc])]

theorem concatMatches_skip (l rest : Str) : concatMatches l.length (l ++ rest) = concatMatches 0 rest := by
  induction l with
  | nil => rfl
  | cons c l ih => simpa [concatMatches] using ih

theorem concatMatches_whole (body : Str) (hn : '\n' ∉ body) :
    concatMatches 0 (c%"(concat \"" ++ body ++ c%"\")") = [c%"(concat \"" ++ body ++ c%"\")"] := by
  have hd : (c%"(concat \"" ++ body ++ c%"\")").drop 8 = '"' :: (body ++ c%"\")") := by simp
  have hl : lineOf ('"' :: (body ++ c%"\")")) = '"' :: (body ++ c%"\")") := by
    apply takeWhile_all
    intro c hc
    simp at hc
    rcases hc with rfl | hc | rfl | rfl
    · decide
    · have : c ≠ '\n' := by intro e; subst e; exact hn hc
      simpa using this
    · decide
    · decide
  have hlen : concatMatchLen (c%"(concat \"" ++ body ++ c%"\")") = some (body.length + 11) := by
    unfold concatMatchLen
    rw [if_pos (by simp [List.isPrefixOf]), hd, hl, afterLastParen]
    simp; omega
  have htake : (c%"(concat \"" ++ body ++ c%"\")").take (body.length + 11) = c%"(concat \"" ++ body ++ c%"\")" := by
    rw [List.take_of_length_le]; simp
  have hcons : c%"(concat \"" ++ body ++ c%"\")" = '(' :: (c%"concat \"" ++ body ++ c%"\")") := by simp
  rw [hcons] at hlen htake ⊢
  rw [concatMatches, hlen]
  simp only [htake]
  congr 1
  have := concatMatches_skip (c%"concat \"" ++ body ++ c%"\")") []
  have hl2 : (c%"concat \"" ++ body ++ c%"\")").length = body.length + 11 - 1 := by simp
  rw [hl2, List.append_nil] at this
  rw [this, concatMatches]

theorem concatBody_whole (body : Str) : concatBody (c%"(concat \"" ++ body ++ c%"\")") = body := by
  simp only [concatBody]
  have h1 : trimStartStr c%"(concat" (c%"(concat \"" ++ body ++ c%"\")").length (c%"(concat \"" ++ body ++ c%"\")")
      = c%" \"" ++ body ++ c%"\")" := by
    have : (c%"(concat \"" ++ body ++ c%"\")").length = (body.length + 9) + 1 + 1 := by simp
    rw [this, trimStartStr, if_pos (by simp [List.isPrefixOf]), trimStartStr, if_neg (by simp [List.isPrefixOf])]
    simp
  rw [h1]
  have h2 : (c%" \"" ++ body ++ c%"\")").dropWhile (· == ' ') = c%"\"" ++ body ++ c%"\")" := by
    simp [List.dropWhile_cons]
  rw [h2]
  have h3 : trimEndChar ')' (c%"\"" ++ body ++ c%"\")") = c%"\"" ++ body ++ c%"\"" := by
    simp [trimEndChar, List.dropWhile_cons]
  have h4 : trimEndChar ' ' (c%"\"" ++ body ++ c%"\"") = c%"\"" ++ body ++ c%"\"" := by
    simp [trimEndChar, List.dropWhile_cons]
  rw [h3, h4]
  have h5 : stripQuoteStart (c%"\"" ++ body ++ c%"\"") = body ++ c%"\"" := rfl
  rw [h5, stripQuoteEnd, if_pos (by simp)]
  simp

theorem replaceFirst_self (s rep : Str) (h : s ≠ []) : replaceFirst s rep s = rep := by
  cases s with
  | nil => exact absurd rfl h
  | cons c cs =>
    rw [replaceFirst, if_pos (by simp)]
    simp

theorem process_escape_special (w : Str) (hsp : (w.contains ';' || w.contains '/') = true) (hb : '\\' ∉ w)
    (hn : '\n' ∉ w) (ha : noAdjacent w = true) : process (escape w) = w := by
  rw [escape_special w hsp]
  have hn' : '\n' ∉ w.flatMap esc1 := by
    intro h
    rw [List.mem_flatMap] at h
    obtain ⟨c, hc, h⟩ := h
    unfold esc1 at h
    split at h
    · simp at h
    · split at h
      · simp at h
      · split at h
        · simp at h
        · simp at h; subst h; exact hn hc
  unfold process
  rw [concatMatches_whole _ hn']
  have hne : w.flatMap esc1 ≠ [] := by
    cases w with
    | nil => simp at hsp
    | cons c cs =>
      rw [List.flatMap_cons]; unfold esc1
      split
      · simp
      · split
        · simp
        · split <;> simp
  have hrep : concatReplacement (c%"(concat \"" ++ w.flatMap esc1 ++ c%"\")") = some w := by
    unfold concatReplacement
    rw [concatBody_whole]
    simp only [List.isEmpty_iff, hne, if_false]
    have := octal_fold w.length w [] (Nat.le_refl _) hb ha trivial
    simp only [List.nil_append] at this
    rw [this, unescape_mid w.length w (Nat.le_refl _) hb]
  simp only [List.mapM_cons, List.mapM_nil, hrep]
  simp only [Option.pure_def, Option.bind_eq_bind, Option.bind_some, List.zip_cons_cons, List.zip_nil_right,
    List.foldl_cons, List.foldl_nil]
  exact replaceFirst_self _ _ (by simp)

/-- `pat` occurs in `s`. -/
def occurs (pat : Str) : Str → Bool
  | [] => pat.isEmpty
  | c :: cs => pat.isPrefixOf (c :: cs) || occurs pat cs

theorem concatMatches_none (s : Str) (h : occurs c%"(concat " s = false) : concatMatches 0 s = [] := by
  induction s with
  | nil => rfl
  | cons c cs ih =>
    rw [occurs, Bool.or_eq_false_iff] at h
    rw [concatMatches]
    have : concatMatchLen (c :: cs) = none := by
      unfold concatMatchLen; rw [if_neg (by simp [h.1])]
    rw [this]
    exact ih h.2

theorem process_plain (s : Str) (h : occurs c%"(concat " s = false) : process s = s := by
  unfold process
  rw [concatMatches_none s h]
  rfl

end Cskk.LispFun
