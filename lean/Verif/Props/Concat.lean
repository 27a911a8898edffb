import Verif.Spec.Concat
import Verif.Lemmas.LispFun
import Verif.Props.DictGrammar

/-!
# C77: words written as `(concat "…")`
-/

namespace Cskk.Props.Concat

open Spec Spec.Concat LispFun

theorem digit_octal (d : Fin 8) : LispFun.isOctal (digit d) = true ∧ (digit d).toNat - 48 = d.val := by
  revert d; decide

theorem starts_iff (c : Char) : (Piece.plain c).startsDigit = LispFun.isOctal c := by
  rw [Bool.eq_iff_iff]
  unfold Piece.startsDigit
  rw [List.any_eq_true]
  constructor
  · rintro ⟨d, _, hd⟩
    rw [of_decide_eq_true hd]
    exact (digit_octal d).1
  · intro h
    unfold LispFun.isOctal at h
    simp only [Bool.and_eq_true, decide_eq_true_eq] at h
    have h1 : 48 ≤ c.toNat := h.1
    have h2 : c.toNat ≤ 55 := h.2
    refine ⟨⟨c.toNat - 48, by omega⟩, List.mem_finRange _, ?_⟩
    apply decide_eq_true
    unfold digit
    dsimp only
    rw [show 48 + (c.toNat - 48) = c.toNat by omega]
    exact (Char.ofNat_toNat c).symm

/-- The digits of a match. -/
theorem digits_octal (ds : List (Fin 8)) : ∀ c ∈ ds.map digit, LispFun.isOctal c = true := by
  intro c hc
  obtain ⟨d, _, rfl⟩ := List.mem_map.mp hc
  exact (digit_octal d).1

theorem fold_number (ds : List (Fin 8)) : ∀ n : Nat, (ds.map digit).foldl (fun a c => a * 8 + (c.toNat - 48)) n = ds.foldl (fun n d => n * 8 + d.val) n := by
  induction ds with
  | nil => intro n; rfl
  | cons d ds ih =>
    intro n
    simp only [List.map_cons, List.foldl_cons, (digit_octal d).2]
    exact ih _

theorem octal_value (ds : List (Fin 8)) (closed : Bool) : octalChar ('\\' :: ds.map digit) = (Piece.octal ds closed).value ∧
    octalChar ('\\' :: ds.map digit ++ ['\\']) = (Piece.octal ds closed).value := by
  have hf : (ds.map digit).filter LispFun.isOctal = ds.map digit := List.filter_eq_self.mpr (digits_octal ds)
  have hb : LispFun.isOctal '\\' = false := by decide
  constructor
  · unfold octalChar
    rw [List.filter_cons_of_neg (by rw [hb]; simp), hf, fold_number]
    rfl
  · unfold octalChar
    rw [List.filter_append, List.filter_cons_of_neg (by rw [hb]; simp), hf, show ['\\'].filter LispFun.isOctal = [] from rfl, List.append_nil, fold_number]
    rfl

/-- Where a match ends. -/
theorem match_len (ds : List (Fin 8)) (rest : Str) (h1 : 1 ≤ ds.length) (h3 : ds.length ≤ 3)
    (hr : ds.length = 3 ∨ ∀ c, rest.head? = some c → LispFun.isOctal c = false) :
    octalMatchLen ('\\' :: (ds.map digit ++ rest)) = some (if rest.head? = some '\\' then 1 + ds.length + 1 else 1 + ds.length) := by
  have htake : ((ds.map digit ++ rest).take 3).takeWhile LispFun.isOctal = ds.map digit := by
    rw [List.take_append, List.take_of_length_le (by simpa using h3), List.takeWhile_append_of_pos (digits_octal ds)]
    have : ((rest.take (3 - (ds.map digit).length)).takeWhile LispFun.isOctal) = [] := by
      rcases hr with hr | hr
      · simp [hr]
      · cases rest with
        | nil => simp
        | cons r rs =>
          have := hr r rfl
          cases h : 3 - (ds.map digit).length with
          | zero => rfl
          | succ n => simp [this]
    rw [this, List.append_nil]
  simp only [octalMatchLen]
  rw [htake, if_neg (by cases ds with
    | nil => simp at h1
    | cons d ds => simp), List.drop_left]
  cases rest with
  | nil => simp
  | cons r rs =>
    by_cases hb : r = '\\'
    · subst hb; simp
    · simp [hb]

theorem match_octal (ds : List (Fin 8)) (rest : Str) (h1 : 1 ≤ ds.length) (h3 : ds.length ≤ 3)
    (hr : ds.length = 3 ∨ ∀ c, rest.head? = some c → LispFun.isOctal c = false) (hb : rest.head? ≠ some '\\') :
    octalMatches 0 ('\\' :: (ds.map digit ++ rest)) = ('\\' :: ds.map digit) :: octalMatches 0 rest := by
  have h := match_len ds rest h1 h3 hr
  rw [if_neg hb] at h
  rw [octalMatches, h]
  dsimp only
  rw [show 1 + ds.length - 1 = (ds.map digit).length by simp, octalMatches_skip, Nat.add_comm, List.take_succ_cons,
    show ds.length = (ds.map digit).length by simp, List.take_left]

theorem match_closed (ds : List (Fin 8)) (rest : Str) (h1 : 1 ≤ ds.length) (h3 : ds.length ≤ 3) :
    octalMatches 0 ('\\' :: (ds.map digit ++ '\\' :: rest)) = ('\\' :: ds.map digit ++ ['\\']) :: octalMatches 0 rest := by
  have h := match_len ds ('\\' :: rest) h1 h3 (.inr (by intro c hc; injection hc with hc; subst hc; decide))
  rw [if_pos (show ('\\' :: rest).head? = some '\\' from rfl)] at h
  rw [octalMatches, h]
  dsimp only
  have he : ds.map digit ++ '\\' :: rest = (ds.map digit ++ ['\\']) ++ rest := by simp
  rw [he, show 1 + ds.length + 1 - 1 = (ds.map digit ++ ['\\']).length by simp; omega, octalMatches_skip,
    show 1 + ds.length + 1 = (ds.map digit ++ ['\\']).length + 1 by simp; omega, List.take_succ_cons, List.take_left]
  rfl

/-- After the octal numbers have been replaced: a backslash after a number is gone with it. -/
def half : Bool → List Piece → Str
  | _, [] => []
  | _, .plain c :: r => c :: half false r
  | after, .quoted c :: r => (if after then [c] else ['\\', c]) ++ half false r
  | _, .octal ds closed :: r => (Piece.octal ds closed).value :: half (!closed) r

theorem quiet_one {c : Char} (h : c ≠ '\\') : Quiet [c] := quiet_single h

/-- Octal numbers are replaced one after the other. -/
theorem numbers_replaced (n : Nat) : ∀ (ps : List Piece) (pre : Str), ps.length ≤ n → clear ps = true → Quiet pre →
    (octalMatches 0 (written ps)).foldl (fun s om => replaceFirst om [octalChar om] s) (pre ++ written ps) = pre ++ half false ps := by
  induction n with
  | zero =>
    intro ps pre hn hc hq
    have : ps = [] := List.length_eq_zero_iff.mp (by omega)
    subst this; simp [written, octalMatches, half]
  | succ n ih =>
    intro ps pre hn hc hq
    cases ps with
    | nil => simp [written, octalMatches, half]
    | cons p r =>
      have hlen : r.length ≤ n := by simp at hn; omega
      have hw : written (p :: r) = p.text ++ written r := by simp [written]
      cases p with
      | plain c =>
        unfold clear at hc
        simp only [Bool.and_eq_true, decide_eq_true_eq] at hc
        rw [hw]
        show (octalMatches 0 (c :: written r)).foldl _ (pre ++ c :: written r) = _
        rw [octalMatches_plain _ _ hc.1]
        have := ih r (pre ++ [c]) hlen hc.2 (quiet_append hq (quiet_one hc.1))
        simpa [half] using this
      | quoted c =>
        unfold clear at hc
        simp only [Bool.and_eq_true, decide_eq_true_eq, Bool.not_eq_true', starts_iff] at hc
        obtain ⟨⟨h1, h2⟩, h3⟩ := hc
        rw [hw]
        show (octalMatches 0 ('\\' :: c :: written r)).foldl _ (pre ++ '\\' :: c :: written r) = _
        rw [octalMatches_quote _ _ h2, octalMatches_plain _ _ h1]
        have := ih r (pre ++ ['\\', c]) hlen h3 (quiet_append hq ⟨fun _ => ⟨c, [], rfl, h2⟩, quiet_one h1⟩)
        simpa [half] using this
      | octal ds closed =>
        unfold clear at hc
        simp only [Bool.and_eq_true, decide_eq_true_eq, Bool.or_eq_true, Bool.not_eq_true'] at hc
        obtain ⟨⟨⟨⟨d1, d3⟩, hv⟩, hnext⟩, hr⟩ := hc
        obtain ⟨d, ds', hds⟩ : ∃ d ds', ds = d :: ds' := by
          cases ds with
          | nil => simp at d1
          | cons d ds' => exact ⟨d, ds', rfl⟩
        have hd := (digit_octal d).1
        -- one match `m`, with the text after it
        have one : ∀ (m rest : Str), m = '\\' :: ds.map digit ∨ m = '\\' :: ds.map digit ++ ['\\'] →
            replaceFirst m [octalChar m] (pre ++ (m ++ rest)) = pre ++ (Piece.octal ds closed).value :: rest := by
          intro m rest hm
          have hval : octalChar m = (Piece.octal ds closed).value := by
            rcases hm with rfl | rfl
            · exact (octal_value ds closed).1
            · exact (octal_value ds closed).2
          obtain ⟨t, ht⟩ : ∃ t, m = '\\' :: digit d :: t := by
            rcases hm with rfl | rfl <;> rw [hds] <;> exact ⟨_, rfl⟩
          rw [hval, ht]
          have := replaceFirst_quiet (digit d) t [(Piece.octal ds closed).value] pre rest hd hq
          simpa using this
        have hq' : Quiet (pre ++ [(Piece.octal ds closed).value]) := quiet_append hq (quiet_one hv)
        cases closed with
        | true =>
          rw [hw]
          have htext : (Piece.octal ds true).text ++ written r = '\\' :: (ds.map digit ++ '\\' :: written r) := by simp [Piece.text]
          rw [htext, match_closed ds _ d1 d3, List.foldl_cons]
          have h2 := one ('\\' :: ds.map digit ++ ['\\']) (written r) (.inr rfl)
          rw [show ('\\' :: ds.map digit ++ ['\\']) ++ written r = '\\' :: (ds.map digit ++ '\\' :: written r) by simp] at h2
          rw [h2]
          have := ih r (pre ++ [(Piece.octal ds true).value]) hlen hr hq'
          simpa [half] using this
        | false =>
          have hnext := hnext.resolve_left (by simp)
          rw [hw]
          have htext : (Piece.octal ds false).text ++ written r = '\\' :: (ds.map digit ++ written r) := by simp [Piece.text]
          rw [htext]
          -- what comes next
          by_cases hq2 : ∃ c r', r = .quoted c :: r'
          · obtain ⟨c, r', rfl⟩ := hq2
            unfold clear at hr
            simp only [Bool.and_eq_true, decide_eq_true_eq, Bool.not_eq_true', starts_iff] at hr
            obtain ⟨⟨e1, e2⟩, e3⟩ := hr
            have hwr : written (.quoted c :: r') = '\\' :: c :: written r' := by simp [written, Piece.text]
            rw [hwr, match_closed ds _ d1 d3, List.foldl_cons, octalMatches_plain _ _ e1]
            have h2 := one ('\\' :: ds.map digit ++ ['\\']) (c :: written r') (.inr rfl)
            rw [show ('\\' :: ds.map digit ++ ['\\']) ++ c :: written r' = '\\' :: (ds.map digit ++ '\\' :: c :: written r') by simp] at h2
            rw [h2]
            have := ih r' (pre ++ [(Piece.octal ds false).value, c]) (by simp at hlen; omega) e3
              (by rw [show pre ++ [(Piece.octal ds false).value, c] = (pre ++ [(Piece.octal ds false).value]) ++ [c] by simp]; exact quiet_append hq' (quiet_one e1))
            simpa [half] using this
          · have hhead : ∀ c, (written r).head? = some c → c ≠ '\\' ∧ (ds.length = 3 ∨ LispFun.isOctal c = false) := by
              intro c hc
              cases r with
              | nil => cases hc
              | cons p r' =>
                cases p with
                | plain c' =>
                  have : c' = c := by simpa [written, Piece.text] using hc
                  subst this
                  unfold clear at hr
                  simp only [Bool.and_eq_true, decide_eq_true_eq] at hr
                  refine ⟨hr.1, ?_⟩
                  have := hnext.2
                  simpa [starts_iff] using this
                | quoted c' => exact absurd ⟨c', r', rfl⟩ hq2
                | octal ds'' cl => exact absurd hnext.1 (by simp [Piece.isOctal])
            have hb : (written r).head? ≠ some '\\' := fun hx => (hhead _ hx).1 rfl
            have hr3 : ds.length = 3 ∨ ∀ c, (written r).head? = some c → LispFun.isOctal c = false := by
              by_cases h3 : ds.length = 3
              · exact .inl h3
              · exact .inr fun c hc => (hhead c hc).2.resolve_left h3
            rw [match_octal ds _ d1 d3 hr3 hb, List.foldl_cons]
            have h2 := one ('\\' :: ds.map digit) (written r) (.inl rfl)
            rw [List.cons_append] at h2
            rw [h2]
            have hhalf : half true r = half false r := by
              cases r with
              | nil => rfl
              | cons p r' =>
                cases p with
                | quoted c => exact absurd ⟨c, r', rfl⟩ hq2
                | _ => rfl
            have := ih r (pre ++ [(Piece.octal ds false).value]) hlen hr hq'
            simpa [half, hhalf] using this

/-- Then the quoted characters are. -/
theorem quotes_replaced (ps : List Piece) : ∀ b, clear ps = true → unescape (half b ps) = meant ps := by
  induction ps with
  | nil => intro b _; rfl
  | cons p r ih =>
    intro b hc
    have hm : meant (p :: r) = p.value :: meant r := rfl
    rw [hm]
    cases p with
    | plain c =>
      unfold clear at hc
      simp only [Bool.and_eq_true, decide_eq_true_eq] at hc
      show unescape (c :: half false r) = _
      rw [unescape_plain _ _ hc.1, ih _ hc.2]; rfl
    | quoted c =>
      unfold clear at hc
      simp only [Bool.and_eq_true, decide_eq_true_eq, Bool.not_eq_true', starts_iff] at hc
      obtain ⟨⟨h1, h2⟩, h3⟩ := hc
      cases b with
      | true =>
        show unescape (c :: half false r) = _
        rw [unescape_plain _ _ h1, ih _ h3]; rfl
      | false =>
        show unescape ('\\' :: c :: half false r) = _
        rw [unescape.eq_1, if_neg (by rw [h2]; simp), ih _ h3]; rfl
    | octal ds closed =>
      unfold clear at hc
      simp only [Bool.and_eq_true, decide_eq_true_eq, Bool.or_eq_true, Bool.not_eq_true'] at hc
      show unescape ((Piece.octal ds closed).value :: half (!closed) r) = _
      rw [unescape_plain _ _ hc.1.1.2, ih _ hc.2]

/-! ## The expression in a text -/

/-- Where an expression begins. -/
def opening : Str := c%"(concat "

theorem opening_before (A T : Str) (hA : A ≠ []) (h : opening <+: A ++ '(' :: T) : opening <+: A := by
  rcases List.prefix_or_prefix_of_prefix h (List.prefix_append A ('(' :: T)) with h1 | h1
  · exact h1
  · obtain ⟨Q, hQ⟩ := h1
    cases Q with
    | nil => rw [List.append_nil] at hQ; rw [hQ]; exact List.prefix_refl _
    | cons q Q =>
      rw [← hQ, List.prefix_append_right_inj] at h
      obtain ⟨t, ht⟩ := h
      injection ht with hq _
      subst hq
      cases A with
      | nil => exact absurd rfl hA
      | cons a A =>
        have : '(' ∈ opening.tail := by rw [← hQ]; simp
        exact absurd this (by decide)

theorem not_opening {c : Char} {pre T : Str} (hp : ¬ opening <:+: c :: pre) : ¬ opening <+: c :: (pre ++ '(' :: T) := by
  intro h
  exact hp (opening_before (c :: pre) T (by simp) (by simpa using h)).isInfix

theorem matches_before (pre T : Str) (hp : ¬ opening <:+: pre) : concatMatches 0 (pre ++ '(' :: T) = concatMatches 0 ('(' :: T) := by
  induction pre with
  | nil => rfl
  | cons c pre ih =>
    have hlen : concatMatchLen (c :: (pre ++ '(' :: T)) = none := by
      unfold concatMatchLen
      rw [if_neg (by rw [List.isPrefixOf_iff_prefix]; exact not_opening hp)]
    rw [List.cons_append, concatMatches, hlen]
    exact ih fun hx => hp (hx.trans (List.suffix_cons c pre).isInfix)

theorem dropWhile_all {p : Char → Bool} : ∀ {l : Str}, (∀ x ∈ l, p x = true) → l.dropWhile p = []
  | [], _ => rfl
  | x :: l, h => by
    rw [List.dropWhile_cons, if_pos (h x (List.mem_cons_self ..))]
    exact dropWhile_all fun y hy => h y (List.mem_cons_of_mem _ hy)

theorem matches_after (post : Str) (h : ')' ∉ post) : concatMatches 0 post = [] := by
  induction post with
  | nil => rfl
  | cons c cs ih =>
    have hlen : concatMatchLen (c :: cs) = none := by
      unfold concatMatchLen
      split
      · have hl : ∀ x ∈ lineOf ((c :: cs).drop 8), x ≠ ')' := by
          intro x hx e
          subst e
          exact h (List.drop_subset _ _ ((List.takeWhile_prefix _).subset hx))
        unfold afterLastParen
        rw [show (lineOf ((c :: cs).drop 8)).reverse.dropWhile (· != ')') = [] from by
          apply dropWhile_all
          intro x hx
          simpa using hl x (List.mem_reverse.mp hx)]
        rfl
      · rfl
    rw [concatMatches, hlen]
    exact ih fun hx => h (List.mem_cons_of_mem _ hx)

/-- The one match. -/
theorem match_found (pre body post : Str) (hp : ¬ opening <:+: pre) (hn : '\n' ∉ body) (hn' : '\n' ∉ post) (ht : ')' ∉ post) :
    concatMatches 0 (pre ++ (c%"(concat \"" ++ body ++ c%"\")") ++ post) = [c%"(concat \"" ++ body ++ c%"\")"] := by
  have hcons : pre ++ (c%"(concat \"" ++ body ++ c%"\")") ++ post = pre ++ '(' :: (c%"concat \"" ++ body ++ c%"\")" ++ post) := by simp
  rw [hcons, matches_before _ _ hp]
  have hd : ('(' :: (c%"concat \"" ++ body ++ c%"\")" ++ post)).drop 8 = '"' :: (body ++ c%"\")" ++ post) := by simp
  have hl : lineOf ('"' :: (body ++ c%"\")" ++ post)) = '"' :: (body ++ c%"\")" ++ post) := by
    apply takeWhile_all
    intro c hc
    simp at hc
    have hne : c ≠ '\n' := by
      intro e; subst e
      rcases hc with hc | hc | hc | hc | hc
      · exact absurd hc (by decide)
      · exact hn hc
      · exact absurd hc (by decide)
      · exact absurd hc (by decide)
      · exact hn' hc
    simpa using hne
  have hlast : afterLastParen ('"' :: (body ++ c%"\")" ++ post)) = some (body.length + 3) := by
    unfold afterLastParen
    have hrev : ('"' :: (body ++ c%"\")" ++ post)).reverse = post.reverse ++ (')' :: '"' :: body.reverse ++ ['"']) := by simp
    rw [hrev, List.dropWhile_append_of_pos (by
      intro x hx
      have : x ≠ ')' := by intro e; subst e; exact ht (List.mem_reverse.mp hx)
      simpa using this)]
    simp [List.dropWhile_cons]
  have hlen : concatMatchLen ('(' :: (c%"concat \"" ++ body ++ c%"\")" ++ post)) = some (body.length + 11) := by
    unfold concatMatchLen
    rw [if_pos (by simp [List.isPrefixOf]), hd, hl, hlast]
    simp; omega
  rw [concatMatches, hlen]
  have h1 : '(' :: (c%"concat \"" ++ body ++ c%"\")" ++ post) = (c%"(concat \"" ++ body ++ c%"\")") ++ post := by simp
  have h2 : ('(' :: (c%"concat \"" ++ body ++ c%"\")" ++ post)).take (body.length + 11) = c%"(concat \"" ++ body ++ c%"\")" := by
    rw [h1, show body.length + 11 = (c%"(concat \"" ++ body ++ c%"\")").length by simp, List.take_left]
  dsimp only
  rw [h2, show body.length + 11 - 1 = (c%"concat \"" ++ body ++ c%"\")").length by simp, concatMatches_skip, matches_after _ ht]

theorem replaced_once (pre m rep post : Str) (hp : ¬ opening <:+: pre) (hm : opening <+: m) : replaceFirst m rep (pre ++ m ++ post) = pre ++ rep ++ post := by
  obtain ⟨t, rfl⟩ := hm
  induction pre with
  | nil =>
    show replaceFirst ('(' :: (c%"concat " ++ t)) rep ('(' :: (c%"concat " ++ t ++ post)) = rep ++ post
    rw [replaceFirst, if_pos (by rw [List.isPrefixOf_iff_prefix]; exact ⟨post, by simp⟩)]
    rw [show '(' :: (c%"concat " ++ t ++ post) = ('(' :: (c%"concat " ++ t)) ++ post by simp, List.drop_left]
  | cons c pre ih =>
    have hshape : pre ++ (opening ++ t) ++ post = pre ++ '(' :: (c%"concat " ++ t ++ post) := by simp [opening]
    have := ih fun hx => hp (hx.trans (List.suffix_cons c pre).isInfix)
    rw [List.cons_append, List.cons_append, replaceFirst, if_neg, this]
    · rfl
    · rw [List.isPrefixOf_iff_prefix, hshape]
      intro hx
      exact not_opening hp ((List.prefix_append opening t).trans hx)

/-- **C77.** A text with a `(concat "…")` in it is read as Emacs reads it: the expression is replaced by the string which is meant, and the rest stays. -/
theorem concat_read (pre post : Str) (ps : List Piece) (hc : clear ps = true) (hne : ps ≠ []) (hl : '\n' ∉ written ps) (hp : ¬ c%"(concat " <:+: pre)
    (hn : '\n' ∉ post) (ht : ')' ∉ post) :
    process (pre ++ (c%"(concat \"" ++ written ps ++ c%"\")") ++ post) = pre ++ meant ps ++ post := by
  have hw : written ps ≠ [] := by
    cases ps with
    | nil => exact absurd rfl hne
    | cons p r => cases p <;> simp [written, Piece.text]
  have hrep : concatReplacement (c%"(concat \"" ++ written ps ++ c%"\")") = some (meant ps) := by
    unfold concatReplacement
    rw [concatBody_whole]
    simp only [List.isEmpty_iff, hw, if_false]
    have := numbers_replaced ps.length ps [] (Nat.le_refl _) hc trivial
    simp only [List.nil_append] at this
    rw [this, quotes_replaced ps false hc]
  unfold process
  rw [match_found pre _ post hp hl hn ht]
  simp only [List.mapM_cons, List.mapM_nil, hrep]
  simp only [Option.pure_def, Option.bind_eq_bind, Option.bind_some, List.zip_cons_cons, List.zip_nil_right, List.foldl_cons, List.foldl_nil]
  exact replaced_once pre _ _ post hp ⟨c%"\"" ++ written ps ++ c%"\")", by simp [opening]⟩

/-- A text without such an expression stays. -/
theorem other_kept (w : Str) (h : ¬ c%"(concat " <:+: w) : process w = w := by
  apply process_plain
  rw [← Bool.not_eq_true]
  intro hx
  apply h
  clear h
  induction w with
  | nil => exact absurd hx (by decide)
  | cons c cs ih =>
    rw [occurs, Bool.or_eq_true, List.isPrefixOf_iff_prefix] at hx
    rcases hx with hx | hx
    · exact hx.isInfix
    · exact (ih hx).trans (List.suffix_cons c cs).isInfix

theorem form_read (f : Form) (h : f.Fine) : process f.text = f.value := by
  cases f with
  | plain w => exact other_kept w h
  | concat ps =>
    have := concat_read [] [] ps h.2.1 h.1 h.2.2 (by decide) (by simp) (by simp)
    simpa [Form.text, Form.value] using this

/-- **C77.** The words of a dictionary line and their annotations may be written in both ways, and what is looked up is what is meant. -/
theorem line_meant (reading : Str) (hr : reading ≠ []) (hs : ' ' ∉ reading) (hf : ¬ c%"(concat " <:+: reading) (n : Nat) (ws : List (Form × Option Form)) (hne : ws ≠ [])
    (hp : ∀ w ∈ ws, DictGrammar.ProperWord ⟨w.1.text, w.2.map Form.text⟩) (hw : ∀ w ∈ ws, w.1.Fine ∧ ∀ a, w.2 = some a → a.Fine) :
    ∃ e, DictEntry.fromLine (DictGrammar.lineText reading (n + 1) (ws.map fun w => .word ⟨w.1.text, w.2.map Form.text⟩)) = some e ∧ e.midashi = reading ∧
      SMap.get e.cands [] = some (ws.map fun w => ⟨w.1.value, w.2.map Form.value⟩) := by
  obtain ⟨e, he, hm, _, hg⟩ := Props.DictGrammar.line_read reading hr hs n (ws.map fun w => .word ⟨w.1.text, w.2.map Form.text⟩) (by simpa using hne)
    (by
      intro i hi
      obtain ⟨w, hw, rfl⟩ := List.mem_map.mp hi
      exact hp w hw)
    (by
      intro c o cs hx
      exfalso
      have := hx.subset (List.mem_cons_of_mem _ (List.mem_cons_self ..))
      obtain ⟨w, _, hw⟩ := List.mem_map.mp this
      exact absurd hw (by simp))
  refine ⟨e, he, hm.trans (other_kept reading hf), ?_⟩
  have hl : (ws.map fun w => DictGrammar.Item.word ⟨w.1.text, w.2.map Form.text⟩).flatMap (DictGrammar.Item.wordsFor []) = ws.map fun w => ⟨w.1.text, w.2.map Form.text⟩ := by
    clear hne hp hw he hg
    induction ws with
    | nil => rfl
    | cons w ws ih => simp [DictGrammar.Item.wordsFor] at ih ⊢; exact ih
  rw [hg, hl, if_neg (by simpa using hne), List.map_map]
  congr 1
  apply List.map_congr_left
  intro w hx
  obtain ⟨h1, h2⟩ := hw w hx
  simp only [Function.comp, DictEntry.candFromProto, form_read _ h1]
  congr 1
  obtain ⟨f, a⟩ := w
  cases a with
  | none => rfl
  | some a => simp [form_read a (h2 a rfl)]

/-- Such a line. -/
theorem line_example : (DictEntry.fromLine c%"andor /(concat \"and\\057or\");(concat \"a\\073b\")/と/").map (fun e => SMap.get e.cands []) =
    some (some [⟨c%"and/or", some c%"a;b"⟩, ⟨c%"と", none⟩]) := by decide +kernel

/-- Old dictionaries write `and/or` and `;-)` so; a number which is closed may be followed by a digit. -/
theorem concat_examples :
    clear [.plain 'a', .octal [0, 5, 7] false, .quoted '"', .octal [5, 7] true, .plain '8', .quoted '9', .octal [7, 3] false, .plain ')'] = true ∧
    process c%"(concat \"and\\057or\")" = c%"and/or" ∧
    process c%"<(concat \"a\\057\\\"\\57\\8\\9\\73)\")>" = c%"<a/\"/89;)>" := by
  decide +kernel

/-- A number which is not closed swallows the backslash of the next one. -/
theorem unclosed_numbers : process c%"(concat \"\\057\\057\")" = c%"/057" ∧ process c%"(concat \"\\057\\\\057\")" = c%"//" := by decide +kernel

end Cskk.Props.Concat
