import Verif.Model.DictEntry
import Verif.Lemmas.LispFun

/-! # Lemmas: printing and parsing one dictionary line -/

namespace Cskk.DictLine
open Parse DictParser

/-- Text of a raw candidate. -/
def showRaw (c : CandidateProto) : Str :=
  match c.annotation with
  | some a => c.kouho ++ c%";" ++ a
  | none => c.kouho

/-- A raw candidate the grammar can express. -/
structure RawOk (c : CandidateProto) : Prop where
  ne : c.kouho ≠ []
  legal : ∀ x ∈ c.kouho, isCandIllegal x = false
  ann : ∀ a, c.annotation = some a → a ≠ [] ∧ ∀ x ∈ a, isAnnotationIllegal x = false

/-- Candidates each followed by a slash, then `g`. -/
def text (cs : List CandidateProto) (g : Str) : Str := (cs.flatMap fun c => showRaw c ++ c%"/") ++ g

theorem text_cons (c cs g) : text (c :: cs) g = showRaw c ++ '/' :: text cs g := by
  simp [text]

@[simp] theorem text_nil (g) : text [] g = g := rfl

theorem takeWhile_append_stop {p : Char → Bool} {w rest : Str} (hw : ∀ x ∈ w, p x = true)
    (hr : ∀ x, rest.head? = some x → p x = false) :
    (w ++ rest).takeWhile p = w ∧ (w ++ rest).dropWhile p = rest := by
  induction w with
  | nil =>
    cases rest with
    | nil => simp
    | cons x r => have := hr x rfl; simp [List.takeWhile_cons, List.dropWhile_cons, this]
  | cons a w ih =>
    obtain ⟨h1, h2⟩ := ih fun x hx => hw x (by simp [hx])
    have := hw a (by simp)
    simp [List.takeWhile_cons, List.dropWhile_cons, this, h1, h2]

theorem takeTill1_ok {p : Char → Bool} {w rest : Str} (hne : w ≠ []) (hw : ∀ x ∈ w, p x = false)
    (hr : ∀ x, rest.head? = some x → p x = true) : takeTill1 p (w ++ rest) = some (rest, w) := by
  obtain ⟨h1, h2⟩ := takeWhile_append_stop (p := fun c => !p c) (w := w) (rest := rest)
    (by intro x hx; simp [hw x hx]) (by intro x hx; simp [hr x hx])
  unfold takeTill1 takeWhile1
  simp only [h1, h2]
  simp [hne]

theorem takeTill1_fail {p : Char → Bool} {s : Str} (h : ∀ x, s.head? = some x → p x = true) : takeTill1 p s = none := by
  unfold takeTill1 takeWhile1
  cases s with
  | nil => rfl
  | cons a s => simp [List.takeWhile_cons, h a rfl]

theorem char_ok (c : Char) (s : Str) : char c (c :: s) = some (s, c) := by simp [char]
theorem char_fail {c : Char} {s : Str} (h : s.head? ≠ some c) : char c s = none := by
  cases s with
  | nil => rfl
  | cons d s => simp at h; simp [char, h]

/-- A candidate followed by a slash parses as a candidate. -/
theorem noStrict_ok (c : CandidateProto) (h : RawOk c) (rest : Str) :
    noStrictOkuriCandidate (showRaw c ++ '/' :: rest) = some ('/' :: rest, c) := by
  obtain ⟨k, a⟩ := c
  unfold noStrictOkuriCandidate showRaw
  cases a with
  | none =>
    simp only
    rw [takeTill1_ok h.ne h.legal (by intro x hx; simp at hx; subst hx; decide)]
    have : perm2 (char ';') (takeTill1 isAnnotationIllegal) ('/' :: rest) = none := by
      have h1 : char ';' ('/' :: rest) = none := char_fail (by simp)
      have h2 : takeTill1 isAnnotationIllegal ('/' :: rest) = none :=
        takeTill1_fail (by intro x hx; simp at hx; subst hx; decide)
      simp [perm2, perm2Step, h1, h2]
    simp [opt, this]
  | some a =>
    obtain ⟨ane, al⟩ := h.ann a rfl
    simp only
    have he : k ++ c%";" ++ a ++ '/' :: rest = k ++ (';' :: (a ++ '/' :: rest)) := by simp
    rw [he, takeTill1_ok h.ne h.legal (by intro x hx; simp at hx; subst hx; decide)]
    have : perm2 (char ';') (takeTill1 isAnnotationIllegal) (';' :: (a ++ '/' :: rest)) = some ('/' :: rest, (';', a)) := by
      have h2 : takeTill1 isAnnotationIllegal (a ++ '/' :: rest) = some ('/' :: rest, a) :=
        takeTill1_ok ane al (by intro x hx; simp at hx; subst hx; decide)
      simp [perm2, perm2Step, char_ok, h2]
    simp [opt, this]

theorem showRaw_ne {c : CandidateProto} (h : RawOk c) : ∃ x t, showRaw c = x :: t ∧ isCandIllegal x = false ∧
    c.kouho.head? = some x := by
  obtain ⟨k, a⟩ := c
  obtain ⟨h1, h2, _⟩ := h
  cases k with
  | nil => exact absurd rfl h1
  | cons x k =>
    cases a with
    | none => exact ⟨x, k, rfl, h2 x (by simp), rfl⟩
    | some a => exact ⟨x, k ++ c%";" ++ a, by simp [showRaw], h2 x (by simp), rfl⟩

/-- The element parser of the inner `many1`: candidate and slash. -/
abbrev candSlash : P CandidateProto := pmap (perm2 noStrictOkuriCandidate (char '/')) (·.1)

theorem candSlash_ok (c : CandidateProto) (h : RawOk c) (rest : Str) :
    candSlash (showRaw c ++ '/' :: rest) = some (rest, c) := by
  simp [candSlash, pmap, perm2, perm2Step, noStrict_ok c h, char_ok]

/-- Texts at which no candidate can start. -/
def NoStart (g : Str) : Prop := ∀ x, g.head? = some x → isCandIllegal x = true ∧ x ≠ '/'

theorem candSlash_fail {g : Str} (h : NoStart g) : candSlash g = none := by
  have h1 : noStrictOkuriCandidate g = none := by
    unfold noStrictOkuriCandidate
    rw [takeTill1_fail fun x hx => (h x hx).1]
  have h2 : char '/' g = none := char_fail (by
    intro hx; exact absurd rfl (h _ hx).2)
  simp [candSlash, pmap, perm2, perm2Step, h1, h2]

/-- Successive applications of a parser. -/
inductive Steps {α} (p : P α) : Str → List α → Str → Prop
  | nil (s) : Steps p s [] s
  | cons {s s1 s2 a as} : p s = some (s1, a) → s1.length < s.length → Steps p s1 as s2 → Steps p s (a :: as) s2

theorem manyAux_steps {α} {p : P α} {s s2 : Str} {as : List α} (h : Steps p s as s2) (hf : p s2 = none) :
    ∀ fuel acc, s.length ≤ fuel → manyAux p fuel acc s = some (s2, acc ++ as) := by
  induction h with
  | nil s =>
    intro fuel acc _
    cases fuel with
    | zero => simp [manyAux]
    | succ n => simp [manyAux, hf]
  | cons h1 h2 _ ih =>
    intro fuel acc hl
    cases fuel with
    | zero => omega
    | succ n =>
      rw [manyAux, h1]
      simp only
      rw [if_neg (by omega), ih hf n _ (by omega)]
      simp

theorem many1_steps {α} {p : P α} {s s2 : Str} {as : List α} (h : Steps p s as s2) (hne : as ≠ []) (hf : p s2 = none) :
    many1 p s = some (s2, as) := by
  cases h with
  | nil => exact absurd rfl hne
  | cons h1 h2 h3 =>
    unfold many1
    rw [h1]
    simp only
    rw [manyAux_steps h3 hf _ _ (Nat.le_refl _)]
    simp

theorem steps_text (cs : List CandidateProto) (h : ∀ c ∈ cs, RawOk c) (g : Str) : Steps candSlash (text cs g) cs g := by
  induction cs with
  | nil => exact .nil g
  | cons c cs ih =>
    refine .cons (s1 := text cs g) ?_ ?_ (ih fun d hd => h d (by simp [hd]))
    · rw [text_cons]; exact candSlash_ok c (h c (by simp)) _
    · rw [text_cons]; simp only [List.length_append, List.length_cons]; omega

theorem many_text (cs : List CandidateProto) (hne : cs ≠ []) (h : ∀ c ∈ cs, RawOk c) (g : Str) (hg : NoStart g) :
    many1 candSlash (text cs g) = some (g, cs) :=
  many1_steps (steps_text cs h g) hne (candSlash_fail hg)

/-- A group `[okuri/…/]`, followed by `rest`. -/
def groupText (o : Str) (ds : List CandidateProto) (rest : Str) : Str := '[' :: o ++ '/' :: text ds (']' :: rest)

structure GroupOk (o : Str) (ds : List CandidateProto) : Prop where
  okuriNe : o ≠ []
  okuri : ∀ x ∈ o, isOkuriKana x = true
  ne : ds ≠ []
  cands : ∀ c ∈ ds, RawOk c

theorem kana_not_illegal {x : Char} (h : isOkuriKana x = true) : isCandIllegal x = false ∧ x ≠ '/' ∧ x ≠ '[' ∧ x ≠ ']' := by
  simp only [isOkuriKana, Bool.and_eq_true, decide_eq_true_eq] at h
  have h1 : 0x3041 ≤ x.toNat := h.1
  have : x ≠ '/' ∧ x ≠ ';' ∧ x ≠ '[' ∧ x ≠ ']' := by
    refine ⟨?_, ?_, ?_, ?_⟩ <;> (intro e; subst e; revert h1; decide)
  simp [isCandIllegal, this]

theorem takeWhile1_ok {p : Char → Bool} {w rest : Str} (hne : w ≠ []) (hw : ∀ x ∈ w, p x = true)
    (hr : ∀ x, rest.head? = some x → p x = false) : takeWhile1 p (w ++ rest) = some (rest, w) := by
  obtain ⟨h1, h2⟩ := takeWhile_append_stop hw hr
  simp [takeWhile1, h1, h2, hne]

theorem takeWhile1_fail {p : Char → Bool} {s : Str} (h : ∀ x, s.head? = some x → p x = false) : takeWhile1 p s = none := by
  unfold takeWhile1
  cases s with
  | nil => rfl
  | cons a s => simp [List.takeWhile_cons, h a rfl]

theorem strict_ok (o : Str) (ds : List CandidateProto) (h : GroupOk o ds) (rest : Str) :
    strictOkuriCandidates (groupText o ds rest) = some (rest, [(o, ds)]) := by
  have h1 : char '[' (groupText o ds rest) = some (o ++ '/' :: text ds (']' :: rest), '[') := by
    simp [groupText, char]
  have h2 : takeWhile1 isOkuriKana (o ++ '/' :: text ds (']' :: rest)) = some ('/' :: text ds (']' :: rest), o) :=
    takeWhile1_ok h.okuriNe h.okuri (by intro x hx; simp at hx; subst hx; decide)
  have h3 := many_text ds h.ne h.cands (']' :: rest) (by
    intro x hx; simp at hx; subst hx; decide)
  unfold strictOkuriCandidates
  simp [perm5, perm5Step, h1, h2, h3, char_ok, SMap.insert]

/-- What can follow the plain candidates of a printed line: nothing or a group. -/
def TailOk (g : Str) : Prop := g = [] ∨ ∃ o ds r, GroupOk o ds ∧ g = groupText o ds r

theorem tail_noStart {g : Str} (h : TailOk g) : NoStart g := by
  rcases h with rfl | ⟨o, ds, r, _, rfl⟩
  · intro x hx; simp at hx
  · intro x hx; simp [groupText] at hx; subst hx; decide

theorem char_ne {c : Char} {x : Char} {s : Str} (h : x ≠ c) : char c (x :: s) = none := char_fail (by simpa using h)

theorem text_head {c : CandidateProto} (h : RawOk c) (cs g) : ∃ x t, text (c :: cs) g = x :: t ∧ isCandIllegal x = false := by
  obtain ⟨x, t, h1, h2, _⟩ := showRaw_ne h
  exact ⟨x, t ++ '/' :: text cs g, by rw [text_cons, h1]; rfl, h2⟩

theorem legal_ne {x : Char} (h : isCandIllegal x = false) : x ≠ '/' ∧ x ≠ ';' ∧ x ≠ '[' ∧ x ≠ ']' := by
  simp [isCandIllegal] at h; exact ⟨h.1.1.1, h.1.1.2, h.1.2, h.2⟩

theorem legal_not_kana_tail {x : Char} (h : x = '/' ∨ x = ';') : isOkuriKana x = false := by
  rcases h with rfl | rfl <;> decide

/-- Split of the word of a candidate into its leading kana and the rest. -/
theorem kana_split (w : Str) : ∃ k w', w = k ++ w' ∧ (∀ x ∈ k, isOkuriKana x = true) ∧
    (∀ x, w'.head? = some x → isOkuriKana x = false) := by
  refine ⟨w.takeWhile isOkuriKana, w.dropWhile isOkuriKana, List.takeWhile_append_dropWhile.symm, ?_, ?_⟩
  · intro x hx
    induction w with
    | nil => simp at hx
    | cons a w ih =>
      rw [List.takeWhile_cons] at hx
      split at hx
      · rcases List.mem_cons.mp hx with rfl | h
        · assumption
        · exact ih h
      · simp at hx
  · intro x hx
    induction w with
    | nil => simp at hx
    | cons a w ih =>
      rw [List.dropWhile_cons] at hx
      split at hx
      · exact ih hx
      · simp at hx; subst hx; simp_all

section
variable {α β γ δ ε : Type} {p : P α} {q : P β} {r : P γ} {t : P δ} {u : P ε} {s s1 s2 s3 s4 : Str}
  {va : α} {vb : β} {vc : γ} {vd : δ}

theorem perm5_A (h1 : p s = none) (h2 : q s = none) (h3 : r s = none) (h4 : t s = some (s1, vd))
    (k1 : p s1 = none) (k2 : q s1 = none) (k3 : r s1 = none) (k4 : u s1 = none) : perm5 p q r t u s = none := by
  simp [perm5, perm5Step, h1, h2, h3, h4, k1, k2, k3, k4]

theorem perm5_B (h1 : p s = none) (h2 : q s = none) (h3 : r s = none) (h4 : t s = some (s1, vd))
    (k1 : p s1 = some (s2, va)) (k2 : q s2 = some (s3, vb)) (k3 : r s3 = some (s4, vc)) (k4 : u s4 = none) :
    perm5 p q r t u s = none := by
  simp [perm5, perm5Step, h1, h2, h3, h4, k1, k2, k3, k4]

theorem perm5_C (h1 : p s = none) (h2 : q s = some (s1, vb)) (k1 : p s1 = none) (k2 : r s1 = none) (k3 : t s1 = none)
    (k4 : u s1 = none) : perm5 p q r t u s = none := by
  simp [perm5, perm5Step, h1, h2, k1, k2, k3, k4]

theorem perm5_D (h1 : p s = none) (h2 : q s = some (s1, vb)) (k1 : p s1 = none) (k2 : r s1 = some (s2, vc))
    (l1 : p s2 = none) (l2 : t s2 = none) (l3 : u s2 = none) : perm5 p q r t u s = none := by
  simp [perm5, perm5Step, h1, h2, k1, k2, l1, l2, l3]

theorem perm5_E (h1 : p s = none) (h2 : q s = some (s1, vb)) (k1 : p s1 = none) (k2 : r s1 = some (s2, vc))
    (l1 : p s2 = none) (l2 : t s2 = some (s3, vd)) (m1 : p s3 = none) (m2 : u s3 = none) : perm5 p q r t u s = none := by
  simp [perm5, perm5Step, h1, h2, k1, k2, l1, l2, m1, m2]

theorem perm5_F (h1 : p s = none) (h2 : q s = some (s1, vb)) (k1 : p s1 = none) (k2 : r s1 = some (s2, vc))
    (l1 : p s2 = none) (l2 : t s2 = some (s3, vd)) (m1 : p s3 = some (s4, va)) (m2 : u s4 = none) :
    perm5 p q r t u s = none := by
  simp [perm5, perm5Step, h1, h2, k1, k2, l1, l2, m1, m2]

theorem perm5_G (h1 : p s = none) (h2 : q s = some (s1, vb)) (k1 : p s1 = none) (k2 : r s1 = none)
    (k3 : t s1 = some (s2, vd)) (l1 : p s2 = none) (l2 : r s2 = none) (l3 : u s2 = none) :
    perm5 p q r t u s = none := by
  simp [perm5, perm5Step, h1, h2, k1, k2, k3, l1, l2, l3]

theorem perm5_H (h1 : p s = none) (h2 : q s = some (s1, vb)) (k1 : p s1 = none) (k2 : r s1 = none)
    (k3 : t s1 = some (s2, vd)) (l1 : p s2 = some (s3, va)) (l2 : r s3 = none) (l3 : u s3 = none) :
    perm5 p q r t u s = none := by
  simp [perm5, perm5Step, h1, h2, k1, k2, k3, l1, l2, l3]

end

/-- The strict-okuri parser rejects a plain candidate, unless the candidate is one kana word standing directly before a
group (`hbug`): in that case nom's `permutation` finds the five parts in another order. -/
theorem strict_fail (c : CandidateProto) (cs : List CandidateProto) (g : Str) (hc : RawOk c) (hcs : ∀ d ∈ cs, RawOk d)
    (hg : TailOk g) (hbug : cs = [] → g ≠ [] → ¬ (c.annotation = none ∧ ∀ x ∈ c.kouho, isOkuriKana x = true)) :
    strictOkuriCandidates (text (c :: cs) g) = none := by
  suffices h : perm5 (char '[') (takeWhile1 isOkuriKana) (char '/') (many1 candSlash) (char ']') (text (c :: cs) g) = none by
    unfold strictOkuriCandidates; rw [h]
  obtain ⟨x, t, hx, hxl⟩ := text_head hc cs g
  obtain ⟨hx1, hx2, hx3, hx4⟩ := legal_ne hxl
  have hns := tail_noStart hg
  obtain ⟨k, w', hw, hk, hw'⟩ := kana_split c.kouho
  -- behaviour on the tail
  by_cases hk0 : k = []
  · -- no leading kana: everything up to the tail is swallowed by many1
    subst hk0
    have hkana : takeWhile1 isOkuriKana (text (c :: cs) g) = none := by
      apply takeWhile1_fail
      intro y hy
      obtain ⟨z, tz, e1, _, e3⟩ := showRaw_ne hc
      rw [text_cons, e1] at hy
      simp at hy; subst hy
      apply hw'; rw [← e3, hw]; rfl
    have hm := many_text (c :: cs) (by simp) (by intro d hd; rcases List.mem_cons.mp hd with rfl | h; exact hc; exact hcs d h) g hns
    have c1 : char '[' (text (c :: cs) g) = none := by rw [hx]; exact char_ne hx3
    have c2 : char '/' (text (c :: cs) g) = none := by rw [hx]; exact char_ne hx1
    rcases hg with rfl | ⟨o, ds, r, ho, rfl⟩
    · exact perm5_A c1 hkana c2 hm rfl rfl rfl rfl
    · have g1 : char '[' (groupText o ds r) = some (o ++ '/' :: text ds (']' :: r), '[') := by simp [groupText, char]
      have g2 : takeWhile1 isOkuriKana (o ++ '/' :: text ds (']' :: r)) = some ('/' :: text ds (']' :: r), o) :=
        takeWhile1_ok ho.okuriNe ho.okuri (by intro x hx; simp at hx; subst hx; decide)
      obtain ⟨d, ds', hds⟩ : ∃ d ds', ds = d :: ds' := by
        cases hd : ds with
        | nil => exact absurd hd ho.ne
        | cons d ds' => exact ⟨d, ds', rfl⟩
      obtain ⟨y, ty, hy, hyl⟩ := text_head (ho.cands d (by rw [hds]; simp)) ds' (']' :: r)
      have g3 : char ']' (text ds (']' :: r)) = none := by rw [hds, hy]; exact char_ne (legal_ne hyl).2.2.2
      exact perm5_B c1 hkana c2 hm g1 g2 (char_ok _ _) g3
  · -- leading kana
    have c1 : char '[' (text (c :: cs) g) = none := by rw [hx]; exact char_ne hx3
    by_cases hw0 : w' = []
    · subst hw0
      rw [List.append_nil] at hw
      subst hw
      cases ha : c.annotation with
      | some a =>
        obtain ⟨hane, hal⟩ := hc.ann a ha
        have ht : text (c :: cs) g = c.kouho ++ (';' :: (a ++ '/' :: text cs g)) := by
          rw [text_cons]; simp [showRaw, ha]
        rw [ht] at c1 ⊢
        have h2 : takeWhile1 isOkuriKana (c.kouho ++ (';' :: (a ++ '/' :: text cs g)))
            = some (';' :: (a ++ '/' :: text cs g), c.kouho) :=
          takeWhile1_ok hk0 hk (by intro x hx; simp at hx; subst hx; decide)
        have h3 : candSlash (';' :: (a ++ '/' :: text cs g)) = none := candSlash_fail (by
          intro x hx; simp at hx; subst hx; decide)
        have h4 : many1 candSlash (';' :: (a ++ '/' :: text cs g)) = none := by unfold many1; rw [h3]
        exact perm5_C c1 h2 (char_ne (by decide)) (char_ne (by decide)) h4 (char_ne (by decide))
      | none =>
        have ht : text (c :: cs) g = c.kouho ++ ('/' :: text cs g) := by
          rw [text_cons]; simp [showRaw, ha]
        rw [ht] at c1 ⊢
        have h2 : takeWhile1 isOkuriKana (c.kouho ++ ('/' :: text cs g)) = some ('/' :: text cs g, c.kouho) :=
          takeWhile1_ok hk0 hk (by intro x hx; simp at hx; subst hx; decide)
        have h2' : char '[' ('/' :: text cs g) = none := char_ne (by decide)
        cases hcs0 : cs with
        | nil =>
          subst hcs0
          have : g = [] := Classical.byContradiction fun hg0 => hbug rfl hg0 ⟨ha, hk⟩
          subst this
          simp only [text_nil] at h2 h2' c1 ⊢
          exact perm5_D c1 h2 h2' (char_ok _ _) rfl (by decide) rfl
        | cons d cs' =>
          have hd := hcs d (by rw [hcs0]; simp)
          have hm := many_text cs (by rw [hcs0]; simp) hcs g hns
          obtain ⟨y, ty, hy, hyl⟩ := text_head hd cs' g
          have c3 : char '[' (text cs g) = none := by rw [hcs0, hy]; exact char_ne (legal_ne hyl).2.2.1
          rw [← hcs0]
          rcases hg with rfl | ⟨o, ds, r, ho, rfl⟩
          · exact perm5_E c1 h2 h2' (char_ok _ _) c3 hm rfl rfl
          · have g1 : char '[' (groupText o ds r) = some (o ++ '/' :: text ds (']' :: r), '[') := by simp [groupText, char]
            have g2 : char ']' (o ++ '/' :: text ds (']' :: r)) = none := by
              cases hoo : o with
              | nil => exact absurd hoo ho.okuriNe
              | cons y o' => exact char_ne (kana_not_illegal (ho.okuri y (by rw [hoo]; simp))).2.2.2
            exact perm5_F c1 h2 h2' (char_ok _ _) c3 hm g1 g2
    · -- kana followed by other characters
      let c' : CandidateProto := ⟨w', c.annotation⟩
      have hc' : RawOk c' := ⟨hw0, fun y hy => hc.legal y (by rw [hw]; simp; right; exact hy), hc.ann⟩
      have ht : text (c :: cs) g = k ++ text (c' :: cs) g := by
        rw [text_cons, text_cons]
        cases ha : c.annotation <;> simp [showRaw, ha, hw, c']
      rw [ht] at c1 ⊢
      obtain ⟨y, ty, hy, hyl⟩ := text_head hc' cs g
      have hyk : isOkuriKana y = false := by
        apply hw'
        obtain ⟨z, tz, e1, _, e3⟩ := showRaw_ne hc'
        rw [text_cons, e1] at hy
        simp at hy
        rw [show w'.head? = some z from e3, hy.1]
      have h2 : takeWhile1 isOkuriKana (k ++ text (c' :: cs) g) = some (text (c' :: cs) g, k) :=
        takeWhile1_ok hk0 hk (by intro x hx; rw [hy] at hx; simp at hx; subst hx; exact hyk)
      have c2 : char '[' (text (c' :: cs) g) = none := by rw [hy]; exact char_ne (legal_ne hyl).2.2.1
      have c3 : char '/' (text (c' :: cs) g) = none := by rw [hy]; exact char_ne (legal_ne hyl).1
      have hm := many_text (c' :: cs) (by simp) (by
        intro d hd; rcases List.mem_cons.mp hd with rfl | h; exact hc'; exact hcs d h) g hns
      rcases hg with rfl | ⟨o, ds, r, ho, rfl⟩
      · exact perm5_G c1 h2 c2 c3 hm rfl rfl rfl
      · have g1 : char '[' (groupText o ds r) = some (o ++ '/' :: text ds (']' :: r), '[') := by simp [groupText, char]
        have g2 : char ']' (o ++ '/' :: text ds (']' :: r)) = none ∧ char '/' (o ++ '/' :: text ds (']' :: r)) = none := by
          cases hoo : o with
          | nil => exact absurd hoo ho.okuriNe
          | cons y o' =>
            have := kana_not_illegal (ho.okuri y (by rw [hoo]; simp))
            exact ⟨char_ne this.2.2.2, char_ne this.2.1⟩
        exact perm5_H c1 h2 c2 c3 hm g1 g2.2 g2.1

theorem candidate_plain (c : CandidateProto) (cs : List CandidateProto) (g : Str) (hc : RawOk c) (hcs : ∀ d ∈ cs, RawOk d)
    (hg : TailOk g) (hbug : cs = [] → g ≠ [] → ¬ (c.annotation = none ∧ ∀ x ∈ c.kouho, isOkuriKana x = true)) :
    candidate (text (c :: cs) g) = some (text cs g, [([], [c])]) := by
  have h1 := strict_fail c cs g hc hcs hg hbug
  have h2 : noStrictOkuriCandidate (text (c :: cs) g) = some ('/' :: text cs g, c) := by
    rw [text_cons]; exact noStrict_ok c hc _
  unfold candidate
  simp [perm2, perm2Step, alt, h1, pmap, h2, char_ok, SMap.insert]

theorem candidate_group (o : Str) (ds : List CandidateProto) (h : GroupOk o ds) (rest : Str) :
    candidate (groupText o ds ('/' :: rest)) = some (rest, [(o, ds)]) := by
  unfold candidate
  simp [perm2, perm2Step, alt, strict_ok o ds h, char_ok]

/-- Printed form of the strict groups. -/
def groupsText : List (Str × List CandidateProto) → Str
  | [] => []
  | g :: gs => groupText g.1 g.2 ('/' :: groupsText gs)

theorem groups_tailOk (gs : List (Str × List CandidateProto)) (h : ∀ g ∈ gs, GroupOk g.1 g.2) : TailOk (groupsText gs) := by
  cases gs with
  | nil => exact .inl rfl
  | cons g gs => exact .inr ⟨g.1, g.2, _, h g (by simp), rfl⟩

theorem steps_groups (gs : List (Str × List CandidateProto)) (h : ∀ g ∈ gs, GroupOk g.1 g.2) :
    Steps candidate (groupsText gs) (gs.map fun g => [g]) [] := by
  induction gs with
  | nil => exact .nil _
  | cons g gs ih =>
    refine .cons (s1 := groupsText gs) (candidate_group g.1 g.2 (h g (by simp)) _) ?_ (ih fun x hx => h x (by simp [hx]))
    simp [groupsText, groupText, text]; omega

theorem steps_all (cs : List CandidateProto) (gs : List (Str × List CandidateProto)) (hcs : ∀ c ∈ cs, RawOk c)
    (hgs : ∀ g ∈ gs, GroupOk g.1 g.2)
    (hbug : gs ≠ [] → ∀ c, cs.getLast? = some c → ¬ (c.annotation = none ∧ ∀ x ∈ c.kouho, isOkuriKana x = true)) :
    Steps candidate (text cs (groupsText gs)) ((cs.map fun c => [([], [c])]) ++ gs.map fun g => [g]) [] := by
  induction cs with
  | nil => simpa using steps_groups gs hgs
  | cons c cs ih =>
    refine .cons (s1 := text cs (groupsText gs)) ?_ ?_ (ih (fun d hd => hcs d (by simp [hd])) ?_)
    · apply candidate_plain c cs _ (hcs c (by simp)) (fun d hd => hcs d (by simp [hd])) (groups_tailOk gs hgs)
      intro e1 e2
      apply hbug
      · intro e; subst e; exact e2 rfl
      · subst e1; rfl
    · rw [text_cons]; simp only [List.length_append, List.length_cons]; omega
    · intro h c' hc'
      apply hbug h
      rw [List.getLast?_cons, hc']; rfl

/-! ## Merging -/

theorem smap_get_none {V} {m : SMap V} {k : Str} (h : ∀ e ∈ m, e.1 ≠ k) : SMap.get m k = none := by
  unfold SMap.get
  have : m.find? (fun e => decide (e.1 = k)) = none := by
    rw [List.find?_eq_none]; intro e he; simp [h e he]
  rw [this]; rfl

theorem smap_insert_end {V} {m : SMap V} {k : Str} {v : V} (h : ∀ e ∈ m, strLt e.1 k = true) :
    SMap.insert m k v = m ++ [(k, v)] := by
  induction m with
  | nil => rfl
  | cons e m ih =>
    obtain ⟨k', v'⟩ := e
    have h1 := h (k', v') (by simp)
    have h1' : strLt k' k = true := h1
    rw [SMap.insert, if_neg (fun e => strLt_ne h1' e.symm), if_neg (by rw [strLt_asymm h1']; simp),
      ih fun e he => h e (by simp [he])]
    rfl

theorem smap_get_last {V} {m : SMap V} {k : Str} {v : V} (h : ∀ e ∈ m, strLt e.1 k = true) :
    SMap.get (m ++ [(k, v)]) k = some v := by
  unfold SMap.get
  rw [List.find?_append]
  have : m.find? (fun e => decide (e.1 = k)) = none := by
    rw [List.find?_eq_none]; intro e he; simp [strLt_ne (h e he)]
  rw [this]; simp

theorem smap_insert_last {V} {m : SMap V} {k : Str} {v v' : V} (h : ∀ e ∈ m, strLt e.1 k = true) :
    SMap.insert (m ++ [(k, v)]) k v' = m ++ [(k, v')] := by
  induction m with
  | nil => simp [SMap.insert]
  | cons e m ih =>
    obtain ⟨k', w⟩ := e
    have h1' : strLt k' k = true := h (k', w) (by simp)
    simp only [List.cons_append]
    rw [SMap.insert, if_neg (fun e => strLt_ne h1' e.symm), if_neg (by rw [strLt_asymm h1']; simp),
      ih fun e he => h e (by simp [he])]

theorem merge_plain (cs : List CandidateProto) (acc : List CandidateProto) (hacc : acc ≠ []) :
    (cs.map fun c => [(([] : Str), [c])]).foldl (fun r m => m.foldl mergeOne r) [([], acc)] = [([], acc ++ cs)] := by
  induction cs generalizing acc with
  | nil => simp
  | cons c cs ih =>
    simp only [List.map_cons, List.foldl_cons, List.foldl_nil]
    have : mergeOne [([], acc)] ([], [c]) = [([], acc ++ [c])] := by
      simp [mergeOne, SMap.get, SMap.insert]
    rw [this, ih _ (by simp)]
    simp

theorem merge_groups (gs : List (Str × List CandidateProto)) (m : SMap (List CandidateProto))
    (hm : (m ++ gs).Pairwise fun a b => strLt a.1 b.1 = true) :
    (gs.map fun g => [g]).foldl (fun r m => m.foldl mergeOne r) m = m ++ gs := by
  induction gs generalizing m with
  | nil => simp
  | cons g gs ih =>
    simp only [List.map_cons, List.foldl_cons, List.foldl_nil]
    have hlt : ∀ e ∈ m, strLt e.1 g.1 = true := by
      intro e he
      rw [List.pairwise_append] at hm
      exact hm.2.2 e he g (by simp)
    have : mergeOne m g = m ++ [g] := by
      unfold mergeOne
      rw [smap_get_none fun e he => strLt_ne (hlt e he)]
      exact smap_insert_end hlt
    rw [this, ih _ (by simpa using hm)]
    simp

/-- The raw map of a printed line. -/
def rawMap (cs : List CandidateProto) (gs : List (Str × List CandidateProto)) : SMap (List CandidateProto) :=
  (if cs.isEmpty then [] else [([], cs)]) ++ gs

theorem merge_all (cs : List CandidateProto) (gs : List (Str × List CandidateProto))
    (hs : (rawMap cs gs).Pairwise fun a b => strLt a.1 b.1 = true) :
    (((cs.map fun c => [(([] : Str), [c])]) ++ gs.map fun g => [g]).foldl (fun r m => m.foldl mergeOne r) []) = rawMap cs gs := by
  rw [List.foldl_append]
  cases cs with
  | nil => simpa [rawMap] using merge_groups gs [] (by simpa [rawMap] using hs)
  | cons c cs =>
    simp only [List.map_cons, List.foldl_cons, List.foldl_nil]
    have : mergeOne [] ([], [c]) = [([], [c])] := by simp [mergeOne, SMap.get, SMap.insert]
    rw [this, merge_plain cs [c] (by simp)]
    have h2 := merge_groups gs [([], [c] ++ cs)] (by simpa [rawMap] using hs)
    rw [h2]; simp [rawMap]

/-- The candidate part of a printed line parses to the printed map. -/
theorem candidates_ok (cs : List CandidateProto) (gs : List (Str × List CandidateProto)) (hcs : ∀ c ∈ cs, RawOk c)
    (hgs : ∀ g ∈ gs, GroupOk g.1 g.2) (hne : cs ≠ [] ∨ gs ≠ [])
    (hs : (rawMap cs gs).Pairwise fun a b => strLt a.1 b.1 = true)
    (hbug : gs ≠ [] → ∀ c, cs.getLast? = some c → ¬ (c.annotation = none ∧ ∀ x ∈ c.kouho, isOkuriKana x = true)) :
    candidates ('/' :: text cs (groupsText gs)) = some ([], rawMap cs gs) := by
  have hst := steps_all cs gs hcs hgs hbug
  have hf : candidate [] = none := by decide
  have hm := many1_steps hst (by
    rcases hne with h | h
    · simp [h]
    · simp [h]) hf
  unfold candidates
  simp [allConsuming, perm2, perm2Step, char_ok, hm, merge_all cs gs hs]

/-- A printed line parses. -/
theorem entry_ok (m : Str) (hmne : m ≠ []) (hm : ' ' ∉ m) (cs : List CandidateProto) (gs : List (Str × List CandidateProto))
    (hcs : ∀ c ∈ cs, RawOk c) (hgs : ∀ g ∈ gs, GroupOk g.1 g.2) (hne : cs ≠ [] ∨ gs ≠ [])
    (hs : (rawMap cs gs).Pairwise fun a b => strLt a.1 b.1 = true)
    (hbug : gs ≠ [] → ∀ c, cs.getLast? = some c → ¬ (c.annotation = none ∧ ∀ x ∈ c.kouho, isOkuriKana x = true)) :
    entry (m ++ ' ' :: '/' :: text cs (groupsText gs)) = some (m, rawMap cs gs) := by
  have h1 : midashi (m ++ ' ' :: '/' :: text cs (groupsText gs)) = some (' ' :: '/' :: text cs (groupsText gs), m) := by
    apply takeTill1_ok hmne
    · intro x hx; simp; intro e; subst e; exact hm hx
    · intro x hx; simp at hx; subst hx; decide
  have h2 : takeWhile1 (· == ' ') (' ' :: '/' :: text cs (groupsText gs)) = some ('/' :: text cs (groupsText gs), [' ']) := by
    have := takeWhile1_ok (p := (· == ' ')) (w := [' ']) (rest := '/' :: text cs (groupsText gs)) (by simp) (by simp)
      (by intro x hx; simp at hx; subst hx; decide)
    simpa using this
  have h3 := candidates_ok cs gs hcs hgs hne hs hbug
  unfold entry
  simp [allConsuming, perm3, perm3Step, h1, h2, h3]

end Cskk.DictLine
