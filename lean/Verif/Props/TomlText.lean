import Verif.Spec.TomlText
import Verif.Props.RuleFile

/-!
# C86: a rule file means what its text says
-/

namespace Cskk.Props.TomlText

open Cskk.TomlText Cskk.Spec.TomlText

theorem bare_iff (c : Char) : bare c = true ↔ Bare c := by
  unfold bare Bare
  simp only [Char.isAlphanum, Char.isAlpha, Char.isUpper, Char.isLower, Char.isDigit, Bool.or_eq_true, Bool.and_eq_true, decide_eq_true_eq,
    beq_iff_eq, Char.le_def]
  constructor
  · rintro ((((⟨h, h'⟩ | ⟨h, h'⟩) | ⟨h, h'⟩) | h) | h)
    · exact .inr (.inl ⟨h, h'⟩)
    · exact .inl ⟨h, h'⟩
    · exact .inr (.inr (.inl ⟨h, h'⟩))
    · exact .inr (.inr (.inr (.inl h)))
    · exact .inr (.inr (.inr (.inr h)))
  · rintro (⟨h, h'⟩ | ⟨h, h'⟩ | ⟨h, h'⟩ | h | h)
    · exact .inl (.inl (.inl (.inr ⟨h, h'⟩)))
    · exact .inl (.inl (.inl (.inl ⟨h, h'⟩)))
    · exact .inl (.inl (.inr ⟨h, h'⟩))
    · exact .inl (.inr h)
    · exact .inr h

theorem printable_iff (c : Char) : printable c = true ↔ Printable c := by
  unfold printable Printable
  simp only [Bool.or_eq_true, Bool.and_eq_true, decide_eq_true_eq, beq_iff_eq, Char.le_def]
  constructor
  · rintro (h | ⟨h, h'⟩)
    · exact .inl h
    · refine .inr ⟨?_, ?_⟩
      · rw [UInt32.le_iff_toNat_le]; exact h
      · rintro rfl; exact h' rfl
  · rintro (h | ⟨h, h'⟩)
    · exact .inl h
    · refine .inr ⟨?_, ?_⟩
      · rw [UInt32.le_iff_toNat_le] at h; exact h
      · intro hc; exact h' (Char.ext (UInt32.toNat_inj.mp hc))

theorem signs_iff (c : Char) : c ∈ signs ↔ c = '[' ∨ c = ']' ∨ c = '.' ∨ c = '=' ∨ c = ',' ∨ c = '\n' := by
  simp [signs]

theorem escape_iff (e : Char) (c : Char) : (∃ p, escapes.find? (fun p => decide (p.1 = e)) = some p ∧ p.2 = c) ↔ Escape e c := by
  constructor
  · rintro ⟨⟨a, b⟩, h, rfl⟩
    have h1 := List.mem_of_find?_eq_some h
    have h2 := List.find?_some h
    simp only [decide_eq_true_eq] at h2
    subst h2
    simp only [escapes, List.mem_cons, List.not_mem_nil, or_false, Prod.mk.injEq] at h1
    rcases h1 with ⟨rfl, rfl⟩ | ⟨rfl, rfl⟩ | ⟨rfl, rfl⟩ | ⟨rfl, rfl⟩ | ⟨rfl, rfl⟩ | ⟨rfl, rfl⟩ | ⟨rfl, rfl⟩ <;> constructor
  · intro h
    cases h <;> exact ⟨_, rfl, rfl⟩

/-- What the rest of the text has to be, in each place. -/
def Rest : At → Str → List Tok → Prop
  | .out, l, us => Spelled l us
  | .word w, l, us => ∃ v l' us', l = v ++ l' ∧ (∀ c ∈ v, Bare c) ∧ (∀ c ∈ l'.head?, ¬ Bare c) ∧ Spelled l' us' ∧
      us = .word (w.reverse ++ v) :: us'
  | .text w, l, us => ∃ q v l' us', l = q ++ '"' :: l' ∧ Quoted q v ∧ Spelled l' us' ∧ us = .text (w.reverse ++ v) :: us'
  | .esc w, l, us => ∃ e c q v l' us', l = e :: (q ++ '"' :: l') ∧ Escape e c ∧ Quoted q v ∧ Spelled l' us' ∧
      us = .text (w.reverse ++ c :: v) :: us'
  | .comment, l, us => ∃ v l', l = v ++ l' ∧ (∀ c ∈ v, Printable c) ∧ (l' = [] ∨ l'.head? = some '\n') ∧ Spelled l' us

theorem start_sound {ts ts' : List Tok} {q : At} {c : Char} (h : start ts c = some (ts', q)) :
    ∃ d, ts'.reverse = ts.reverse ++ d ∧ ∀ l us, Rest q l us → Spelled (c :: l) (d ++ us) := by
  unfold start at h
  split at h
  · rename_i hc; cases h
    exact ⟨[], by simp, fun l us hr => .space c l us hc hr⟩
  split at h
  · rename_i hc; cases h; subst hc
    refine ⟨[], by simp, fun l us hr => ?_⟩
    obtain ⟨v, l', rfl, hv, hl, hs⟩ := hr
    exact .comment v l' _ us rfl hv hl hs
  split at h
  · rename_i hc; cases h; subst hc
    refine ⟨[], by simp, fun l us hr => ?_⟩
    obtain ⟨p, v, l', us', rfl, hq, hs, rfl⟩ := hr
    exact .text p v l' _ us' rfl hq hs
  split at h
  · rename_i hc; cases h
    exact ⟨[.sign c], by simp, fun l us hr => .sign c l us ((signs_iff c).mp hc) hr⟩
  split at h
  · rename_i hc; cases h
    refine ⟨[], by simp, fun l us hr => ?_⟩
    obtain ⟨v, l', us', rfl, hv, hl, hs, rfl⟩ := hr
    refine .word (c :: v) l' _ us' rfl (by simp) ?_ hl hs
    intro x hx
    rcases List.mem_cons.mp hx with rfl | hx
    · exact (bare_iff _).mp hc
    · exact hv x hx
  · cases h

theorem start_complete (ts : List Tok) {c : Char} {l : Str} {us : List Tok} (h : Spelled (c :: l) us) :
    ∃ ts' q d us', start ts c = some (ts', q) ∧ ts'.reverse = ts.reverse ++ d ∧ Rest q l us' ∧ us = d ++ us' := by
  generalize hcl : c :: l = cl at h
  cases h with
  | done => cases hcl
  | space c' l' _ hc hs =>
    cases hcl
    exact ⟨ts, .out, [], us, by unfold start; rw [if_pos hc], by simp, hs, rfl⟩
  | comment w l' _ _ he hw hl hs =>
    subst he; cases hcl
    exact ⟨ts, .comment, [], us, by unfold start; rw [if_neg (by decide), if_pos rfl], by simp, ⟨w, l', rfl, hw, hl, hs⟩, rfl⟩
  | sign c' l' ts' hc hs =>
    cases hcl
    refine ⟨.sign c :: ts, .out, [.sign c], ts', ?_, by simp, hs, rfl⟩
    rcases hc with rfl | rfl | rfl | rfl | rfl | rfl <;> rfl
  | text q w l' _ ts' he hq hs =>
    subst he; cases hcl
    exact ⟨ts, .text [], [], _, rfl, by simp, ⟨q, w, l', ts', rfl, hq, hs, rfl⟩, rfl⟩
  | word w l' _ ts' he hw hb hl hs =>
    subst he
    cases w with
    | nil => exact absurd rfl hw
    | cons x w =>
      cases hcl
      have hx : bare c = true := (bare_iff c).mpr (hb c (by simp))
      refine ⟨ts, .word [c], [], _, ?_, by simp, ⟨w, l', ts', rfl, fun y hy => hb y (by simp [hy]), hl, hs, rfl⟩, rfl⟩
      unfold start
      rw [if_neg, if_neg, if_neg, if_neg, if_pos hx]
      · intro hm
        rcases (signs_iff c).mp hm with rfl | rfl | rfl | rfl | rfl | rfl <;> exact absurd hx (by decide)
      · rintro rfl; exact absurd hx (by decide)
      · rintro rfl; exact absurd hx (by decide)
      · rintro (rfl | rfl) <;> exact absurd hx (by decide)

theorem step_sound {ts ts' : List Tok} {q q' : At} {c : Char} (h : step ts q c = some (ts', q')) :
    ∃ d, ts'.reverse = ts.reverse ++ d ∧ ∀ l us, Rest q' l us → Rest q (c :: l) (d ++ us) := by
  cases q with
  | out => exact start_sound h
  | word w =>
    unfold step at h
    simp only at h
    split at h
    · rename_i hc; cases h
      refine ⟨[], by simp, fun l us hr => ?_⟩
      obtain ⟨v, l', us', rfl, hv, hl, hs, rfl⟩ := hr
      refine ⟨c :: v, l', us', rfl, ?_, hl, hs, by simp⟩
      intro x hx
      rcases List.mem_cons.mp hx with rfl | hx
      · exact (bare_iff _).mp hc
      · exact hv x hx
    · rename_i hc
      obtain ⟨d, hd, hr⟩ := start_sound h
      refine ⟨.word w.reverse :: d, by simp [hd], fun l us hu => ?_⟩
      refine ⟨[], c :: l, d ++ us, rfl, by simp, ?_, hr l us hu, by simp⟩
      intro x hx
      simp only [List.head?_cons, Option.mem_def, Option.some.injEq] at hx
      subst hx
      exact fun hb => hc ((bare_iff _).mpr hb)
  | text w =>
    unfold step at h
    simp only at h
    split at h
    · rename_i hc; cases h; subst hc
      exact ⟨[.text w.reverse], by simp, fun l us hr => ⟨[], [], l, us, rfl, .nil, hr, by simp⟩⟩
    split at h
    · rename_i hc; cases h; subst hc
      refine ⟨[], by simp, fun l us hr => ?_⟩
      obtain ⟨e, x, p, v, l', us', rfl, he, hq, hs, rfl⟩ := hr
      exact ⟨'\\' :: e :: p, x :: v, l', us', rfl, .esc e x p v he hq, hs, rfl⟩
    split at h
    · rename_i h1 h2 hc; cases h
      refine ⟨[], by simp, fun l us hr => ?_⟩
      obtain ⟨p, v, l', us', rfl, hq, hs, rfl⟩ := hr
      exact ⟨c :: p, c :: v, l', us', rfl, .char c p v ((printable_iff c).mp hc) h1 h2 hq, hs, by simp⟩
    · cases h
  | esc w =>
    unfold step at h
    simp only at h
    cases hf : escapes.find? (fun p => decide (p.1 = c)) with
    | none => rw [hf] at h; cases h
    | some p =>
      rw [hf] at h
      cases h
      refine ⟨[], by simp, fun l us hr => ?_⟩
      obtain ⟨r, v, l', us', rfl, hq, hs, rfl⟩ := hr
      exact ⟨c, p.2, r, v, l', us', rfl, (escape_iff c p.2).mp ⟨p, hf, rfl⟩, hq, hs, by simp⟩
  | comment =>
    unfold step at h
    simp only at h
    split at h
    · rename_i hc; cases h; subst hc
      exact ⟨[.sign '\n'], by simp, fun l us hr =>
        ⟨[], '\n' :: l, rfl, by simp, .inr rfl, .sign _ l us (by simp) hr⟩⟩
    split at h
    · rename_i hc; cases h
      refine ⟨[], by simp, fun l us hr => ?_⟩
      obtain ⟨v, l', rfl, hv, hl, hs⟩ := hr
      refine ⟨c :: v, l', rfl, ?_, hl, hs⟩
      intro x hx
      rcases List.mem_cons.mp hx with rfl | hx
      · exact (printable_iff _).mp hc
      · exact hv x hx
    · cases h

theorem step_complete (ts : List Tok) {q : At} {c : Char} {l : Str} {us : List Tok} (h : Rest q (c :: l) us) :
    ∃ ts' q' d us', step ts q c = some (ts', q') ∧ ts'.reverse = ts.reverse ++ d ∧ Rest q' l us' ∧ us = d ++ us' := by
  cases q with
  | out => exact start_complete ts h
  | word w =>
    obtain ⟨v, l', us', hv, hb, hl, hs, rfl⟩ := h
    cases v with
    | nil =>
      cases hv
      have hc : ¬ bare c = true := fun hx => hl c (by simp) ((bare_iff c).mp hx)
      obtain ⟨ts', q', d, us'', h1, h2, h3, rfl⟩ := start_complete (.word w.reverse :: ts) hs
      refine ⟨ts', q', .word w.reverse :: d, us'', ?_, by simp [h2], h3, by simp⟩
      unfold step; simp only; rw [if_neg hc]; exact h1
    | cons x v =>
      cases hv
      refine ⟨ts, .word (c :: w), [], _, ?_, by simp, ⟨v, l', us', rfl, fun y hy => hb y (by simp [hy]), hl, hs, rfl⟩, by simp⟩
      unfold step; simp only; rw [if_pos ((bare_iff c).mpr (hb c (by simp)))]
  | text w =>
    obtain ⟨p, v, l', us', hv, hq, hs, rfl⟩ := h
    cases hq with
    | nil =>
      cases hv
      exact ⟨.text w.reverse :: ts, .out, [.text w.reverse], us', rfl, by simp, hs, by simp⟩
    | char x p v hx h1 h2 hq =>
      cases hv
      refine ⟨ts, .text (c :: w), [], _, ?_, by simp, ⟨p, v, l', us', rfl, hq, hs, rfl⟩, by simp⟩
      unfold step; simp only; rw [if_neg h1, if_neg h2, if_pos ((printable_iff c).mpr hx)]
    | esc e x p v he hq =>
      cases hv
      exact ⟨ts, .esc w, [], _, rfl, by simp, ⟨e, x, p, v, l', us', rfl, he, hq, hs, rfl⟩, rfl⟩
  | esc w =>
    obtain ⟨e, x, p, v, l', us', hv, he, hq, hs, rfl⟩ := h
    cases hv
    obtain ⟨r, hr, rfl⟩ := (escape_iff c x).mpr he
    refine ⟨ts, .text (r.2 :: w), [], _, ?_, by simp, ⟨p, v, l', us', rfl, hq, hs, rfl⟩, by simp⟩
    unfold step; simp only; rw [hr]; rfl
  | comment =>
    obtain ⟨v, l', hv, hp, hl, hs⟩ := h
    cases v with
    | nil =>
      cases hv
      have hc : c = '\n' := by
        rcases hl with h | h
        · cases h
        · simpa using h
      subst hc
      obtain ⟨ts', q', d, us'', h1, h2, h3, h4⟩ := start_complete ts hs
      exact ⟨ts', q', d, us'', h1, h2, h3, h4⟩
    | cons x v =>
      cases hv
      have hx := hp c (by simp)
      refine ⟨ts, .comment, [], us, ?_, by simp, ⟨v, l', rfl, fun y hy => hp y (by simp [hy]), hl, hs⟩, rfl⟩
      unfold step; simp only
      rw [if_neg, if_pos ((printable_iff c).mpr hx)]
      rintro rfl
      have := (printable_iff '\n').mpr hx
      exact absurd this (by decide)

theorem run_iff (l : Str) (ts : List Tok) (q : At) (r : List Tok) :
    run ts q l = some r ↔ ∃ us, Rest q l us ∧ r = ts.reverse ++ us := by
  induction l generalizing ts q with
  | nil =>
    unfold run
    constructor
    · intro h
      cases q with
      | out => cases h; exact ⟨[], .done, by simp⟩
      | comment => cases h; exact ⟨[], ⟨[], [], rfl, by simp, .inl rfl, .done⟩, by simp⟩
      | word w => cases h; exact ⟨[.word w.reverse], ⟨[], [], [], rfl, by simp, by simp, .done, by simp⟩, by simp⟩
      | text w => cases h
      | esc w => cases h
    · rintro ⟨us, h, rfl⟩
      have hd : ∀ us, Spelled [] us → us = [] := by
        intro us h
        generalize he : ([] : Str) = e at h
        cases h with
        | done => rfl
        | space => cases he
        | sign => cases he
        | comment w l _ _ h1 => subst he; cases h1
        | text w l _ _ _ h1 => subst he; cases h1
        | word w l _ _ h1 h2 =>
          subst he
          cases w with
          | nil => exact absurd rfl h2
          | cons => cases h1
      cases q with
      | out => rw [hd us h]; simp [finish]
      | comment =>
        obtain ⟨v, l', hv, _, _, hs⟩ := h
        obtain ⟨rfl, rfl⟩ := List.append_eq_nil_iff.mp hv.symm
        rw [hd us hs]; simp [finish]
      | word w =>
        obtain ⟨v, l', us', hv, _, _, hs, rfl⟩ := h
        obtain ⟨rfl, rfl⟩ := List.append_eq_nil_iff.mp hv.symm
        rw [hd us' hs]; simp [finish]
      | text w => obtain ⟨p, v, l', us', hv, _⟩ := h; simp at hv
      | esc w => obtain ⟨e, x, p, v, l', us', hv, _⟩ := h; simp at hv
  | cons c l ih =>
    unfold run
    constructor
    · intro h
      cases hst : step ts q c with
      | none => rw [hst] at h; cases h
      | some r' =>
        rw [hst] at h
        obtain ⟨us, hu, rfl⟩ := (ih _ _).mp h
        obtain ⟨d, hd, hr⟩ := step_sound (ts' := r'.1) (q' := r'.2) hst
        exact ⟨d ++ us, hr l us hu, by rw [hd]; simp⟩
    · rintro ⟨us, h, rfl⟩
      obtain ⟨ts', q', d, us', h1, h2, h3, rfl⟩ := step_complete ts h
      rw [h1]
      exact (ih _ _).mpr ⟨us', h3, by rw [h2]; simp⟩

/-- The symbols of a text are those it is written with. -/
theorem lex_iff (s : Str) (ts : List Tok) : lex s = some ts ↔ Spelled s ts := by
  unfold lex
  rw [run_iff]
  constructor
  · rintro ⟨us, h, rfl⟩; exact h
  · exact fun h => ⟨ts, h, by simp⟩

/-- The statements behind the end of one. -/
def Tail (ts : List Tok) (is : List Item) : Prop := (ts = [] ∨ ts.head? = some (.sign '\n')) ∧ Statements ts is

/-- What the rest of the symbols has to be, in each place. -/
def PRest : Pos → List Tok → List Item → Prop
  | .bol, ts, is => Statements ts is
  | .eol, ts, is => Tail ts is
  | .headKey p, ts, is => ∃ a ks rest js, ts = a ++ .sign ']' :: rest ∧ Path a ks ∧ Tail rest js ∧ is = .header (p.reverse ++ ks) :: js
  | .headDot p, ts, is => ∃ rest js, Tail rest js ∧ ((ts = .sign ']' :: rest ∧ is = .header p.reverse :: js) ∨
      ∃ a ks, ts = .sign '.' :: (a ++ .sign ']' :: rest) ∧ Path a ks ∧ is = .header (p.reverse ++ ks) :: js)
  | .key k, ts, is => ∃ rest js, Tail rest js ∧ ((∃ w, ts = .sign '=' :: .text w :: rest ∧ is = .entry k (.text w) :: js) ∨
      ∃ a l, ts = .sign '=' :: .sign '[' :: (a ++ .sign ']' :: rest) ∧ Elements a l ∧ is = .entry k (.list l) :: js)
  | .value k, ts, is => ∃ rest js, Tail rest js ∧ ((∃ w, ts = .text w :: rest ∧ is = .entry k (.text w) :: js) ∨
      ∃ a l, ts = .sign '[' :: (a ++ .sign ']' :: rest) ∧ Elements a l ∧ is = .entry k (.list l) :: js)
  | .item k l, ts, is => ∃ a l' rest js, ts = a ++ .sign ']' :: rest ∧ Elements a l' ∧ Tail rest js ∧
      is = .entry k (.list (l.reverse ++ l')) :: js
  | .comma k l, ts, is => ∃ f rest js, Feeds f ∧ Tail rest js ∧ ((ts = f ++ .sign ']' :: rest ∧ is = .entry k (.list l.reverse) :: js) ∨
      ∃ a l', ts = f ++ .sign ',' :: (a ++ .sign ']' :: rest) ∧ Elements a l' ∧ is = .entry k (.list (l.reverse ++ l')) :: js)

theorem keyOf_iff (t : Tok) (k : Str) : keyOf t = some k ↔ IsName t k := by
  constructor
  · intro h; cases t <;> cases h <;> constructor
  · intro h; cases h <;> rfl

theorem feeds_nil : Feeds [] := by intro t h; cases h

theorem feeds_cons {f : List Tok} (h : Feeds f) : Feeds (.sign '\n' :: f) := by
  intro t ht
  rcases List.mem_cons.mp ht with rfl | ht
  · rfl
  · exact h t ht

theorem feeds_tail {t : Tok} {f : List Tok} (h : Feeds (t :: f)) : t = .sign '\n' ∧ Feeds f :=
  ⟨h t (by simp), fun x hx => h x (by simp [hx])⟩

theorem elements_feed {a : List Tok} {l : List Str} (h : Elements a l) : Elements (.sign '\n' :: a) l := by
  cases h with
  | none _ h => exact .none _ (feeds_cons h)
  | last f g w hf hg => exact .last (.sign '\n' :: f) g w (feeds_cons hf) hg
  | more f g ts w ws hf hg he => exact .more (.sign '\n' :: f) g ts w ws (feeds_cons hf) hg he

/-- The head of the elements of an array. -/
theorem elements_inv {a : List Tok} {l : List Str} (h : Elements a l) :
    (a = [] ∧ l = []) ∨ (∃ b, a = .sign '\n' :: b ∧ Elements b l) ∨
      (∃ w g, a = .text w :: g ∧ l = [w] ∧ Feeds g) ∨
      ∃ w g b l', a = .text w :: (g ++ .sign ',' :: b) ∧ l = w :: l' ∧ Feeds g ∧ Elements b l' := by
  cases h with
  | none _ h =>
    cases a with
    | nil => exact .inl ⟨rfl, rfl⟩
    | cons t f => obtain ⟨rfl, hf⟩ := feeds_tail h; exact .inr (.inl ⟨f, rfl, .none f hf⟩)
  | last f g w hf hg =>
    cases f with
    | nil => exact .inr (.inr (.inl ⟨w, g, rfl, rfl, hg⟩))
    | cons t f => obtain ⟨rfl, hf'⟩ := feeds_tail hf; exact .inr (.inl ⟨_, rfl, .last f g w hf' hg⟩)
  | more f g ts w ws hf hg he =>
    cases f with
    | nil => exact .inr (.inr (.inr ⟨w, g, ts, ws, rfl, rfl, hg, he⟩))
    | cons t f => obtain ⟨rfl, hf'⟩ := feeds_tail hf; exact .inr (.inl ⟨_, rfl, .more f g ts w ws hf' hg he⟩)

theorem next_sound {is is' : List Item} {q q' : Pos} {t : Tok} (h : next is q t = some (is', q')) :
    ∃ d, is'.reverse = is.reverse ++ d ∧ ∀ ts js, PRest q' ts js → PRest q (t :: ts) (d ++ js) := by
  cases q with
  | bol =>
    unfold next at h
    simp only at h
    split at h
    · rename_i ht; cases h; subst ht
      exact ⟨[], by simp, fun ts js hr => .blank ts js hr⟩
    split at h
    · rename_i ht; cases h; subst ht
      refine ⟨[], by simp, fun ts js hr => ?_⟩
      obtain ⟨a, ks, rest, js', rfl, hp, ⟨he, hs⟩, rfl⟩ := hr
      have := Statements.more _ rest _ js' (.header a ks hp) he hs
      simpa [PRest] using this
    · cases hk : keyOf t with
      | none => rw [hk] at h; cases h
      | some k =>
        rw [hk] at h; cases h
        refine ⟨[], by simp, fun ts js hr => ?_⟩
        obtain ⟨rest, js', ⟨he, hs⟩, ⟨w, rfl, rfl⟩ | ⟨a, l, rfl, hel, rfl⟩⟩ := hr
        · exact Statements.more _ rest _ js' (.text t k w ((keyOf_iff t k).mp hk)) he hs
        · have := Statements.more _ rest _ js' (.list t k a l ((keyOf_iff t k).mp hk) hel) he hs
          simpa [PRest] using this
  | headKey p =>
    unfold next at h
    simp only at h
    cases hk : keyOf t with
    | none => rw [hk] at h; cases h
    | some k =>
      rw [hk] at h; cases h
      refine ⟨[], by simp, fun ts js hr => ?_⟩
      obtain ⟨rest, js', hT, ⟨rfl, rfl⟩ | ⟨a, ks, rfl, hp, rfl⟩⟩ := hr
      · exact ⟨[t], [k], rest, js', rfl, .one t k ((keyOf_iff t k).mp hk), hT, by simp⟩
      · exact ⟨t :: .sign '.' :: a, k :: ks, rest, js', rfl, .more t k a ks ((keyOf_iff t k).mp hk) hp, hT, by simp⟩
  | headDot p =>
    unfold next at h
    simp only at h
    split at h
    · rename_i ht; cases h; subst ht
      refine ⟨[], by simp, fun ts js hr => ?_⟩
      obtain ⟨a, ks, rest, js', rfl, hp, hT, rfl⟩ := hr
      exact ⟨rest, js', hT, .inr ⟨a, ks, rfl, hp, rfl⟩⟩
    split at h
    · rename_i ht; cases h; subst ht
      exact ⟨[.header p.reverse], by simp, fun ts js hr => ⟨ts, js, hr, .inl ⟨rfl, rfl⟩⟩⟩
    · cases h
  | key k =>
    unfold next at h
    simp only at h
    split at h
    · rename_i ht; cases h; subst ht
      refine ⟨[], by simp, fun ts js hr => ?_⟩
      obtain ⟨rest, js', hT, ⟨w, rfl, rfl⟩ | ⟨a, l, rfl, hel, rfl⟩⟩ := hr
      · exact ⟨rest, js', hT, .inl ⟨w, rfl, rfl⟩⟩
      · exact ⟨rest, js', hT, .inr ⟨a, l, rfl, hel, rfl⟩⟩
    · cases h
  | value k =>
    unfold next at h
    simp only at h
    split at h
    · rename_i w; cases h
      exact ⟨[.entry k (.text w)], by simp, fun ts js hr => ⟨ts, js, hr, .inl ⟨w, rfl, rfl⟩⟩⟩
    · split at h
      · rename_i ht; cases h; subst ht
        refine ⟨[], by simp, fun ts js hr => ?_⟩
        obtain ⟨a, l, rest, js', rfl, hel, hT, rfl⟩ := hr
        exact ⟨rest, js', hT, .inr ⟨a, l, rfl, hel, rfl⟩⟩
      · cases h
  | item k l =>
    unfold next at h
    simp only at h
    split at h
    · rename_i w; cases h
      refine ⟨[], by simp, fun ts js hr => ?_⟩
      obtain ⟨f, rest, js', hf, hT, ⟨rfl, rfl⟩ | ⟨a, l', rfl, hel, rfl⟩⟩ := hr
      · exact ⟨.text w :: f, [w], rest, js', rfl, .last [] f w feeds_nil hf, hT, by simp⟩
      · exact ⟨.text w :: (f ++ .sign ',' :: a), w :: l', rest, js', by simp, .more [] f a w l' feeds_nil hf hel, hT, by simp⟩
    · split at h
      · rename_i ht; cases h; subst ht
        refine ⟨[], by simp, fun ts js hr => ?_⟩
        obtain ⟨a, l', rest, js', rfl, hel, hT, rfl⟩ := hr
        exact ⟨.sign '\n' :: a, l', rest, js', rfl, elements_feed hel, hT, rfl⟩
      split at h
      · rename_i ht; cases h; subst ht
        exact ⟨[.entry k (.list l.reverse)], by simp, fun ts js hr => ⟨[], [], ts, js, rfl, .none [] feeds_nil, hr, by simp⟩⟩
      · cases h
  | comma k l =>
    unfold next at h
    simp only at h
    split at h
    · rename_i ht; cases h; subst ht
      refine ⟨[], by simp, fun ts js hr => ?_⟩
      obtain ⟨f, rest, js', hf, hT, ⟨rfl, rfl⟩ | ⟨a, l', rfl, hel, rfl⟩⟩ := hr
      · exact ⟨.sign '\n' :: f, rest, js', feeds_cons hf, hT, .inl ⟨rfl, rfl⟩⟩
      · exact ⟨.sign '\n' :: f, rest, js', feeds_cons hf, hT, .inr ⟨a, l', rfl, hel, rfl⟩⟩
    split at h
    · rename_i ht; cases h; subst ht
      refine ⟨[], by simp, fun ts js hr => ?_⟩
      obtain ⟨a, l', rest, js', rfl, hel, hT, rfl⟩ := hr
      exact ⟨[], rest, js', feeds_nil, hT, .inr ⟨a, l', rfl, hel, rfl⟩⟩
    split at h
    · rename_i ht; cases h; subst ht
      exact ⟨[.entry k (.list l.reverse)], by simp, fun ts js hr => ⟨[], ts, js, feeds_nil, hr, .inl ⟨rfl, rfl⟩⟩⟩
    · cases h
  | eol =>
    unfold next at h
    simp only at h
    split at h
    · rename_i ht; cases h; subst ht
      exact ⟨[], by simp, fun ts js hr => ⟨.inr rfl, .blank ts js hr⟩⟩
    · cases h

theorem name_ne_sign {t : Tok} {k : Str} (h : IsName t k) (c : Char) : t ≠ .sign c := by
  cases h <;> intro h <;> cases h

/-- The first symbol of the statements. -/
theorem bol_complete (is : List Item) {t : Tok} {ts : List Tok} {js : List Item} (h : Statements (t :: ts) js) :
    ∃ is' q' d js', next is .bol t = some (is', q') ∧ is'.reverse = is.reverse ++ d ∧ PRest q' ts js' ∧ js = d ++ js' := by
  generalize hcl : t :: ts = cl at h
  cases h with
  | done => cases hcl
  | blank ts' js' hs => cases hcl; exact ⟨is, .bol, [], js, rfl, by simp, hs, rfl⟩
  | more a rest i js' hi he hs =>
    cases hi with
    | header a p hp =>
      cases hcl
      exact ⟨is, .headKey [], [], _, rfl, by simp, ⟨a, p, rest, js', by simp, hp, ⟨he, hs⟩, rfl⟩, rfl⟩
    | text t' k w hk =>
      cases hcl
      refine ⟨is, .key k, [], _, ?_, by simp, ⟨rest, js', ⟨he, hs⟩, .inl ⟨w, rfl, rfl⟩⟩, rfl⟩
      unfold next; simp only
      rw [if_neg (name_ne_sign hk _), if_neg (name_ne_sign hk _), (keyOf_iff t k).mpr hk]; rfl
    | list t' k a l hk hel =>
      cases hcl
      refine ⟨is, .key k, [], _, ?_, by simp, ⟨rest, js', ⟨he, hs⟩, .inr ⟨a, l, by simp, hel, rfl⟩⟩, rfl⟩
      unfold next; simp only
      rw [if_neg (name_ne_sign hk _), if_neg (name_ne_sign hk _), (keyOf_iff t k).mpr hk]; rfl

theorem next_complete (is : List Item) {q : Pos} {t : Tok} {ts : List Tok} {js : List Item} (h : PRest q (t :: ts) js) :
    ∃ is' q' d js', next is q t = some (is', q') ∧ is'.reverse = is.reverse ++ d ∧ PRest q' ts js' ∧ js = d ++ js' := by
  cases q with
  | bol => exact bol_complete is h
  | headKey p =>
    obtain ⟨a, ks, rest, js', ha, hp, hT, rfl⟩ := h
    cases hp with
    | one t' k hk =>
      cases ha
      refine ⟨is, .headDot (k :: p), [], _, ?_, by simp, ⟨rest, js', hT, .inl ⟨rfl, rfl⟩⟩, by simp⟩
      unfold next; simp only; rw [(keyOf_iff t k).mpr hk]; rfl
    | more t' k a ks hk hp =>
      cases ha
      refine ⟨is, .headDot (k :: p), [], _, ?_, by simp, ⟨rest, js', hT, .inr ⟨a, ks, rfl, hp, rfl⟩⟩, by simp⟩
      unfold next; simp only; rw [(keyOf_iff t k).mpr hk]; rfl
  | headDot p =>
    obtain ⟨rest, js', hT, ⟨ha, rfl⟩ | ⟨a, ks, ha, hp, rfl⟩⟩ := h
    · cases ha
      exact ⟨.header p.reverse :: is, .eol, [.header p.reverse], js', rfl, by simp, hT, rfl⟩
    · cases ha
      exact ⟨is, .headKey p, [], _, rfl, by simp, ⟨a, ks, rest, js', rfl, hp, hT, rfl⟩, rfl⟩
  | key k =>
    obtain ⟨rest, js', hT, ⟨w, ha, rfl⟩ | ⟨a, l, ha, hel, rfl⟩⟩ := h
    · cases ha
      exact ⟨is, .value k, [], _, rfl, by simp, ⟨rest, js', hT, .inl ⟨w, rfl, rfl⟩⟩, rfl⟩
    · cases ha
      exact ⟨is, .value k, [], _, rfl, by simp, ⟨rest, js', hT, .inr ⟨a, l, rfl, hel, rfl⟩⟩, rfl⟩
  | value k =>
    obtain ⟨rest, js', hT, ⟨w, ha, rfl⟩ | ⟨a, l, ha, hel, rfl⟩⟩ := h
    · cases ha
      exact ⟨.entry k (.text w) :: is, .eol, [.entry k (.text w)], js', rfl, by simp, hT, rfl⟩
    · cases ha
      exact ⟨is, .item k [], [], _, rfl, by simp, ⟨a, l, rest, js', rfl, hel, hT, rfl⟩, rfl⟩
  | item k l =>
    obtain ⟨a, l', rest, js', ha, hel, hT, rfl⟩ := h
    rcases elements_inv hel with ⟨rfl, rfl⟩ | ⟨b, rfl, hb⟩ | ⟨w, g, rfl, rfl, hg⟩ | ⟨w, g, b, l'', rfl, rfl, hg, hb⟩
    · cases ha
      exact ⟨.entry k (.list l.reverse) :: is, .eol, [.entry k (.list l.reverse)], js', rfl, by simp, hT, by simp⟩
    · cases ha
      exact ⟨is, .item k l, [], _, rfl, by simp, ⟨b, l', rest, js', rfl, hb, hT, rfl⟩, rfl⟩
    · cases ha
      exact ⟨is, .comma k (w :: l), [], _, rfl, by simp, ⟨g, rest, js', hg, hT, .inl ⟨rfl, rfl⟩⟩, by simp⟩
    · cases ha
      exact ⟨is, .comma k (w :: l), [], _, rfl, by simp, ⟨g, rest, js', hg, hT, .inr ⟨b, l'', by simp, hb, rfl⟩⟩, by simp⟩
  | comma k l =>
    obtain ⟨f, rest, js', hf, hT, ⟨ha, rfl⟩ | ⟨a, l', ha, hel, rfl⟩⟩ := h
    · cases f with
      | nil =>
        cases ha
        exact ⟨.entry k (.list l.reverse) :: is, .eol, [.entry k (.list l.reverse)], js', rfl, by simp, hT, rfl⟩
      | cons x f =>
        obtain ⟨rfl, hf'⟩ := feeds_tail hf
        cases ha
        exact ⟨is, .comma k l, [], _, rfl, by simp, ⟨f, rest, js', hf', hT, .inl ⟨rfl, rfl⟩⟩, rfl⟩
    · cases f with
      | nil =>
        cases ha
        exact ⟨is, .item k l, [], _, rfl, by simp, ⟨a, l', rest, js', rfl, hel, hT, rfl⟩, rfl⟩
      | cons x f =>
        obtain ⟨rfl, hf'⟩ := feeds_tail hf
        cases ha
        exact ⟨is, .comma k l, [], _, rfl, by simp, ⟨f, rest, js', hf', hT, .inr ⟨a, l', rfl, hel, rfl⟩⟩, rfl⟩
  | eol =>
    obtain ⟨he, hs⟩ := h
    have ht : t = .sign '\n' := by
      rcases he with h | h
      · cases h
      · simpa using h
    subst ht
    exact bol_complete is hs

theorem statements_nil {is : List Item} (h : Statements [] is) : is = [] := by
  generalize he : ([] : List Tok) = e at h
  cases h with
  | done => rfl
  | blank => cases he
  | more a rest i js hi => cases hi <;> cases he

theorem parseFrom_iff (ts : List Tok) (is : List Item) (q : Pos) (r : List Item) :
    parseFrom is q ts = some r ↔ ∃ js, PRest q ts js ∧ r = is.reverse ++ js := by
  induction ts generalizing is q with
  | nil =>
    unfold parseFrom
    constructor
    · intro h
      split at h
      · rename_i hq
        cases h
        rcases hq with rfl | rfl
        · exact ⟨[], .done, by simp⟩
        · exact ⟨[], ⟨.inl rfl, .done⟩, by simp⟩
      · cases h
    · rintro ⟨js, h, rfl⟩
      cases q with
      | bol => rw [statements_nil h]; simp
      | eol => rw [statements_nil h.2]; simp
      | headKey p => obtain ⟨a, ks, rest, js', ha, _⟩ := h; simp at ha
      | headDot p => obtain ⟨rest, js', _, ⟨ha, _⟩ | ⟨a, ks, ha, _⟩⟩ := h <;> cases ha
      | key k => obtain ⟨rest, js', _, ⟨w, ha, _⟩ | ⟨a, l, ha, _⟩⟩ := h <;> cases ha
      | value k => obtain ⟨rest, js', _, ⟨w, ha, _⟩ | ⟨a, l, ha, _⟩⟩ := h <;> cases ha
      | item k l => obtain ⟨a, l', rest, js', ha, _⟩ := h; simp at ha
      | comma k l => obtain ⟨f, rest, js', _, _, ⟨ha, _⟩ | ⟨a, l', ha, _⟩⟩ := h <;> simp at ha
  | cons t ts ih =>
    unfold parseFrom
    constructor
    · intro h
      cases hst : next is q t with
      | none => rw [hst] at h; cases h
      | some r' =>
        rw [hst] at h
        obtain ⟨js, hj, rfl⟩ := (ih _ _).mp h
        obtain ⟨d, hd, hr⟩ := next_sound (is' := r'.1) (q' := r'.2) hst
        exact ⟨d ++ js, hr ts js hj, by rw [hd]; simp⟩
    · rintro ⟨js, h, rfl⟩
      obtain ⟨is', q', d, js', h1, h2, h3, rfl⟩ := next_complete is h
      rw [h1]
      exact (ih _ _).mpr ⟨js', h3, by rw [h2]; simp⟩

/-- The statements read are those which the symbols say. -/
theorem parse_iff (ts : List Tok) (is : List Item) : parse ts = some is ↔ Statements ts is := by
  unfold parse
  rw [parseFrom_iff]
  constructor
  · rintro ⟨js, h, rfl⟩; exact h
  · exact fun h => ⟨is, h, by simp⟩

theorem group_items (is : List Item) : items ⟨(group is).1, (group is).2⟩ = is := by
  induction is with
  | nil => rfl
  | cons i is ih =>
    cases i with
    | entry k v =>
      unfold items entryItems at ih ⊢
      simp only [group, List.map_cons, List.cons_append] at ih ⊢
      rw [ih]
    | header p =>
      unfold items entryItems at ih ⊢
      simp only [group, List.map_nil, List.nil_append, List.flatMap_cons, List.cons_append] at ih ⊢
      rw [ih]

theorem group_entries (es : List (Str × Value)) (is : List Item) :
    group (entryItems es ++ is) = (es ++ (group is).1, (group is).2) := by
  induction es with
  | nil => rfl
  | cons e es ih =>
    unfold entryItems at ih ⊢
    simp only [List.map_cons, List.cons_append, group, ih]

theorem items_group (d : Doc) : group (items d) = (d.root, d.tables) := by
  have key : ∀ ts : List (List Str × List (Str × Value)),
      group (ts.flatMap fun t => .header t.1 :: entryItems t.2) = ([], ts) := by
    intro ts
    induction ts with
    | nil => rfl
    | cons t ts ih =>
      simp only [List.flatMap_cons, List.cons_append, group, group_entries, ih, List.append_nil]
  unfold items
  rw [group_entries, key]; simp

theorem distinct_iff {α : Type} [DecidableEq α] (l : List α) : distinct l = true ↔ l.Nodup := by
  induction l with
  | nil => simp [distinct]
  | cons a l ih => simp [distinct, ih]

theorem lawful_iff (d : Doc) : lawful d = true ↔ Lawful d := by
  unfold lawful
  simp only [List.all_cons, Bool.and_eq_true, List.all_eq_true, distinct_iff, Bool.not_eq_eq_eq_not, Bool.not_true, List.nil_append]
  have hpre : ∀ (k : Str) (p : List Str), ([k].isPrefixOf p = false) ↔ p.head? ≠ some k := by
    intro k p
    cases p with
    | nil => simp [List.isPrefixOf]
    | cons x p => simp [List.isPrefixOf]; exact ⟨fun h he => h he.symm, fun h he => h he.symm⟩
  have hpre' : ∀ (a b : List Str), (a.isPrefixOf b = false) ↔ ¬ a <+: b := by
    intro a b
    rw [← Bool.not_eq_true, List.isPrefixOf_iff_prefix]
  constructor
  · rintro ⟨h1, ⟨h2, h3⟩, h4⟩
    refine ⟨h1, h2, fun t ht => (h4 t ht).1, fun e he u hu => (hpre _ _).mp (h3 u hu e he), fun t ht e he u hu => ?_⟩
    exact (hpre' _ _).mp ((h4 t ht).2 u hu e he)
  · intro h
    exact ⟨h.tables, ⟨h.root, fun u hu e he => (hpre _ _).mpr (h.rootEntries e he u hu)⟩, fun t ht =>
      ⟨h.keys t ht, fun u hu e he => (hpre' _ _).mpr (h.entries t ht e he u hu)⟩⟩

/-- **C86.** A file is read as a document iff its text says that document. -/
theorem document_iff (s : Str) (d : Doc) : document s = some d ↔ IsDocument s d := by
  unfold document IsDocument
  constructor
  · intro h
    cases hl : lex s with
    | none => rw [hl] at h; cases h
    | some ts =>
      rw [hl] at h
      cases hp : parse ts with
      | none => simp only [Option.bind_eq_bind, Option.bind_some, hp] at h; cases h
      | some is =>
        simp only [Option.bind_eq_bind, Option.bind_some, hp] at h
        split at h
        · rename_i hd
          cases h
          exact ⟨(lawful_iff _).mp hd, ts, (lex_iff _ _).mp hl, by rw [group_items]; exact (parse_iff _ _).mp hp⟩
        · cases h
  · rintro ⟨hd, ts, hs, hst⟩
    rw [(lex_iff _ _).mpr hs]
    simp only [Option.bind_eq_bind, Option.bind_some, (parse_iff _ _).mpr hst, items_group]
    rw [if_pos ((lawful_iff _).mpr hd)]

end Cskk.Props.TomlText
