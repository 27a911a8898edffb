import Verif.Spec.RuleText
import Verif.Props.KeyToken
import Verif.Props.Navigate

/-!
# C60: a rule file means what it says
-/

namespace Cskk.Props.RuleFile
open Spec.RuleText

/-- Names which contain neither brackets nor line feeds. -/
def Clean (names : List Str) : Prop := ∀ n ∈ names, '(' ∉ n ∧ ')' ∉ n ∧ '\n' ∉ n

theorem clean_input : Clean Instruction.inputModeNames := by
  unfold Clean; decide +kernel

theorem clean_composition : Clean Instruction.compositionModeNames := by
  unfold Clean; decide +kernel

theorem names_input : Instruction.inputModeNames = inputModeNames := by decide +kernel

theorem names_composition : Instruction.compositionModeNames = compositionModeNames := by decide +kernel

/-- Text up to the first occurrence of a character is determined. -/
theorem split_unique {d : Char} {a b r t : Str} (ha : d ∉ a) (hb : d ∉ b) (h : a ++ d :: r = b ++ d :: t) : a = b ∧ r = t := by
  induction a generalizing b with
  | nil =>
    cases b with
    | nil => simp at h; exact ⟨rfl, h⟩
    | cons y b => simp at h; exact absurd (by rw [h.1]; simp) hb
  | cons x a ih =>
    cases b with
    | nil => simp at h; exact absurd (by rw [h.1]; simp) ha
    | cons y b =>
      simp only [List.cons_append, List.cons.injEq] at h
      obtain ⟨h1, h2⟩ := ih (fun hm => ha (by simp [hm])) (fun hm => hb (by simp [hm])) h.2
      exact ⟨by rw [h.1, h1], h2⟩

theorem bracketed_some {names : List Str} (hc : Clean names) {s n : Str} :
    Instruction.bracketed names s = some n ↔ n ∈ names ∧ ∃ tail, s = '(' :: (n ++ ')' :: tail) := by
  unfold Instruction.bracketed
  constructor
  · intro h
    refine ⟨List.mem_of_find?_eq_some h, ?_⟩
    have := List.find?_some h
    obtain ⟨t, ht⟩ := List.isPrefixOf_iff_prefix.mp this
    exact ⟨t, by rw [← ht]; simp⟩
  · rintro ⟨hn, tail, rfl⟩
    cases hf : names.find? fun n' => ('(' :: n' ++ [')']).isPrefixOf ('(' :: (n ++ ')' :: tail)) with
    | none =>
      rw [List.find?_eq_none] at hf
      exact absurd (List.isPrefixOf_iff_prefix.mpr ⟨tail, by simp⟩) (hf n hn)
    | some n' =>
      have hm := List.mem_of_find?_eq_some hf
      have hp := List.find?_some hf
      obtain ⟨t, ht⟩ := List.isPrefixOf_iff_prefix.mp hp
      have ht' : n' ++ ')' :: t = n ++ ')' :: tail := by simpa using ht
      rw [(split_unique (hc n' hm).2.1 (hc n hn).2.1 ht').1]

theorem bracketed_none {names : List Str} {s : Str} :
    Instruction.bracketed names s = none ↔ ∀ n ∈ names, ¬ ('(' :: (n ++ [')'])) <+: s := by
  unfold Instruction.bracketed
  rw [List.find?_eq_none]
  constructor <;> intro h n hn hp
  · exact h n hn (List.isPrefixOf_iff_prefix.mpr hp)
  · exact h n hn (List.isPrefixOf_iff_prefix.mp hp)

theorem captureLine_none {names : List Str} {l : Str} : Instruction.captureLine names l = none ↔ NoCall names l := by
  induction l with
  | nil =>
    simp only [Instruction.captureLine, true_iff]
    intro n _ h
    have := List.eq_nil_of_infix_nil h
    cases this
  | cons c cs ih =>
    unfold Instruction.captureLine
    constructor
    · intro h
      split at h
      · cases h
      · rename_i hn
        have hb : Instruction.bracketed names (c :: cs) = none := by simpa using h
        intro n hm hin
        rcases List.infix_cons_iff.mp hin with hp | hi
        · exact bracketed_none.mp hb n hm hp
        · exact ih.mp hn n hm hi
    · intro h
      have h1 : Instruction.captureLine names cs = none :=
        ih.mpr fun n hm hi => h n hm (hi.trans (List.infix_cons (List.infix_refl cs)))
      rw [h1]
      have h2 : Instruction.bracketed names (c :: cs) = none := bracketed_none.mpr fun n hm hp => h n hm hp.isInfix
      rw [h2]; rfl

/-- Nothing can begin inside a bracketed name. -/
theorem noCall_tail {names : List Str} (hc : Clean names) {n tail : Str} (hn : n ∈ names) :
    NoCall names (n ++ ')' :: tail) ↔ NoCall names tail := by
  constructor
  · intro h n' hm hi
    exact h n' hm (hi.trans ⟨n ++ [')'], [], by simp⟩)
  · intro h n' hm hi
    have key : ∀ w : Str, '(' ∉ w → ('(' :: (n' ++ [')'])) <:+: w ++ tail → ('(' :: (n' ++ [')'])) <:+: tail := by
      intro w
      induction w with
      | nil => intro _ hi; exact hi
      | cons a w ih =>
        intro hw hi
        rcases List.infix_cons_iff.mp (show _ <:+: a :: (w ++ tail) from hi) with hp | hi
        · obtain ⟨t, ht⟩ := hp
          simp only [List.cons_append, List.cons.injEq] at ht
          exact absurd (by rw [← ht.1]; simp) hw
        · exact ih (fun hm => hw (by simp [hm])) hi
    refine h n' hm (key (n ++ [')']) ?_ (by simpa using hi))
    intro hm'
    rcases List.mem_append.mp hm' with h' | h'
    · exact (hc n hn).1 h'
    · simp at h'

theorem captureLine_some {names : List Str} (hc : Clean names) {l p n : Str} :
    Instruction.captureLine names l = some (p, n) ↔
      n ∈ names ∧ ∃ tail, l = p ++ '(' :: (n ++ ')' :: tail) ∧ NoCall names tail := by
  induction l generalizing p with
  | nil => simp [Instruction.captureLine]
  | cons c cs ih =>
    unfold Instruction.captureLine
    cases hcs : Instruction.captureLine names cs with
    | some q =>
      obtain ⟨p', n'⟩ := q
      simp only [Option.some.injEq, Prod.mk.injEq]
      constructor
      · rintro ⟨rfl, rfl⟩
        obtain ⟨h1, tail, h2, h3⟩ := ih.mp hcs
        exact ⟨h1, tail, by rw [h2]; rfl, h3⟩
      · rintro ⟨h1, tail, h2, h3⟩
        cases p with
        | nil =>
          simp only [List.nil_append, List.cons.injEq] at h2
          have hn : NoCall names cs := by rw [h2.2]; exact (noCall_tail hc h1).mpr h3
          rw [captureLine_none.mpr hn] at hcs; cases hcs
        | cons a p =>
          simp only [List.cons_append, List.cons.injEq] at h2
          have := ih.mpr ⟨h1, tail, h2.2, h3⟩
          rw [hcs] at this
          simp only [Option.some.injEq, Prod.mk.injEq] at this
          exact ⟨by rw [h2.1, this.1], this.2⟩
    | none =>
      have hn := captureLine_none.mp hcs
      simp only [Option.map_eq_some_iff, Prod.mk.injEq]
      constructor
      · rintro ⟨m, hb, rfl, rfl⟩
        obtain ⟨h1, tail, h2⟩ := (bracketed_some hc).mp hb
        refine ⟨h1, tail, h2, (noCall_tail hc h1).mp ?_⟩
        simp only [List.cons.injEq] at h2
        rw [← h2.2]; exact hn
      · rintro ⟨h1, tail, h2, h3⟩
        cases p with
        | nil => exact ⟨n, (bracketed_some hc).mpr ⟨h1, tail, h2⟩, rfl, rfl⟩
        | cons a p =>
          simp only [List.cons_append, List.cons.injEq] at h2
          refine absurd ?_ (hn n h1)
          rw [h2.2]
          exact ⟨p, tail, by simp⟩

/-- A bracketed name does not reach over a line feed. -/
theorem noCall_lines {names : List Str} (hc : Clean names) {w b : Str} :
    NoCall names (w ++ '\n' :: b) ↔ NoCall names w ∧ NoCall names b := by
  constructor
  · intro h
    exact ⟨fun n hm hi => h n hm (hi.trans ⟨[], '\n' :: b, by simp⟩),
      fun n hm hi => h n hm (hi.trans ⟨w ++ ['\n'], [], by simp⟩)⟩
  · rintro ⟨hw, hb⟩ n hm hi
    induction w with
    | nil =>
      rcases List.infix_cons_iff.mp (show _ <:+: '\n' :: b from hi) with hp | hi
      · obtain ⟨t, ht⟩ := hp
        simp at ht
      · exact hb n hm hi
    | cons a w ih =>
      have hw' : NoCall names w := fun n hm hi => hw n hm (hi.trans (List.infix_cons (List.infix_refl w)))
      rcases List.infix_cons_iff.mp (show _ <:+: a :: (w ++ '\n' :: b) from hi) with hp | hi
      · obtain ⟨t, ht⟩ := hp
        have hnl : '\n' ∉ ('(' :: (n ++ [')']) : Str) := by
          intro hmem
          simp only [List.mem_cons, List.mem_append, List.not_mem_nil, or_false] at hmem
          rcases hmem with h | h | h
          · cases h
          · exact (hc n hm).2.2 h
          · cases h
        -- the bracketed name is a prefix of `a :: w`
        have hpre : ('(' :: (n ++ [')'])) <+: a :: w := by
          have h1 : ('(' :: (n ++ [')'])) <+: (a :: w) ++ '\n' :: b := ⟨t, ht⟩
          have h2 : (a :: w) <+: (a :: w) ++ '\n' :: b := List.prefix_append _ _
          rcases Nat.le_total ('(' :: (n ++ [')']) : Str).length (a :: w).length with hl | hl
          · exact List.prefix_of_prefix_length_le h1 h2 hl
          · rcases Nat.lt_or_eq_of_le hl with hl | hl
            · obtain ⟨t', ht'⟩ := List.prefix_of_prefix_length_le h2 h1 (by omega)
              cases t' with
              | nil => rw [List.append_nil] at ht'; rw [ht'] at hl; omega
              | cons y t' =>
                rw [← ht'] at ht
                have : y = '\n' := by
                  have := List.append_cancel_left (as := a :: w) (by simpa using ht : (a :: w) ++ (y :: (t' ++ t)) = (a :: w) ++ '\n' :: b)
                  simp at this; exact this.1
                exact absurd (by rw [← ht', this]; simp) hnl
            · exact List.prefix_of_prefix_length_le h1 h2 (by omega)
        exact hw n hm hpre.isInfix
      · exact ih hw' hi

theorem captures_nil_line {names : List Str} {s : Str} (h : '\n' ∉ s) :
    Instruction.captures names s = Instruction.captureLine names s := by
  unfold Instruction.captures
  rw [KeyToken.splitOn_word _ _ h]
  simp only [List.findSome?_cons, List.findSome?_nil]
  cases Instruction.captureLine names s <;> rfl

theorem captures_line {names : List Str} {w rest : Str} (h : '\n' ∉ w) :
    Instruction.captures names (w ++ '\n' :: rest) =
      match Instruction.captureLine names w with
      | some r => some r
      | none => Instruction.captures names rest := by
  unfold Instruction.captures
  rw [KeyToken.splitOn_append _ _ _ h, List.findSome?_cons]
  cases Instruction.captureLine names w <;> rfl

theorem first_line (s : Str) : '\n' ∉ s ∨ ∃ w rest, s = w ++ '\n' :: rest ∧ '\n' ∉ w := by
  induction s with
  | nil => exact .inl (by simp)
  | cons c s ih =>
    by_cases hc : c = '\n'
    · exact .inr ⟨[], s, by rw [hc]; rfl, by simp⟩
    · rcases ih with h | ⟨w, rest, h, hw⟩
      · exact .inl (by simp [h, Ne.symm hc])
      · exact .inr ⟨c :: w, rest, by rw [h]; rfl, by simp [hw, Ne.symm hc]⟩

theorem line_no_feed {names : List Str} (hc : Clean names) {name mode tail : Str} (h1 : '\n' ∉ name) (h2 : '\n' ∉ tail)
    (hm : mode ∈ names) : '\n' ∉ name ++ '(' :: (mode ++ ')' :: tail) := by
  intro h
  simp only [List.mem_append, List.mem_cons] at h
  rcases h with h | h | h | h | h
  · exact h1 h
  · cases h
  · exact (hc mode hm).2.2 h
  · cases h
  · exact h2 h

/-- The regular expression finds exactly what the specification describes. -/
theorem captures_iff {names : List Str} (hc : Clean names) (s name mode : Str) :
    Instruction.captures names s = some (name, mode) ↔ SaysCall names s name mode := by
  generalize hn : s.length = k
  induction k using Nat.strongRecOn generalizing s with
  | _ k ih =>
  rcases first_line s with hs | ⟨w, rest, rfl, hw⟩
  · rw [captures_nil_line hs, captureLine_some hc]
    constructor
    · rintro ⟨h1, tail, h2, h3⟩
      refine ⟨[], tail, [], by simp [h2], .inl rfl, .inl rfl, ?_, ?_, h1, ?_, h3⟩
      · intro h; exact hs (by rw [h2]; simp [h])
      · intro h; exact hs (by rw [h2]; simp [h])
      · intro n _ h; have := List.eq_nil_of_infix_nil h; cases this
    · rintro ⟨before, tail, after, h1, h2, h3, h4, h5, h6, h7, h8⟩
      have hb : before = [] := by
        rcases h2 with h | h
        · exact h
        · exact absurd (by rw [h1]; simp [List.mem_of_getLast? h]) hs
      have ha : after = [] := by
        rcases h3 with h | h
        · exact h
        · exact absurd (by rw [h1]; simp [List.mem_of_head? h]) hs
      subst hb ha
      exact ⟨h6, tail, by simpa using h1, h8⟩
  · rw [captures_line hw]
    have hlen : rest.length < k := by rw [← hn]; simp; omega
    have split : ∀ {before tail after : Str}, w ++ '\n' :: rest = before ++ (name ++ '(' :: (mode ++ ')' :: tail)) ++ after →
        (before = [] ∨ before.getLast? = some '\n') → (after = [] ∨ after.head? = some '\n') → '\n' ∉ name → '\n' ∉ tail →
        mode ∈ names →
        (before = [] ∧ w = name ++ '(' :: (mode ++ ')' :: tail)) ∨
        (∃ b, before = w ++ '\n' :: b ∧ (b = [] ∨ b.getLast? = some '\n') ∧
          rest = b ++ (name ++ '(' :: (mode ++ ')' :: tail)) ++ after) := by
      intro before tail after h1 h2 h3 h4 h5 h6
      rcases first_line before with hb | ⟨w', b, rfl, hw'⟩
      · have hb0 : before = [] := by
          rcases h2 with h | h
          · exact h
          · exact absurd (List.mem_of_getLast? h) hb
        subst hb0
        left
        refine ⟨rfl, ?_⟩
        have hl := line_no_feed hc h4 h5 h6
        rcases h3 with rfl | h3
        · rw [List.nil_append, List.append_nil] at h1
          exact absurd (by rw [← h1]; simp) hl
        · cases after with
          | nil => cases h3
          | cons a after =>
            simp only [List.head?_cons, Option.some.injEq] at h3
            subst h3
            exact (split_unique hw hl (by simpa using h1)).1
      · right
        have h1' : w ++ '\n' :: rest = w' ++ '\n' :: (b ++ (name ++ '(' :: (mode ++ ')' :: tail)) ++ after) := by
          rw [h1]; simp
        obtain ⟨e1, e2⟩ := split_unique hw hw' h1'
        subst e1
        refine ⟨b, rfl, ?_, e2⟩
        rcases h2 with h | h
        · simp at h
        · cases b with
          | nil => exact .inl rfl
          | cons y b =>
            right
            rw [← h, List.getLast?_append, List.getLast?_cons_cons]
            cases hh : (y :: b).getLast? with
            | none => simp at hh
            | some z => rfl
    cases hcl : Instruction.captureLine names w with
    | some q =>
      obtain ⟨p, n⟩ := q
      obtain ⟨g1, tail, g2, g3⟩ := (captureLine_some hc).mp hcl
      simp only [Option.some.injEq, Prod.mk.injEq]
      constructor
      · rintro ⟨rfl, rfl⟩
        refine ⟨[], tail, '\n' :: rest, by rw [g2]; simp, .inl rfl, .inr rfl, ?_, ?_, g1, ?_, g3⟩
        · intro h; exact hw (by rw [g2]; simp [h])
        · intro h; exact hw (by rw [g2]; simp [h])
        · intro n _ h; have := List.eq_nil_of_infix_nil h; cases this
      · rintro ⟨before, tail', after, h1, h2, h3, h4, h5, h6, h7, h8⟩
        rcases split h1 h2 h3 h4 h5 h6 with ⟨_, hw2⟩ | ⟨b, hb, _, _⟩
        · have := (captureLine_some hc).mpr ⟨h6, tail', hw2, h8⟩
          rw [hcl] at this
          simpa using this
        · rw [hb] at h7
          have := captureLine_none.mpr ((noCall_lines hc).mp h7).1
          rw [hcl] at this; cases this
    | none =>
      have hnc := captureLine_none.mp hcl
      simp only []
      rw [ih rest.length hlen rest rfl]
      constructor
      · rintro ⟨before, tail, after, h1, h2, h3, h4, h5, h6, h7, h8⟩
        refine ⟨w ++ '\n' :: before, tail, after, by rw [h1]; simp, .inr ?_, h3, h4, h5, h6, (noCall_lines hc).mpr ⟨hnc, h7⟩, h8⟩
        rcases h2 with rfl | h2
        · simp
        · cases before with
          | nil => cases h2
          | cons y b => rw [List.getLast?_append, List.getLast?_cons_cons, h2]; rfl
      · rintro ⟨before, tail, after, h1, h2, h3, h4, h5, h6, h7, h8⟩
        rcases split h1 h2 h3 h4 h5 h6 with ⟨_, hw2⟩ | ⟨b, hb, hb2, hr⟩
        · refine absurd ?_ (hnc mode h6)
          rw [hw2]; exact ⟨name, tail, by simp⟩
        · rw [hb] at h7
          exact ⟨b, tail, after, hr, hb2, h3, h4, h5, h6, ((noCall_lines hc).mp h7).2, h8⟩

theorem inputMode_iff (s : Str) (m : InputMode) : InputMode.fromStr s = some m ↔ s = inputModeName m := by
  unfold InputMode.fromStr
  constructor
  · intro h
    repeat' split at h
    all_goals first | (cases h; assumption) | cases h
  · rintro rfl
    cases m <;> decide +kernel

theorem compositionMode_iff (s : Str) (m : CompositionMode) : CompositionMode.fromStr s = some m ↔ s = compositionModeName m := by
  unfold CompositionMode.fromStr
  constructor
  · intro h
    repeat' split at h
    all_goals first | (cases h; assumption) | cases h
  · rintro rfl
    cases m <;> decide +kernel

theorem peel {p : Prop} [Decidable p] {a i : Instruction} {b : Option Instruction} (h : (if p then some a else b) = some i) :
    (p ∧ a = i) ∨ b = some i := by
  by_cases hp : p
  · rw [if_pos hp] at h; exact .inl ⟨hp, Option.some.inj h⟩
  · rw [if_neg hp] at h; exact .inr h

theorem simple_iff (s : Str) (i : Instruction) :
    Instruction.simple s = some i ↔ (NoArgument i ∧ s = spelling i) ∨ (s, i) ∈ older := by
  constructor
  · intro h
    unfold Instruction.simple at h
    iterate 23
      replace h := peel h
      rcases h with ⟨rfl, rfl⟩ | h
      focus
        first
          | exact .inl ⟨trivial, rfl⟩
          | exact .inr (by simp [older])
    cases h
  · rintro (⟨h, rfl⟩ | h)
    · cases i <;> first | exact absurd h id | decide +kernel
    · have : ∀ p ∈ older, Instruction.simple p.1 = some p.2 := by decide +kernel
      exact this _ h

theorem mode_listed (m : InputMode) : inputModeName m ∈ inputModeNames := by cases m <;> decide +kernel

theorem input_named {n : Str} (h : n ∈ inputModeNames) : ∃ m, InputMode.fromStr n = some m := by
  have : ∀ n ∈ inputModeNames, (InputMode.fromStr n).isSome = true := by decide +kernel
  exact Option.isSome_iff_exists.mp (this n h)

theorem composition_named {n : Str} (h : n ∈ compositionModeNames) : ∃ m, CompositionMode.fromStr n = some m := by
  have : ∀ n ∈ compositionModeNames, (CompositionMode.fromStr n).isSome = true := by decide +kernel
  exact Option.isSome_iff_exists.mp (this n h)

theorem withInputMode_iff (s : Str) (i : Instruction) : Instruction.withInputMode s = some i ↔ SaysInput s i := by
  have key : ∀ name mode, SaysCall inputModeNames s name mode ↔ Instruction.captures Instruction.inputModeNames s = some (name, mode) := by
    intro name mode
    rw [← names_input]; exact (captures_iff clean_input s name mode).symm
  unfold Instruction.withInputMode SaysInput
  constructor
  · intro h
    simp only [Option.bind_eq_bind, Option.bind_eq_some_iff] at h
    obtain ⟨⟨name, mode⟩, hcap, m, hm, h⟩ := h
    have hm' : mode = _ := (inputMode_iff _ _).mp hm
    have hsay := (key name mode).mpr hcap
    rw [hm'] at hsay
    simp only at h
    split at h
    · subst_vars; cases h; exact ⟨_, _, m, by simp [inputCalls], rfl, hsay⟩
    · split at h
      · subst_vars; cases h; exact ⟨_, .forceKanaConvert, m, .tail _ (.head _), rfl, hsay⟩
      · split at h
        · subst_vars; cases h; exact ⟨_, .confirmAs, m, .tail _ (.tail _ (.head _)), rfl, hsay⟩
        · split at h
          · subst_vars; cases h; exact ⟨_, .forceKanaConvert, m, .tail _ (.tail _ (.tail _ (.head _))), rfl, hsay⟩
          · cases h
  · rintro ⟨name, f, m, hf, rfl, hsay⟩
    rw [(key _ _).mp hsay]
    simp only [Option.bind_eq_bind, Option.bind_some, (inputMode_iff _ m).mpr rfl]
    simp only [inputCalls, List.mem_cons, Prod.mk.injEq, List.not_mem_nil, or_false] at hf
    rcases hf with ⟨rfl, rfl⟩ | ⟨rfl, rfl⟩ | ⟨rfl, rfl⟩ | ⟨rfl, rfl⟩ <;> rfl

theorem withCompositionMode_iff (s : Str) (i : Instruction) :
    Instruction.withCompositionMode s = some i ↔
      ∃ m, i = .changeCompositionMode m ∧ SaysCall compositionModeNames s c%"ChangeCompositionMode" (compositionModeName m) := by
  have key : ∀ name mode, SaysCall compositionModeNames s name mode ↔
      Instruction.captures Instruction.compositionModeNames s = some (name, mode) := by
    intro name mode
    rw [← names_composition]; exact (captures_iff clean_composition s name mode).symm
  unfold Instruction.withCompositionMode
  constructor
  · intro h
    simp only [Option.bind_eq_bind, Option.bind_eq_some_iff] at h
    obtain ⟨⟨name, mode⟩, hcap, m, hm, h⟩ := h
    have hm' : mode = _ := (compositionMode_iff _ _).mp hm
    have hsay := (key name mode).mpr hcap
    rw [hm'] at hsay
    simp only at h
    split at h
    · subst_vars; cases h; exact ⟨m, rfl, hsay⟩
    · cases h
  · rintro ⟨m, rfl, hsay⟩
    rw [(key _ _).mp hsay]
    simp only [Option.bind_eq_bind, Option.bind_some, (compositionMode_iff _ m).mpr rfl]
    rfl

theorem noCall_of_no_bracket {names : List Str} {s : Str} (h : '(' ∉ s) : NoCall names s := by
  intro n _ hi
  obtain ⟨a, b, hab⟩ := hi
  exact h (by rw [← hab]; simp)

theorem says_bracket {names : List Str} {s name mode : Str} (h : SaysCall names s name mode) : '(' ∈ s := by
  obtain ⟨b, t, a, h, _⟩ := h
  rw [h]; simp

/-- **C60.** Exactly which texts are instructions, and which instruction each of them is. -/
theorem instruction_means (s : Str) (i : Instruction) : Instruction.fromStr s = some i ↔ Means s i := by
  have hplain : ∀ j, ((NoArgument j ∧ s = spelling j) ∨ (s, j) ∈ older) → '(' ∉ s := by
    rintro j (⟨h, rfl⟩ | h)
    · cases j <;> first | exact absurd h id | decide +kernel
    · have : ∀ p ∈ older, '(' ∉ p.1 := by decide +kernel
      exact this _ h
  unfold Instruction.fromStr Means
  cases hs : Instruction.simple s with
  | some j =>
    have hj := (simple_iff s j).mp hs
    have hb := hplain j hj
    simp only [Option.some.injEq]
    constructor
    · rintro rfl
      rcases hj with h | h
      · exact .inl h
      · exact .inr (.inl h)
    · rintro (h | h | ⟨_, _, _, _, _, h⟩ | ⟨⟨_, _, h⟩, _⟩)
      · exact Option.some.inj (hs ▸ (simple_iff s i).mpr (.inl h))
      · exact Option.some.inj (hs ▸ (simple_iff s i).mpr (.inr h))
      · exact absurd (says_bracket h) hb
      · exact absurd (says_bracket h) hb
  | none =>
    have hno : ¬ ((NoArgument i ∧ s = spelling i) ∨ (s, i) ∈ older) := by
      intro h
      rw [(simple_iff s i).mpr h] at hs; cases hs
    simp only
    cases hi : Instruction.withInputMode s with
    | some j =>
      have hj := (withInputMode_iff s j).mp hi
      simp only [Option.some.injEq]
      constructor
      · rintro rfl; exact .inr (.inr (.inl hj))
      · rintro (h | h | h | ⟨_, h⟩)
        · exact absurd (.inl h) hno
        · exact absurd (.inr h) hno
        · exact Option.some.inj (hi ▸ (withInputMode_iff s i).mpr h)
        · exact absurd ⟨j, hj⟩ h
    | none =>
      have hno2 : ¬ ∃ j, SaysInput s j := by
        rintro ⟨j, hj⟩
        rw [(withInputMode_iff s j).mpr hj] at hi; cases hi
      simp only [withCompositionMode_iff]
      constructor
      · intro h; exact .inr (.inr (.inr ⟨h, hno2⟩))
      · rintro (h | h | h | ⟨h, _⟩)
        · exact absurd (.inl h) hno
        · exact absurd (.inr h) hno
        · exact absurd ⟨i, h⟩ hno2
        · exact h

/-- C60: the documented spelling of every instruction is read as that instruction; no two instructions have the same spelling. -/
theorem spelling_read (i : Instruction) : Instruction.fromStr (spelling i) = some i := by
  cases i
  case changeInputMode m => cases m <;> decide +kernel
  case forceKanaConvert m => cases m <;> decide +kernel
  case changeCompositionMode m => cases m <;> decide +kernel
  case confirmAs m => cases m <;> decide +kernel
  all_goals decide +kernel

/-- C60, a finding: anything may follow, on the same line or on others, and other lines may come before. -/
theorem surplus_accepted (m : InputMode) (before tail after : Str) (hb : '(' ∉ before) (ht : '(' ∉ tail) (hn : '\n' ∉ tail) :
    Instruction.fromStr (before ++ '\n' :: (call c%"ChangeInputMode" (inputModeName m) ++ tail ++ '\n' :: after)) =
      some (.changeInputMode m) := by
  rw [instruction_means]
  refine .inr (.inr (.inl ⟨_, _, m, .head _, rfl, before ++ ['\n'], tail, '\n' :: after, by simp [call], .inr (by simp),
    .inr rfl, by decide, hn, mode_listed m, noCall_of_no_bracket ?_, noCall_of_no_bracket ht⟩))
  simp [hb]

/-! ## Tables of commands -/

section
open Cskk.RuleText

theorem instructions_iff (ts : List Str) (is : List Instruction) : instructions ts = some is ↔ MeanAll ts is := by
  induction ts generalizing is with
  | nil =>
    constructor
    · intro h; cases h; exact .nil
    · intro h; cases h; rfl
  | cons s ss ih =>
    unfold instructions
    simp only [Option.bind_eq_bind, Option.bind_eq_some_iff, Option.pure_def, Option.some.injEq]
    constructor
    · rintro ⟨i, hi, is', his, rfl⟩
      exact .cons _ _ _ _ ((instruction_means s i).mp hi) ((ih is').mp his)
    · intro h
      cases h with
      | cons _ i _ is' h1 h2 => exact ⟨i, (instruction_means s i).mpr h1, is', (ih is').mpr h2, rfl⟩

theorem meanAll_unique {ts : List Str} {is js : List Instruction} (h : MeanAll ts is) (h' : MeanAll ts js) : is = js :=
  Option.some.inj (((instructions_iff ts is).mpr h).symm.trans ((instructions_iff ts js).mpr h'))

theorem insert_mem {κ α : Type} [DecidableEq κ] (m : List (κ × α)) (k : κ) (a : α) (hn : (m.map (·.1)).Nodup) :
    ((RuleText.insert m k a).map (·.1)).Nodup ∧
      ∀ k' a', (k', a') ∈ RuleText.insert m k a ↔ (k' = k ∧ a' = a) ∨ (k' ≠ k ∧ (k', a') ∈ m) := by
  have hkeys : ∀ m : List (κ × α), ∀ k', k' ∈ (RuleText.insert m k a).map (·.1) ↔ k' = k ∨ k' ∈ m.map (·.1) := by
    intro m k'
    induction m with
    | nil => simp [RuleText.insert]
    | cons e m ih =>
      obtain ⟨k0, a0⟩ := e
      unfold RuleText.insert
      split
      · rename_i he; subst he; simp
      · simp only [List.map_cons, List.mem_cons, ih]
        constructor <;> rintro (h | h | h) <;> simp [h]
  induction m with
  | nil =>
    refine ⟨by simp [RuleText.insert], fun k' a' => ?_⟩
    simp [RuleText.insert]
  | cons e m ih =>
    obtain ⟨k0, a0⟩ := e
    simp only [List.map_cons, List.nodup_cons] at hn
    obtain ⟨ih1, ih2⟩ := ih hn.2
    unfold RuleText.insert
    split
    · rename_i he
      subst he
      refine ⟨by simpa using hn, fun k' a' => ?_⟩
      simp only [List.mem_cons, Prod.mk.injEq]
      constructor
      · rintro (h | h)
        · exact .inl h
        · refine .inr ⟨?_, .inr h⟩
          rintro rfl
          exact hn.1 (List.mem_map.mpr ⟨_, h, rfl⟩)
      · rintro (h | ⟨h, h' | h'⟩)
        · exact .inl h
        · exact absurd h'.1 h
        · exact .inr h'
    · rename_i he
      refine ⟨?_, fun k' a' => ?_⟩
      · simp only [List.map_cons, List.nodup_cons]
        refine ⟨?_, ih1⟩
        rw [hkeys]
        rintro (h | h)
        · exact he h
        · exact hn.1 h
      · simp only [List.mem_cons, Prod.mk.injEq, ih2]
        constructor
        · rintro (⟨rfl, rfl⟩ | h | ⟨h, h'⟩)
          · exact .inr ⟨he, .inl ⟨rfl, rfl⟩⟩
          · exact .inl h
          · exact .inr ⟨h, .inr h'⟩
        · rintro (h | ⟨h, h' | h'⟩)
          · exact .inr (.inl h)
          · exact .inl h'
          · exact .inr (.inr ⟨h, h'⟩)

variable {x : Xkb}

theorem isKey_unique {k : Str} {a b : KeyEvent} (h : IsKey x k a) (h' : IsKey x k b) : a = b := by
  unfold IsKey at *
  rw [h] at h'
  simpa using h'

/-- A table which is read: its keys are distinct, and an entry is the last one of the file for its key. -/
theorem table_ok (m : List (KeyEvent × List Instruction)) (es : List (Str × List Str))
    (tbl : List (KeyEvent × List Instruction)) (hn : (m.map (·.1)).Nodup) (h : table x m es = .ok (some tbl)) :
    (tbl.map (·.1)).Nodup ∧ (∀ e ∈ es, (∃ ev, IsKey x e.1 ev) ∧ ∃ is, MeanAll e.2 is) ∧
      ∀ ev is, (ev, is) ∈ tbl ↔ Lists x es ev is ∨ ((ev, is) ∈ m ∧ ∀ e ∈ es, ¬ IsKey x e.1 ev) := by
  induction es generalizing m with
  | nil =>
    cases h
    refine ⟨hn, by simp, fun ev is => ?_⟩
    unfold Lists
    simp
  | cons e es ih =>
    obtain ⟨k, ts⟩ := e
    unfold table at h
    cases hk : KeyEvent.fromStr x k with
    | error p => rw [hk] at h; cases h
    | ok o =>
      rw [hk] at h
      cases o with
      | none => cases h
      | some ev0 =>
        cases hi : instructions ts with
        | none => simp only [hi, bind, Except.bind, pure, Except.pure] at h; cases h
        | some is0 =>
          simp only [hi, bind, Except.bind] at h
          obtain ⟨n1, n2⟩ := insert_mem m ev0 is0 hn
          obtain ⟨g1, g2, g3⟩ := ih _ n1 h
          have hk' : IsKey x k ev0 := hk
          have hm' := (instructions_iff ts is0).mp hi
          refine ⟨g1, ?_, fun ev is => ?_⟩
          · intro e he
            rcases List.mem_cons.mp he with rfl | he
            · exact ⟨⟨ev0, hk'⟩, is0, hm'⟩
            · exact g2 e he
          · rw [g3, n2]
            constructor
            · rintro (⟨l1, k1, t1, l2, rfl, h1, h2, h3⟩ | ⟨⟨rfl, rfl⟩ | ⟨hne, hm⟩, h2⟩)
              · exact .inl ⟨(k, ts) :: l1, k1, t1, l2, rfl, h1, h2, h3⟩
              · exact .inl ⟨[], k, ts, es, rfl, hk', hm', h2⟩
              · refine .inr ⟨hm, fun e he => ?_⟩
                rcases List.mem_cons.mp he with rfl | he
                · intro h'; exact hne (isKey_unique h' hk')
                · exact h2 e he
            · rintro (⟨l1, k1, t1, l2, h0, h1, h2, h3⟩ | ⟨hm, h2⟩)
              · cases l1 with
                | nil =>
                  simp only [List.nil_append, List.cons.injEq, Prod.mk.injEq] at h0
                  obtain ⟨⟨rfl, rfl⟩, rfl⟩ := h0
                  exact .inr ⟨.inl ⟨isKey_unique h1 hk', meanAll_unique h2 hm'⟩, h3⟩
                | cons e1 l1 =>
                  simp only [List.cons_append, List.cons.injEq] at h0
                  exact .inl ⟨l1, k1, t1, l2, h0.2, h1, h2, h3⟩
              · refine .inr ⟨.inr ⟨?_, hm⟩, fun e he => h2 e (by simp [he])⟩
                rintro rfl
                exact h2 _ (List.mem_cons_self) hk'

theorem table_reads (m : List (KeyEvent × List Instruction)) (es : List (Str × List Str))
    (h : ∀ e ∈ es, (∃ ev, IsKey x e.1 ev) ∧ ∃ is, MeanAll e.2 is) : ∃ tbl, table x m es = .ok (some tbl) := by
  induction es generalizing m with
  | nil => exact ⟨m, rfl⟩
  | cons e es ih =>
    obtain ⟨k, ts⟩ := e
    obtain ⟨⟨ev, h1⟩, is, h2⟩ := h (k, ts) (by simp)
    obtain ⟨tbl, ht⟩ := ih (RuleText.insert m ev is) fun e he => h e (by simp [he])
    refine ⟨tbl, ?_⟩
    unfold table
    have h1' : KeyEvent.fromStr x k = .ok (some ev) := h1
    have h2' : instructions ts = some is := (instructions_iff _ _).mpr h2
    rw [h1']
    simp only [h2', bind, Except.bind]
    exact ht

theorem tableMode_iff (s : Str) (im : InputMode) : tableMode s = some im ↔ s = tableName im := by
  unfold tableMode
  constructor
  · intro h
    repeat' split at h
    all_goals first | (cases h; assumption) | cases h
  · rintro rfl; cases im <;> decide +kernel

theorem sectionMode_iff (s : Str) (m : CompositionMode) : sectionMode s = some m ↔ sectionName m = some s := by
  unfold sectionMode
  constructor
  · intro h
    repeat' split at h
    all_goals first | (cases h; subst_vars; rfl) | cases h
  · intro h
    cases m <;> simp only [sectionName, Option.some.injEq, reduceCtorEq] at h <;> subst h <;> decide +kernel

/-- One section: the tables which are read are those with a known name. -/
theorem inner_ok (cm : CompositionMode) (tables : List (Str × List (Str × List Str)))
    (us : List ((CompositionMode × InputMode) × List (KeyEvent × List Instruction))) (h : inner x cm tables = .ok (some us)) :
    (∀ im es, (tableName im, es) ∈ tables → ∃ tbl, table x [] es = .ok (some tbl) ∧ ((cm, im), tbl) ∈ us) ∧
      ∀ u ∈ us, u.1.1 = cm ∧ ∃ es, (tableName u.1.2, es) ∈ tables ∧ table x [] es = .ok (some u.2) := by
  induction tables generalizing us with
  | nil => cases h; simp
  | cons e tables ih =>
    obtain ⟨name, es⟩ := e
    unfold inner at h
    cases hm : tableMode name with
    | none =>
      simp only [hm] at h
      obtain ⟨h1, h2⟩ := ih us h
      refine ⟨fun im es' hmem => ?_, fun u hu => ?_⟩
      · rcases List.mem_cons.mp hmem with he | hmem
        · cases he; rw [(tableMode_iff _ im).mpr rfl] at hm; cases hm
        · exact h1 im es' hmem
      · obtain ⟨a, es', b, c⟩ := h2 u hu
        exact ⟨a, es', List.mem_cons_of_mem _ b, c⟩
    | some im0 =>
      simp only [hm] at h
      have hname := (tableMode_iff _ _).mp hm
      cases ht : table x [] es with
      | error p => rw [ht] at h; cases h
      | ok o =>
        rw [ht] at h
        cases o with
        | none => cases h
        | some tbl =>
          simp only [bind, Except.bind] at h
          cases hi : inner x cm tables with
          | error p => rw [hi] at h; cases h
          | ok o =>
            rw [hi] at h
            cases o with
            | none => cases h
            | some us' =>
              cases h
              obtain ⟨h1, h2⟩ := ih us' hi
              refine ⟨fun im es' hmem => ?_, fun u hu => ?_⟩
              · rcases List.mem_cons.mp hmem with he | hmem
                · simp only [Prod.mk.injEq] at he
                  obtain ⟨he, rfl⟩ := he
                  rw [← he, (tableMode_iff _ _).mpr rfl] at hm
                  cases hm
                  exact ⟨tbl, ht, by simp⟩
                · obtain ⟨t', a, b⟩ := h1 im es' hmem
                  exact ⟨t', a, List.mem_cons_of_mem _ b⟩
              · rcases List.mem_cons.mp hu with rfl | hu
                · exact ⟨rfl, es, by rw [hname]; simp, ht⟩
                · obtain ⟨a, es', b, c⟩ := h2 u hu
                  exact ⟨a, es', List.mem_cons_of_mem _ b, c⟩

theorem inner_reads (cm : CompositionMode) (tables : List (Str × List (Str × List Str)))
    (h : ∀ im es, (tableName im, es) ∈ tables → ∀ e ∈ es, (∃ ev, IsKey x e.1 ev) ∧ ∃ is, MeanAll e.2 is) :
    ∃ us, inner x cm tables = .ok (some us) := by
  induction tables with
  | nil => exact ⟨[], rfl⟩
  | cons e tables ih =>
    obtain ⟨name, es⟩ := e
    obtain ⟨us, hus⟩ := ih fun im es hm => h im es (List.mem_cons_of_mem _ hm)
    unfold inner
    cases hm : tableMode name with
    | none => exact ⟨us, hus⟩
    | some im =>
      obtain ⟨tbl, ht⟩ := table_reads (x := x) [] es (h im es (by rw [(tableMode_iff _ _).mp hm]; simp))
      refine ⟨((cm, im), tbl) :: us, ?_⟩
      simp only [ht, bind, Except.bind, hus]
      rfl

theorem commands_ok (ss : List (Str × List (Str × List (Str × List Str))))
    (us : List ((CompositionMode × InputMode) × List (KeyEvent × List Instruction))) (h : commands x ss = .ok (some us)) :
    (∀ m im sect tables es, sectionName m = some sect → (sect, tables) ∈ ss → (tableName im, es) ∈ tables →
      ∃ tbl, table x [] es = .ok (some tbl) ∧ ((m, im), tbl) ∈ us) ∧
      ∀ u ∈ us, ∃ sect tables es, sectionName u.1.1 = some sect ∧ (sect, tables) ∈ ss ∧ (tableName u.1.2, es) ∈ tables ∧
        table x [] es = .ok (some u.2) := by
  induction ss generalizing us with
  | nil => cases h; simp
  | cons e ss ih =>
    obtain ⟨name, tables⟩ := e
    unfold commands at h
    cases hm : sectionMode name with
    | none =>
      simp only [hm] at h
      obtain ⟨h1, h2⟩ := ih us h
      refine ⟨fun m im sect tables' es hs hmem ht => ?_, fun u hu => ?_⟩
      · rcases List.mem_cons.mp hmem with he | hmem
        · cases he; rw [(sectionMode_iff _ m).mpr hs] at hm; cases hm
        · exact h1 m im sect tables' es hs hmem ht
      · obtain ⟨sect, t', es, a, b, c⟩ := h2 u hu
        exact ⟨sect, t', es, a, List.mem_cons_of_mem _ b, c⟩
    | some cm =>
      simp only [hm] at h
      have hname := (sectionMode_iff _ _).mp hm
      cases ht : inner x cm tables with
      | error p => rw [ht] at h; cases h
      | ok o =>
        rw [ht] at h
        cases o with
        | none => cases h
        | some ts =>
          simp only [bind, Except.bind] at h
          cases hi : commands x ss with
          | error p => rw [hi] at h; cases h
          | ok o =>
            rw [hi] at h
            cases o with
            | none => cases h
            | some us' =>
              cases h
              obtain ⟨h1, h2⟩ := ih us' hi
              obtain ⟨g1, g2⟩ := inner_ok cm tables ts ht
              refine ⟨fun m im sect tables' es hs hmem htb => ?_, fun u hu => ?_⟩
              · rcases List.mem_cons.mp hmem with he | hmem
                · simp only [Prod.mk.injEq] at he
                  obtain ⟨rfl, rfl⟩ := he
                  rw [(sectionMode_iff _ _).mpr hs] at hm
                  cases hm
                  obtain ⟨tbl, a, b⟩ := g1 im es htb
                  exact ⟨tbl, a, List.mem_append_left _ b⟩
                · obtain ⟨t', a, b⟩ := h1 m im sect tables' es hs hmem htb
                  exact ⟨t', a, List.mem_append_right _ b⟩
              · rcases List.mem_append.mp hu with hu | hu
                · obtain ⟨a, es, b, c⟩ := g2 u hu
                  exact ⟨name, tables, es, by rw [a]; exact hname, by simp, b, c⟩
                · obtain ⟨sect, t', es, a, b, c⟩ := h2 u hu
                  exact ⟨sect, t', es, a, List.mem_cons_of_mem _ b, c⟩

theorem commands_reads (ss : List (Str × List (Str × List (Str × List Str))))
    (h : ∀ m im sect tables es, sectionName m = some sect → (sect, tables) ∈ ss → (tableName im, es) ∈ tables →
      ∀ e ∈ es, (∃ ev, IsKey x e.1 ev) ∧ ∃ is, MeanAll e.2 is) : ∃ us, commands x ss = .ok (some us) := by
  induction ss with
  | nil => exact ⟨[], rfl⟩
  | cons e ss ih =>
    obtain ⟨name, tables⟩ := e
    obtain ⟨us, hus⟩ := ih fun m im sect tables es hs hm => h m im sect tables es hs (List.mem_cons_of_mem _ hm)
    unfold commands
    cases hm : sectionMode name with
    | none => exact ⟨us, hus⟩
    | some cm =>
      obtain ⟨ts, ht⟩ := inner_reads (x := x) cm tables
        fun im es hmem => h cm im name tables es ((sectionMode_iff _ _).mp hm) (by simp) hmem
      refine ⟨ts ++ us, ?_⟩
      simp only [ht, bind, Except.bind, hus]
      rfl

theorem nodup_unique {α β : Type} {l : List (α × β)} (h : (l.map (·.1)).Nodup) {a : α} {b b' : β} (h1 : (a, b) ∈ l)
    (h2 : (a, b') ∈ l) : b = b' := by
  induction l with
  | nil => cases h1
  | cons e l ih =>
    simp only [List.map_cons, List.nodup_cons] at h
    rcases List.mem_cons.mp h1 with rfl | h1 <;> rcases List.mem_cons.mp h2 with h2 | h2
    · exact (Prod.mk.inj h2).2.symm
    · exact absurd (List.mem_map.mpr ⟨_, h2, rfl⟩) h.1
    · rw [← h2] at h; exact absurd (List.mem_map.mpr ⟨_, h1, rfl⟩) h.1
    · exact ih h.2 h1 h2

theorem hasTable_unique {t : Toml} (hp : Proper t) {m : CompositionMode} {im : InputMode} {es es' : List (Str × List Str)}
    (h : HasTable t m im es) (h' : HasTable t m im es') : es = es' := by
  obtain ⟨s, ts, a, b, c⟩ := h
  obtain ⟨s', ts', a', b', c'⟩ := h'
  rw [a] at a'
  cases a'
  have := nodup_unique hp.sections b b'
  subst this
  exact nodup_unique (hp.tables _ b) c c'

/-- **C60.** The commands in effect after a rule is loaded are those of the file: in each pair of modes, no key has two commands, and a
key has a command iff a line of the table for these modes is for that key; the last such line counts. -/
theorem commands_in_effect (t : Toml) (r : RuleLoad.Rule) (hp : Proper t) (h : load x t = .ok (some r))
    (m : CompositionMode) (im : InputMode) :
    ((r.cmds m im).map (·.1)).Nodup ∧
      ∀ ev is, (ev, is) ∈ r.cmds m im ↔ ∃ es, HasTable t m im es ∧ Lists x es ev is := by
  unfold load at h
  cases hc : commands x t.sections with
  | error p => rw [hc] at h; cases h
  | ok o =>
    rw [hc] at h
    cases o with
    | none => cases h
    | some us =>
      cases hconv : t.conversion with
      | none => simp only [hconv, bind, Except.bind] at h; cases h
      | some conv =>
        simp only [hconv, bind, Except.bind, pure, Except.pure, Except.ok.injEq, Option.some.injEq] at h
        subst h
        obtain ⟨h1, h2⟩ := commands_ok t.sections us hc
        show ((rule us m im).map (·.1)).Nodup ∧ ∀ ev is, (ev, is) ∈ rule us m im ↔ _
        unfold rule
        cases hf : us.find? fun t => decide (t.1 = (m, im)) with
        | none =>
          refine ⟨by simp, fun ev is => ?_⟩
          simp only [Option.map_none, Option.getD_none, List.not_mem_nil, false_iff]
          rintro ⟨es, ⟨sect, tables, a, b, c⟩, _⟩
          obtain ⟨tbl, _, hmem⟩ := h1 m im sect tables es a b c
          rw [List.find?_eq_none] at hf
          exact hf _ hmem (by simp)
        | some u =>
          have hu := List.mem_of_find?_eq_some hf
          have he : u.1 = (m, im) := of_decide_eq_true (by simpa using List.find?_some hf)
          obtain ⟨⟨m', im'⟩, tbl⟩ := u
          cases he
          obtain ⟨sect, tables, es, a, b, c, d⟩ := h2 _ hu
          have hH : HasTable t m im es := ⟨sect, tables, a, b, c⟩
          obtain ⟨g1, _, g3⟩ := table_ok [] es tbl (by simp) d
          refine ⟨g1, fun ev is => ?_⟩
          show (ev, is) ∈ tbl ↔ _
          rw [g3]
          constructor
          · rintro (h | ⟨h, _⟩)
            · exact ⟨es, hH, h⟩
            · cases h
          · rintro ⟨es', hH', h⟩
            rw [hasTable_unique hp hH hH']
            exact .inl h

/-- **C60.** A rule file is accepted iff it has a romaji table and every line of every table which is used can be read: nothing is
skipped silently, except that sections and tables with other names do not count at all. -/
theorem accepted_iff (t : Toml) : (∃ r, load x t = .ok (some r)) ↔ t.conversion.isSome = true ∧ Readable x t := by
  constructor
  · rintro ⟨r, h⟩
    unfold load at h
    cases hc : commands x t.sections with
    | error p => rw [hc] at h; cases h
    | ok o =>
      rw [hc] at h
      cases o with
      | none => cases h
      | some us =>
        cases hconv : t.conversion with
        | none => simp only [hconv, bind, Except.bind] at h; cases h
        | some conv =>
          refine ⟨rfl, ?_⟩
          rintro m im es ⟨sect, tables, a, b, c⟩
          obtain ⟨tbl, d, _⟩ := (commands_ok t.sections us hc).1 m im sect tables es a b c
          exact (table_ok [] es tbl (by simp) d).2.1
  · rintro ⟨h1, h2⟩
    obtain ⟨conv, hconv⟩ := Option.isSome_iff_exists.mp h1
    obtain ⟨us, hus⟩ := commands_reads (x := x) t.sections
      fun m im sect tables es a b c => h2 m im es ⟨sect, tables, a, b, c⟩
    refine ⟨⟨rule us, KanaBuilder.fromRule x conv⟩, ?_⟩
    unfold load
    simp only [hus, hconv, bind, Except.bind]
    rfl

/-- **C60.** A key in a context with a loaded rule: it has the command `is` iff the table for the current modes lists it, for the key as
it is, or without SHIFT for a capital letter. -/
theorem key_has_listed_command (t : Toml) (r : RuleLoad.Rule) (hp : Proper t) (h : load x t = .ok (some r)) (c : Ctx)
    (hc : c.cmds = r.cmds) (ev : KeyEvent) (is : List Instruction) :
    Spec.CommandIs c ev is ↔
      ∃ k es, Spec.KeyMatches k ev ∧ HasTable t c.top.mode c.top.inputMode es ∧ Lists x es k is := by
  obtain ⟨hn, hm⟩ := commands_in_effect t r hp h c.top.mode c.top.inputMode
  constructor
  · rintro ⟨l1, k, l2, he, hk, _⟩
    obtain ⟨es, a, b⟩ := (hm k is).mp (by rw [← hc, he]; simp)
    exact ⟨k, es, hk, a, b⟩
  · rintro ⟨k, es, hk, a, b⟩
    have hmem := (hm k is).mpr ⟨es, a, b⟩
    obtain ⟨l1, l2, he⟩ := List.append_of_mem hmem
    refine ⟨l1, k, l2, by rw [hc]; exact he, hk, fun y hy hy' => ?_⟩
    have e1 := (matchingKey_iff k ev).mpr hk
    have e2 := (matchingKey_iff y.1 ev).mpr hy'
    rw [he] at hn
    simp only [List.map_append, List.map_cons, List.nodup_append, List.mem_map] at hn
    exact hn.2.2 y.1 ⟨y, hy, rfl⟩ k (by simp) (by rw [e2, ← e1])

end

/-- The modes in the order in which a rule file has tables for them. -/
def tableOrder (t : RuleText.Toml) : List (CompositionMode × InputMode) :=
  t.sections.flatMap fun s => s.2.filterMap fun u =>
    match RuleText.sectionMode s.1, RuleText.tableMode u.1 with
    | some m, some im => some (m, im)
    | _, _ => none

/-- What has to be computed to know what a rule file says. -/
theorem load_computed {x : Xkb} {t : RuleText.Toml} {cmds : CommandRule} {conv : List (Str × Str × Str)}
    {tbl : List (List Keysym × Conv)}
    (hcmd : (RuleText.commands x t.sections).toOption.bind id = some ((tableOrder t).map fun p => (p, cmds p.1 p.2)))
    (hrest : ∀ m im, (m, im) ∈ tableOrder t ∨ cmds m im = [])
    (hconv : t.conversion = some conv)
    (hk : (conv.map fun e => (KeyEvent.keysymsFromStr x e.1, (e.2.2, KeyEvent.keysymsFromStr x e.2.1))) = tbl) :
    RuleText.load x t = .ok (some ⟨cmds, KanaBuilder.ofTable tbl⟩) := by
  have hrule : ∀ (l : List (CompositionMode × InputMode)) m im, ((m, im) ∈ l ∨ cmds m im = []) →
      RuleText.rule (l.map fun p => (p, cmds p.1 p.2)) m im = cmds m im := by
    intro l m im h
    unfold RuleText.rule
    induction l with
    | nil =>
      rcases h with h | h
      · cases h
      · rw [h]; rfl
    | cons p l ih =>
      by_cases hp : p = (m, im)
      · subst hp; simp
      · rw [List.map_cons, List.find?_cons_of_neg (by simpa using hp)]
        apply ih
        rcases h with h | h
        · rcases List.mem_cons.mp h with h | h
          · exact absurd h.symm hp
          · exact .inl h
        · exact .inr h
  cases hc : RuleText.commands x t.sections with
  | error p => rw [hc] at hcmd; cases hcmd
  | ok o =>
    cases o with
    | none => rw [hc] at hcmd; cases hcmd
    | some us =>
      have hus : us = (tableOrder t).map fun p => (p, cmds p.1 p.2) := by
        rw [hc] at hcmd
        exact Option.some.inj hcmd
      have hr : RuleText.rule us = cmds := by
        rw [hus]
        exact funext fun m => funext fun im => hrule _ m im (hrest m im)
      unfold RuleText.load
      rw [hc, hconv]
      show Except.ok (some (⟨RuleText.rule us, KanaBuilder.fromRule x conv⟩ : RuleLoad.Rule)) = _
      unfold KanaBuilder.fromRule
      rw [hr, hk]

end Cskk.Props.RuleFile
