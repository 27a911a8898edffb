import Verif.Spec.DictGrammar
import Verif.Props.DictFile
import Verif.Lemmas.DictEntry

/-!
# C61: a line in the format of SKK dictionaries is read as it says
-/

namespace Cskk.Props.DictGrammar
open Cskk.Spec.DictText Cskk.Spec.DictGrammar Parse DictParser DictLine DictEntry

theorem wordText_eq (c : DictCand) : wordText c = showRaw c := by
  unfold wordText showRaw; cases c.annotation <;> simp

theorem words_text (cs : List DictCand) (g : Str) : words cs ++ g = text cs g := by
  simp [words, text, wordText_eq]

theorem rawOk_iff (c : DictCand) : RawOk c ↔ ProperWord c := by
  constructor
  · rintro ⟨h1, h2, h3⟩
    refine ⟨⟨h1, ?_, ?_, ?_, ?_⟩, ?_⟩
    · intro h; exact absurd (h2 _ h) (by decide)
    · intro h; exact absurd (h2 _ h) (by decide)
    · intro h; exact absurd (h2 _ h) (by decide)
    · intro h; exact absurd (h2 _ h) (by decide)
    · intro a ha
      obtain ⟨g1, g2⟩ := h3 a ha
      exact ⟨g1, fun h => absurd (g2 _ h) (by decide), fun h => absurd (g2 _ h) (by decide)⟩
  · rintro ⟨⟨h1, h2, h3, h4, h5⟩, h6⟩
    refine ⟨h1, ?_, ?_⟩
    · intro x hx
      have e1 : x ≠ '/' := by rintro rfl; exact h2 hx
      have e2 : x ≠ ';' := by rintro rfl; exact h3 hx
      have e3 : x ≠ '[' := by rintro rfl; exact h4 hx
      have e4 : x ≠ ']' := by rintro rfl; exact h5 hx
      simp [isCandIllegal, e1, e2, e3, e4]
    · intro a ha
      obtain ⟨g1, g2, g3⟩ := h6 a ha
      refine ⟨g1, ?_⟩
      intro x hx
      have e1 : x ≠ '/' := by rintro rfl; exact g2 hx
      have e2 : x ≠ ';' := by rintro rfl; exact g3 hx
      simp [isAnnotationIllegal, e1, e2]

theorem group_text (o : Str) (cs : List DictCand) (r : Str) :
    (Item.group o cs).text ++ r = groupText o cs ('/' :: r) := by
  simp [Item.text, groupText, ← words_text]

theorem groupOk {o : Str} {cs : List DictCand} (h : (Item.group o cs).Proper) : GroupOk o cs :=
  ⟨h.1, fun x hx => (DictFile.okuriKana_iff x).mpr (h.2.1 x hx), h.2.2.1, fun c hc => (rawOk_iff c).mpr (h.2.2.2 c hc)⟩

/-- The prototype of an item. -/
def proto : Item → Str × List DictCand
  | .word c => ([], [c])
  | .group o cs => (o, cs)

/-- A line of items begins with a run of words, followed by nothing or a group. -/
theorem run (items : List Item) (hp : ∀ i ∈ items, i.Proper) :
    ∃ cs g, items.flatMap Item.text = text cs g ∧ (∀ c ∈ cs, RawOk c) ∧ TailOk g ∧
      (cs = [] → g ≠ [] → ∃ o ds rest, items = .group o ds :: rest) := by
  induction items with
  | nil => exact ⟨[], [], rfl, by simp, .inl rfl, by simp⟩
  | cons i items ih =>
    cases i with
    | word c =>
      obtain ⟨cs, g, h1, h2, h3, _⟩ := ih fun x hx => hp x (by simp [hx])
      refine ⟨c :: cs, g, ?_, ?_, h3, by simp⟩
      · rw [List.flatMap_cons, h1, text_cons, Item.text, wordText_eq]; simp
      · intro d hd
        rcases List.mem_cons.mp hd with rfl | hd
        · exact (rawOk_iff d).mpr (hp (.word d) (by simp))
        · exact h2 d hd
    | group o ds =>
      refine ⟨[], groupText o ds ('/' :: items.flatMap Item.text), ?_, by simp, ?_, ?_⟩
      · rw [List.flatMap_cons, group_text]; rfl
      · exact .inr ⟨o, ds, _, groupOk (hp (.group o ds) (by simp)), rfl⟩
      · intro _ _; exact ⟨o, ds, items, rfl⟩

theorem noKana_tail {i : Item} {items : List Item} (h : NoKanaBeforeGroup (i :: items)) : NoKanaBeforeGroup items :=
  fun c o cs hi => h c o cs (hi.trans (List.suffix_cons _ _).isInfix)

theorem steps_items (items : List Item) (hp : ∀ i ∈ items, i.Proper) (hk : NoKanaBeforeGroup items) :
    Steps candidate (items.flatMap Item.text) (items.map fun i => [proto i]) [] := by
  induction items with
  | nil => exact .nil _
  | cons i items ih =>
    have ih := ih (fun x hx => hp x (by simp [hx])) (noKana_tail hk)
    cases i with
    | word c =>
      obtain ⟨cs, g, h1, h2, h3, h4⟩ := run items fun x hx => hp x (by simp [hx])
      have hc := (rawOk_iff c).mpr (hp (.word c) (by simp))
      have he : (Item.word c :: items).flatMap Item.text = text (c :: cs) g := by
        rw [List.flatMap_cons, h1, text_cons, Item.text, wordText_eq]; simp
      rw [he]
      refine .cons (s1 := items.flatMap Item.text) ?_ ?_ ih
      · rw [h1]
        apply candidate_plain c cs g hc h2 h3
        intro e1 e2
        obtain ⟨o, ds, rest, rfl⟩ := h4 e1 e2
        intro hb
        exact hk c o ds ⟨[], rest, by simp⟩ ⟨hb.1, fun x hx => (DictFile.okuriKana_iff x).mp (hb.2 x hx)⟩
      · rw [h1, text_cons]; simp only [List.length_append, List.length_cons]; omega
    | group o ds =>
      rw [List.flatMap_cons, group_text]
      refine .cons (s1 := items.flatMap Item.text) (candidate_group o ds (groupOk (hp (.group o ds) (by simp))) _) ?_ ih
      simp [groupText, text]; omega

/-! ## Merging -/

theorem get_mergeOne (r : SMap (List DictCand)) (e : Str × List DictCand) (g : Str) :
    SMap.get (mergeOne r e) g = if g = e.1 then some ((SMap.get r e.1).getD [] ++ e.2) else SMap.get r g := by
  unfold mergeOne
  cases h : SMap.get r e.1 with
  | none => simp only [SMap.get_insert, Option.getD_none, List.nil_append]
  | some cs => simp only [SMap.get_insert, Option.getD_some]

theorem sorted_mergeOne (r : SMap (List DictCand)) (e : Str × List DictCand) (h : SMap.Sorted r) :
    SMap.Sorted (mergeOne r e) := by
  unfold mergeOne
  cases SMap.get r e.1 <;> exact SMap.sorted_insert _ _ _ h

/-- What a list of prototypes has for `g`. -/
def collect (g : Str) (es : List (Str × List DictCand)) : List DictCand := es.flatMap fun e => if e.1 = g then e.2 else []

theorem get_merge (es : List (Str × List DictCand)) (hne : ∀ e ∈ es, e.2 ≠ []) (r : SMap (List DictCand)) (g : Str) :
    SMap.get (es.foldl mergeOne r) g =
      if collect g es = [] then SMap.get r g else some ((SMap.get r g).getD [] ++ collect g es) := by
  induction es generalizing r with
  | nil => simp [collect]
  | cons e es ih =>
    rw [List.foldl_cons, ih (fun x hx => hne x (by simp [hx])), get_mergeOne]
    have hc : collect g (e :: es) = (if e.1 = g then e.2 else []) ++ collect g es := rfl
    rw [hc]
    by_cases hg : g = e.1
    · subst hg
      simp only [if_true]
      rw [if_neg (c := e.2 ++ collect e.1 es = []) (by simp [hne e (by simp)])]
      by_cases h0 : collect e.1 es = []
      · simp [h0]
      · simp [h0]
    · have hg' : ¬ e.1 = g := fun h => hg h.symm
      simp only [hg, hg', if_false, List.nil_append]

theorem sorted_merge (es : List (Str × List DictCand)) (r : SMap (List DictCand)) (h : SMap.Sorted r) :
    SMap.Sorted (es.foldl mergeOne r) := by
  induction es generalizing r with
  | nil => exact h
  | cons e es ih => exact ih _ (sorted_mergeOne r e h)

theorem get_map {V W : Type} (m : SMap V) (f : V → W) (g : Str) :
    SMap.get (m.map fun e => (e.1, f e.2)) g = (SMap.get m g).map f := by
  induction m with
  | nil => rfl
  | cons e m ih =>
    unfold SMap.get at *
    rw [List.map_cons, List.find?_cons, List.find?_cons]
    by_cases h : e.1 = g
    · simp [h]
    · simp only [h, decide_false]; exact ih

theorem fold_singletons (es : List (Str × List DictCand)) (r : SMap (List DictCand)) :
    (es.map fun e => [e]).foldl (fun r m => m.foldl mergeOne r) r = es.foldl mergeOne r := by
  induction es generalizing r with
  | nil => rfl
  | cons e es ih => exact ih _

/-- What is read from a line with these prototypes. -/
theorem get_read (es : List (Str × List DictCand)) (hne : ∀ e ∈ es, e.2 ≠ []) (g : Str) :
    SMap.get (candsFromProto ((es.map fun e => [e]).foldl (fun r m => m.foldl mergeOne r) [])) g =
      if collect g es = [] then none else some ((collect g es).map candFromProto) := by
  rw [fold_singletons, DictFile.candsFromProto_sorted _ (sorted_merge es [] List.Pairwise.nil), get_map, get_merge es hne]
  by_cases h : collect g es = []
  · rw [if_pos h, if_pos h]; rfl
  · rw [if_neg h, if_neg h]; rfl

theorem sorted_read (es : List (Str × List DictCand)) :
    SMap.Sorted (candsFromProto ((es.map fun e => [e]).foldl (fun r m => m.foldl mergeOne r) [])) := by
  rw [fold_singletons, DictFile.candsFromProto_sorted _ (sorted_merge es [] List.Pairwise.nil)]
  have := sorted_merge es [] List.Pairwise.nil
  unfold SMap.Sorted at *
  rw [List.pairwise_map]
  exact this

/-! ## The line -/

theorem blanks (m : Str) (hm : m ≠ []) (hs : ' ' ∉ m) (n : Nat) (s : Str) (h : s.head? ≠ some ' ') :
    midashi (m ++ (List.replicate (n + 1) ' ' ++ s)) = some (List.replicate (n + 1) ' ' ++ s, m) ∧
      takeWhile1 (· == ' ') (List.replicate (n + 1) ' ' ++ s) = some (s, List.replicate (n + 1) ' ') := by
  constructor
  · apply takeTill1_ok hm
    · intro x hx; simp; rintro rfl; exact hs hx
    · intro x hx; simp [List.replicate_succ] at hx; subst hx; decide
  · apply takeWhile1_ok
    · simp [List.replicate_succ]
    · intro x hx; simp [(List.eq_of_mem_replicate hx)]
    · intro x hx; simp; rintro rfl; exact h hx

/-- The reading and the blanks go first; the rest of the line is the candidate part. -/
theorem entry_rest (m : Str) (hm : m ≠ []) (hs : ' ' ∉ m) (n : Nat) (s : Str) (h : s.head? ≠ some ' ') :
    entry (m ++ (List.replicate (n + 1) ' ' ++ s)) = (candidates s).map fun r => (m, r.2) := by
  obtain ⟨h1, h2⟩ := blanks m hm hs n s h
  unfold entry
  have hc : ∀ r, candidates s = some r → r.1 = [] := by
    intro r hr
    unfold candidates at hr
    split at hr
    · cases hr
    · cases hr; rfl
  cases hr : candidates s with
  | none => simp [allConsuming, perm3, perm3Step, h1, h2, hr]
  | some r =>
    have := hc r hr
    obtain ⟨r1, r2⟩ := r
    simp only at this
    subst this
    simp [allConsuming, perm3, perm3Step, h1, h2, hr]

theorem collect_proto (g : Str) (items : List Item) : collect g (items.map proto) = items.flatMap (Item.wordsFor g) := by
  unfold collect
  rw [List.flatMap_map]
  congr 1
  funext i
  cases i with
  | word c => simp [proto, Item.wordsFor, eq_comm]
  | group o cs => by_cases h : o = g <;> simp [proto, Item.wordsFor, h]

theorem candidates_items (items : List Item) (hne : items ≠ []) (hp : ∀ i ∈ items, i.Proper) (hk : NoKanaBeforeGroup items) :
    candidates ('/' :: items.flatMap Item.text) =
      some ([], (items.map fun i => [proto i]).foldl (fun r m => m.foldl mergeOne r) []) := by
  have hm := many1_steps (steps_items items hp hk) (by simp [hne]) (by decide)
  unfold candidates
  simp [allConsuming, perm2, perm2Step, char_ok, hm]

/-- **C61.** A line in the format — any reading, any number of blanks, words with and without annotation and groups in any order,
also several groups for the same okurigana — is read; its words for each okurigana are the ones listed, in the order of the line
(lisp expressions in them evaluated, `candFromProto`), and there are no others. -/
theorem line_read (reading : Str) (hr : reading ≠ []) (hs : ' ' ∉ reading) (n : Nat) (items : List Item) (hne : items ≠ [])
    (hp : ∀ i ∈ items, i.Proper) (hk : NoKanaBeforeGroup items) :
    ∃ e, fromLine (lineText reading (n + 1) items) = some e ∧ e.midashi = LispFun.process reading ∧ SMap.Sorted e.cands ∧
      ∀ g, SMap.get e.cands g =
        if items.flatMap (Item.wordsFor g) = [] then none
        else some ((items.flatMap (Item.wordsFor g)).map candFromProto) := by
  have h := entry_rest reading hr hs n ('/' :: items.flatMap Item.text) (by simp)
  rw [candidates_items items hne hp hk] at h
  unfold fromLine lineText
  rw [h]
  refine ⟨_, rfl, rfl, ?_, ?_⟩
  · have := sorted_read (items.map proto)
    rwa [List.map_map] at this
  · intro g
    have := get_read (items.map proto) (by
      intro e he
      obtain ⟨i, hi, rfl⟩ := List.mem_map.mp he
      cases i with
      | word c => simp [proto]
      | group o cs => exact (hp _ hi).2.2.1) g
    rw [collect_proto, List.map_map] at this
    exact this

/-! ## Lines without brackets, exactly -/

/-- What a parser leaves is the end of what it was given. -/
def Shrinks {α} (p : P α) : Prop := ∀ s r v, p s = some (r, v) → r <:+ s

theorem shrinks_char (c : Char) : Shrinks (char c) := by
  intro s r v h
  cases s with
  | nil => cases h
  | cons d s =>
    simp only [char] at h
    split at h
    · cases h; exact List.suffix_cons _ _
    · cases h

theorem shrinks_takeWhile1 (f : Char → Bool) : Shrinks (takeWhile1 f) := by
  intro s r v h
  simp only [takeWhile1] at h
  split at h
  · cases h
  · cases h; exact List.dropWhile_suffix _

theorem shrinks_pmap {α β} {p : P α} (f : α → β) (h : Shrinks p) : Shrinks (pmap p f) := by
  intro s r v hp
  simp only [pmap, Option.map_eq_some_iff, Prod.exists, Prod.mk.injEq] at hp
  obtain ⟨a, b, h1, rfl, _⟩ := hp
  exact h _ _ _ h1

theorem shrinks_opt {α} {p : P α} (h : Shrinks p) : Shrinks (opt p) := by
  intro s r v hp
  simp only [opt] at hp
  split at hp
  · rename_i h1; cases hp; exact h _ _ _ h1
  · cases hp; exact List.suffix_refl _

theorem shrinks_alt {α} {p q : P α} (hp : Shrinks p) (hq : Shrinks q) : Shrinks (alt p q) := by
  intro s r v h
  simp only [alt] at h
  cases h1 : p s with
  | none => rw [h1] at h; exact hq _ _ _ h
  | some x => rw [h1] at h; cases h; exact hp _ _ _ h1

theorem perm2_inv {α β} {p : P α} {q : P β} {s r : Str} {a : α} {b : β} (h : perm2 p q s = some (r, (a, b))) :
    (∃ s1, p s = some (s1, a) ∧ q s1 = some (r, b)) ∨ (p s = none ∧ ∃ s1, q s = some (s1, b) ∧ p s1 = some (r, a)) := by
  unfold perm2 at h
  cases h1 : p s with
  | some x =>
    obtain ⟨s1, a1⟩ := x
    cases h2 : q s1 with
    | none => simp [perm2Step, h1, h2] at h
    | some y =>
      obtain ⟨s2, b1⟩ := y
      simp [perm2Step, h1, h2] at h
      obtain ⟨rfl, rfl, rfl⟩ := h
      exact .inl ⟨s1, rfl, h2⟩
  | none =>
    cases h2 : q s with
    | none => simp [perm2Step, h1, h2] at h
    | some y =>
      obtain ⟨s1, b1⟩ := y
      cases h3 : p s1 with
      | none => simp [perm2Step, h1, h2, h3] at h
      | some z =>
        obtain ⟨s2, a1⟩ := z
        simp [perm2Step, h1, h2, h3] at h
        obtain ⟨rfl, rfl, rfl⟩ := h
        exact .inr ⟨rfl, s1, rfl, h3⟩

theorem shrinks_perm2 {α β} {p : P α} {q : P β} (hp : Shrinks p) (hq : Shrinks q) : Shrinks (perm2 p q) := by
  rintro s r ⟨a, b⟩ h
  rcases perm2_inv h with ⟨s1, h1, h2⟩ | ⟨_, s1, h1, h2⟩
  · exact (hq _ _ _ h2).trans (hp _ _ _ h1)
  · exact (hp _ _ _ h2).trans (hq _ _ _ h1)

theorem shrinks_manyAux {α} {p : P α} (h : Shrinks p) (fuel : Nat) (acc : List α) : Shrinks (manyAux p fuel acc) := by
  induction fuel generalizing acc with
  | zero => intro s r v hp; cases hp; exact List.suffix_refl _
  | succ n ih =>
    intro s r v hp
    simp only [manyAux] at hp
    split at hp
    · cases hp; exact List.suffix_refl _
    · rename_i h1
      split at hp
      · cases hp
      · exact (ih _ _ _ _ hp).trans (h _ _ _ h1)

theorem shrinks_many1 {α} {p : P α} (h : Shrinks p) : Shrinks (many1 p) := by
  intro s r v hp
  simp only [many1] at hp
  split at hp
  · cases hp
  · rename_i h1
    exact (shrinks_manyAux h _ _ _ _ _ hp).trans (h _ _ _ h1)

theorem shrinks_noStrict : Shrinks noStrictOkuriCandidate := by
  intro s r v h
  simp only [noStrictOkuriCandidate] at h
  split at h
  · cases h
  · rename_i i c h1
    have hi := shrinks_takeWhile1 _ _ _ _ h1
    have ho : Shrinks (opt (perm2 (char ';') (takeTill1 isAnnotationIllegal))) :=
      shrinks_opt (shrinks_perm2 (shrinks_char _) (shrinks_takeWhile1 _))
    split at h
    · cases h
    · rename_i h2; cases h; exact (ho _ _ _ h2).trans hi
    · rename_i h2; cases h; exact (ho _ _ _ h2).trans hi

/-- One round of the permutation of a group on a text without an opening bracket. -/
theorem step5_no_bracket (st st' : St5 Char Str Char (List DictCand) Char)
    (h : perm5Step (char '[') (takeWhile1 isOkuriKana) (char '/') (many1 candSlash) (char ']') st = some st')
    (hb : '[' ∉ st.1) (hn : st.2.1 = none) : '[' ∉ st'.1 ∧ st'.2.1 = none := by
  obtain ⟨s, a, b, c, d, e⟩ := st
  simp only at hb hn
  subst hn
  have h0 : char '[' s = none := by
    apply char_fail; intro hh; exact hb (List.mem_of_mem_head? hh)
  have sub : ∀ {r : Str}, r <:+ s → '[' ∉ r := fun h1 h2 => hb (h1.subset h2)
  have hsl : Shrinks candSlash := shrinks_pmap _ (shrinks_perm2 shrinks_noStrict (shrinks_char _))
  simp only [perm5Step, h0, Option.isNone_none, if_true, Option.map_none, Option.none_or] at h
  cases hq : (if b.isNone = true then (takeWhile1 isOkuriKana s).map fun x => (x.1, (none : Option Char), some x.2, c, d, e) else none) with
  | some y =>
    rw [hq] at h
    cases h
    split at hq
    · obtain ⟨x, hx, rfl⟩ := Option.map_eq_some_iff.mp hq
      exact ⟨sub (shrinks_takeWhile1 _ _ _ _ hx), rfl⟩
    · cases hq
  | none =>
    rw [hq, Option.none_or] at h
    cases hr : (if c.isNone = true then (char '/' s).map fun x => (x.1, (none : Option Char), b, some x.2, d, e) else none) with
    | some y =>
      rw [hr] at h
      cases h
      split at hr
      · obtain ⟨x, hx, rfl⟩ := Option.map_eq_some_iff.mp hr
        exact ⟨sub (shrinks_char _ _ _ _ hx), rfl⟩
      · cases hr
    | none =>
      rw [hr, Option.none_or] at h
      cases ht : (if d.isNone = true then (many1 candSlash s).map fun x => (x.1, (none : Option Char), b, c, some x.2, e) else none) with
      | some y =>
        rw [ht] at h
        cases h
        split at ht
        · obtain ⟨x, hx, rfl⟩ := Option.map_eq_some_iff.mp ht
          exact ⟨sub (shrinks_many1 hsl _ _ _ hx), rfl⟩
        · cases ht
      | none =>
        rw [ht, Option.none_or] at h
        split at h
        · obtain ⟨x, hx, rfl⟩ := Option.map_eq_some_iff.mp h
          exact ⟨sub (shrinks_char _ _ _ _ hx), rfl⟩
        · cases h

theorem strict_none {s : Str} (hb : '[' ∉ s) : strictOkuriCandidates s = none := by
  unfold strictOkuriCandidates
  suffices h : perm5 (char '[') (takeWhile1 isOkuriKana) (char '/') (many1 candSlash) (char ']') s = none by
    show (match perm5 (char '[') (takeWhile1 isOkuriKana) (char '/') (many1 candSlash) (char ']') s with
      | none => none
      | some (i, (_, okuri, _, cands, _)) => some (i, SMap.insert [] okuri cands)) = none
    rw [h]
  unfold perm5
  cases h1 : perm5Step (char '[') (takeWhile1 isOkuriKana) (char '/') (many1 candSlash) (char ']') (s, none, none, none, none, none) with
  | none => rfl
  | some t1 =>
    obtain ⟨b1, n1⟩ := step5_no_bracket _ _ h1 hb rfl
    simp only [bind, Option.bind]
    cases h2 : perm5Step (char '[') (takeWhile1 isOkuriKana) (char '/') (many1 candSlash) (char ']') t1 with
    | none => rfl
    | some t2 =>
      obtain ⟨b2, n2⟩ := step5_no_bracket _ _ h2 b1 n1
      simp only
      cases h3 : perm5Step (char '[') (takeWhile1 isOkuriKana) (char '/') (many1 candSlash) (char ']') t2 with
      | none => rfl
      | some t3 =>
        obtain ⟨b3, n3⟩ := step5_no_bracket _ _ h3 b2 n2
        simp only
        cases h4 : perm5Step (char '[') (takeWhile1 isOkuriKana) (char '/') (many1 candSlash) (char ']') t3 with
        | none => rfl
        | some t4 =>
          obtain ⟨b4, n4⟩ := step5_no_bracket _ _ h4 b3 n3
          simp only
          cases h5 : perm5Step (char '[') (takeWhile1 isOkuriKana) (char '/') (many1 candSlash) (char ']') t4 with
          | none => rfl
          | some t5 =>
            obtain ⟨b5, n5⟩ := step5_no_bracket _ _ h5 b4 n4
            obtain ⟨t, a, b, c, d, e⟩ := t5
            simp only at n5
            subst n5
            rfl

theorem takeTill1_inv {f : Char → Bool} {s r w : Str} (h : takeTill1 f s = some (r, w)) :
    s = w ++ r ∧ w ≠ [] ∧ (∀ x ∈ w, f x = false) ∧ ∀ x, r.head? = some x → f x = true := by
  simp only [takeTill1, takeWhile1] at h
  split at h
  · cases h
  · rename_i hne
    cases h
    refine ⟨List.takeWhile_append_dropWhile.symm, by simpa using hne, ?_, ?_⟩
    · intro x hx
      have : ∀ (l : Str), x ∈ l.takeWhile (fun c => !f c) → (!f x) = true := by
        intro l
        induction l with
        | nil => intro h; cases h
        | cons a l ih =>
          intro h
          rw [List.takeWhile_cons] at h
          split at h
          · rcases List.mem_cons.mp h with rfl | h
            · assumption
            · exact ih h
          · cases h
      simpa using this s hx
    · intro x hx
      cases hd : s.dropWhile (fun c => !f c) with
      | nil => rw [hd] at hx; cases hx
      | cons y t =>
        rw [hd] at hx; cases hx
        have : ∀ (l : Str), l.dropWhile (fun c => !f c) = x :: t → (!f x) = false := by
          intro l
          induction l with
          | nil => intro h; cases h
          | cons a l ih =>
            intro h
            rw [List.dropWhile_cons] at h
            split at h
            · exact ih h
            · cases h; simp_all
        simpa using this s hd

theorem char_inv {c : Char} {s r : Str} {v : Char} (h : char c s = some (r, v)) : s = c :: r := by
  cases s with
  | nil => cases h
  | cons d s =>
    simp only [char] at h
    split at h
    · rename_i e; cases h; rw [e]
    · cases h

/-- The word read from a text without brackets. -/
theorem noStrict_inv {s r : Str} {c : DictCand} (h : noStrictOkuriCandidate s = some (r, c)) (hb : '[' ∉ s ∧ ']' ∉ s) :
    s = wordText c ++ r ∧ ProperWord c ∧ ∀ x, r.head? = some x → x = '/' ∨ x = ';' := by
  simp only [noStrictOkuriCandidate] at h
  split at h
  · cases h
  · rename_i i w h1
    obtain ⟨rfl, hne, hw, hi⟩ := takeTill1_inv h1
    have hpw : w ≠ [] ∧ '/' ∉ w ∧ ';' ∉ w ∧ '[' ∉ w ∧ ']' ∉ w :=
      ⟨hne, fun h => absurd (hw _ h) (by decide), fun h => absurd (hw _ h) (by decide), fun h => absurd (hw _ h) (by decide),
        fun h => absurd (hw _ h) (by decide)⟩
    have hhead : ∀ x, i.head? = some x → x = '/' ∨ x = ';' := by
      intro x hx
      have h1 := hi x hx
      have hm : x ∈ w ++ i := List.mem_append.mpr (.inr (List.mem_of_mem_head? hx))
      have n1 : x ≠ '[' := by rintro rfl; exact hb.1 hm
      have n2 : x ≠ ']' := by rintro rfl; exact hb.2 hm
      simpa [isCandIllegal, n1, n2] using h1
    split at h
    · cases h
    · rename_i i' x a h2
      cases h
      simp only [opt] at h2
      split at h2
      · rename_i s' p h3
        cases h2
        rcases perm2_inv h3 with ⟨s1, g1, g2⟩ | ⟨_, s1, g1, g2⟩
        · have e1 := char_inv g1
          obtain ⟨e2, ane, al, ai⟩ := takeTill1_inv g2
          subst e1 e2
          refine ⟨by simp [wordText], ⟨hpw, ?_⟩, ?_⟩
          · intro a' ha
            cases ha
            exact ⟨ane, fun h => absurd (al _ h) (by decide), fun h => absurd (al _ h) (by decide)⟩
          · intro y hy
            have := ai y hy
            simpa [isAnnotationIllegal] using this
        · obtain ⟨e2, ane, al, ai⟩ := takeTill1_inv g1
          exfalso
          cases a with
          | nil => exact ane rfl
          | cons y a =>
            have := hhead y (by rw [e2]; rfl)
            have h4 := al y (by simp)
            rcases this with rfl | rfl <;> revert h4 <;> decide
      · cases h2
    · rename_i i' h2
      cases h
      simp only [opt] at h2
      split at h2
      · cases h2
      · cases h2
        exact ⟨by simp [wordText], ⟨hpw, by intro a ha; cases ha⟩, hhead⟩

/-- The converse, before a slash or at the end. -/
theorem noStrict_word (c : DictCand) (h : ProperWord c) (r : Str) (hr : ∀ x, r.head? = some x → x = '/') :
    noStrictOkuriCandidate (wordText c ++ r) = some (r, c) := by
  cases r with
  | cons x r =>
    have := hr x rfl
    subst this
    rw [wordText_eq]; exact noStrict_ok c ((rawOk_iff c).mpr h) r
  | nil =>
    obtain ⟨h1, h2, h3⟩ := (rawOk_iff c).mpr h
    obtain ⟨k, a⟩ := c
    unfold noStrictOkuriCandidate wordText
    cases a with
    | none =>
      simp only
      rw [takeTill1_ok h1 h2 (by simp)]
      have : perm2 (char ';') (takeTill1 isAnnotationIllegal) [] = none := by decide
      simp [opt, this]
    | some a =>
      obtain ⟨ane, al⟩ := h3 a rfl
      simp only
      rw [List.append_assoc, takeTill1_ok h1 h2 (by intro x hx; simp at hx; subst hx; decide)]
      have h2 : takeTill1 isAnnotationIllegal (a ++ []) = some ([], a) := takeTill1_ok ane al (by simp)
      simp only [List.append_nil] at h2
      simp [opt, perm2, perm2Step, char_ok, h2]

/-- What a word gives. -/
abbrev single (c : DictCand) : SMap (List DictCand) := [([], [c])]

theorem candidate_inv {s r : Str} {v : SMap (List DictCand)} (h : candidate s = some (r, v)) (hb : '[' ∉ s ∧ ']' ∉ s) :
    ∃ c, ProperWord c ∧ v = single c ∧
      (s = wordText c ++ '/' :: r ∨ (s = '/' :: (wordText c ++ r) ∧ ∀ x, r.head? = some x → x = '/' ∨ x = ';')) := by
  have alt_eq : ∀ t : Str, '[' ∉ t → alt strictOkuriCandidates (pmap noStrictOkuriCandidate fun c => SMap.insert [] [] [c]) t =
      (noStrictOkuriCandidate t).map fun x => (x.1, single x.2) := by
    intro t ht
    simp only [alt, strict_none ht, Option.none_or, pmap]
    rfl
  simp only [candidate] at h
  split at h
  · cases h
  · rename_i i x y h1
    cases h
    rcases perm2_inv h1 with ⟨s1, g1, g2⟩ | ⟨_, s1, g1, g2⟩
    · rw [alt_eq s hb.1] at g1
      obtain ⟨⟨r', c⟩, g3, g4⟩ := Option.map_eq_some_iff.mp g1
      cases g4
      obtain ⟨e1, e2, _⟩ := noStrict_inv g3 hb
      have e3 := char_inv g2
      exact ⟨c, e2, rfl, .inl (by rw [e1]; exact congrArg _ e3)⟩
    · have e3 := char_inv g1
      subst e3
      have hb1 : '[' ∉ s1 ∧ ']' ∉ s1 := ⟨fun h => hb.1 (by simp [h]), fun h => hb.2 (by simp [h])⟩
      rw [alt_eq s1 hb1.1] at g2
      obtain ⟨⟨r', c⟩, g3, g4⟩ := Option.map_eq_some_iff.mp g2
      cases g4
      obtain ⟨e1, e2, e4⟩ := noStrict_inv g3 hb1
      exact ⟨c, e2, rfl, .inr ⟨by rw [e1], e4⟩⟩

theorem word_head {c : DictCand} (h : ProperWord c) (r : Str) : ∃ x t, wordText c ++ r = x :: t ∧ isCandIllegal x = false := by
  obtain ⟨x, t, h1, h2, _⟩ := showRaw_ne ((rawOk_iff c).mpr h)
  exact ⟨x, t ++ r, by rw [wordText_eq, h1]; rfl, h2⟩

theorem candidate_word {c : DictCand} (h : ProperWord c) (r : Str) (hb : '[' ∉ wordText c) (hr : '[' ∉ r) :
    candidate (wordText c ++ '/' :: r) = some (r, single c) := by
  have h1 : strictOkuriCandidates (wordText c ++ '/' :: r) = none := strict_none (by simp [hb, hr])
  have h2 := noStrict_word c h ('/' :: r) (by intro x hx; simp at hx; exact hx.symm)
  unfold candidate
  simp [perm2, perm2Step, alt, h1, pmap, h2, char_ok, SMap.insert]

theorem candidate_before {c : DictCand} (h : ProperWord c) (r : Str) (hb : '[' ∉ wordText c) (hr : '[' ∉ r)
    (hh : ∀ x, r.head? = some x → x = '/') :
    candidate ('/' :: (wordText c ++ r)) = some (r, single c) := by
  have h1 : strictOkuriCandidates (wordText c ++ r) = none := strict_none (by simp [hb, hr])
  have h1' : strictOkuriCandidates ('/' :: (wordText c ++ r)) = none := strict_none (by simp [hb, hr])
  have h2 := noStrict_word c h r hh
  have h3 : noStrictOkuriCandidate ('/' :: (wordText c ++ r)) = none := by
    unfold noStrictOkuriCandidate
    rw [takeTill1_fail (by intro x hx; simp at hx; subst hx; decide)]
  unfold candidate
  simp [perm2, perm2Step, alt, h1, h1', pmap, h2, h3, char_ok, SMap.insert]

theorem shrinks_candidate {s r : Str} {v : SMap (List DictCand)} (h : candidate s = some (r, v)) (hb : '[' ∉ s ∧ ']' ∉ s) :
    r <:+ s ∧ r.length < s.length := by
  obtain ⟨c, _, _, rfl | ⟨rfl, _⟩⟩ := candidate_inv h hb
  · exact ⟨⟨wordText c ++ ['/'], by simp⟩, by simp; omega⟩
  · exact ⟨⟨'/' :: wordText c, by simp⟩, by simp; omega⟩

theorem manyAux_inv (fuel : Nat) (acc : List (SMap (List DictCand))) (s r : Str) (vs : List (SMap (List DictCand)))
    (hl : s.length ≤ fuel) (hb : '[' ∉ s ∧ ']' ∉ s) (h : manyAux candidate fuel acc s = some (r, vs)) :
    ∃ us, vs = acc ++ us ∧ Steps candidate s us r := by
  induction fuel generalizing acc s with
  | zero =>
    cases h
    exact ⟨[], by simp, .nil _⟩
  | succ n ih =>
    simp only [manyAux] at h
    split at h
    · cases h; exact ⟨[], by simp, .nil _⟩
    · rename_i s' a h1
      obtain ⟨hs, hlt⟩ := shrinks_candidate h1 hb
      rw [if_neg (by omega)] at h
      obtain ⟨us, e, st⟩ := ih (acc ++ [a]) s' (by omega)
        ⟨fun h => hb.1 (hs.subset h), fun h => hb.2 (hs.subset h)⟩ h
      exact ⟨a :: us, by rw [e]; simp, .cons h1 hlt st⟩

theorem many1_inv (s r : Str) (vs : List (SMap (List DictCand))) (hb : '[' ∉ s ∧ ']' ∉ s)
    (h : many1 candidate s = some (r, vs)) : vs ≠ [] ∧ Steps candidate s vs r := by
  simp only [many1] at h
  split at h
  · cases h
  · rename_i s' a h1
    obtain ⟨hs, hlt⟩ := shrinks_candidate h1 hb
    obtain ⟨us, e, st⟩ := manyAux_inv _ [a] s' r vs (Nat.le_refl _)
      ⟨fun h => hb.1 (hs.subset h), fun h => hb.2 (hs.subset h)⟩ h
    subst e
    exact ⟨by simp, .cons h1 hlt st⟩

theorem steps_inv {s r : Str} {vs : List (SMap (List DictCand))} (h : Steps candidate s vs r) (hb : '[' ∉ s ∧ ']' ∉ s)
    (hr : r = [] ∨ r = ['/']) :
    ∃ as bs, vs = (as ++ bs).map single ∧ (∀ c ∈ as ++ bs, ProperWord c) ∧ s = words as ++ wordsBefore bs ++ r := by
  induction h with
  | nil s => exact ⟨[], [], rfl, by simp, by simp [words, wordsBefore]⟩
  | cons h1 hlt _ ih =>
    rename_i s s1 r v vs _
    obtain ⟨hs, _⟩ := shrinks_candidate h1 hb
    obtain ⟨as, bs, e1, e2, e3⟩ := ih ⟨fun h => hb.1 (hs.subset h), fun h => hb.2 (hs.subset h)⟩ hr
    obtain ⟨c, hc, rfl, rfl | ⟨rfl, hh⟩⟩ := candidate_inv h1 hb
    · refine ⟨c :: as, bs, by simp [e1], ?_, ?_⟩
      · intro d hd
        rcases List.mem_cons.mp hd with rfl | hd
        · exact hc
        · exact e2 d hd
      · rw [e3]; simp [words]
    · cases as with
      | cons d as =>
        exfalso
        obtain ⟨x, t, hx, hl⟩ := word_head (e2 d (by simp)) ('/' :: words as ++ wordsBefore bs ++ r)
        have : s1 = x :: t := by rw [e3, ← hx]; simp [words]
        have := hh x (by rw [this]; rfl)
        rcases this with rfl | rfl <;> revert hl <;> decide
      | nil =>
        refine ⟨[], c :: bs, by simpa using e1, ?_, ?_⟩
        · intro d hd
          rcases List.mem_cons.mp hd with rfl | hd
          · exact hc
          · exact e2 d (by simpa using hd)
        · rw [e3]; simp [words, wordsBefore]

theorem no_bracket_word {c : DictCand} {cs : List DictCand} (hc : c ∈ cs) (h : '[' ∉ words cs) : '[' ∉ wordText c := by
  intro hm; exact h (List.mem_flatMap.mpr ⟨c, hc, by simp [hm]⟩)

theorem before_head (bs : List DictCand) (r : Str) (hr : r = [] ∨ r = ['/']) :
    ∀ x, (wordsBefore bs ++ r).head? = some x → x = '/' := by
  cases bs with
  | nil => rcases hr with rfl | rfl <;> simp [wordsBefore]
  | cons b bs => intro x hx; simp [wordsBefore] at hx; exact hx.symm

theorem steps_spelled (as bs : List DictCand) (r : Str) (hp : ∀ c ∈ as ++ bs, ProperWord c) (hr : r = [] ∨ r = ['/'])
    (hb : '[' ∉ words as ++ wordsBefore bs ++ r) :
    Steps candidate (words as ++ wordsBefore bs ++ r) ((as ++ bs).map single) r := by
  induction as with
  | nil =>
    induction bs with
    | nil => simpa [words, wordsBefore] using Steps.nil (p := candidate) r
    | cons b bs ih =>
      have hb' : '[' ∉ wordText b ∧ '[' ∉ wordsBefore bs ++ r := by
        constructor <;> (intro h; apply hb; simp [words, wordsBefore] at h ⊢; simp [h])
      have ih := ih (fun c hc => hp c (by simp at hc ⊢; exact .inr hc)) (by simpa [words] using hb'.2)
      have e : words [] ++ wordsBefore (b :: bs) ++ r = '/' :: (wordText b ++ (wordsBefore bs ++ r)) := by
        simp [words, wordsBefore]
      rw [e]
      refine .cons (candidate_before (hp b (by simp)) _ hb'.1 hb'.2 (before_head bs r hr)) (by simp; omega) ?_
      simpa [words] using ih
  | cons a as ih =>
    have hb' : '[' ∉ wordText a ∧ '[' ∉ words as ++ wordsBefore bs ++ r := by
      constructor
      · intro h; apply hb; simp [words, h]
      · intro h; apply hb; simp only [words, List.flatMap_cons, List.append_assoc, List.mem_append] at h ⊢; exact .inr (.inr h)
    have ih := ih (fun c hc => hp c (by simp at hc ⊢; exact .inr hc)) hb'.2
    have e : words (a :: as) ++ wordsBefore bs ++ r = wordText a ++ '/' :: (words as ++ wordsBefore bs ++ r) := by
      simp [words]
    rw [e]
    exact .cons (candidate_word (hp a (by simp)) _ hb'.1 hb'.2) (by simp; omega) ih

theorem last_stops {r : Str} (hr : r = [] ∨ r = ['/']) : candidate r = none := by
  rcases hr with rfl | rfl <;> decide

/-- The candidate part of a line without brackets. -/
theorem candidates_iff (s : Str) (hb : '[' ∉ s ∧ ']' ∉ s) (m : SMap (List DictCand)) :
    candidates s = some ([], m) ↔
      ∃ ws, Spells s ws ∧ m = (ws.map single).foldl (fun r m => m.foldl mergeOne r) [] := by
  constructor
  · intro h
    unfold candidates at h
    split at h
    · cases h
    · rename_i i x vs h1
      cases h
      simp only [allConsuming] at h1
      split at h1
      · rename_i a h2
        cases h1
        rcases perm2_inv h2 with ⟨s1, g1, g2⟩ | ⟨g0, s1, g1, g2⟩
        · have e := char_inv g1
          subst e
          have hb1 : '[' ∉ s1 ∧ ']' ∉ s1 := ⟨fun h => hb.1 (by simp [h]), fun h => hb.2 (by simp [h])⟩
          obtain ⟨hne, st⟩ := many1_inv _ _ _ hb1 g2
          obtain ⟨as, bs, e1, e2, e3⟩ := steps_inv st hb1 (.inl rfl)
          refine ⟨as ++ bs, ⟨as, bs, rfl, ?_, e2, .inl ?_⟩, by rw [e1]⟩
          · rintro e; rw [e] at e1; exact hne (by simpa using e1)
          · rw [e3]; simp
        · have e := char_inv g2
          subst e
          obtain ⟨hne, st⟩ := many1_inv _ _ _ hb g1
          obtain ⟨as, bs, e1, e2, e3⟩ := steps_inv st hb (.inr rfl)
          refine ⟨as ++ bs, ⟨as, bs, rfl, ?_, e2, .inr ⟨?_, e3⟩⟩, by rw [e1]⟩
          · rintro e; rw [e] at e1; exact hne (by simpa using e1)
          · rintro rfl
            have := before_head bs ['/'] (.inr rfl)
            cases hs : s with
            | nil => rw [hs] at e3; simp [words] at e3
            | cons y t =>
              rw [hs] at e3 g0
              have := this y (by rw [← show y :: t = wordsBefore bs ++ ['/'] by simpa [words] using e3]; rfl)
              subst this
              simp [char] at g0
      · cases h1
  · rintro ⟨ws, ⟨as, bs, rfl, hne, hp, rfl | ⟨ha, rfl⟩⟩, rfl⟩
    · have hb1 : '[' ∉ words as ++ wordsBefore bs ++ [] := by
        intro h; apply hb.1; simp at h ⊢; exact h
      have st := steps_spelled as bs [] hp (.inl rfl) hb1
      have hm := many1_steps st (by simpa using hne) (last_stops (.inl rfl))
      rw [List.append_nil] at hm
      unfold candidates
      simp [allConsuming, perm2, perm2Step, char_ok, hm]
    · have st := steps_spelled as bs ['/'] hp (.inr rfl) hb.1
      have hm := many1_steps st (by simpa using hne) (last_stops (.inr rfl))
      have hc : char '/' (words as ++ wordsBefore bs ++ ['/']) = none := by
        cases as with
        | nil => exact absurd rfl ha
        | cons a as =>
          obtain ⟨x, t, hx, hl⟩ := word_head (hp a (by simp)) ('/' :: words as ++ wordsBefore bs ++ ['/'])
          have : words (a :: as) ++ wordsBefore bs ++ ['/'] = x :: t := by rw [← hx]; simp [words]
          rw [this]
          apply char_fail
          simp
          rintro rfl
          revert hl; decide
      have hc2 : char '/' ['/'] = some ([], '/') := by decide
      unfold candidates allConsuming perm2
      simp only [perm2Step, hc, hm, hc2, bind, Option.bind, Option.map_none, Option.map_some, Option.isNone_none, if_true,
        Option.none_or, Option.some_or]

theorem merge_single (ws : List DictCand) (hne : ws ≠ []) :
    (ws.map single).foldl (fun r m => m.foldl mergeOne r) [] = [([], ws)] := by
  have := merge_all ws [] (by
    unfold rawMap
    split <;> simp)
  rw [List.map_nil, List.append_nil] at this
  rw [this]
  unfold rawMap
  rw [if_neg (by simpa using hne), List.append_nil]

/-- **C61, lines without brackets, exactly.** Such a line is read if and only if its part after the blanks spells some words in the
sense of `Spells`; then the entry consists of the reading and exactly these words in this order. -/
theorem plain_line_iff (reading : Str) (hr : reading ≠ []) (hs : ' ' ∉ reading) (n : Nat) (s : Str) (hh : s.head? ≠ some ' ')
    (hb : '[' ∉ s ∧ ']' ∉ s) (e : DictEntry) :
    fromLine (reading ++ (List.replicate (n + 1) ' ' ++ s)) = some e ↔
      ∃ ws, Spells s ws ∧ e.midashi = LispFun.process reading ∧ e.cands = [([], ws.map candFromProto)] ∧
        e.hasOkuri = looksOkuriAri e.midashi := by
  have h0 : ∀ r, candidates s = some r → r.1 = [] := by
    intro r hr
    unfold candidates at hr
    split at hr
    · cases hr
    · cases hr; rfl
  have hne : ∀ ws, Spells s ws → ws ≠ [] := by
    rintro ws ⟨as, bs, rfl, h, _⟩; exact h
  unfold fromLine
  rw [entry_rest reading hr hs n s hh]
  constructor
  · intro h
    cases hc : candidates s with
    | none => rw [hc] at h; cases h
    | some r =>
      rw [hc] at h
      obtain ⟨r1, m⟩ := r
      have := h0 _ hc
      simp only at this
      subst this
      obtain ⟨ws, h1, h2⟩ := (candidates_iff s hb m).mp hc
      rw [merge_single ws (hne ws h1)] at h2
      subst h2
      cases h
      exact ⟨ws, h1, rfl, rfl, rfl⟩
  · rintro ⟨ws, h1, h2, h3, h4⟩
    have := (candidates_iff s hb _).mpr ⟨ws, h1, rfl⟩
    rw [merge_single ws (hne ws h1)] at this
    rw [this]
    simp only [Option.map_some]
    obtain ⟨em, eh, ec⟩ := e
    simp only at h2 h3 h4
    subst h2 h3 h4
    rfl

/-! ## Findings -/

/-- No second semicolon before the next slash. -/
def oneSemicolon : Bool → Str → Bool
  | _, [] => true
  | seen, c :: cs => if c = '/' then oneSemicolon false cs else if c = ';' then !seen && oneSemicolon true cs else oneSemicolon seen cs

theorem oneSemicolon_false (x a y : Str) (ha : '/' ∉ a) (b : Bool) : oneSemicolon b (x ++ ';' :: (a ++ ';' :: y)) = false := by
  induction x generalizing b with
  | nil =>
    have : oneSemicolon true (a ++ ';' :: y) = false := by
      induction a with
      | nil => simp [oneSemicolon]
      | cons c a ih =>
        have hc : c ≠ '/' := by rintro rfl; exact ha (by simp)
        rw [List.cons_append, oneSemicolon, if_neg hc]
        split
        · rfl
        · exact ih fun h => ha (by simp [h])
    simp [oneSemicolon, this]
  | cons c x ih =>
    rw [List.cons_append, oneSemicolon]
    split
    · exact ih _
    · split
      · rw [ih]; simp
      · exact ih _

theorem oneSemicolon_skip (w t : Str) (h : '/' ∉ w ∧ ';' ∉ w) (b : Bool) : oneSemicolon b (w ++ t) = oneSemicolon b t := by
  induction w with
  | nil => rfl
  | cons c w ih =>
    have h1 : c ≠ '/' := by rintro rfl; exact h.1 (by simp)
    have h2 : c ≠ ';' := by rintro rfl; exact h.2 (by simp)
    rw [List.cons_append, oneSemicolon, if_neg h1, if_neg h2]
    exact ih ⟨fun h' => h.1 (by simp [h']), fun h' => h.2 (by simp [h'])⟩

theorem oneSemicolon_word (c : DictCand) (h : ProperWord c) (t : Str) (ht : ∀ x, t.head? = some x → x = '/') :
    oneSemicolon false (wordText c ++ t) = oneSemicolon false t := by
  have stop : ∀ b, oneSemicolon b t = oneSemicolon false t := by
    intro b
    cases t with
    | nil => cases b <;> rfl
    | cons x t => have := ht x rfl; subst this; simp [oneSemicolon]
  unfold wordText
  split
  · rename_i a ha
    obtain ⟨_, a1, a2⟩ := h.note a ha
    rw [List.append_assoc, oneSemicolon_skip _ _ ⟨h.word.2.1, h.word.2.2.1⟩]
    show (!false && oneSemicolon true (a ++ t)) = _
    rw [oneSemicolon_skip _ _ ⟨a1, a2⟩, stop]; simp
  · rw [oneSemicolon_skip _ _ ⟨h.word.2.1, h.word.2.2.1⟩]

theorem oneSemicolon_spelled (as bs : List DictCand) (r : Str) (hp : ∀ c ∈ as ++ bs, ProperWord c) (hr : r = [] ∨ r = ['/']) :
    oneSemicolon false (words as ++ wordsBefore bs ++ r) = true := by
  induction as with
  | nil =>
    induction bs with
    | nil => rcases hr with rfl | rfl <;> rfl
    | cons b bs ih =>
      have e : words [] ++ wordsBefore (b :: bs) ++ r = '/' :: (wordText b ++ (wordsBefore bs ++ r)) := by
        simp [words, wordsBefore]
      rw [e]
      show oneSemicolon false (wordText b ++ (wordsBefore bs ++ r)) = true
      rw [oneSemicolon_word b (hp b (by simp)) _ (before_head bs r hr)]
      exact ih fun c hc => hp c (by simp at hc ⊢; exact .inr hc)
  | cons a as ih =>
    have e : words (a :: as) ++ wordsBefore bs ++ r = wordText a ++ '/' :: (words as ++ wordsBefore bs ++ r) := by
      simp [words]
    rw [e, oneSemicolon_word a (hp a (by simp)) _ (by intro x hx; simp at hx; exact hx.symm)]
    exact ih fun c hc => hp c (by simp at hc ⊢; exact .inr hc)

/-- C61, a finding: an annotation which contains a semicolon makes the whole line disappear, with all its words. -/
theorem semicolon_in_annotation_loses_line (reading : Str) (hr : reading ≠ []) (hs : ' ' ∉ reading) (n : Nat) (x a y : Str)
    (hh : x.head? ≠ some ' ') (ha : '/' ∉ a) (hb : '[' ∉ x ++ a ++ y ∧ ']' ∉ x ++ a ++ y) :
    fromLine (reading ++ (List.replicate (n + 1) ' ' ++ (x ++ ';' :: (a ++ ';' :: y)))) = none := by
  cases h : fromLine (reading ++ (List.replicate (n + 1) ' ' ++ (x ++ ';' :: (a ++ ';' :: y)))) with
  | none => rfl
  | some e =>
    exfalso
    have hb' : '[' ∉ x ++ ';' :: (a ++ ';' :: y) ∧ ']' ∉ x ++ ';' :: (a ++ ';' :: y) := by
      simp only [List.mem_append, List.mem_cons, not_or] at hb ⊢
      obtain ⟨⟨⟨h1, h2⟩, h3⟩, ⟨h4, h5⟩, h6⟩ := hb
      exact ⟨⟨h1, by decide, h2, by decide, h3⟩, h4, by decide, h5, by decide, h6⟩
    obtain ⟨ws, ⟨as, bs, rfl, _, hp, e' | ⟨_, e'⟩⟩, _⟩ := (plain_line_iff reading hr hs n _ (by
      cases x with
      | nil => simp
      | cons c x => simpa using hh) hb' e).mp h
    · have h1 := oneSemicolon_spelled as bs [] hp (.inl rfl)
      have h2 := oneSemicolon_false x a y ha false
      rw [e'] at h2
      rw [List.append_nil] at h1
      have : oneSemicolon false ('/' :: (words as ++ wordsBefore bs)) = oneSemicolon false (words as ++ wordsBefore bs) := rfl
      rw [this, h1] at h2
      cases h2
    · have h1 := oneSemicolon_spelled as bs ['/'] hp (.inr rfl)
      have h2 := oneSemicolon_false x a y ha false
      rw [e', h1] at h2
      cases h2

/-- C61, findings about tolerated lines: two slashes in a row, and a word without a slash behind it. -/
theorem tolerated_lines :
    fromLine c%"あい /愛//哀/藍" = some ⟨c%"あい", false, [([], [⟨c%"愛", none⟩, ⟨c%"哀", none⟩, ⟨c%"藍", none⟩])]⟩ ∧
    fromLine c%"あい /愛/哀" = none ∧ fromLine c%"あい /愛//" = none ∧ fromLine c%"あい /愛;/" = none := by decide +kernel

/-- C61, a finding: in a line which starts with a blank the reading is the text up to the next blank, and the rest, with the blank, is
a word; and a bracket can change places with a semicolon. -/
theorem tolerated_orders :
    fromLine c%" あい 愛//" = some ⟨c%"あい", false, [([], [⟨c%" 愛", none⟩])]⟩ ∧
    fromLine c%"あい /愛[注;/" = some ⟨c%"あい", false, [([], [⟨c%"愛", some c%"[注"⟩])]⟩ := by decide +kernel

/-- C61: an expression for the empty text is not evaluated, it stays as it is (instead of vanishing). -/
theorem empty_concat_kept (pre : Str) (h : '(' ∉ pre) :
    LispFun.process (pre ++ c%"(concat \"\")") = pre ++ c%"(concat \"\")" := by
  have hm : ∀ t : Str, LispFun.concatMatches 0 (pre ++ t) = LispFun.concatMatches 0 t := by
    intro t
    induction pre with
    | nil => rfl
    | cons c pre ih =>
      have hc : c ≠ '(' := by rintro rfl; exact h (by simp)
      have hn : LispFun.concatMatchLen (c :: (pre ++ t)) = none := by
        unfold LispFun.concatMatchLen
        rw [if_neg]
        simp only [List.isPrefixOf_iff_prefix, List.cons_prefix_cons]
        rintro ⟨e, _⟩
        exact hc e.symm
      rw [List.cons_append, LispFun.concatMatches, hn]
      exact ih fun h' => h (by simp [h'])
  unfold LispFun.process
  simp only [hm]
  have : (LispFun.concatMatches 0 c%"(concat \"\")").mapM LispFun.concatReplacement = none := by decide +kernel
  rw [this]

/-! ## Examples -/

/-- Words, an annotation, groups (one okurigana twice) in any order. -/
def sampleItems : List Item :=
  [.word ⟨c%"大", none⟩, .group c%"きい" [⟨c%"大", some c%"大小"⟩], .word ⟨c%"多", some c%"[多少]"⟩, .group c%"く" [⟨c%"多", none⟩, ⟨c%"大", none⟩],
   .group c%"きい" [⟨c%"巨", none⟩]]

theorem sample_proper : (∀ i ∈ sampleItems, i.Proper) ∧ NoKanaBeforeGroup sampleItems := by
  constructor
  · intro i hi
    simp only [sampleItems, List.mem_cons, List.not_mem_nil, or_false] at hi
    rcases hi with rfl | rfl | rfl | rfl | rfl
    · exact ⟨by decide, by simp⟩
    · refine ⟨by decide, by decide, by decide, ?_⟩
      intro c hc; simp at hc; subst hc; exact ⟨by decide, by intro a ha; cases ha; decide⟩
    · exact ⟨by decide, by intro a ha; cases ha; decide⟩
    · refine ⟨by decide, by decide, by decide, ?_⟩
      intro c hc; simp at hc; rcases hc with rfl | rfl <;> exact ⟨by decide, by simp⟩
    · refine ⟨by decide, by decide, by decide, ?_⟩
      intro c hc; simp at hc; subst hc; exact ⟨by decide, by simp⟩
  · intro c o cs h hk
    have hm : Item.word c ∈ sampleItems := h.subset (by simp)
    simp [sampleItems] at hm
    rcases hm with rfl | rfl
    · exact absurd (hk.2 '大' (by simp)) (by decide)
    · exact absurd hk.1 (by simp)

example : lineText c%"おおk" 2 sampleItems = c%"おおk  /大/[きい/大;大小/]/多;[多少]/[く/多/大/]/[きい/巨/]/" := by decide +kernel

example : fromLine (lineText c%"おおk" 2 sampleItems) = some ⟨c%"おおk", true,
    [([], [⟨c%"大", none⟩, ⟨c%"多", some c%"[多少]"⟩]), (c%"きい", [⟨c%"大", some c%"大小"⟩, ⟨c%"巨", none⟩]),
      (c%"く", [⟨c%"多", none⟩, ⟨c%"大", none⟩])]⟩ := by decide +kernel

end Cskk.Props.DictGrammar
