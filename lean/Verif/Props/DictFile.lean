import Verif.Spec.DictText
import Verif.Lemmas.DictLine

/-!
# Dictionary lines: properties C13 and C12 (one line)
-/

namespace Cskk.Props.DictFile
open Cskk.Spec.DictText Cskk.DictLine Cskk.DictEntry

theorem special_iff (c : Char) : LispFun.isSpecial c = true ↔ Special c := LispFun.isSpecial_iff

theorem noAdjacent_of (w : Str) (h : ∀ a b, [a, b] <:+: w → ¬ (Special a ∧ Special b)) : LispFun.noAdjacent w = true := by
  induction w with
  | nil => rfl
  | cons a cs ih =>
    have ih := ih fun x y hxy => h x y (hxy.trans (List.suffix_cons a cs).isInfix)
    cases cs with
    | nil => rfl
    | cons b cs =>
      have := h a b (List.IsPrefix.isInfix ⟨cs, rfl⟩)
      simp only [LispFun.noAdjacent, ih, Bool.and_true, Bool.not_eq_true', Bool.and_eq_false_iff]
      rw [← special_iff, ← special_iff] at this
      cases h1 : LispFun.isSpecial a <;> cases h2 : LispFun.isSpecial b <;> simp_all

theorem occurs_iff (p s : Str) : LispFun.occurs p s = true ↔ p <:+: s := by
  induction s with
  | nil => cases p <;> simp [LispFun.occurs]
  | cons c cs ih =>
    rw [LispFun.occurs, Bool.or_eq_true, ih, List.infix_cons_iff, List.isPrefixOf_iff_prefix]

theorem contains_special (w : Str) : ((w.contains ';' || w.contains '/') = true) ↔ ∃ c ∈ w, Special c := by
  simp only [Bool.or_eq_true, List.contains_iff_mem, Special]
  constructor
  · rintro (h | h)
    · exact ⟨_, h, .inr rfl⟩
    · exact ⟨_, h, .inl rfl⟩
  · rintro ⟨c, h, rfl | rfl⟩
    · exact .inr h
    · exact .inl h

/-- **C13**: a representable word survives escaping and un-escaping. -/
theorem escape_round_trip (w : Str) (h : Representable w) : LispFun.process (LispFun.escape w) = w := by
  by_cases hs : ∃ c ∈ w, Special c
  · obtain ⟨h1, h2, h3⟩ := h.escaped hs
    exact LispFun.process_escape_special w ((contains_special w).mpr hs) h1 h2 (noAdjacent_of w h3)
  · have he : LispFun.escape w = w := by
      unfold LispFun.escape; rw [if_neg]; rw [contains_special]; exact hs
    rw [he]
    apply LispFun.process_plain
    have := h.verbatim fun c hc hsp => hs ⟨c, hc, hsp⟩
    cases ho : LispFun.occurs c%"(concat " w with
    | false => rfl
    | true => exact absurd ((occurs_iff _ _).mp ho) this

/-- **C13**: an escaped word contains no separator, so it cannot be cut in two by the reader. -/
theorem escape_no_separator (w : Str) : ∀ c ∈ LispFun.escape w, ¬ Special c := by
  by_cases hs : ∃ c ∈ w, Special c
  · rw [LispFun.escape_special w ((contains_special w).mpr hs)]
    intro c hc
    simp only [List.mem_append, List.mem_flatMap] at hc
    rcases hc with (hc | ⟨d, _, hc⟩) | hc
    · revert c; decide
    · rw [← special_iff]
      unfold LispFun.esc1 at hc
      split at hc
      · intro h; revert c; decide
      · split at hc
        · intro h; revert c; decide
        · split at hc
          · intro h; revert c; decide
          · simp at hc; subst hc; rw [special_iff]; rintro (h | h) <;> contradiction
    · revert c; decide
  · unfold LispFun.escape; rw [if_neg (by rw [contains_special]; exact hs)]
    exact fun c hc h => hs ⟨c, hc, h⟩

/-! ## One line -/

theorem okuriKana_iff (c : Char) : DictParser.isOkuriKana c = true ↔ OkuriKana c := by
  unfold DictParser.isOkuriKana OkuriKana
  have h1 : 'ぁ'.toNat = 0x3041 := by decide
  have h2 : 'ゖ'.toNat = 0x3096 := by decide
  rw [h1, h2, Bool.and_eq_true, decide_eq_true_eq, decide_eq_true_eq]
  omega

/-- The raw form of a candidate. -/
def raw (c : DictCand) : DictCand := ⟨LispFun.escape c.kouho, c.annotation.map LispFun.escape⟩

theorem escape_ne {w : Str} (h : w ≠ []) : LispFun.escape w ≠ [] := by
  unfold LispFun.escape; split
  · simp
  · exact h

theorem escape_bracket (x : Char) (hx : x = '[' ∨ x = ']' ∨ x = '\n') (w : Str) (h : x ∉ w) : x ∉ LispFun.escape w := by
  by_cases hs : ∃ c ∈ w, Special c
  · rw [LispFun.escape_special w ((contains_special w).mpr hs)]
    intro hc
    simp only [List.mem_append, List.mem_flatMap] at hc
    rcases hc with (hc | ⟨d, hd, hc⟩) | hc
    · rcases hx with rfl | rfl | rfl <;> revert hc <;> decide
    · unfold LispFun.esc1 at hc
      split at hc
      · rcases hx with rfl | rfl | rfl <;> revert hc <;> decide
      · split at hc
        · rcases hx with rfl | rfl | rfl <;> revert hc <;> decide
        · split at hc
          · rcases hx with rfl | rfl | rfl <;> revert hc <;> decide
          · simp at hc; subst hc; exact h hd
    · rcases hx with rfl | rfl | rfl <;> revert hc <;> decide
  · unfold LispFun.escape; rw [if_neg (by rw [contains_special]; exact hs)]; exact h

theorem raw_ok {c : DictCand} (h : CandOk c) : RawOk (raw c) := by
  refine ⟨escape_ne h.word.1, ?_, ?_⟩
  · intro x hx
    have h1 := escape_no_separator _ x hx
    have h2 : x ≠ '[' := by rintro rfl; exact escape_bracket _ (.inl rfl) _ h.word.2.2.1 hx
    have h3 : x ≠ ']' := by rintro rfl; exact escape_bracket _ (.inr (.inl rfl)) _ h.word.2.2.2.1 hx
    simp only [Special, not_or] at h1
    simp [DictParser.isCandIllegal, h1, h2, h3]
  · intro a ha
    obtain ⟨b, hb, rfl⟩ : ∃ b, c.annotation = some b ∧ LispFun.escape b = a := by simpa [raw] using ha
    refine ⟨escape_ne (h.note b hb).1, ?_⟩
    intro x hx
    have h1 := escape_no_separator _ x hx
    simp only [Special, not_or] at h1
    simp [DictParser.isAnnotationIllegal, h1]

theorem proto_raw {c : DictCand} (h : CandOk c) : candFromProto (raw c) = c := by
  obtain ⟨k, a⟩ := c
  simp only [candFromProto, raw]
  rw [escape_round_trip k h.word.2.1]
  cases a with
  | none => rfl
  | some a => simp [escape_round_trip a (h.note a rfl).2.1]

theorem show_raw (c : DictCand) : showRaw (raw c) = showCand c := by
  obtain ⟨k, a⟩ := c
  cases a <;> simp [showRaw, raw, showCand]

theorem text_show (cs : List DictCand) (g : Str) (x : Char) :
    '/' :: text (cs.map raw) (x :: g) = (cs.flatMap fun c => c%"/" ++ showCand c) ++ '/' :: x :: g := by
  induction cs with
  | nil => rfl
  | cons c cs ih =>
    rw [List.map_cons, text_cons, ih, show_raw]; simp

theorem text_show_nil (cs : List DictCand) :
    '/' :: text (cs.map raw) [] = (cs.flatMap fun c => c%"/" ++ showCand c) ++ ['/'] := by
  induction cs with
  | nil => rfl
  | cons c cs ih =>
    rw [List.map_cons, text_cons, ih, show_raw]; simp

theorem text_show' (cs : List DictCand) (g : Str) :
    '/' :: text (cs.map raw) g = (cs.flatMap fun c => c%"/" ++ showCand c) ++ '/' :: g := by
  cases g with
  | nil => exact text_show_nil cs
  | cons x g => exact text_show cs g x

/-- The raw form of a group. -/
def rawGroup (g : Str × List DictCand) : Str × List DictCand := (g.1, g.2.map raw)

theorem groups_show (gs : List (Str × List DictCand)) (h : ∀ g ∈ gs, g.1 ≠ []) :
    '/' :: groupsText (gs.map rawGroup) = gs.flatMap showGroup ++ ['/'] := by
  induction gs with
  | nil => rfl
  | cons g gs ih =>
    have ih := ih fun x hx => h x (by simp [hx])
    have hg := h g (by simp)
    have hge : g.1.isEmpty = false := by simpa using hg
    simp only [List.map_cons, groupsText, rawGroup, groupText, List.flatMap_cons, showGroup, hge]
    rw [ih]
    have := text_show' g.2 (']' :: (gs.flatMap showGroup ++ ['/']))
    simp only [List.cons_append, List.append_assoc] at this ⊢
    rw [this]
    simp

theorem cands_split (m : SMap (List DictCand)) (hs : m.Pairwise fun a b => strLt a.1 b.1 = true) :
    ∃ cs gs, m = (if (cs : List DictCand).isEmpty then [] else [(([] : Str), cs)]) ++ gs ∧ (∀ g ∈ gs, g.1 ≠ []) ∨
      m = ([], []) :: gs := by
  cases m with
  | nil => exact ⟨[], [], .inl ⟨by simp, by simp⟩⟩
  | cons e m =>
    obtain ⟨k, v⟩ := e
    have hm : ∀ g ∈ m, g.1 ≠ [] := by
      intro g hg
      have := (List.pairwise_cons.mp hs).1 g hg
      intro e; rw [e] at this; cases k <;> simp [strLt] at this
    cases k with
    | nil =>
      cases v with
      | nil => exact ⟨[], m, .inr rfl⟩
      | cons c v => exact ⟨c :: v, m, .inl ⟨by simp, hm⟩⟩
    | cons x k =>
      refine ⟨[], (x :: k, v) :: m, .inl ⟨by simp, ?_⟩⟩
      intro g hg
      rcases List.mem_cons.mp hg with rfl | hg
      · simp
      · exact hm g hg

theorem candsFromProto_sorted (m : SMap (List DictCand)) (hs : m.Pairwise fun a b => strLt a.1 b.1 = true) :
    candsFromProto m = m.map fun g => (g.1, g.2.map candFromProto) := by
  suffices H : ∀ (m acc : SMap (List DictCand)), (acc ++ m).Pairwise (fun a b => strLt a.1 b.1 = true) →
      m.foldl (fun r e => SMap.insert r e.1 (e.2.map candFromProto)) acc = acc ++ m.map fun g => (g.1, g.2.map candFromProto) by
    simpa [candsFromProto] using H m [] (by simpa using hs)
  intro m
  induction m with
  | nil => intro acc _; simp
  | cons g m ih =>
    intro acc h
    have hlt : ∀ e ∈ acc, strLt e.1 g.1 = true := by
      intro e he
      rw [List.pairwise_append] at h
      exact h.2.2 e he g (by simp)
    rw [List.foldl_cons, smap_insert_end hlt, ih]
    · simp
    · have h' : ((acc ++ g :: m).map (·.1)).Pairwise (fun a b => strLt a b = true) := by
        rw [List.pairwise_map]; exact h
      have h2 : (((acc ++ [(g.1, g.2.map candFromProto)]) ++ m).map (·.1)).Pairwise (fun a b => strLt a b = true) := by
        simpa using h'
      rw [List.pairwise_map] at h2
      exact h2

/-- **C12, one line**: an entry the format can express is printed to a line that parses back to the same reading with
the same groups of candidates in the same order (whether it is okuri-ari is recomputed from the reading). -/
theorem line_round_trip (e : DictEntry) (h : EntryOk e) :
    fromLine (toLine e) = some { e with hasOkuri := looksOkuriAri e.midashi } := by
  obtain ⟨hr, hs, hne, hg, hu⟩ := h
  have hesc : LispFun.escape e.midashi = e.midashi := by
    unfold LispFun.escape; rw [if_neg]; rw [contains_special]
    rintro ⟨c, hc, rfl | rfl⟩
    · exact hr.2.2.2.1 hc
    · exact hr.2.2.2.2 hc
  have hmid : LispFun.process e.midashi = e.midashi := by
    apply LispFun.process_plain
    cases ho : LispFun.occurs c%"(concat " e.midashi with
    | false => rfl
    | true =>
      exfalso
      apply hr.2.1
      obtain ⟨p, q, hpq⟩ := (occurs_iff _ _).mp ho
      rw [← hpq]; simp
  obtain ⟨cs, gs, hcs⟩ := cands_split e.cands hs
  rcases hcs with ⟨hm, hgne⟩ | hm
  · have hcsok : ∀ c ∈ cs, CandOk c := by
      intro c hc
      have : ([], cs) ∈ e.cands := by
        rw [hm]; cases cs with
        | nil => cases hc
        | cons => simp
      exact (hg _ this).2.1 c hc
    have hgs : ∀ g ∈ gs, g ∈ e.cands := by intro g hgm; rw [hm]; simp [hgm]
    have hline : toLine e = e.midashi ++ ' ' :: '/' :: text (cs.map raw) (groupsText (gs.map rawGroup)) := by
      unfold toLine
      rw [hesc, text_show', groups_show gs hgne, hm]
      cases cs with
      | nil => simp
      | cons c cs => simp [showGroup]
    have hrm : rawMap (cs.map raw) (gs.map rawGroup) = e.cands.map rawGroup := by
      rw [hm]; unfold rawMap
      cases cs with
      | nil => simp
      | cons c cs => simp [rawGroup]
    have hsr : (e.cands.map rawGroup).Pairwise fun a b => strLt a.1 b.1 = true := by
      rw [List.pairwise_map]; exact hs
    have := entry_ok e.midashi hr.1 hr.2.1 (cs.map raw) (gs.map rawGroup)
      (by intro c hc; obtain ⟨d, hd, rfl⟩ := List.mem_map.mp hc; exact raw_ok (hcsok d hd))
      (by
        intro g hg'
        obtain ⟨d, hd, rfl⟩ := List.mem_map.mp hg'
        obtain ⟨g1, g2, g3⟩ := hg d (hgs d hd)
        refine ⟨hgne d hd, fun x hx => (okuriKana_iff x).mpr (g3 x hx), by simpa [rawGroup] using g1, ?_⟩
        intro c hc
        obtain ⟨c', hc', rfl⟩ := List.mem_map.mp hc
        exact raw_ok (g2 c' hc'))
      (by
        cases cs with
        | nil =>
          right
          intro e0
          rw [List.map_eq_nil_iff] at e0
          subst e0; exact hne (by rw [hm]; simp)
        | cons => left; simp)
      (by rw [hrm]; exact hsr)
      (by
        intro hgn c hc
        rw [List.getLast?_map] at hc
        obtain ⟨d, hd, rfl⟩ := Option.map_eq_some_iff.mp hc
        rintro ⟨ha, hk⟩
        have hcsne : cs ≠ [] := by intro e0; subst e0; simp at hd
        refine hu cs gs ?_ (by intro e0; subst e0; exact hgn rfl) d hd (by simpa [raw] using ha) ?_
        · rw [hm]; simp [hcsne]
        · intro x hx
          rw [← okuriKana_iff]
          apply hk
          show x ∈ LispFun.escape d.kouho
          by_cases hsp : ∃ c ∈ d.kouho, Special c
          · exfalso
            have := hk '(' (by
              show '(' ∈ LispFun.escape d.kouho
              rw [LispFun.escape_special _ ((contains_special _).mpr hsp)]; simp)
            revert this; decide
          · unfold LispFun.escape; rw [if_neg (by rw [contains_special]; exact hsp)]; exact hx)
    unfold fromLine
    rw [hline, this, hrm]
    simp only [hmid]
    rw [candsFromProto_sorted _ hsr]
    congr 1
    obtain ⟨m, o, c⟩ := e
    simp only [DictEntry.mk.injEq, true_and]
    rw [List.map_map]
    conv => rhs; rw [← List.map_id c]
    apply List.map_congr_left
    intro g hgm
    obtain ⟨k, v⟩ := g
    simp only [Function.comp, rawGroup, id, Prod.mk.injEq, true_and]
    rw [List.map_map]
    conv => rhs; rw [← List.map_id v]
    apply List.map_congr_left
    intro c hc
    exact proto_raw ((hg _ hgm).2.1 c hc)
  · exact absurd rfl (hg ([], []) (by rw [hm]; simp)).1

/-- A saved line contains no line break and does not start like a comment. -/
theorem line_is_line (e : DictEntry) (h : EntryOk e) : '\n' ∉ toLine e ∧ (toLine e).head? ≠ some ';' := by
  obtain ⟨hr, hs, hne, hg, hu⟩ := h
  have hesc : LispFun.escape e.midashi = e.midashi := by
    unfold LispFun.escape; rw [if_neg]; rw [contains_special]
    rintro ⟨c, hc, rfl | rfl⟩
    · exact hr.2.2.2.1 hc
    · exact hr.2.2.2.2 hc
  constructor
  · unfold toLine
    rw [hesc]
    simp only [List.mem_append, List.mem_flatMap, not_or]
    refine ⟨⟨⟨hr.2.2.1, by decide⟩, ?_⟩, by decide⟩
    rintro ⟨g, hgm, hc⟩
    obtain ⟨g1, g2, g3⟩ := hg g hgm
    unfold showGroup at hc
    simp only [List.mem_append, List.mem_flatMap] at hc
    rcases hc with (hc | ⟨c, hcm, hc⟩) | hc
    · split at hc
      · cases hc
      · simp only [List.mem_append] at hc
        rcases hc with hc | hc
        · revert hc; decide
        · have := g3 _ hc; revert this; decide
    · have hc' := g2 c hcm
      rcases hc with hc | hc
      · revert hc; decide
      · unfold showCand at hc
        have hk := escape_bracket '\n' (.inr (.inr rfl)) _ hc'.word.2.2.2.2
        split at hc
        · rename_i a ha
          have hk2 := escape_bracket '\n' (.inr (.inr rfl)) _ (hc'.note a ha).2.2
          simp only [List.mem_append] at hc
          rcases hc with (hc | hc) | hc
          · exact hk hc
          · revert hc; decide
          · exact hk2 hc
        · exact hk hc
    · split at hc
      · cases hc
      · revert hc; decide
  · unfold toLine
    rw [hesc]
    cases hm : e.midashi with
    | nil => exact absurd hm hr.1
    | cons x m =>
      intro he
      have : x = ';' := by simpa using he
      subst this
      exact hr.2.2.2.2 (by rw [hm]; simp)

/-! ## Concrete cases and counterexamples -/

/-- A word with both separators and quotes is representable … -/
example : LispFun.process (LispFun.escape c%"a/b;\"c\"") = c%"a/b;\"c\"" := by decide +kernel

/-- A concrete entry with an escaped word, an annotation and two strict groups meets `EntryOk`'s shape and round-trips. -/
def sampleEntry : DictEntry :=
  ⟨c%"うごk", true, [([], [⟨c%"動", none⟩, ⟨c%"a/b", some c%"注;釈"⟩]), (c%"か", [⟨c%"動", none⟩]), (c%"く", [⟨c%"動", none⟩])]⟩

theorem representable_of_dec (w : Str) (h1 : (w.all fun c => !decide (Special c)) = true)
    (h2 : LispFun.occurs c%"(concat " w = false) : Representable w := by
  refine ⟨?_, ?_⟩
  · rintro ⟨c, hc, hs⟩
    rw [List.all_eq_true] at h1
    have := h1 c hc; simp [hs] at this
  · intro _ h
    rw [(occurs_iff _ _).mpr h] at h2; cases h2

theorem representable_sp (w : Str) (h0 : ∃ c ∈ w, Special c) (h1 : '\\' ∉ w) (h2 : '\n' ∉ w)
    (h3 : LispFun.noAdjacent w = true) : Representable w := by
  refine ⟨fun hh => ⟨h1, h2, ?_⟩, ?_⟩
  · clear h0 h1 h2 hh
    intro a b ⟨p, q, hpq⟩
    subst hpq
    induction p with
    | nil =>
      simp only [List.nil_append, List.cons_append, LispFun.noAdjacent, Bool.and_eq_true, Bool.not_eq_true',
        Bool.and_eq_false_iff] at h3
      rw [← special_iff, ← special_iff]
      rintro ⟨ha, hb⟩
      rcases h3.1 with h | h
      · rw [ha] at h; cases h
      · rw [hb] at h; cases h
    | cons x p ih => exact ih (LispFun.noAdjacent_tail h3)
  · intro h
    obtain ⟨c, hc, hs⟩ := h0
    exact absurd hs (h c hc)

theorem sampleEntry_ok : EntryOk sampleEntry := by
  have r1 : Representable c%"動" := representable_of_dec _ (by decide) (by decide)
  have r2 : Representable c%"a/b" := representable_sp _ ⟨'/', by decide, .inl rfl⟩ (by decide) (by decide) (by decide)
  have r3 : Representable c%"注;釈" := representable_sp _ ⟨';', by decide, .inr rfl⟩ (by decide) (by decide) (by decide)
  have k1 : CandOk ⟨c%"動", none⟩ := ⟨⟨by decide, r1, by decide, by decide, by decide⟩, by intro a h; cases h⟩
  have k2 : CandOk ⟨c%"a/b", some c%"注;釈"⟩ := by
    refine ⟨⟨by decide, r2, by decide, by decide, by decide⟩, ?_⟩
    intro a h; cases h; exact ⟨by decide, r3, by decide⟩
  refine ⟨by decide, by decide, by decide, ?_, ?_⟩
  · intro g hg
    simp only [sampleEntry, List.mem_cons, List.not_mem_nil, or_false] at hg
    rcases hg with rfl | rfl | rfl
    · refine ⟨by decide, ?_, by decide⟩
      intro c hc
      simp only [List.mem_cons, List.not_mem_nil, or_false] at hc
      rcases hc with rfl | rfl
      · exact k1
      · exact k2
    · refine ⟨by decide, ?_, by decide⟩
      intro c hc
      simp only [List.mem_cons, List.not_mem_nil, or_false] at hc
      subst hc; exact k1
    · refine ⟨by decide, ?_, by decide⟩
      intro c hc
      simp only [List.mem_cons, List.not_mem_nil, or_false] at hc
      subst hc; exact k1
  · intro cs gs h _ c hc ha
    simp only [sampleEntry, List.cons.injEq, Prod.mk.injEq, true_and] at h
    rw [← h.1] at hc
    cases hc
    cases ha

example : fromLine (toLine sampleEntry) = some sampleEntry := line_round_trip _ sampleEntry_ok

/-- Two adjacent separators do not survive: `//` is read back as `/057`. -/
theorem adjacent_separators_lost : LispFun.process (LispFun.escape c%"a//b") = c%"a/057b" := by decide +kernel

/-- A backslash next to a separator is lost. -/
theorem backslash_lost : LispFun.process (LispFun.escape c%"a\\b/c") = c%"ab/c" := by decide +kernel

/-- A word that looks like an escaped one changes its meaning, although it has no separator. -/
theorem lookalike_reinterpreted :
    LispFun.process (LispFun.escape c%"(concat \"x\")") = c%"x" := by decide +kernel

/-- A word with a square bracket makes its whole line unreadable: the entry, with all its candidates, is lost. -/
theorem bracket_loses_line :
    fromLine (toLine ⟨c%"かっこ", false, [([], [⟨c%"括弧", none⟩, ⟨c%"[x]", none⟩])]⟩) = none := by decide +kernel

/-- A reading with a separator makes its line unreadable (the escape contains a blank). -/
theorem separator_reading_loses_line :
    fromLine (toLine ⟨c%"a/b", false, [([], [⟨c%"語", none⟩])]⟩) = none := by decide +kernel

/-- An empty annotation makes the line unreadable. -/
theorem empty_annotation_loses_line :
    fromLine (toLine ⟨c%"あ", false, [([], [⟨c%"亜", some []⟩, ⟨c%"阿", none⟩])]⟩) = none := by decide +kernel

/-- After the last word of a strict group has been purged, the saved line is misread: the words offered for every
okurigana become words of that group only. -/
theorem emptied_group_misread :
    fromLine (toLine ⟨c%"おおk", true, [([], [⟨c%"多", none⟩, ⟨c%"大", none⟩]), (c%"き", [])]⟩)
      = some ⟨c%"おおk", true, [(c%"き", [⟨c%"多", none⟩, ⟨c%"大", none⟩])]⟩ := by decide +kernel

/-- If another group precedes the emptied one, the whole line is unreadable. -/
theorem emptied_group_loses_line :
    fromLine (toLine ⟨c%"おおk", true, [([], [⟨c%"多", none⟩]), (c%"い", [⟨c%"多", none⟩]), (c%"き", [])]⟩) = none := by
  decide +kernel

/-- After the only word of an entry has been purged, the line is unreadable (which also loses nothing). -/
theorem emptied_entry_unreadable : fromLine (toLine ⟨c%"あい", false, [([], [])]⟩) = none := by decide +kernel

/-- A pure-kana word directly before a strict group is read as the label of the group. -/
theorem kana_word_before_group_misread :
    fromLine (toLine ⟨c%"あs", true, [([], [⟨c%"亜", none⟩, ⟨c%"あ", none⟩]), (c%"す", [⟨c%"愛", none⟩])]⟩)
      = some ⟨c%"あs", true, [([], [⟨c%"亜", none⟩]), (c%"あ", [⟨c%"す", none⟩, ⟨c%"愛", none⟩])]⟩ := by decide +kernel

/-- A strict group labelled `ゖ` is not recognised (the range in the parser is exclusive). -/
theorem small_ke_group_loses_line :
    fromLine (toLine ⟨c%"あk", true, [([], [⟨c%"亜", none⟩]), (c%"ゖ", [⟨c%"亜", none⟩])]⟩) = none := by decide +kernel

end Cskk.Props.DictFile
