import Verif.Props.CarefulLife
import Verif.Spec.Strays

/-! # Words with okurigana under a reading without a letter

Which words a file holds in the end if there are okuri-ari entries the reading of which does not end with a letter, such as the engine makes when a word is registered for
a reading with okurigana. -/

namespace Cskk.Props.Strays
open Cskk Cskk.DictFile Spec Spec.UserDict Spec.Persist Spec.DictText Spec.Strays DictSave DictEntry UserDict

/-- The side on which an entry of side `o` is read: words with okurigana only if the reading ends with a letter. -/
def lands (o : Bool) (k : Str) : Bool := o && looksOkuriAri k

theorem find_cons {V} (e : Str × V) (l : Recency V) (k : Str) : Recency.find (e :: l) k = if e.1 = k then some e.2 else Recency.find l k := by
  unfold Recency.find; rw [List.find?_cons]; by_cases he : e.1 = k <;> simp [he]

theorem find_absent {V} (l : Recency V) (k : Str) (h : k ∉ l.map (·.1)) : Recency.find l k = none := by
  unfold Recency.find
  have : l.find? (fun e => decide (e.1 = k)) = none := by
    rw [List.find?_eq_none]; intro x hx
    simp only [decide_eq_true_eq]
    intro e'
    exact h (List.mem_map.mpr ⟨x, hx, e'⟩)
  rw [this]; rfl

/-- Loading the lines of one side, whatever is there already. -/
theorem load_any (cd : Codec) (l : Recency DictEntry) (st : LoadState) (rest : Str) (hs : ∀ e ∈ l, Savable e.2) (hr : ∀ e ∈ l, e.2.midashi = e.1)
    (hk : (l.map (·.1)).Nodup) :
    ∃ st', ((lines ((l.filterMap fun e => entryPart cd e.2).flatten ++ rest)).map some).foldl loadLine st = ((lines rest).map some).foldl loadLine st' ∧
      st'.ariMode = st.ariMode ∧
      ∀ o k, (side st'.maps o).find k = if lands st.ariMode k = o then (Recency.find (kept cd l) k).or ((side st.maps o).find k) else (side st.maps o).find k := by
  induction l generalizing st with
  | nil => exact ⟨st, by simp, rfl, by intro o k; simp [kept, Recency.find]⟩
  | cons e l ih =>
    have hse := hs e (by simp)
    have hre := hr e (by simp)
    rw [List.map_cons, List.nodup_cons] at hk
    have ihh := fun st' => ih st' (fun x hx => hs x (by simp [hx])) (fun x hx => hr x (by simp [hx])) hk.2
    cases hp : entryPart cd e.2 with
    | none =>
      have hkept : kept cd (e :: l) = kept cd l := by simp [kept, hp]
      rw [List.filterMap_cons_none (by simpa using hp), hkept]
      exact ihh st
    | some part =>
      have hpart : part = toLine e.2 ++ c%"\n" := by
        unfold entryPart at hp
        simp only at hp
        split at hp
        · cases hp; rfl
        · cases hp
      have hline : '\n' ∉ toLine e.2 ∧ (toLine e.2).head? ≠ some ';' := by
        rcases hse with h | h
        · exact DictFile.line_is_line e.2 h
        · exact emptied_is_line e.2 h
      have htext : ((e :: l).filterMap fun e => entryPart cd e.2).flatten ++ rest
          = toLine e.2 ++ '\n' :: ((l.filterMap fun e => entryPart cd e.2).flatten ++ rest) := by
        rw [List.filterMap_cons_some (by exact hp), hpart]; simp
      rw [htext, lines_cons _ _ hline.1 (line_end e.2), List.map_cons, List.foldl_cons]
      rcases hse with h | h
      · have hf := DictFile.line_round_trip e.2 h
        have hkept : kept cd (e :: l) = (e.1, reread e.2) :: kept cd l := by simp [kept, hp, hf]
        obtain ⟨st', h1, h2, h3⟩ := ihh (loadLine st (some (toLine e.2)))
        have hmode : (loadLine st (some (toLine e.2))).ariMode = st.ariMode := by
          simp only [loadLine, hline.2, if_false, hf]
          split <;> rfl
        have hfind : ∀ o k, (side (loadLine st (some (toLine e.2))).maps o).find k =
            if lands st.ariMode e.1 = o then (if k = e.1 then some (reread e.2) else (side st.maps o).find k) else (side st.maps o).find k := by
          intro o k
          have hrr : (⟨e.2.midashi, looksOkuriAri e.2.midashi, e.2.cands⟩ : DictEntry) = reread e.2 := rfl
          simp only [loadLine, hline.2, if_false, hf, hrr]
          have hro : (reread e.2).hasOkuri = looksOkuriAri e.1 := by rw [← hre]; rfl
          have hrm : (reread e.2).midashi = e.1 := by rw [← hre]; rfl
          rw [hro, hrm]
          unfold lands
          cases hl : st.ariMode && looksOkuriAri e.1 <;> cases o <;> simp [side, find_push]
        refine ⟨st', h1, by rw [h2, hmode], ?_⟩
        intro o k
        rw [h3 o k, hmode, hfind o k, hkept, find_cons]
        simp only
        have habs : Recency.find (kept cd l) e.1 = none := find_absent _ _ fun h => hk.1 (kept_keys cd l _ h)
        by_cases hke : e.1 = k
        · subst hke
          rw [habs]
          by_cases hlo : lands st.ariMode e.1 = o <;> simp [hlo]
        · simp only [hke, if_false, Ne.symm hke]
          split
          · split <;> rfl
          · split <;> rfl
      · have hf := (emptied_line e.2 h).2
        have hkept : kept cd (e :: l) = kept cd l := by simp [kept, hf]
        have hstep : loadLine st (some (toLine e.2)) = st := by simp [loadLine, hline.2, hf]
        rw [hstep, hkept]
        exact ihh st

/-- What is read back from a saved file, whatever the readings of the okuri-ari entries are. -/
theorem find_saved (cd : Codec) (m : DictMaps) (bs : Bytes) (hs : saveBytes cd m = some bs) (hwf : WellFormed m) (hok : ∀ o, ∀ e ∈ side m o, Savable e.2) (k : Str) :
    Recency.find (load cd bs).ari k = (if looksOkuriAri k then Recency.find (kept cd m.ari) k else none) ∧
    Recency.find (load cd bs).nashi k = (Recency.find (kept cd m.nashi) k).or (if looksOkuriAri k then none else Recency.find (kept cd m.ari) k) := by
  unfold saveBytes at hs
  obtain ⟨parts, hp, rfl⟩ := Option.map_eq_some_iff.mp hs
  have hdec := cd.round (saveParts cd m) parts hp (by simp [saveParts])
  unfold load
  rw [hdec]
  have htext : (saveParts cd m).flatten = c%";; okuri-ari entries." ++ '\n' ::
      ((m.ari.filterMap fun e => entryPart cd e.2).flatten ++
        (c%";; okuri-nasi entries." ++ '\n' :: ((m.nashi.filterMap fun e => entryPart cd e.2).flatten ++ []))) := by
    simp [saveParts]
  rw [htext, lines_cons _ _ (by decide) (by decide)]
  unfold loadLines
  rw [List.map_cons, List.foldl_cons]
  have h1 : loadLine loadInit (some c%";; okuri-ari entries.") = loadInit := by decide
  obtain ⟨s1, a1, a2, a3⟩ := load_any cd m.ari loadInit (c%";; okuri-nasi entries." ++ '\n' :: ((m.nashi.filterMap fun e => entryPart cd e.2).flatten ++ []))
    (hok true) (hwf.reading true) (hwf.keys true)
  rw [h1, a1, lines_cons _ _ (by decide) (by decide), List.map_cons, List.foldl_cons]
  have h2 : loadLine s1 (some c%";; okuri-nasi entries.") = ⟨false, s1.maps⟩ := by
    have c1 : contains c%";; okuri-ari entries" c%";; okuri-nasi entries." = false := by decide
    have c2 : contains c%";; okuri-nasi entries" c%";; okuri-nasi entries." = true := by decide
    simp only [loadLine, c1, c2]
    rfl
  obtain ⟨s2, b1, -, b3⟩ := load_any cd m.nashi ⟨false, s1.maps⟩ [] (hok false) (hwf.reading false) (hwf.keys false)
  rw [h2, b1]
  have hl : ((lines []).map some).foldl loadLine s2 = s2 := by simp [lines, linesAux]
  rw [hl]
  have t1 := b3 true k
  have t2 := b3 false k
  have t3 := a3 true k
  have t4 := a3 false k
  simp only [lands, Bool.false_and, Bool.false_eq_true, if_false, if_true, side, loadInit, Bool.true_and] at t1 t2 t3 t4
  constructor
  · rw [t1, t3]
    cases looksOkuriAri k <;> simp [Recency.find]
  · rw [t2, t4]
    cases looksOkuriAri k <;> simp [Recency.find]

theorem looks_ends (k : Str) : looksOkuriAri k = true ↔ OkuriAriReading k := by
  constructor
  · intro h
    unfold looksOkuriAri isAlphabet at h
    rw [Bool.and_eq_true] at h
    obtain ⟨h1, h2⟩ := h
    constructor
    · cases hl : k.getLast? with
      | none => rw [hl] at h2; cases h2
      | some x => rw [hl] at h2; exact ⟨x, rfl, by simpa using h2⟩
    · intro x hx
      rw [hx] at h1
      simp only [Option.any_some, Bool.not_eq_true', Bool.and_eq_false_iff, decide_eq_false_iff_not] at h1
      rintro ⟨ha, hb⟩
      rcases h1 with h | h
      · exact h ha
      · exact h hb
  · exact Persist.looks_iff k

/-- The words of an entry, and of what is read of it. -/
theorem reread_words {e : DictEntry} (h : Savable e) (cd : Codec) (hcd : Persist.Total cd) :
    (∃ g, ((SMap.get e.cands g).getD []) ≠ []) ∧ (if (entryPart cd e).isSome && !(fromLine (toLine e)).isNone then some (reread e) else none) = some (reread e) ∨
    (∀ g, (SMap.get e.cands g).getD [] = []) ∧ (if (entryPart cd e).isSome && !(fromLine (toLine e)).isNone then some (reread e) else none) = none := by
  have hpart : (entryPart cd e).isSome = true := by simp [entryPart, hcd (toLine e ++ c%"\n")]
  rcases h with h | h
  · left
    rw [DictFile.line_round_trip e h, hpart]
    refine ⟨?_, rfl⟩
    cases hc : e.cands with
    | nil => exact absurd hc h.some
    | cons g gs =>
      refine ⟨g.1, ?_⟩
      have : g ∈ e.cands := by rw [hc]; simp
      rw [← hc, SMap.get_of_mem h.sorted this]
      exact (h.groups g this).1
  · right
    rw [(emptied_line e h).2]
    refine ⟨?_, by simp⟩
    intro g
    rw [h.2]
    simp only [SMap.get]
    by_cases hg : ([] : Str) = g <;> simp [hg]

/-- **C84.** What a saved file holds, whatever the readings of the words with okurigana are: a word with okurigana stays such a word only if its reading ends with a letter (and
does not begin with one). Otherwise it is read as a word without okurigana, unless there are words without okurigana for the reading: then it is lost. -/
theorem words_refiled {cd : Codec} (hcd : Persist.Total cd) {m : DictMaps} (hwf : WellFormed m) (hok : ∀ o, ∀ e ∈ side m o, Savable e.2) {bs : Bytes}
    (hs : saveBytes cd m = some bs) : words (load cd bs) = refiled (words m) := by
  funext o k g
  obtain ⟨ha, hn⟩ := find_saved cd m bs hs hwf hok k
  rw [find_kept cd m.ari _ (hwf.keys true)] at ha hn
  rw [find_kept cd m.nashi _ (hwf.keys false)] at hn
  have one : ∀ o, words m o k g = (((side m o).find k).bind fun e => SMap.get e.cands g).getD [] := fun o => rfl
  have any : ∀ o g, words m o k g = (((side m o).find k).bind fun e => SMap.get e.cands g).getD [] := fun o g => rfl
  have ariR : ∀ e, m.ari.find k = some e → Savable e := fun e he => hok true (k, e) (Life.mem_of_find he)
  have nashiR : ∀ e, m.nashi.find k = some e → Savable e := fun e he => hok false (k, e) (Life.mem_of_find he)
  -- what is read of the entry with okurigana
  have read : ∀ (f : Option DictEntry), (∀ e, f = some e → Savable e) →
      (((f.bind fun e => if (entryPart cd e).isSome && !(fromLine (toLine e)).isNone then some (reread e) else none).bind fun e => SMap.get e.cands g).getD [] =
        (f.bind fun e => SMap.get e.cands g).getD []) ∧
      ((f.bind fun e => if (entryPart cd e).isSome && !(fromLine (toLine e)).isNone then some (reread e) else none) = none ↔
        ∀ g, (f.bind fun e => SMap.get e.cands g).getD [] = []) := by
    intro f hf
    cases f with
    | none => simp
    | some e =>
      simp only [Option.bind_some]
      rcases reread_words (hf e rfl) cd hcd with ⟨⟨g', hg'⟩, h⟩ | ⟨h0, h⟩
      · rw [h]
        simp only [Option.bind_some, reread, reduceCtorEq, false_iff]
        exact ⟨trivial, fun h => hg' (h g')⟩
      · rw [h]
        simp only [Option.bind_none, Option.getD_none, true_iff]
        exact ⟨(h0 g).symm, h0⟩
  obtain ⟨ra, ea⟩ := read (m.ari.find k) ariR
  obtain ⟨rn, en⟩ := read (m.nashi.find k) nashiR
  unfold refiled
  cases o with
  | true =>
    rw [if_pos rfl]
    show (((load cd bs).ari.find k).bind fun e => SMap.get e.cands g).getD [] = _
    rw [ha]
    by_cases hl : looksOkuriAri k = true
    · rw [if_pos hl, if_pos ((looks_ends k).mp hl)]; exact ra
    · rw [if_neg hl, if_neg (fun h => hl ((looks_ends k).mpr h))]; rfl
  | false =>
    rw [if_neg (by decide)]
    show (((load cd bs).nashi.find k).bind fun e => SMap.get e.cands g).getD [] = _
    rw [hn]
    by_cases hl : looksOkuriAri k = true
    · rw [if_pos hl, if_pos (.inl ((looks_ends k).mp hl)), Option.or_none]; exact rn
    · rw [if_neg hl]
      by_cases hw : ∃ g', words m false k g' ≠ []
      · rw [if_pos (.inr hw)]
        cases hz : (m.nashi.find k).bind fun e => if (entryPart cd e).isSome && !(fromLine (toLine e)).isNone then some (reread e) else none with
        | none =>
          obtain ⟨g', hg'⟩ := hw
          exact absurd (en.mp hz g') hg'
        | some z =>
          rw [hz] at rn
          exact rn
      · rw [if_neg (fun h => h.elim (fun h => hl ((looks_ends k).mpr h)) hw)]
        have hz : ((m.nashi.find k).bind fun e => if (entryPart cd e).isSome && !(fromLine (toLine e)).isNone then some (reread e) else none) = none := by
          rw [en]
          intro g'
          cases hx : ((m.nashi.find k).bind fun e => SMap.get e.cands g').getD [] with
          | nil => rfl
          | cons a l => exact absurd ⟨g', fun h0 => by have h0 : ((m.nashi.find k).bind fun e => SMap.get e.cands g').getD [] = [] := h0; rw [hx] at h0; cases h0⟩ hw
        rw [hz, Option.none_or]
        exact ra

/-- A word as the engine registers it for a reading `r` with okurigana `o`: without a letter. -/
def stray (r : Str) (o : Option Str) (w : Str) : Candidate := ⟨r, o, true, w, none, w⟩

/-- **C84.** A word is registered for the reading `r` with okurigana `o`, and the dictionary, which held only words a file can hold, is saved and read again. Then the word is
no longer a word with okurigana. If the user had words for `r` without okurigana, it is lost; if not, it is from now on offered for `r` without okurigana. And nothing else changes. -/
theorem registered_then_refiled {cd : Codec} (hcd : Persist.Total cd) {m : DictMaps} (h : PlainDict m) {r w : Str} {o : Option Str} (hr : PlainReading r)
    (hl : ¬ OkuriAriReading r) (hw : CandOk ⟨w, none⟩) (hk : ¬ ∀ x ∈ w, OkuriKana x) (ho : ∀ g, o = some g → ∀ x ∈ g, OkuriKana x) {bs : Bytes}
    (hs : saveBytes cd (m.select (stray r o w)) = some bs) :
    (∀ g, words (load cd bs) true r g = []) ∧
    ((∃ g, words m false r g ≠ []) → ∀ g, words (load cd bs) false r g = words m false r g) ∧
    ((¬ ∃ g, words m false r g ≠ []) → ∀ g, words (load cd bs) false r g = if g = [] ∨ o = some g then [⟨w, none⟩] else []) ∧
    ∀ s k, k ≠ r → ∀ g, words (load cd bs) s k g = words m s k g := by
  have hnone : m.ari.find r = none := by
    cases hf : m.ari.find r with
    | none => rfl
    | some e =>
      have hm := Life.mem_of_find hf
      have h1 := (h.entries true (r, e) hm).ari rfl
      have h2 := h.wf.reading true (r, e) hm
      simp only at h1 h2
      rw [h2] at h1
      exact absurd h1 hl
  have hsel : m.select (stray r o w) = { m with ari := m.ari.push r (DictEntry.new r (stray r o w)) } := by
    unfold DictMaps.select
    show (m.update true _) = _
    unfold DictMaps.update
    have : (stray r o w).midashi = r := rfl
    simp only [if_true, this, hnone]
  have hsav : ∀ s, ∀ e ∈ side (m.select (stray r o w)) s, Savable e.2 := by
    intro s e he
    cases s with
    | false => rw [hsel] at he; exact Persist.savable_all h false e he
    | true =>
      have he' : e ∈ m.ari.push r (DictEntry.new r (stray r o w)) := by rw [hsel] at he; exact he
      unfold Recency.push at he'
      rcases List.mem_cons.mp he' with rfl | he'
      · left
        have hsort : SMap.Sorted (DictEntry.new r (stray r o w)).cands := (wf_select h.wf (stray r o w)).sorted true _ he
        have hgr : ∀ g ∈ (DictEntry.new r (stray r o w)).cands, g.2 = [⟨w, none⟩] ∧ ∀ x ∈ g.1, OkuriKana x := by
          intro g hg
          have := SMap.get_of_mem hsort hg
          by_cases hrec : recordedIn o g.1
          · rw [(new_get r (stray r o w) g.1).1 hrec] at this
            refine ⟨(Option.some.inj this).symm, ?_⟩
            rcases hrec with h0 | h0
            · rw [h0]; simp
            · exact ho g.1 h0
          · rw [(new_get r (stray r o w) g.1).2 hrec] at this; cases this
        refine ⟨hr, hsort, ?_, ?_, ?_⟩
        · intro hn
          have := (new_get r (stray r o w) []).1 (.inl rfl)
          rw [hn] at this; cases this
        · intro g hg
          obtain ⟨h1, h2⟩ := hgr g hg
          refine ⟨by rw [h1]; simp, ?_, h2⟩
          intro c hc
          rw [h1, List.mem_singleton] at hc
          rw [hc]; exact hw
        · intro cs gs hcs _ c hc _
          obtain ⟨h1, -⟩ := hgr ([], cs) (by rw [hcs]; simp)
          simp only at h1
          rw [h1] at hc
          cases hc
          exact hk
      · exact Persist.savable_all h true e (List.mem_filter.mp he').1
  rw [words_refiled hcd (wf_select h.wf _) hsav hs, Persist.words_select]
  have hold : ∀ g, words m true r g = [] := by
    intro g
    show ((m.ari.find r).bind _).getD [] = []
    rw [hnone]; rfl
  have hfalse : ∀ k g, confirmed (words m) (stray r o w) false k g = words m false k g := by
    intro k g; unfold confirmed; rw [if_neg]; intro h; cases h.1
  refine ⟨?_, ?_, ?_, ?_⟩
  · intro g; unfold refiled; rw [if_pos rfl, if_neg hl]
  · intro he g
    unfold refiled
    rw [if_neg (by decide), if_pos (.inr (by simpa only [hfalse] using he)), hfalse]
  · intro he g
    unfold refiled
    rw [if_neg (by decide), if_neg (by rintro (h | h); exact hl h; exact he (by simpa only [hfalse] using h))]
    unfold confirmed
    by_cases hg : g = [] ∨ o = some g
    · rw [if_pos ⟨rfl, rfl, hg⟩, if_pos hg, hold]; rfl
    · rw [if_neg (fun h => hg h.2.2), if_neg hg, hold]
  · intro s k hkr g
    have hsame : ∀ s g, confirmed (words m) (stray r o w) s k g = words m s k g := by
      intro s g; unfold confirmed; rw [if_neg]; intro h; exact hkr h.2.1
    unfold refiled
    simp only [hsame]
    have hempty : ¬ OkuriAriReading k → ∀ g, words m true k g = [] := by
      intro hnk g
      show ((m.ari.find k).bind _).getD [] = []
      cases hf : m.ari.find k with
      | none => rfl
      | some e =>
        have hm := Life.mem_of_find hf
        have h1 := (h.entries true (k, e) hm).ari rfl
        have h2 := h.wf.reading true (k, e) hm
        simp only at h1 h2
        rw [h2] at h1
        exact absurd h1 hnk
    cases s with
    | true =>
      rw [if_pos rfl]
      split
      · rfl
      · rename_i hnk; exact (hempty hnk g).symm
    | false =>
      rw [if_neg (by decide)]
      split
      · rfl
      · rename_i hnk
        rw [hempty (fun h => hnk (.inl h)) g]
        cases hx : words m false k g with
        | nil => rfl
        | cons a l => exact absurd (.inr ⟨g, by rw [hsame, hx]; simp⟩) hnk

/-! ## A concrete case -/

/-- A dictionary with 奥 for おく. -/
def inner : DictMaps := (⟨[], []⟩ : DictMaps).select ⟨c%"おく", none, false, c%"奥", none, c%"奥"⟩

/-- 送 is registered for おく with the okurigana り in an empty dictionary and in one which has 奥 for おく. After the file is written and read again, 送 stands for おく without
okurigana in the first case, and is lost in the second. -/
theorem refiled_seen : ∃ bs₁ bs₂, saveBytes Utf8.utf8 ((⟨[], []⟩ : DictMaps).select (stray c%"おく" (some c%"り") c%"送")) = some bs₁ ∧
    saveBytes Utf8.utf8 (inner.select (stray c%"おく" (some c%"り") c%"送")) = some bs₂ ∧
    words (load Utf8.utf8 bs₁) true c%"おく" [] = [] ∧ words (load Utf8.utf8 bs₁) false c%"おく" [] = [⟨c%"送", none⟩] ∧
    words (load Utf8.utf8 bs₂) true c%"おく" [] = [] ∧ words (load Utf8.utf8 bs₂) false c%"おく" [] = [⟨c%"奥", none⟩] := by
  have hr : PlainReading c%"おく" := Careful.readingOk_plain (by decide +kernel)
  have hl : ¬ OkuriAriReading c%"おく" := by rw [← looks_ends]; decide +kernel
  have hw : CandOk ⟨c%"送", none⟩ := Careful.wordOk_ok (by decide +kernel)
  have hk : ¬ ∀ x ∈ c%"送", OkuriKana x := by decide +kernel
  have ho : ∀ g, some c%"り" = some g → ∀ x ∈ g, OkuriKana x := by
    intro g hg; injection hg with hg; subst hg; decide +kernel
  obtain ⟨bs₁, h1⟩ := Persist.saveBytes_total Persist.total_utf8 ((⟨[], []⟩ : DictMaps).select (stray c%"おく" (some c%"り") c%"送"))
  obtain ⟨bs₂, h2⟩ := Persist.saveBytes_total Persist.total_utf8 (inner.select (stray c%"おく" (some c%"り") c%"送"))
  have hi : PlainDict inner :=
    Persist.plain_select Life.empty_plain ⟨Careful.readingOk_plain (by decide), Careful.wordOk_ok (by decide), fun _ => rfl, fun h => by cases h⟩
  have a := registered_then_refiled Persist.total_utf8 Life.empty_plain hr hl hw hk ho h1
  have b := registered_then_refiled Persist.total_utf8 hi hr hl hw hk ho h2
  refine ⟨bs₁, bs₂, h1, h2, a.1 [], ?_, b.1 [], ?_⟩
  · rw [a.2.2.1 (by rintro ⟨g, hg⟩; exact hg rfl) []]; rfl
  · have hin : words inner false c%"おく" [] = [⟨c%"奥", none⟩] := by decide +kernel
    rw [b.2.1 ⟨[], by rw [hin]; simp⟩ [], hin]

/-- The files of a careless user. -/
def careless : FS := Careful.files

/-- The user registers 愛 for おく with the okurigana り, ends the registration, asks for おくり again, and, in the next program, for おくり and for おく. -/
def chapters : List Spec.Life.Chapter :=
  [⟨false, Config.default, .hiragana, (Machine.keys c%"OkuRiAi " ++ [Spec.Machine.Act.key .enter, .key .enter] ++ Machine.keys c%"OkuRi").map .act⟩,
   ⟨false, Config.default, .hiragana, (Machine.keys c%"OkuRi" ++ [Spec.Machine.Act.key .ctrlG, .key .ctrlG, .key .ctrlG] ++ Machine.keys c%"Oku ").map .act⟩]

/-- The whole story: the registered word is not found when it is asked for again, neither in the same program nor in the next one, which offers it for the reading without okurigana. -/
theorem careless_seen : ((Spec.Life.lives (Assets.env ⟨true⟩) Session.sources careless chapters).map fun r => r.2.map (·.map (·.2.line))) = some
    [[c%"▽お", c%"▽おk", c%"▽おく", c%"▽おく*r", c%"▼おく*り【】", c%"▼おく*り【▽あ】", c%"▼おく*り【▽あい】", c%"▼おく*り【▼愛】", c%"▼おく*り【愛】", c%"愛り", c%"愛り▽お",
      c%"愛り▽おk", c%"愛り▽おく", c%"愛り▽おく*r", c%"▼おく*り【】"],
     [c%"▽お", c%"▽おk", c%"▽おく", c%"▽おく*r", c%"▼おく*り【】", c%"▽おくり", c%"▽", c%"", c%"▽お", c%"▽おk", c%"▽おく", c%"▼愛"]] := by
  decide +kernel

end Cskk.Props.Strays
