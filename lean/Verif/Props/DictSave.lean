import Verif.Model.DictFile
import Verif.Props.DictFile
import Verif.Props.Candidates

/-!
# Dictionary files: properties C12 (whole file), C14, C15, C39, C41
-/

namespace Cskk.Props.DictSave
open Cskk.Spec Cskk.Spec.UserDict Cskk.Spec.DictText Cskk.DictFile Cskk.Props.UserDict DictEntry

/-! ## Lines -/

theorem linesAux_newline (cur s : Str) : linesAux cur ('\n' :: s) = linesAux.stripCr cur :: linesAux [] s := by
  cases cur <;> simp [linesAux]

theorem linesAux_char (cur s : Str) (c : Char) (h : c ≠ '\n') : linesAux cur (c :: s) = linesAux (c :: cur) s := by
  cases cur <;> simp [linesAux, h]

theorem stripCr_keep (cur : Str) (h : cur.head? ≠ some '\r') : linesAux.stripCr cur = cur.reverse := by
  unfold linesAux.stripCr
  split
  · exact absurd rfl h
  · rfl

theorem linesAux_nl (cur l s : Str) (h : '\n' ∉ l) (hr : (l.reverse ++ cur).head? ≠ some '\r') :
    linesAux cur (l ++ '\n' :: s) = (cur.reverse ++ l) :: linesAux [] s := by
  induction l generalizing cur with
  | nil =>
    rw [List.nil_append, linesAux_newline, stripCr_keep cur (by simpa using hr), List.append_nil]
  | cons c l ih =>
    have hc : c ≠ '\n' := by intro e; subst e; exact h (by simp)
    rw [List.cons_append, linesAux_char _ _ _ hc, ih (c :: cur) (fun hm => h (by simp [hm])) (by simpa using hr)]
    simp

theorem lines_cons (l s : Str) (h : '\n' ∉ l) (hr : l.getLast? ≠ some '\r') : lines (l ++ '\n' :: s) = l :: lines s := by
  have := linesAux_nl [] l s h (by simpa [List.head?_reverse] using hr)
  simpa [lines] using this

theorem linesAux_append (cur a s : Str) : linesAux cur (a ++ '\n' :: s) = linesAux cur (a ++ ['\n']) ++ linesAux [] s := by
  induction a generalizing cur with
  | nil => simp only [List.nil_append, linesAux_newline]; simp [linesAux]
  | cons c a ih =>
    simp only [List.cons_append]
    by_cases hc : c = '\n'
    · subst hc
      simp only [linesAux_newline, ih [], List.cons_append]
    · simp only [linesAux_char _ _ _ hc, ih (c :: cur)]

theorem lines_append (a s : Str) : lines (a ++ '\n' :: s) = lines (a ++ ['\n']) ++ lines s := linesAux_append [] a s

/-! ## C15 -/

/-- A line the loader cannot use: unreadable bytes, or text that is neither a comment nor an entry. -/
def Malformed : Option Str → Prop
  | none => True
  | some l => l.head? ≠ some ';' ∧ fromLine l = none

/-- **C15.** A malformed line at any place of a file has no effect on the loaded dictionary. -/
theorem malformed_line_ignored (before after : List (Option Str)) (bad : Option Str) (h : Malformed bad) :
    loadLines (before ++ bad :: after) = loadLines (before ++ after) := by
  unfold loadLines
  rw [List.foldl_append, List.foldl_append, List.foldl_cons]
  have : ∀ st, loadLine st bad = st := by
    intro st
    cases bad with
    | none => rfl
    | some l => simp only [Malformed] at h; simp [loadLine, h.1, h.2]
  rw [this]

/-- **C15, on the text of the file.** Inserting a malformed line between two lines of a file changes nothing. -/
theorem malformed_text_ignored (cd : Codec) (contents contents' : Bytes) (before bad after : Str)
    (h1 : cd.dec contents = before ++ '\n' :: bad ++ '\n' :: after) (h2 : cd.dec contents' = before ++ '\n' :: after)
    (hb : '\n' ∉ bad) (hr : bad.getLast? ≠ some '\r') (hc : bad.head? ≠ some ';') (hbad : fromLine bad = none) :
    load cd contents = load cd contents' := by
  unfold load
  rw [h1, h2]
  have e1 : lines (before ++ '\n' :: bad ++ '\n' :: after) = lines (before ++ ['\n']) ++ (bad :: lines after) := by
    rw [List.append_assoc, List.cons_append, lines_append, lines_cons bad after hb hr]
  rw [e1, lines_append before after, List.map_append, List.map_append, List.map_cons]
  exact malformed_line_ignored _ _ (some bad) ⟨hc, hbad⟩

/-- A line without a blank is malformed: reading and candidates cannot be told apart. -/
theorem no_blank_malformed (l : Str) (h : ' ' ∉ l) : fromLine l = none := by
  have hm : ∀ s : Str, ' ' ∉ s → Parse.takeWhile1 (· == ' ') s = none := by
    intro s hs
    unfold Parse.takeWhile1
    have : s.takeWhile (· == ' ') = [] := by
      cases s with
      | nil => rfl
      | cons c s =>
        have : c ≠ ' ' := by intro e; subst e; exact hs (by simp)
        simp [this]
    simp [this]
  have he : DictParser.entry l = none := by
    cases hl : l with
    | nil => decide
    | cons c t =>
      rw [← hl]
      have hmid : DictParser.midashi l = some ([], l) := by
        unfold DictParser.midashi Parse.takeTill1 Parse.takeWhile1
        have hall : ∀ x ∈ l, (fun c => !(c == ' ')) x = true := by
          intro x hx
          have : x ≠ ' ' := by intro e; subst e; exact h hx
          simp [this]
        rw [LispFun.takeWhile_all hall]
        have hd : l.dropWhile (fun c => !(c == ' ')) = [] := by
          have := (DictLine.takeWhile_append_stop (rest := []) hall (by simp)).2
          simpa using this
        rw [hd]
        simp [hl]
      have hcand : DictParser.candidates [] = none := by decide
      have hsp := hm [] (by simp)
      unfold DictParser.entry Parse.allConsuming Parse.perm3
      simp [Parse.perm3Step, hmid, hsp, hcand]
  unfold fromLine; rw [he]

/-- Examples of lines that are ignored: an empty line, no candidates, unbalanced brackets, an unterminated candidate. -/
example : [c%"", c%"あい", c%"あい 愛", c%"あい /愛", c%"あk /[か/開/", c%" /愛/"].map fromLine = [none, none, none, none, none, none] := by
  decide +kernel

/-- The reader is lenient: a missing first slash is accepted if the last one is doubled. -/
theorem lenient_line : fromLine c%"あい 愛//" = some ⟨c%"あい", false, [([], [⟨c%"愛", none⟩])]⟩ := by decide +kernel

/-! ## C41 -/

/-- The section that a line opens, if it is a section header: a comment line that contains the phrase. -/
def header : Option Str → Option Bool
  | none => none
  | some l =>
    if l.head? ≠ some ';' then none
    else if c%";; okuri-ari entries" <:+: l then some true
    else if c%";; okuri-nasi entries" <:+: l then some false
    else none

/-- The section after these lines: okuri-ari (`true`), which is also the initial one, or okuri-nashi, according to the
last section header. -/
def inOkuriAri (before : List (Option Str)) : Bool := ((before.filterMap header).getLast?).getD true

theorem contains_iff (p s : Str) : contains p s = true ↔ p <:+: s := by
  induction s with
  | nil => cases p <;> simp [contains]
  | cons c s ih =>
    rw [List.infix_cons_iff, ← ih]
    simp [contains]

theorem loadLine_ariMode (st : LoadState) (l : Option Str) : (loadLine st l).ariMode = (header l).getD st.ariMode := by
  match l with
  | none => rfl
  | some l =>
    simp only [header, loadLine]
    by_cases hc : l.head? = some ';'
    · simp only [hc, if_true, ne_eq, not_true, if_false]
      by_cases h1 : contains c%";; okuri-ari entries" l = true
      · rw [if_pos h1, if_pos ((contains_iff _ _).mp h1)]; rfl
      · rw [if_neg h1, if_neg (fun h => h1 ((contains_iff _ _).mpr h))]
        by_cases h2 : contains c%";; okuri-nasi entries" l = true
        · rw [if_pos h2, if_pos ((contains_iff _ _).mp h2)]; rfl
        · rw [if_neg h2, if_neg (fun h => h2 ((contains_iff _ _).mpr h))]; rfl
    · simp only [hc, if_false, ne_eq, not_false_eq_true, if_true, Option.getD_none]
      split
      · rfl
      · split <;> rfl

theorem section_eq (before : List (Option Str)) : (before.foldl loadLine loadInit).ariMode = inOkuriAri before := by
  have key : ∀ st, (before.foldl loadLine st).ariMode = ((before.filterMap header).getLast?).getD st.ariMode := by
    induction before with
    | nil => intro st; rfl
    | cons l ls ih =>
      intro st
      rw [List.foldl_cons, ih, loadLine_ariMode, List.filterMap_cons]
      cases header l with
      | none => rfl
      | some b => rw [List.getLast?_cons]; simp
  exact key loadInit

/-- **C41.** If a reading occurs in several lines, the last of these lines alone counts on its side of the dictionary: the
loaded dictionary answers with its words, whatever the lines before it say. -/
theorem last_line_wins (before after : List (Option Str)) (l : Str) (e : DictEntry) (hc : l.head? ≠ some ';')
    (he : fromLine l = some e) (hlast : ∀ l' e', some l' ∈ after → fromLine l' = some e' → e'.midashi ≠ e.midashi) :
    (side (loadLines (before ++ some l :: after)) (inOkuriAri before && e.hasOkuri)).find e.midashi = some e := by
  unfold loadLines
  rw [List.foldl_append, List.foldl_cons, ← section_eq]
  generalize hst : before.foldl loadLine loadInit = st
  have h0 : (side (loadLine st (some l)).maps (st.ariMode && e.hasOkuri)).find e.midashi = some e := by
    simp only [loadLine, hc, if_false, he]
    split
    · rename_i h; rw [h]; simp [side, find_push]
    · rename_i h
      rw [Bool.not_eq_true] at h
      rw [h]; simp [side, find_push]
  generalize (st.ariMode && e.hasOkuri) = o at h0
  generalize loadLine st (some l) = st' at h0
  induction after generalizing st' with
  | nil => exact h0
  | cons x after ih =>
    rw [List.foldl_cons]
    apply ih (fun l' e' hm => hlast l' e' (by simp [hm]))
    match x with
    | none => exact h0
    | some l' =>
      simp only [loadLine]
      split
      · split
        · exact h0
        · split <;> exact h0
      · cases hf : fromLine l' with
        | none => exact h0
        | some e' =>
          have hne := hlast l' e' (by simp) hf
          simp only
          split <;> cases o <;> simp_all [side, find_push, Ne.symm hne]

/-- Corollary: how often and where the reading occurs before does not matter. -/
theorem earlier_lines_do_not_matter (before before' after : List (Option Str)) (l : Str) (e : DictEntry) (hc : l.head? ≠ some ';')
    (he : fromLine l = some e) (hlast : ∀ l' e', some l' ∈ after → fromLine l' = some e' → e'.midashi ≠ e.midashi)
    (hsec : inOkuriAri before = inOkuriAri before') :
    (side (loadLines (before ++ some l :: after)) (inOkuriAri before && e.hasOkuri)).find e.midashi =
    (side (loadLines (before' ++ some l :: after)) (inOkuriAri before && e.hasOkuri)).find e.midashi := by
  rw [last_line_wins before after l e hc he hlast, hsec, last_line_wins before' after l e hc he hlast]

example : loadLines [some c%"あい /愛/", some c%"あい /哀/"] = ⟨[], [(c%"あい", ⟨c%"あい", false, [([], [⟨c%"哀", none⟩])]⟩)]⟩ := by
  decide +kernel

/-! ## C12 -/

/-- The reading of an entry can stand in a line. -/
def ReadingOk (m : Str) : Prop := m ≠ [] ∧ ' ' ∉ m ∧ '\n' ∉ m ∧ '/' ∉ m ∧ ';' ∉ m

/-- An entry all of whose words have been purged (without okurigana). -/
def Emptied (e : DictEntry) : Prop := ReadingOk e.midashi ∧ e.cands = [([], [])]

theorem plain_escape {m : Str} (h : ReadingOk m) : LispFun.escape m = m := by
  unfold LispFun.escape; rw [if_neg]; rw [DictFile.contains_special]
  rintro ⟨c, hc, rfl | rfl⟩
  · exact h.2.2.2.1 hc
  · exact h.2.2.2.2 hc

theorem emptied_line (e : DictEntry) (h : Emptied e) : toLine e = e.midashi ++ c%" /" ∧ fromLine (toLine e) = none := by
  have hl : toLine e = e.midashi ++ c%" /" := by
    unfold toLine; rw [plain_escape h.1, h.2]; simp [showGroup]
  refine ⟨hl, ?_⟩
  have hmid : DictParser.midashi (e.midashi ++ c%" /") = some (c%" /", e.midashi) := by
    apply DictLine.takeTill1_ok h.1.1
    · intro x hx; simp; intro e; subst e; exact h.1.2.1 hx
    · intro x hx; simp at hx; subst hx; decide
  have hsp : Parse.takeWhile1 (· == ' ') c%" /" = some (c%"/", c%" ") := by decide
  have hc1 : DictParser.candidates c%" /" = none := by decide
  have hc2 : DictParser.candidates c%"/" = none := by decide
  have he : DictParser.entry (toLine e) = none := by
    rw [hl]
    unfold DictParser.entry Parse.allConsuming Parse.perm3
    simp [Parse.perm3Step, hmid, hsp, hc2]
  unfold fromLine; rw [he]

theorem line_end (e : DictEntry) : (toLine e).getLast? ≠ some '\r' := by
  unfold toLine
  rw [List.getLast?_append]
  simp

theorem emptied_is_line (e : DictEntry) (h : Emptied e) : '\n' ∉ toLine e ∧ (toLine e).head? ≠ some ';' := by
  rw [(emptied_line e h).1]
  constructor
  · simp only [List.mem_append, not_or]
    exact ⟨h.1.2.2.1, by decide⟩
  · cases hm : e.midashi with
    | nil => exact absurd hm h.1.1
    | cons x m =>
      intro he
      have : x = ';' := by simpa using he
      subst this
      exact h.1.2.2.2.2 (by rw [hm]; simp)

/-- An entry that a saved file can represent faithfully: writable, or without any word left. -/
def Savable (e : DictEntry) : Prop := EntryOk e ∨ Emptied e

/-- The entry as it is read back. -/
def reread (e : DictEntry) : DictEntry := { e with hasOkuri := looksOkuriAri e.midashi }

/-- The entries of one side that survive a save. -/
def kept (cd : Codec) (l : Recency DictEntry) : Recency DictEntry :=
  l.filterMap fun e => if (entryPart cd e.2).isSome && !(fromLine (toLine e.2)).isNone then some (e.1, reread e.2) else none

theorem kept_keys (cd : Codec) (l : Recency DictEntry) (k : Str) (h : k ∈ (kept cd l).map (·.1)) : k ∈ l.map (·.1) := by
  obtain ⟨e, he, rfl⟩ := List.mem_map.mp h
  obtain ⟨x, hx, hxe⟩ := List.mem_filterMap.mp he
  split at hxe
  · cases hxe; exact List.mem_map.mpr ⟨x, hx, rfl⟩
  · cases hxe

theorem erase_absent {V} (l : Recency V) (k : Str) (h : k ∉ l.map (·.1)) : l.erase k = l := by
  unfold Recency.erase
  rw [List.filter_eq_self]
  intro e he
  simp only [ne_eq, decide_eq_true_eq]
  intro e'; exact h (List.mem_map.mpr ⟨e, he, e'⟩)

/-- Loading the lines of one side. -/
theorem load_side (cd : Codec) (l : Recency DictEntry) (o : Bool) (st : LoadState) (rest : Str)
    (hst : st.ariMode = o)
    (hs : ∀ e ∈ l, Savable e.2) (hr : ∀ e ∈ l, e.2.midashi = e.1) (hari : o = true → ∀ e ∈ l, looksOkuriAri e.1 = true)
    (hk : (l.map (·.1)).Nodup) (hdis : ∀ e ∈ l, e.1 ∉ (side st.maps o).map (·.1)) :
    ((lines ((l.filterMap fun e => entryPart cd e.2).flatten ++ rest)).map some).foldl loadLine st =
    ((lines rest).map some).foldl loadLine ⟨o, st.maps.update o fun d => (kept cd l).reverse ++ d⟩ := by
  induction l generalizing st with
  | nil =>
    obtain ⟨a, ⟨m1, m2⟩⟩ := st
    simp only at hst; subst hst
    cases a <;> simp [kept, DictMaps.update]
  | cons e l ih =>
    have hse := hs e (by simp)
    have hre := hr e (by simp)
    rw [List.map_cons, List.nodup_cons] at hk
    have hde := hdis e (by simp)
    have ihh := fun st' h1 h2 => ih st' h1 (fun x hx => hs x (by simp [hx])) (fun x hx => hr x (by simp [hx]))
      (fun ho x hx => hari ho x (by simp [hx])) hk.2 h2
    cases hp : entryPart cd e.2 with
    | none =>
      have hkept : kept cd (e :: l) = kept cd l := by simp [kept, hp]
      rw [List.filterMap_cons_none (by simpa using hp), hkept]
      exact ihh st hst fun x hx => hdis x (by simp [hx])
    | some part =>
      have hpart : part = toLine e.2 ++ c%"\n" := by
        unfold entryPart at hp
        simp only at hp
        split at hp
        · cases hp; rfl
        · cases hp
      have hline : '\n' ∉ toLine e.2 ∧ (toLine e.2).head? ≠ some ';' := by
        rcases hse with h | h
        · exact DictFile.line_is_line e.2 h
        · exact emptied_is_line e.2 h
      have htext : ((e :: l).filterMap fun e => entryPart cd e.2).flatten ++ rest
          = toLine e.2 ++ '\n' :: ((l.filterMap fun e => entryPart cd e.2).flatten ++ rest) := by
        rw [List.filterMap_cons_some (by exact hp), hpart]; simp
      rw [htext, lines_cons _ _ hline.1 (line_end e.2), List.map_cons, List.foldl_cons]
      rcases hse with h | h
      · have hf := DictFile.line_round_trip e.2 h
        have hkept : kept cd (e :: l) = (e.1, reread e.2) :: kept cd l := by
          simp [kept, hp, hf]
        have hstep : loadLine st (some (toLine e.2)) =
            ⟨o, st.maps.update o fun d => (e.1, reread e.2) :: d⟩ := by
          have hrr : (⟨e.2.midashi, looksOkuriAri e.2.midashi, e.2.cands⟩ : DictEntry) = reread e.2 := rfl
          have her := erase_absent (side st.maps o) e.1 hde
          obtain ⟨a, ⟨m1, m2⟩⟩ := st
          simp only at hst; subst hst
          simp only [loadLine, hline.2, if_false, hf]
          cases a with
          | true =>
            have : looksOkuriAri e.1 = true := hari rfl e (by simp)
            have her : m1.erase e.1 = m1 := her
            simp only [hre, this, Bool.and_self, if_true, DictMaps.update, Recency.push, her, ← hrr]
          | false =>
            have her : m2.erase e.1 = m2 := her
            simp only [Bool.false_and, Bool.false_eq_true, if_false, DictMaps.update, Recency.push, hre, her, ← hrr]
        rw [hstep, ihh _ rfl, hkept]
        · congr 2
          unfold DictMaps.update
          cases o <;> simp
        · intro x hx
          simp only [side_update, if_true, List.map_cons, List.mem_cons, not_or]
          refine ⟨?_, hdis x (by simp [hx])⟩
          intro e'; exact hk.1 (List.mem_map.mpr ⟨x, hx, e'⟩)
      · have hf := (emptied_line e.2 h).2
        have hkept : kept cd (e :: l) = kept cd l := by simp [kept, hf]
        have hstep : loadLine st (some (toLine e.2)) = st := by
          simp [loadLine, hline.2, hf]
        rw [hstep, hkept]
        exact ihh st hst fun x hx => hdis x (by simp [hx])

/-- What is read back from a saved file: the encodable, non-emptied entries of each side, in reverse order. -/
theorem load_saved (cd : Codec) (m : DictMaps) (bs : Bytes) (hs : saveBytes cd m = some bs) (hwf : WellFormed m)
    (hok : ∀ o, ∀ e ∈ side m o, Savable e.2) (hari : ∀ e ∈ m.ari, looksOkuriAri e.1 = true) :
    load cd bs = ⟨(kept cd m.ari).reverse, (kept cd m.nashi).reverse⟩ := by
  unfold saveBytes at hs
  obtain ⟨parts, hp, rfl⟩ := Option.map_eq_some_iff.mp hs
  have hdec := cd.round (saveParts cd m) parts hp (by simp [saveParts])
  unfold load
  rw [hdec]
  have htext : (saveParts cd m).flatten = c%";; okuri-ari entries." ++ '\n' ::
      ((m.ari.filterMap fun e => entryPart cd e.2).flatten ++
        (c%";; okuri-nasi entries." ++ '\n' :: ((m.nashi.filterMap fun e => entryPart cd e.2).flatten ++ []))) := by
    simp [saveParts]
  rw [htext, lines_cons _ _ (by decide) (by decide)]
  unfold loadLines
  rw [List.map_cons, List.foldl_cons]
  have h1 : loadLine loadInit (some c%";; okuri-ari entries.") = loadInit := by decide
  rw [h1, load_side cd m.ari true loadInit _ rfl (hok true) (hwf.reading true) (fun _ => hari) (hwf.keys true)
    (by intro e he; simp [side, loadInit])]
  rw [lines_cons _ _ (by decide) (by decide), List.map_cons, List.foldl_cons]
  have h2 : ∀ mm : DictMaps, loadLine ⟨true, mm⟩ (some c%";; okuri-nasi entries.") = ⟨false, mm⟩ := by
    intro mm
    have c1 : contains c%";; okuri-ari entries" c%";; okuri-nasi entries." = false := by decide
    have c2 : contains c%";; okuri-nasi entries" c%";; okuri-nasi entries." = true := by decide
    simp only [loadLine, c1, c2]
    rfl
  rw [h2, load_side cd m.nashi false _ _ rfl (hok false) (hwf.reading false) (by intro h; cases h) (hwf.keys false)
    (by intro e he; simp [side, loadInit, DictMaps.update])]
  simp [lines, linesAux, loadInit, DictMaps.update]

theorem find_reverse {V} (l : Recency V) (k : Str) (h : (l.map (·.1)).Nodup) : Recency.find l.reverse k = Recency.find l k := by
  induction l with
  | nil => rfl
  | cons e l ih =>
    rw [List.map_cons, List.nodup_cons] at h
    have ih := ih h.2
    unfold Recency.find at *
    rw [List.reverse_cons, List.find?_append]
    by_cases he : e.1 = k
    · have hn : l.reverse.find? (fun e => decide (e.1 = k)) = none := by
        rw [List.find?_eq_none]
        intro x hx
        simp only [decide_eq_true_eq]
        intro e'
        exact h.1 (List.mem_map.mpr ⟨x, List.mem_reverse.mp hx, by rw [e', he]⟩)
      rw [hn]; simp [he]
    · rw [List.find?_cons (as := l)]
      simp only [he, decide_false]
      rw [← ih]
      cases hf : l.reverse.find? (fun e => decide (e.1 = k)) <;> simp [he]

theorem kept_nodup (cd : Codec) (l : Recency DictEntry) (h : (l.map (·.1)).Nodup) : ((kept cd l).map (·.1)).Nodup := by
  induction l with
  | nil => exact List.nodup_nil
  | cons e l ih =>
    rw [List.map_cons, List.nodup_cons] at h
    unfold kept at *
    rw [List.filterMap_cons]
    split
    · exact ih h.2
    · rename_i x hx
      split at hx
      · cases hx
        rw [List.map_cons, List.nodup_cons]
        exact ⟨fun hm => h.1 (kept_keys cd l _ hm), ih h.2⟩
      · cases hx

theorem find_kept (cd : Codec) (l : Recency DictEntry) (k : Str) (h : (l.map (·.1)).Nodup) :
    Recency.find (kept cd l) k = (Recency.find l k).bind fun e =>
      if (entryPart cd e).isSome && !(fromLine (toLine e)).isNone then some (reread e) else none := by
  induction l with
  | nil => rfl
  | cons e l ih =>
    rw [List.map_cons, List.nodup_cons] at h
    have ih := ih h.2
    have hcons : Recency.find (e :: l) k = if e.1 = k then some e.2 else Recency.find l k := by
      unfold Recency.find; rw [List.find?_cons]; by_cases he : e.1 = k <;> simp [he]
    have habs : e.1 = k → Recency.find (kept cd l) k = none := by
      intro he
      unfold Recency.find
      have : (kept cd l).find? (fun e => decide (e.1 = k)) = none := by
        rw [List.find?_eq_none]; intro x hx
        simp only [decide_eq_true_eq]
        intro e'
        exact h.1 (kept_keys cd l _ (List.mem_map.mpr ⟨x, hx, by rw [e', he]⟩))
      rw [this]; rfl
    rw [hcons]
    by_cases hcond : ((entryPart cd e.2).isSome && !(fromLine (toLine e.2)).isNone) = true
    · have : kept cd (e :: l) = (e.1, reread e.2) :: kept cd l := by
        unfold kept; rw [List.filterMap_cons_some]; rw [if_pos hcond]
      rw [this]
      have hcons' : Recency.find ((e.1, reread e.2) :: kept cd l) k = if e.1 = k then some (reread e.2) else Recency.find (kept cd l) k := by
        unfold Recency.find; rw [List.find?_cons]; by_cases he : e.1 = k <;> simp [he]
      rw [hcons']
      by_cases he : e.1 = k
      · simp only [he, if_true, Option.bind_some, hcond]
      · simp only [he, if_false]; exact ih
    · have : kept cd (e :: l) = kept cd l := by
        unfold kept; rw [List.filterMap_cons_none]; rw [if_neg hcond]
      rw [this]
      by_cases he : e.1 = k
      · simp only [he, if_true, Option.bind_some, hcond]
        rw [habs he]; rfl
      · simp only [he, if_false]; exact ih

/-- **C12.** Saving a user dictionary and loading the file yields, for every reading, with and without okurigana and for
every okurigana group, the same words with the same annotations in the same order, provided each entry is representable
(`Savable`) and encodable and okuri-ari readings end in a letter. -/
theorem save_load_same_words (cd : Codec) (m : DictMaps) (bs : Bytes) (hs : saveBytes cd m = some bs) (hwf : WellFormed m)
    (hok : ∀ o, ∀ e ∈ side m o, Savable e.2 ∧ (cd.enc (toLine e.2 ++ c%"\n")).isSome)
    (hari : ∀ e ∈ m.ari, looksOkuriAri e.1 = true) (o : Bool) (midashi g : Str) :
    (listed (load cd bs) o midashi g).getD [] = (listed m o midashi g).getD [] := by
  rw [load_saved cd m bs hs hwf (fun o e he => (hok o e he).1) hari]
  have key : ∀ o, (side ⟨(kept cd m.ari).reverse, (kept cd m.nashi).reverse⟩ o).find midashi
      = Recency.find (kept cd (side m o)) midashi := by
    intro o
    cases o with
    | true => exact find_reverse _ _ (kept_nodup cd _ (hwf.keys true))
    | false => exact find_reverse _ _ (kept_nodup cd _ (hwf.keys false))
  unfold listed
  rw [key, find_kept cd _ _ (hwf.keys o)]
  cases hf : Recency.find (side m o) midashi with
  | none => rfl
  | some e =>
    obtain ⟨hsv, henc⟩ := hok o (midashi, e) (SMap.mem_of_get (m := side m o) hf)
    have hpart : (entryPart cd e).isSome = true := by simp [entryPart, henc]
    simp only [Option.bind_some, hpart, Bool.true_and]
    rcases hsv with h | h
    · have hf2 := DictFile.line_round_trip e h
      rw [hf2]
      simp [reread]
    · have hf2 := (emptied_line e h).2
      have hc : e.cands = [([], [])] := h.2
      rw [hf2]
      simp only [Option.isNone_none, Bool.not_true, Bool.false_eq_true, if_false, hc]
      simp only [SMap.get, Option.bind_none, Option.getD_none]
      by_cases hg : ([] : Str) = g
      · simp [← hg]
      · simp [hg]

/-- An entry that cannot be encoded is silently left out of the file (and only it). -/
theorem unencodable_dropped (cd : Codec) (m : DictMaps) (bs : Bytes) (hs : saveBytes cd m = some bs) (hwf : WellFormed m)
    (hok : ∀ o, ∀ e ∈ side m o, Savable e.2) (hari : ∀ e ∈ m.ari, looksOkuriAri e.1 = true) (o : Bool) (midashi g : Str)
    (e : DictEntry) (he : (side m o).find midashi = some e) (hn : cd.enc (toLine e ++ c%"\n") = none) :
    listed (load cd bs) o midashi g = none := by
  rw [load_saved cd m bs hs hwf hok hari]
  have key : (side ⟨(kept cd m.ari).reverse, (kept cd m.nashi).reverse⟩ o).find midashi
      = Recency.find (kept cd (side m o)) midashi := by
    cases o with
    | true => exact find_reverse _ _ (kept_nodup cd _ (hwf.keys true))
    | false => exact find_reverse _ _ (kept_nodup cd _ (hwf.keys false))
  unfold listed
  rw [key, find_kept cd _ _ (hwf.keys o), he]
  have : (entryPart cd e).isSome = false := by simp [entryPart, hn]
  simp [this]

/-- The recency order is reversed by every save and load. -/
theorem reload_reverses_order (cd : Codec) (m : DictMaps) (bs : Bytes) (hs : saveBytes cd m = some bs) (hwf : WellFormed m)
    (hok : ∀ o, ∀ e ∈ side m o, EntryOk e.2 ∧ (cd.enc (toLine e.2 ++ c%"\n")).isSome)
    (hari : ∀ e ∈ m.ari, looksOkuriAri e.1 = true) (o : Bool) :
    (side (load cd bs) o).map (·.1) = ((side m o).map (·.1)).reverse := by
  rw [load_saved cd m bs hs hwf (fun o e he => .inl (hok o e he).1) hari]
  have key : ∀ l : Recency DictEntry, (∀ e ∈ l, EntryOk e.2 ∧ (cd.enc (toLine e.2 ++ c%"\n")).isSome) →
      (kept cd l).map (·.1) = l.map (·.1) := by
    intro l
    induction l with
    | nil => intro _; rfl
    | cons e l ih =>
      intro hl
      obtain ⟨h1, h2⟩ := hl e (by simp)
      have hf := DictFile.line_round_trip e.2 h1
      have : kept cd (e :: l) = (e.1, reread e.2) :: kept cd l := by
        unfold kept; rw [List.filterMap_cons_some]; simp [entryPart, h2, hf]
      rw [this, List.map_cons, List.map_cons, ih fun x hx => hl x (by simp [hx])]
  cases o with
  | true =>
    show (kept cd m.ari).reverse.map (·.1) = _
    rw [List.map_reverse, key m.ari (hok true)]; rfl
  | false =>
    show (kept cd m.nashi).reverse.map (·.1) = _
    rw [List.map_reverse, key m.nashi (hok false)]; rfl

/-- A toy codec for concrete cases: only ASCII and one hundred kana can be encoded; the codec law holds trivially since
the decoder inverts the byte-wise encoding. -/
theorem codec_exists : ∃ cd : Codec, ∀ s : Str, (∀ c ∈ s, c.toNat < 128) → (cd.enc s).isSome := by
  let enc : Str → Option Bytes := fun s => if ∀ c ∈ s, c.toNat < 128 then some (s.map fun c => UInt8.ofNat c.toNat) else none
  let dec : Bytes → Str := fun b => b.map fun u => Char.ofNat u.toNat
  have one : ∀ s b, enc s = some b → dec b = s := by
    intro s b h
    simp only [enc] at h
    split at h
    · rename_i hs
      cases h
      simp only [dec, List.map_map]
      conv => rhs; rw [← List.map_id s]
      apply List.map_congr_left
      intro c hc
      have h1 := hs c hc
      have h2 : (UInt8.ofNat c.toNat).toNat = c.toNat := by
        rw [UInt8.toNat_ofNat']; omega
      simp only [Function.comp, id, h2]
      exact Char.ofNat_toNat c
    · cases h
  refine ⟨⟨enc, dec, ?_⟩, ?_⟩
  · intro parts
    induction parts with
    | nil => intro bs h _; cases h; rfl
    | cons p ps ih =>
      intro bs h _
      have key : ∀ (ps : List Str) bs, ps.mapM enc = some bs → dec bs.flatten = ps.flatten := by
        intro ps
        induction ps with
        | nil => intro bs h; cases h; rfl
        | cons p ps ih =>
          intro bs h
          simp only [List.mapM_cons, Option.bind_eq_bind, Option.bind_eq_some_iff, Option.pure_def] at h
          obtain ⟨b, hb, bs', hbs, h⟩ := h
          cases h
          have h1 := one p b hb
          have h2 := ih bs' hbs
          simp only [dec, List.flatten_cons, List.map_append] at h1 h2 ⊢
          rw [h1, h2]
      exact key _ _ h
  · intro s hs
    simp only [enc]; rw [if_pos hs]; rfl

/-- **Violation.** An okuri-ari entry whose reading does not end in a letter (see C30) changes sides: after saving and
loading, the words are found without okurigana only. -/
theorem odd_okuri_ari_moves :
    loadLines ((lines (c%";; okuri-ari entries.\n" ++ toLine ⟨c%"あ", true, [([], [⟨c%"亜", none⟩])]⟩ ++
      c%"\n;; okuri-nasi entries.\n")).map some) = ⟨[], [(c%"あ", ⟨c%"あ", false, [([], [⟨c%"亜", none⟩])]⟩)]⟩ := by decide +kernel

/-- Non-vacuity of `save_load_same_words`: the sample entry is savable, okuri-ari and well-formed. -/
example : Savable DictFile.sampleEntry ∧ looksOkuriAri DictFile.sampleEntry.midashi = true ∧
    WellFormed ⟨[(c%"うごk", DictFile.sampleEntry)], []⟩ := by
  refine ⟨.inl DictFile.sampleEntry_ok, by decide, ?_, ?_, ?_, ?_⟩ <;> intro o <;> cases o <;> simp [side, DictFile.sampleEntry]
  · decide
  · rintro a b (⟨rfl, rfl⟩ | ⟨rfl, rfl⟩ | ⟨rfl, rfl⟩) <;> decide

/-! ## C14 -/

theorem bak_ne (path : Str) : bak path ≠ path := by
  intro h
  have := congrArg List.length h
  simp [bak] at this

/-- Effect of appending. -/
theorem runOps_appends (fs : FS) (path : Str) (c : Bytes) (h : fs path = some c) (chunks : List Bytes) :
    runOps fs (chunks.map (.append path)) = fun p => if p = path then some (c ++ chunks.flatten) else fs p := by
  induction chunks generalizing fs c with
  | nil =>
    funext p
    by_cases hp : p = path
    · subst hp; simp [runOps, h]
    · simp [runOps, hp]
  | cons b bs ih =>
    simp only [List.map_cons, runOps, FsOp.run, h]
    rw [ih _ (c ++ b) (by simp)]
    funext p
    by_cases hp : p = path <;> simp [hp]

/-- **C14.** If the process dies after any number of the file system steps of one save, the complete previous contents
are in the dictionary file or in its backup; other files are not touched. -/
theorem crash_keeps_old (fs : FS) (path : Str) (old : Bytes) (h : fs path = some old) (chunks : List Bytes) (n : Nat) :
    let fs' := runOps fs ((saveOps path chunks).take n)
    (fs' path = some old ∨ fs' (bak path) = some old) ∧ ∀ p, p ≠ path → p ≠ bak path → fs' p = fs p := by
  have hb := bak_ne path
  match n with
  | 0 => exact ⟨.inl h, fun p _ _ => rfl⟩
  | 1 =>
    intro fs'
    have : fs' = fun p => if p = bak path then some old else if p = path then none else fs p := by
      simp only [fs', saveOps, List.cons_append, List.take_succ_cons, List.take_zero, runOps, FsOp.run, h]
    rw [this]
    exact ⟨.inr (by simp), fun p h1 h2 => by simp [h1, h2]⟩
  | n + 2 =>
    intro fs'
    have : fs' = fun p => if p = path then some ((chunks.take n).flatten) else if p = bak path then some old else fs p := by
      simp only [fs', saveOps, List.cons_append, List.nil_append, List.take_succ_cons, runOps, FsOp.run, h]
      rw [← List.map_take, runOps_appends _ path [] (by simp)]
      funext p
      by_cases hp : p = path
      · simp [hp]
      · simp [hp]
    rw [this]
    refine ⟨.inr (by simp [hb]), fun p h1 h2 => by simp [h1, h2]⟩

/-- If the file is gone when it is to be saved (it was moved away, as a crash between the first two steps of an earlier save does), the save stops at the
first step: no file is touched, the backup least of all, wherever it is interrupted; the failure is reported and the dictionary in memory stays marked. -/
theorem missing_file_untouched (cd : Codec) (fs : FS) (path : Str) (h : fs path = none) (chunks : List Bytes) (n : Nat) (d : UserDict) (hd : d.hasChange = true) :
    runOps fs ((saveOps path chunks).take n) = fs ∧ save cd path fs d = (d, fs, none) := by
  constructor
  · cases n with
    | zero => rfl
    | succ n => simp only [saveOps, List.cons_append, List.take_succ_cons, runOps, FsOp.run, h]
  · simp only [save, hd, if_true, FsOp.run, h]

/-- The steps, taken to their end, are the save of the model: the file has the new contents and the backup the old. -/
theorem saveOps_complete (cd : Codec) (fs : FS) (path : Str) (old bs : Bytes) (h : fs path = some old) (d : UserDict)
    (hd : d.hasChange = true) (hs : saveBytes cd d.maps = some bs) (chunks : List Bytes) (hc : chunks.flatten = bs) :
    save cd path fs d = (⟨d.maps, false⟩, runOps fs (saveOps path chunks), some true) ∧
    runOps fs (saveOps path chunks) path = some bs ∧ runOps fs (saveOps path chunks) (bak path) = some old := by
  have hb := bak_ne path
  have : runOps fs (saveOps path chunks) = fun p => if p = path then some bs else if p = bak path then some old else fs p := by
    simp only [saveOps, List.cons_append, List.nil_append, runOps, FsOp.run, h]
    rw [runOps_appends _ path [] (by simp), hc]
    funext p
    by_cases hp : p = path
    · simp [hp]
    · simp [hp]
  rw [this]
  refine ⟨?_, by simp, by simp [hb]⟩
  simp only [save, hd, if_true, FsOp.run, h, hs]
  refine Prod.ext rfl (Prod.ext ?_ rfl)
  funext p
  by_cases hp : p = path <;> simp [hp]

/-- **Limit of C14.** If the process dies right after the file was re-created, restarts and saves again, the backup is
overwritten by the empty file: neither file has the old contents any more. -/
theorem second_save_loses_backup (fs : FS) (path : Str) (old bs : Bytes) (h : fs path = some old) :
    let crashed := runOps fs ((saveOps path [bs]).take 2)
    let later := runOps crashed (saveOps path [bs])
    later path = some bs ∧ later (bak path) = some [] := by
  have hb := bak_ne path
  intro crashed later
  have hc : crashed = fun p => if p = path then some [] else if p = bak path then some old else if p = path then none else fs p := by
    simp [crashed, saveOps, runOps, FsOp.run, h]
  have hcp : crashed path = some [] := by rw [hc]; simp
  have hl : later = fun p => if p = path then some bs else if p = bak path then some [] else crashed p := by
    simp only [later, saveOps, List.map_cons, List.map_nil, List.cons_append, List.nil_append, runOps, FsOp.run, hcp]
    funext p
    by_cases hp : p = path <;> simp [hp]
  rw [hl]
  exact ⟨by simp, by simp [hb]⟩

/-- If the process dies between the renaming and the re-creation, the dictionary can neither be opened nor saved again
by the library: both report an error, although the backup is intact. -/
theorem crash_between_rename_and_create (cd : Codec) (fs : FS) (path : Str) (old : Bytes) (h : fs path = some old)
    (chunks : List Bytes) (d : UserDict) (hd : d.hasChange = true) :
    let fs' := runOps fs ((saveOps path chunks).take 1)
    DictFile.new cd path fs' = none ∧ save cd path fs' d = (d, fs', none) ∧ fs' (bak path) = some old := by
  have hb := bak_ne path
  intro fs'
  have : fs' = fun p => if p = bak path then some old else if p = path then none else fs p := by
    simp only [fs', saveOps, List.cons_append, List.take_succ_cons, List.take_zero, runOps, FsOp.run, h]
  have hp : fs' path = none := by rw [this]; simp [Ne.symm hb]
  refine ⟨by simp [DictFile.new, hp], ?_, by rw [this]; simp⟩
  simp [save, hd, FsOp.run, hp]

/-! ## C39 -/

/-- What can happen to a user dictionary. -/
inductive Event where
  | confirm (c : Candidate)
  | purge (k : CompositeKey) (c : Candidate)
  | save
  | reload

/-- One event. -/
def step (cd : Codec) (path : Str) (st : UserDict × FS) : Event → UserDict × FS
  | .confirm c => (⟨st.1.maps.select c, true⟩, st.2)
  | .purge k c => (⟨st.1.maps.purge k c, true⟩, st.2)
  | .save => let r := save cd path st.2 st.1; (r.1, r.2.1)
  | .reload => (reload cd path st.2 st.1, st.2)

/-- **C39.** A clean dictionary is not written: the call reports `Ok(false)` and no file changes. -/
theorem clean_not_written (cd : Codec) (path : Str) (fs : FS) (d : UserDict) (h : d.hasChange = false) :
    save cd path fs d = (d, fs, some false) := by
  simp [save, h]

/-- **C39.** A save that reports success leaves a clean dictionary with the same contents; a save that reports an error
leaves it dirty, so that it can be tried again. -/
theorem save_result (cd : Codec) (path : Str) (fs : FS) (d : UserDict) :
    (save cd path fs d).1.maps = d.maps ∧
    ((save cd path fs d).2.2 ≠ none → (save cd path fs d).1.hasChange = false) ∧
    ((save cd path fs d).2.2 = none → (save cd path fs d).1 = d ∧ d.hasChange = true) := by
  unfold save
  cases hd : d.hasChange with
  | false => simp [hd]
  | true =>
    simp only [if_true]
    cases (FsOp.rename path (bak path)).run fs with
    | none => simp [hd]
    | some fs1 =>
      simp only
      cases saveBytes cd d.maps with
      | none => simp [hd]
      | some bs => simp

/-- An event that edits the dictionary. -/
def isEdit : Event → Bool
  | .confirm _ | .purge _ _ => true
  | _ => false

/-- **C39 over histories.** After any history a dictionary is dirty only if it was dirty at the beginning or there was a
confirmation or purge; more precisely, without an edit after a successful save nothing is written any more. -/
theorem dirty_needs_edit (cd : Codec) (path : Str) (st : UserDict × FS) (es : List Event) (h : st.1.hasChange = false)
    (hes : ∀ e ∈ es, isEdit e = false) :
    (es.foldl (step cd path) st).1.hasChange = false ∧ (es.foldl (step cd path) st).2 = st.2 := by
  induction es generalizing st with
  | nil => exact ⟨h, rfl⟩
  | cons e es ih =>
    rw [List.foldl_cons]
    have hstep : (step cd path st e).1.hasChange = false ∧ (step cd path st e).2 = st.2 := by
      have he := hes e (by simp)
      cases e with
      | confirm c => cases he
      | purge k c => cases he
      | save => simp [step, clean_not_written cd path st.2 st.1 h, h]
      | reload =>
        simp only [step, reload]
        split <;> simp [h]
    obtain ⟨h1, h2⟩ := ih (step cd path st e) hstep.1 fun x hx => hes x (by simp [hx])
    exact ⟨h1, h2.trans hstep.2⟩

/-- An edit makes the dictionary dirty, and it stays so until a save succeeds. -/
theorem edit_stays_dirty (cd : Codec) (path : Str) (st : UserDict × FS) (e : Event) (he : isEdit e = true) (es : List Event)
    (hes : ∀ x ∈ es, x ≠ .save) : (es.foldl (step cd path) (step cd path st e)).1.hasChange = true := by
  have h0 : (step cd path st e).1.hasChange = true := by
    cases e with
    | confirm c => rfl
    | purge k c => rfl
    | save => cases he
    | reload => cases he
  generalize step cd path st e = s0 at h0
  induction es generalizing s0 with
  | nil => exact h0
  | cons x es ih =>
    rw [List.foldl_cons]
    apply ih (fun y hy => hes y (by simp [hy]))
    cases x with
    | confirm c => rfl
    | purge k c => rfl
    | save => exact absurd rfl (hes .save (by simp))
    | reload =>
      simp only [step, reload]
      split
      · exact h0
      · exact h0

/-- Reloading discards unsaved edits but keeps the dictionary dirty: the next save rewrites the file needlessly. -/
theorem reload_keeps_dirty (cd : Codec) (path : Str) (fs : FS) (d : UserDict) :
    (reload cd path fs d).hasChange = d.hasChange := by
  unfold reload; split <;> rfl

/-- **C12 + C39, end to end.** After a successful save of a dirty, representable dictionary, opening the file again
yields a dictionary with the same words. -/
theorem save_then_open (cd : Codec) (path : Str) (fs : FS) (d : UserDict) (d' : UserDict) (fs' : FS)
    (hs : save cd path fs d = (d', fs', some true)) (hwf : WellFormed d.maps)
    (hok : ∀ o, ∀ e ∈ side d.maps o, Savable e.2 ∧ (cd.enc (toLine e.2 ++ c%"\n")).isSome)
    (hari : ∀ e ∈ d.maps.ari, looksOkuriAri e.1 = true) :
    ∃ d2, DictFile.new cd path fs' = some d2 ∧
      ∀ o midashi g, (listed d2.maps o midashi g).getD [] = (listed d.maps o midashi g).getD [] := by
  unfold save at hs
  split at hs
  · split at hs
    · cases hs
    · split at hs
      · rename_i bs hbs
        cases hs
        refine ⟨⟨load cd bs, false⟩, by simp [DictFile.new], ?_⟩
        intro o midashi g
        exact save_load_same_words cd d.maps bs hbs hwf hok hari o midashi g
      · cases hs
  · cases hs

/-- What the save calls of a history report. -/
def saveReport (cd : Codec) (path : Str) (st : UserDict × FS) : Option Bool := (save cd path st.2 st.1).2.2

/-- **C39, exactly.** A dictionary which has been opened is marked as changed after a history if and only if the history has a
confirmation or purge behind which no save succeeded. (Only a marked dictionary is written, `clean_not_written`.) -/
theorem marked_iff (cd : Codec) (path : Str) (fs : FS) (d : UserDict) (hn : DictFile.new cd path fs = some d) (es : List Event) :
    (es.foldl (step cd path) (d, fs)).1.hasChange = true ↔
      ∃ before x after, es = before ++ x :: after ∧ isEdit x = true ∧
        ∀ a b, after = a ++ .save :: b → saveReport cd path ((before ++ x :: a).foldl (step cd path) (d, fs)) = none := by
  have h0 : d.hasChange = false := by
    unfold DictFile.new at hn
    cases hf : fs path with
    | none => rw [hf] at hn; cases hn
    | some c => rw [hf] at hn; cases hn; rfl
  suffices H : ∀ n (es : List Event), es.length = n → ((es.foldl (step cd path) (d, fs)).1.hasChange = true ↔
      ∃ before x after, es = before ++ x :: after ∧ isEdit x = true ∧
        ∀ a b, after = a ++ .save :: b → saveReport cd path ((before ++ x :: a).foldl (step cd path) (d, fs)) = none) from
    H _ es rfl
  intro n
  induction n with
  | zero =>
    intro es h
    have : es = [] := List.length_eq_zero_iff.mp h
    subst this
    constructor
    · intro h; rw [List.foldl_nil, h0] at h; cases h
    · rintro ⟨b, x, a, h, -⟩; cases b <;> cases h
  | succ n ih =>
    intro es h
    obtain ⟨es', y, rfl⟩ : ∃ es' y, es = es' ++ [y] := by
      have hne : es ≠ [] := by rintro rfl; simp at h
      exact ⟨es.dropLast, es.getLast hne, (List.dropLast_concat_getLast hne).symm⟩
    have ih := ih es' (by simpa using h)
    rw [List.foldl_append, List.foldl_cons, List.foldl_nil]
    have hmono : (y = .save → saveReport cd path (es'.foldl (step cd path) (d, fs)) = none) →
        (es'.foldl (step cd path) (d, fs)).1.hasChange = true →
        ∃ before x after, es' ++ [y] = before ++ x :: after ∧ isEdit x = true ∧
        ∀ a b, after = a ++ .save :: b → saveReport cd path ((before ++ x :: a).foldl (step cd path) (d, fs)) = none := by
      intro hy hd
      obtain ⟨b, x, a, rfl, hx, hs⟩ := ih.mp hd
      refine ⟨b, x, a ++ [y], by simp, hx, ?_⟩
      intro a' b' hab
      rcases List.eq_nil_or_concat b' with rfl | ⟨b'', z, rfl⟩
      · obtain ⟨rfl, hz⟩ := List.append_inj' hab rfl
        simp only [List.cons.injEq, and_true] at hz
        exact hy hz
      · have : a = a' ++ .save :: b'' := by
          have := congrArg List.dropLast hab
          simpa [List.dropLast_append_of_ne_nil, List.dropLast_cons_of_ne_nil] using this
        exact hs a' b'' this
    have hback : ¬ isEdit y = true →
        (∃ before x after, es' ++ [y] = before ++ x :: after ∧ isEdit x = true ∧
        ∀ a b, after = a ++ .save :: b → saveReport cd path ((before ++ x :: a).foldl (step cd path) (d, fs)) = none) →
        (es'.foldl (step cd path) (d, fs)).1.hasChange = true ∧
          (y = .save → saveReport cd path (es'.foldl (step cd path) (d, fs)) = none) := by
      rintro hy ⟨b, x, a, hab, hx, hs⟩
      rcases List.eq_nil_or_concat a with rfl | ⟨a', z, rfl⟩
      · obtain ⟨-, hz⟩ := List.append_inj' hab rfl
        simp only [List.cons.injEq, and_true] at hz
        subst hz
        exact absurd hx hy
      · obtain ⟨h1, h2⟩ := List.append_inj' (by simpa using hab : es' ++ [y] = (b ++ x :: a') ++ [z]) rfl
        simp only [List.cons.injEq, and_true] at h2
        subst h2
        refine ⟨ih.mpr ⟨b, x, a', h1, hx, fun p q hpq => hs p (q ++ [y]) (by simp [hpq])⟩, ?_⟩
        rintro rfl
        rw [h1]
        exact hs a' [] (by simp)
    generalize hst : es'.foldl (step cd path) (d, fs) = st at hmono hback ⊢
    cases y with
    | confirm c => exact ⟨fun _ => ⟨es', _, [], rfl, rfl, by intro a b h; cases a <;> cases h⟩, fun _ => rfl⟩
    | purge k c => exact ⟨fun _ => ⟨es', _, [], rfl, rfl, by intro a b h; cases a <;> cases h⟩, fun _ => rfl⟩
    | reload =>
      have : (step cd path st .reload).1.hasChange = st.1.hasChange := reload_keeps_dirty cd path st.2 st.1
      rw [this]
      exact ⟨hmono (by simp), fun h => (hback (by simp [isEdit]) h).1⟩
    | save =>
      obtain ⟨-, h1, h2⟩ := save_result cd path st.2 st.1
      change (save cd path st.2 st.1).1.hasChange = true ↔ _
      constructor
      · intro h
        have hr : (save cd path st.2 st.1).2.2 = none := by
          by_cases hr : (save cd path st.2 st.1).2.2 = none
          · exact hr
          · rw [h1 hr] at h; cases h
        exact hmono (fun _ => hr) (h2 hr).2
      · intro h
        obtain ⟨ha, hb⟩ := hback (by simp [isEdit]) h
        rw [(h2 (hb rfl)).1, ha]

/-- An opened dictionary, a confirmation, a save that succeeds, and a purge: marked. -/
example (cd : Codec) (path : Str) (fs : FS) (d : UserDict) (hn : DictFile.new cd path fs = some d) (c : Candidate)
    (k : CompositeKey) : ([.confirm c, .save, .purge k c].foldl (step cd path) (d, fs)).1.hasChange = true :=
  (marked_iff cd path fs d hn _).mpr ⟨[.confirm c, .save], _, [], rfl, rfl, by intro a b h; cases a <;> cases h⟩

end Cskk.Props.DictSave
