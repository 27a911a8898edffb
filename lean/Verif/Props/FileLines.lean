import Verif.Props.Filing
import Verif.Props.DictGrammar

/-! # C15, C41, C61: a dictionary file as a sequence of lines -/

namespace Cskk.Props.FileLines

open Cskk.Spec Cskk.Spec.UserDict Cskk.DictFile Cskk.Props.Filing Cskk.Props.DictSave Cskk.Spec.DictGrammar

/-- The text consists of these lines: each is ended by a line break, or by a carriage return and a line break, which do
not belong to the line; behind the last line the line break may be missing (then a carriage return belongs to the line). -/
inductive HasLines : Str → List Str → Prop
  | empty : HasLines [] []
  | open (l : Str) : l ≠ [] → '\n' ∉ l → HasLines l [l]
  | lf (l t : Str) (ls : List Str) : '\n' ∉ l → l.getLast? ≠ some '\r' → HasLines t ls → HasLines (l ++ '\n' :: t) (l :: ls)
  | crlf (l t : Str) (ls : List Str) : '\n' ∉ l → HasLines t ls → HasLines (l ++ '\r' :: '\n' :: t) (l :: ls)

theorem linesAux_open (cur l : Str) (h : '\n' ∉ l) (hne : cur.reverse ++ l ≠ []) : linesAux cur l = [cur.reverse ++ l] := by
  induction l generalizing cur with
  | nil => cases cur with
    | nil => simp at hne
    | cons c cur => simp [linesAux]
  | cons c l ih =>
    rw [linesAux_char _ _ _ (by intro e; subst e; simp at h), ih _ (fun hm => h (by simp [hm])) (by simp)]
    simp

theorem linesAux_nl' (cur l s : Str) (h : '\n' ∉ l) :
    linesAux cur (l ++ '\n' :: s) = linesAux.stripCr (l.reverse ++ cur) :: linesAux [] s := by
  induction l generalizing cur with
  | nil => rw [List.nil_append, linesAux_newline]; rfl
  | cons c l ih =>
    rw [List.cons_append, linesAux_char _ _ _ (by intro e; subst e; simp at h), ih _ (fun hm => h (by simp [hm]))]
    simp

theorem lines_of {s : Str} {ls : List Str} (h : HasLines s ls) : lines s = ls := by
  induction h with
  | empty => simp [lines, linesAux]
  | «open» l hne h => simpa [lines] using linesAux_open [] l h (by simpa using hne)
  | lf l t ls h hr _ ih => rw [lines_cons l t h hr, ih]
  | crlf l t ls h _ ih =>
    have := linesAux_nl' [] (l ++ ['\r']) t (by simp [h])
    rw [← ih]
    simpa [lines, linesAux.stripCr] using this

theorem has_lines (s : Str) : HasLines s (lines s) := by
  suffices H : ∀ n (s : Str), s.length ≤ n → HasLines s (lines s) from H _ s (Nat.le_refl _)
  intro n
  induction n with
  | zero => intro s hs; cases s with
    | nil => simpa [lines, linesAux] using HasLines.empty
    | cons => simp at hs
  | succ n ih =>
    intro s hs
    by_cases hm : '\n' ∈ s
    · obtain ⟨l, t, rfl, hl⟩ := List.eq_append_cons_of_mem hm
      have ht := ih t (by simp at hs; omega)
      by_cases hr : l.getLast? = some '\r'
      · obtain ⟨l', rfl⟩ : ∃ l', l = l' ++ ['\r'] := by
          rw [List.getLast?_eq_some_iff] at hr; exact hr
        have := HasLines.crlf l' t _ (by simp at hl; exact hl) ht
        rw [lines_of (by simpa using this)]
        simpa using this
      · have := HasLines.lf l t _ hl hr ht
        rw [lines_of this]
        exact this
    · by_cases hne : s = []
      · subst hne; simpa [lines, linesAux] using HasLines.empty
      · have := HasLines.open s hne hm
        rw [lines_of this]
        exact this

/-- **C61.** Every text is read as exactly one sequence of lines. -/
theorem lines_iff (s : Str) (ls : List Str) : HasLines s ls ↔ lines s = ls :=
  ⟨lines_of, fun h => h ▸ has_lines s⟩

/-- **C15, C29, C41, C61.** Loading a dictionary file: when its decoded text has the lines `ls`, the dictionary has the entry
`e` for the reading `m` in one of its halves exactly if `e` comes from a line that gives it to this half, and no later line
gives an entry with the same reading to this half. -/
theorem file_exactly (cd : Codec) (contents : Bytes) (ls : List Str) (hl : HasLines (cd.dec contents) ls) (o : Bool) (m : Str)
    (e : DictEntry) :
    (side (load cd contents) o).find m = some e ↔
      ∃ before l after, ls = before ++ l :: after ∧ Files (before.map some) l o e ∧ e.midashi = m ∧
        ∀ between l' rest e', after = between ++ l' :: rest →
          Files ((before ++ l :: between).map some) l' o e' → e'.midashi ≠ m := by
  unfold load
  rw [lines_of hl, loaded_exactly]
  constructor
  · rintro ⟨b, l, a, h, hf, hm, hn⟩
    obtain ⟨b', r, rfl, rfl, hr⟩ := List.map_eq_append_iff.mp h
    obtain ⟨l', a', rfl, hl', rfl⟩ := List.map_eq_cons_iff.mp hr
    cases hl'
    refine ⟨b', l, a', rfl, hf, hm, ?_⟩
    rintro bt l' rest e' rfl hf'
    exact hn (bt.map some) l' (rest.map some) e' (by simp) (by simpa using hf')
  · rintro ⟨b, l, a, rfl, hf, hm, hn⟩
    refine ⟨b.map some, l, a.map some, by simp, hf, hm, ?_⟩
    intro bt l' rest e' h hf'
    obtain ⟨b', r, rfl, rfl, hr⟩ := List.map_eq_append_iff.mp h
    obtain ⟨l'', a', rfl, hl', rfl⟩ := List.map_eq_cons_iff.mp hr
    cases hl'
    exact hn b' l' a' e' rfl (by simpa using hf')

/-- A text without an opening parenthesis contains no expression to evaluate. -/
theorem process_plain {t : Str} (h : '(' ∉ t) : LispFun.process t = t := by
  have hm : LispFun.concatMatches 0 t = [] := by
    induction t with
    | nil => rfl
    | cons c t ih =>
      have hc : c ≠ '(' := by rintro rfl; exact h (by simp)
      have hn : LispFun.concatMatchLen (c :: t) = none := by
        unfold LispFun.concatMatchLen
        rw [if_neg]
        simp only [List.isPrefixOf_iff_prefix, List.cons_prefix_cons]
        rintro ⟨e, _⟩
        exact hc e.symm
      rw [LispFun.concatMatches, hn]
      exact ih fun h' => h (by simp [h'])
  unfold LispFun.process
  rw [hm]
  rfl

/-- **C61.** A line in the documented format, anywhere in the file and also as its unfinished last line, is found with its words
in the half of its section, unless a later line has the same reading in the same half. -/
theorem documented_line_found (cd : Codec) (contents : Bytes) (before after : List Str) (reading : Str) (n : Nat)
    (items : List Item) (hl : HasLines (cd.dec contents) (before ++ lineText reading (n + 1) items :: after))
    (hr : reading ≠ []) (hs : ' ' ∉ reading) (hp0 : '(' ∉ reading) (hc : reading.head? ≠ some ';') (hne : items ≠ [])
    (hp : ∀ i ∈ items, i.Proper) (hk : NoKanaBeforeGroup items) (o : Bool)
    (ho : o = true ↔ inOkuriAri (before.map some) = true ∧ Persist.OkuriAriReading reading)
    (hlast : ∀ between l' rest e', after = between ++ l' :: rest →
      Files ((before ++ lineText reading (n + 1) items :: between).map some) l' o e' → e'.midashi ≠ reading) :
    ∃ e, (side (load cd contents) o).find reading = some e ∧ e.midashi = reading ∧
      ∀ g, (SMap.get e.cands g).getD [] = (items.flatMap (Item.wordsFor g)).map DictEntry.candFromProto := by
  obtain ⟨e, he, hm, -, hw⟩ := DictGrammar.line_read reading hr hs n items hne hp hk
  rw [process_plain hp0] at hm
  refine ⟨e, (file_exactly cd contents _ hl o reading e).mpr ⟨before, _, after, rfl, ⟨?_, he, hm ▸ ho⟩, hm, hlast⟩, hm, ?_⟩
  · unfold lineText
    cases reading with
    | nil => exact absurd rfl hr
    | cons c r => simpa using hc
  · intro g
    rw [hw g]
    split
    · rename_i h; rw [h]; rfl
    · rfl

/-! ## Examples -/

/-- A file with both sections, a Windows line end, a comment, a line that is no entry, and no line break at its end. -/
def sampleText : Str :=
  c%";; okuri-ari entries.\nおおk /大/\r\n;; okuri-nasi entries.\nbroken\nかな /仮名/"

def sampleLines : List Str :=
  [c%";; okuri-ari entries.", c%"おおk /大/", c%";; okuri-nasi entries.", c%"broken", c%"かな /仮名/"]

theorem sample_lines : HasLines sampleText sampleLines := (lines_iff _ _).mpr (by decide +kernel)

/-- The hypotheses of `documented_line_found` are met by the unfinished last line. -/
example (cd : Codec) (contents : Bytes) (h : cd.dec contents = sampleText) :
    ∃ e, (side (load cd contents) false).find c%"かな" = some e ∧ e.midashi = c%"かな" ∧
      ∀ g, (SMap.get e.cands g).getD [] = ([Item.word ⟨c%"仮名", none⟩].flatMap (Item.wordsFor g)).map DictEntry.candFromProto :=
  documented_line_found cd contents (sampleLines.take 4) [] c%"かな" 0 [.word ⟨c%"仮名", none⟩]
    (h ▸ sample_lines) (by decide) (by decide) (by decide) (by decide) (by simp)
    (by intro i hi; simp at hi; subst hi; exact ⟨by decide, by simp⟩)
    (by
      intro c o cs h
      have := h.length_le
      simp at this)
    false
    (by
      have : inOkuriAri (List.map some (sampleLines.take 4)) = false := by decide +kernel
      rw [this]; simp)
    (by intro b l r e h; cases b <;> cases h)

/-- The line with the Windows line end is in the other half. -/
example (cd : Codec) (contents : Bytes) (h : cd.dec contents = sampleText) :
    ((side (load cd contents) true).find c%"おおk").map (·.cands) = some [([], [⟨c%"大", none⟩].map DictEntry.candFromProto)] := by
  unfold load
  rw [h]
  decide +kernel

end Cskk.Props.FileLines
