import Verif.Props.Persist

/-! # C29, C41, C15: where the lines of a dictionary file end up

The specification `Files` says which line of a file gives which entry to which half of the dictionary; a dictionary that
has been loaded consists of exactly the last of these entries for every reading and half. -/

namespace Cskk.Props.Filing

open Cskk.Spec Cskk.Spec.Persist Cskk.Spec.UserDict Cskk.DictFile Cskk.Props.UserDict Cskk.Props.DictSave DictEntry

/-- The line `l`, standing after the lines `before`, gives the entry `e` to the okuri-ari half (`o = true`) or to the
okuri-nashi half of the dictionary: it is not a comment, it can be read as `e`, and the half is okuri-ari exactly if the
line stands in the okuri-ari section and its reading ends, but does not begin, with a letter from a to z. -/
def Files (before : List (Option Str)) (l : Str) (o : Bool) (e : DictEntry) : Prop :=
  l.head? ≠ some ';' ∧ fromLine l = some e ∧ (o = true ↔ inOkuriAri before = true ∧ OkuriAriReading e.midashi)

theorem alphabet_iff (x : Char) : isAlphabet x = true ↔ 'a'.toNat ≤ x.toNat ∧ x.toNat ≤ 'z'.toNat := by
  unfold isAlphabet
  rw [Bool.and_eq_true, decide_eq_true_iff, decide_eq_true_iff]

theorem looks_okuri_iff (m : Str) : looksOkuriAri m = true ↔ OkuriAriReading m := by
  refine ⟨?_, Cskk.Props.Persist.looks_iff m⟩
  unfold looksOkuriAri OkuriAriReading
  intro h
  rw [Bool.and_eq_true] at h
  obtain ⟨h1, h2⟩ := h
  constructor
  · cases hl : m.getLast? with
    | none => rw [hl] at h2; cases h2
    | some x => rw [hl] at h2; exact ⟨x, rfl, (alphabet_iff x).mp h2⟩
  · intro x hx h3
    rw [hx] at h1
    have : isAlphabet x = true := (alphabet_iff x).mpr h3
    simp [this] at h1

/-- **C29.** A line that can be read is an okuri-ari line exactly if its reading ends, but does not begin, with one of
the letters a to z. -/
theorem okuri_ari_line {l : Str} {e : DictEntry} (h : fromLine l = some e) :
    e.hasOkuri = true ↔ OkuriAriReading e.midashi := by
  unfold fromLine at h
  cases he : DictParser.entry l with
  | none => rw [he] at h; cases h
  | some p =>
    rw [he] at h
    simp only [Option.some.injEq] at h
    subst h
    exact looks_okuri_iff _

theorem files_iff (before : List (Option Str)) (l : Str) (o : Bool) (e : DictEntry) :
    Files before l o e ↔ l.head? ≠ some ';' ∧ fromLine l = some e ∧ o = (inOkuriAri before && e.hasOkuri) := by
  unfold Files
  refine and_congr_right fun _ => and_congr_right fun he => ?_
  rw [← okuri_ari_line he, ← Bool.and_eq_true]
  generalize (inOkuriAri before && e.hasOkuri) = b
  cases o <;> cases b <;> simp

theorem loadLines_snoc (ls : List (Option Str)) (x : Option Str) (o : Bool) (m : Str) :
    (∀ l e, x = some l → Files ls l o e → e.midashi ≠ m) →
    (side (loadLines (ls ++ [x])) o).find m = (side (loadLines ls) o).find m := by
  intro h
  unfold loadLines
  rw [List.foldl_append, List.foldl_cons, List.foldl_nil]
  have hs := section_eq ls
  generalize hst : ls.foldl loadLine loadInit = st at hs
  match x with
  | none => rfl
  | some l =>
    simp only [loadLine]
    by_cases hc : l.head? = some ';'
    · rw [if_pos hc]
      split
      · rfl
      · split <;> rfl
    · rw [if_neg hc]
      cases he : fromLine l with
      | none => rfl
      | some e =>
        have hne : o = (inOkuriAri ls && e.hasOkuri) → m ≠ e.midashi := fun ho =>
          Ne.symm (h l e rfl ((files_iff ls l o e).mpr ⟨hc, he, ho⟩))
        rw [← hs] at hne
        simp only
        split
        · rename_i hb
          rw [hb] at hne
          cases o
          · rfl
          · simp [side, find_push, hne rfl]
        · rename_i hb
          rw [Bool.not_eq_true] at hb
          rw [hb] at hne
          cases o
          · simp [side, find_push, hne rfl]
          · rfl

theorem loadLines_files (ls : List (Option Str)) (l : Str) (o : Bool) (e : DictEntry) (h : Files ls l o e) :
    (side (loadLines (ls ++ [some l])) o).find e.midashi = some e := by
  obtain ⟨hc, he, ho⟩ := (files_iff ls l o e).mp h
  rw [ho]
  exact last_line_wins ls [] l e hc he (by simp)

/-- **C29, C41, C15.** A loaded dictionary has the entry `e` for the reading `m` in one of its halves exactly if `e` comes
from a line of the file that gives it to this half, and no later line gives an entry with the same reading to this half. -/
theorem loaded_exactly (ls : List (Option Str)) (o : Bool) (m : Str) (e : DictEntry) :
    (side (loadLines ls) o).find m = some e ↔
      ∃ before l after, ls = before ++ some l :: after ∧ Files before l o e ∧ e.midashi = m ∧
        ∀ between l' rest e', after = between ++ some l' :: rest →
          Files (before ++ some l :: between) l' o e' → e'.midashi ≠ m := by
  suffices H : ∀ n (ls : List (Option Str)), ls.length = n → ((side (loadLines ls) o).find m = some e ↔
      ∃ before l after, ls = before ++ some l :: after ∧ Files before l o e ∧ e.midashi = m ∧
        ∀ between l' rest e', after = between ++ some l' :: rest →
          Files (before ++ some l :: between) l' o e' → e'.midashi ≠ m) from H _ ls rfl
  intro n
  induction n with
  | zero =>
    intro ls hn
    have : ls = [] := List.length_eq_zero_iff.mp hn
    subst this
    constructor
    · intro h
      exfalso
      revert h
      cases o <;> simp [loadLines, loadInit, side, Recency.find]
    · rintro ⟨b, l, a, h, -⟩
      cases b <;> cases h
  | succ n ih =>
    intro ls hn
    obtain ⟨ls', x, rfl⟩ : ∃ ls' x, ls = ls' ++ [x] := by
      rcases List.eq_nil_or_concat ls with h | ⟨a, b, h⟩
      · rw [h] at hn; cases hn
      · exact ⟨a, b, by simpa using h⟩
    have hn' : ls'.length = n := by simpa using hn
    by_cases hx : ∃ l e', x = some l ∧ Files ls' l o e' ∧ e'.midashi = m
    · obtain ⟨l, e', rfl, hf, hm⟩ := hx
      have h1 := loadLines_files ls' l o e' hf
      rw [hm] at h1
      rw [h1]
      constructor
      · intro h
        cases h
        exact ⟨ls', l, [], rfl, hf, hm, fun bt l' rest e' h => by cases bt <;> cases h⟩
      · rintro ⟨b, l2, a, h, hf2, hm2, hlast⟩
        rcases List.eq_nil_or_concat a with ha | ⟨a', y, ha⟩
        · subst ha
          obtain ⟨hb, hl⟩ := List.append_inj' h rfl
          subst hb
          cases hl
          have := hf.2.1.symm.trans hf2.2.1
          exact this
        · exfalso
          have ha : a = a' ++ [y] := by simpa using ha
          subst ha
          rw [← List.cons_append, ← List.append_assoc] at h
          obtain ⟨hb, hl⟩ := List.append_inj' h rfl
          cases hl
          exact hlast a' l [] e' rfl (hb ▸ hf) hm
    · rw [loadLines_snoc ls' x o m (fun l e' h1 h2 h3 => hx ⟨l, e', h1, h2, h3⟩), ih ls' hn']
      constructor
      · rintro ⟨b, l, a, rfl, hf, hm, hlast⟩
        refine ⟨b, l, a ++ [x], by simp, hf, hm, ?_⟩
        intro bt l' rest e' h hf' hm'
        rcases List.eq_nil_or_concat rest with hr | ⟨r, y, hr⟩
        · subst hr
          obtain ⟨h1, h2⟩ := List.append_inj' h rfl
          cases h2
          exact hx ⟨l', e', rfl, h1 ▸ hf', hm'⟩
        · have hr : rest = r ++ [y] := by simpa using hr
          subst hr
          rw [← List.cons_append, ← List.append_assoc] at h
          obtain ⟨h1, h2⟩ := List.append_inj' h rfl
          exact hlast bt l' r e' h1 hf' hm'
      · rintro ⟨b, l, a, h, hf, hm, hlast⟩
        rcases List.eq_nil_or_concat a with ha | ⟨a', y, ha⟩
        · exfalso
          subst ha
          obtain ⟨h1, h2⟩ := List.append_inj' h rfl
          cases h2
          exact hx ⟨l, e, rfl, h1 ▸ hf, hm⟩
        · have ha : a = a' ++ [y] := by simpa using ha
          subst ha
          rw [← List.cons_append, ← List.append_assoc] at h
          obtain ⟨h1, h2⟩ := List.append_inj' h rfl
          refine ⟨b, l, a', h1, hf, hm, ?_⟩
          intro bt l' rest e' h3 hf' hm'
          exact hlast bt l' (rest ++ [y]) e' (by rw [h3]; simp) hf' hm'

/-- Readings made of letters (abbreviations) are okuri-nashi wherever they stand; `z` is a letter. -/
example : OkuriAriReading c%"いz" ∧ ¬ OkuriAriReading c%"abz" := by
  refine ⟨(looks_okuri_iff _).mp (by decide +kernel), fun h => ?_⟩
  have := (looks_okuri_iff _).mpr h
  revert this
  decide +kernel

/-- A file with both sections, a repeated reading, an abbreviation in the okuri-ari section, and an okuri-ari looking
reading in the okuri-nashi section (which is filed as okuri-nashi). -/
example : loadLines [some c%"いz /出/", some c%"cd /CD/", some c%";; okuri-nasi entries.", some c%"いz /入/"] =
    ⟨[(c%"いz", ⟨c%"いz", true, [([], [⟨c%"出", none⟩])]⟩)],
     [(c%"いz", ⟨c%"いz", true, [([], [⟨c%"入", none⟩])]⟩), (c%"cd", ⟨c%"cd", false, [([], [⟨c%"CD", none⟩])]⟩)]⟩ := by
  decide +kernel

end Cskk.Props.Filing
