import Verif.Spec.FormFile
import Verif.Props.Boot
import Verif.Props.RuleList
import Verif.Props.Forms

/-!
# C90: a form file means what its text says
-/

namespace Cskk.Props.FormFile

open Cskk.Boot Cskk.TomlText Cskk.Spec.TomlText Cskk.Spec.FormFile Cskk.Props.TomlText
open Cskk.Props.Forms (Greedy formOf)

theorem listField_of {d : Doc} (hd : Lawful d) {name : Str} {l : List Str} (h : HasArray d name l) : listField d name = some l := by
  unfold listField
  rcases h with h | ⟨rfl, h⟩
  · cases hf : d.root.find? (fun e => decide (e.1 = name)) with
    | none =>
      have := List.find?_eq_none.mp hf _ h
      simp at this
    | some e =>
      have h1 := List.mem_of_find?_eq_some hf
      have h2 := List.find?_some hf
      simp only [decide_eq_true_eq] at h2
      obtain ⟨a, v⟩ := e
      simp only at h2
      subst h2
      have := RuleFile.nodup_unique hd.root h1 h
      subst this
      rfl
  · rw [List.find?_eq_none.mpr fun e he => by simpa using h e he]

theorem tableField_of {d : Doc} (hd : Lawful d) {name : Str} {ps : List (Str × Str)} (h : HasTable d name ps) :
    tableField d name = some ps ∧ (ps.map (·.1)).Nodup := by
  unfold tableField
  rcases h with h | ⟨rfl, h⟩
  · refine ⟨?_, by simpa [List.map_map, Function.comp_def] using hd.keys _ h⟩
    cases hf : d.tables.find? (fun t => decide (t.1 = [name])) with
    | none =>
      have := List.find?_eq_none.mp hf _ h
      simp at this
    | some e =>
      have h1 := List.mem_of_find?_eq_some hf
      have h2 := List.find?_some hf
      simp only [decide_eq_true_eq] at h2
      obtain ⟨a, v⟩ := e
      simp only at h2
      subst h2
      have := RuleFile.nodup_unique hd.tables h1 h
      subst this
      exact (RuleList.texts_iff _ _).mpr rfl
  · rw [List.find?_eq_none.mpr fun e he => by simpa using h e he]
    exact ⟨rfl, List.nodup_nil⟩

/-- **C90.** The file of the ASCII forms: every character is written as the two arrays in the text of the file say, and a text character by character. -/
theorem ascii_file (read : Str → Option Bytes) (p s : Str) (d : Doc) (hr : read p = some (Cskk.Utf8.encode s)) (hd : IsDocument s d) (ht : d.tables = [])
    (h z : List Str) (hh : HasArray d c%"hankaku" h) (hz : HasArray d c%"zenkaku" z) :
    ∃ f, asciiFrom read (some p) = some f ∧ (∀ c, Written h z c (f.adjustChar c)) ∧ ∀ t, f.adjustString t = t.flatMap f.adjustChar := by
  refine ⟨AsciiFormChanger.fromLists h z, ?_, fun c => ?_, Forms.ascii_string_charwise _⟩
  · show (fileAt read p).bind asciiForm = _
    rw [fileAt_text hr, (document_iff s d).mpr hd]
    show asciiForm d = _
    unfold asciiForm
    rw [if_pos ht, listField_of hd.1 hh, listField_of hd.1 hz]
    rfl
  · rcases Forms.ascii_char_form h z c with ⟨h1, h2⟩ | ⟨h1, h2⟩
    · exact .inl ⟨h1.symm, h2⟩
    · exact .inr ⟨h1.imp (fun h => h ∘ Eq.symm) id, h2⟩

/-- **C90.** The file of the kana forms: a text is rewritten from left to right, always the longest sequence which is a key of the table in the text of the file; the
table `[katakana]` for katakana, `[jisx0201]` for half-width katakana; a key has one text. -/
theorem kana_file (read : Str → Option Bytes) (p s : Str) (d : Doc) (hr : read p = some (Cskk.Utf8.encode s)) (hd : IsDocument s d) (hroot : d.root = [])
    (hone : ∀ t ∈ d.tables, t.1.length = 1) (k j : List (Str × Str)) (hk : HasTable d c%"katakana" k) (hj : HasTable d c%"jisx0201" j) :
    ∃ f gk gj, kanaFrom read (some p) = some f ∧ (∀ a b, gk a = some b ↔ (a, b) ∈ k) ∧ (∀ a b, gj a = some b ↔ (a, b) ∈ j) ∧
      ∀ t out, (f.adjust .katakana t = out ↔ Greedy gk t out) ∧ (f.adjust .hankakuKatakana t = out ↔ Greedy gj t out) ∧
        f.adjust .hiragana t = t := by
  obtain ⟨k1, k2⟩ := tableField_of hd.1 hk
  obtain ⟨j1, j2⟩ := tableField_of hd.1 hj
  refine ⟨⟨k, j⟩, assocGet k, assocGet j, ?_, RuleList.assocGet_mem k2, RuleList.assocGet_mem j2, fun t out => ?_⟩
  · show (fileAt read p).bind kanaForm = _
    rw [fileAt_text hr, (document_iff s d).mpr hd]
    show kanaForm d = _
    unfold kanaForm
    rw [if_pos ⟨hroot, List.all_eq_true.mpr fun t ht => by simpa using hone t ht⟩, k1, j1]
    rfl
  · obtain ⟨h1, h2, h3, _⟩ := Forms.kana_form_greedy ⟨k, j⟩ t out
    exact ⟨h1, h2, h3⟩

/-- **C90.** Without the files nothing is rewritten. -/
theorem no_files (read : Str → Option Bytes) :
    (∃ f, asciiFrom read none = some f ∧ ∀ t, f.adjustString t = t) ∧ ∃ f, kanaFrom read none = some f ∧ ∀ m t, f.adjust m t = t := by
  have hdoc : document [] = some ⟨[], []⟩ := by decide +kernel
  have keep : ∀ t : Str, Greedy (assocGet []) t t := by
    intro t
    induction t with
    | nil => exact .nil
    | cons c t ih => exact .keep c t t (fun _ _ _ _ => rfl) ih
  constructor
  · refine ⟨AsciiFormChanger.fromLists [] [], ?_, fun t => ?_⟩
    · show (document []).bind asciiForm = _
      rw [hdoc]; rfl
    · rw [Forms.ascii_string_charwise]
      induction t with
      | nil => rfl
      | cons c t ih => rw [List.flatMap_cons, ih]; rfl
  · refine ⟨⟨[], []⟩, ?_, fun m t => ?_⟩
    · show (document []).bind kanaForm = _
      rw [hdoc]; rfl
    · obtain ⟨h1, h2, h3, h4, h5⟩ := Forms.kana_form_greedy ⟨[], []⟩ t t
      cases m
      · exact h3
      · exact h1.mpr (keep t)
      · exact h2.mpr (keep t)
      · exact h4
      · exact h5

/-- **C90.** `new_with_empty_fallback` gives a context whatever there is of rules, if the files of the forms are missing or are as above. -/
theorem fallback_starts (p : Profile) (x : Xkb) (names : Keysym → Str) (read : Str → Option Bytes) (pl : Places) (im : InputMode) (cm : CompositionMode)
    (ds : List CskkDict)
    (ha : ∀ q, pl.ascii = some q → ∃ s d h z, read q = some (Cskk.Utf8.encode s) ∧ IsDocument s d ∧ d.tables = [] ∧ HasArray d c%"hankaku" h ∧ HasArray d c%"zenkaku" z)
    (hk : ∀ q, pl.kana = some q → ∃ s d k j, read q = some (Cskk.Utf8.encode s) ∧ IsDocument s d ∧ d.root = [] ∧ (∀ t ∈ d.tables, t.1.length = 1) ∧
      HasTable d c%"katakana" k ∧ HasTable d c%"jisx0201" j) :
    ∃ e c, newFallback p x names read pl im cm ds = some (e, c) ∧ c.top.inputMode = im ∧ c.top.mode = cm ∧ c.dicts = ds ∧
      ((∃ c', RuleLoad.newContext (filesOf x read) pl.rules im cm ds = some c' ∧ c = c') ∨
        (RuleLoad.newContext (filesOf x read) pl.rules im cm ds = none ∧ c = Ctx.new CommandRule.newEmpty KanaBuilder.newEmpty im cm ds)) := by
  have h1 : ∃ f, asciiFrom read pl.ascii = some f := by
    cases h : pl.ascii with
    | none => obtain ⟨⟨f, hf, _⟩, _⟩ := no_files read; exact ⟨f, hf⟩
    | some q =>
      obtain ⟨s, d, a, z, hr, hd, ht, hh, hz⟩ := ha q h
      obtain ⟨f, hf, _⟩ := ascii_file read q s d hr hd ht a z hh hz
      exact ⟨f, hf⟩
  have h2 : ∃ f, kanaFrom read pl.kana = some f := by
    cases h : pl.kana with
    | none => obtain ⟨_, f, hf, _⟩ := no_files read; exact ⟨f, hf⟩
    | some q =>
      obtain ⟨s, d, k, j, hr, hd, ht, ho, hh, hz⟩ := hk q h
      obtain ⟨f, _, _, hf, _⟩ := kana_file read q s d hr hd ht ho k j hh hz
      exact ⟨f, hf⟩
  obtain ⟨a, h1⟩ := h1
  obtain ⟨k, h2⟩ := h2
  unfold newFallback
  rw [h1, h2]
  unfold RuleLoad.newWithFallback
  cases hn : RuleLoad.newContext (filesOf x read) pl.rules im cm ds with
  | none => exact ⟨_, _, rfl, rfl, rfl, rfl, .inr ⟨rfl, rfl⟩⟩
  | some c =>
    unfold RuleLoad.newContext at hn
    obtain ⟨r, -, hc⟩ := Option.bind_eq_some_iff.mp hn
    cases hc
    exact ⟨_, _, rfl, rfl, rfl, rfl, .inl ⟨_, rfl, rfl⟩⟩

/-- **C90, the boundary.** A file of forms which is found but cannot be read, or whose array is a text, makes every constructor panic, the fallback too. -/
theorem broken_forms (p : Profile) (x : Xkb) (names : Keysym → Str) (read : Str → Option Bytes) (pl : Places) (im : InputMode) (cm : CompositionMode)
    (ds : List CskkDict) (q : Str) (hq : pl.ascii = some q)
    (hb : read q = none ∨ ∃ s d v, read q = some (Cskk.Utf8.encode s) ∧ IsDocument s d ∧ (c%"hankaku", Value.text v) ∈ d.root) :
    newFallback p x names read pl im cm ds = none ∧ newProgram p x names read pl im cm ds = none := by
  have h : asciiFrom read pl.ascii = none := by
    rw [hq]
    show (fileAt read q).bind asciiForm = none
    rcases hb with hb | ⟨s, d, v, hr, hd, hv⟩
    · unfold fileAt
      rw [hb]; rfl
    · rw [fileAt_text hr, (document_iff s d).mpr hd]
      show asciiForm d = none
      unfold asciiForm
      split
      · have : listField d c%"hankaku" = none := by
          unfold listField
          cases hf : d.root.find? (fun e => decide (e.1 = c%"hankaku")) with
          | none =>
            have := List.find?_eq_none.mp hf _ hv
            simp at this
          | some e =>
            have h1 := List.mem_of_find?_eq_some hf
            have h2 := List.find?_some hf
            simp only [decide_eq_true_eq] at h2
            obtain ⟨a, w⟩ := e
            simp only at h2
            subst h2
            have := RuleFile.nodup_unique hd.1.root h1 hv
            subst this
            rfl
        rw [this]; rfl
      · rfl
  constructor
  · unfold newFallback
    rw [h]
    cases kanaFrom read pl.kana <;> rfl
  · unfold newProgram
    rw [h]
    cases RuleLoad.newContext (filesOf x read) pl.rules im cm ds with
    | none => rfl
    | some c => cases kanaFrom read pl.kana <;> rfl

/-- The hypotheses are met, by a file with arrays which are not equally long (nothing is converted) and by one with a character twice (the last counts). -/
theorem forms_seen :
    (document c%"hankaku = [\"a\", \"b\"]\nzenkaku = [\"ａ\"]\n" = some ⟨[(c%"hankaku", .list [c%"a", c%"b"]), (c%"zenkaku", .list [c%"ａ"])], []⟩) ∧
    (document c%"hankaku = [\"a\", \"a\"]\nzenkaku = [\"ａ\", \"あ\"]\n" = some ⟨[(c%"hankaku", .list [c%"a", c%"a"]), (c%"zenkaku", .list [c%"ａ", c%"あ"])], []⟩) ∧
    (asciiFrom (fun _ => some (Cskk.Utf8.encode c%"hankaku = [\"a\", \"b\"]\nzenkaku = [\"ａ\"]\n")) (some c%"f")).map (·.adjustString c%"ab") = some c%"ab" ∧
    (asciiFrom (fun _ => some (Cskk.Utf8.encode c%"hankaku = [\"a\", \"a\"]\nzenkaku = [\"ａ\", \"あ\"]\n")) (some c%"f")).map (·.adjustString c%"ab") = some c%"あb" ∧
    (kanaFrom (fun _ => some (Cskk.Utf8.encode c%"[katakana]\n\"う\" = \"ウ\"\n\"う゛\" = \"ヴ\"\n")) (some c%"f")).map (fun f => (f.adjust .katakana c%"う゛うか", f.adjust .hankakuKatakana c%"う")) =
      some (c%"ヴウか", c%"う") := by decide +kernel

end Cskk.Props.FormFile
