import Verif.Props.TomlRule
import Verif.Props.RuleFiles
import Verif.Model.TomlFiles
import Verif.Model.DefaultRule

/-!
# C86, third part: blank lines and comments, and the shipped files
-/

namespace Cskk.Props.TomlText

open Cskk.TomlText Cskk.Spec.TomlText

theorem run_line (a b : Str) (ts : List Tok) (q : At) :
    run ts q (a ++ '\n' :: b) =
      match run ts q a with
      | none => none
      | some us => run (.sign '\n' :: us.reverse) .out b := by
  induction a generalizing ts q with
  | nil =>
    cases q with
    | out => simp [run, step, start, finish, signs]
    | word w =>
      have h : bare '\n' = false := by decide
      simp [run, step, start, finish, signs, h]
    | text w =>
      have h : printable '\n' = false := by decide
      simp [run, step, finish, h]
    | esc w => simp [run, step, finish, escapes]
    | comment => simp [run, step, finish]
  | cons c a ih =>
    simp only [List.cons_append, run]
    cases step ts q c with
    | none => rfl
    | some r => exact ih r.1 r.2

/-- The symbols of a text are those of its lines. -/
theorem spelled_line (a b : Str) (ts : List Tok) :
    Spelled (a ++ '\n' :: b) ts ↔ ∃ t u, Spelled a t ∧ Spelled b u ∧ ts = t ++ .sign '\n' :: u := by
  rw [← lex_iff]
  unfold lex
  rw [run_line]
  constructor
  · intro h
    cases ha : run [] .out a with
    | none => rw [ha] at h; cases h
    | some t =>
      rw [ha] at h
      obtain ⟨u, hu, rfl⟩ := (run_iff _ _ _ _).mp h
      exact ⟨t, u, (lex_iff a t).mp ha, hu, by simp⟩
  · rintro ⟨t, u, ha, hb, rfl⟩
    rw [show run [] .out a = some t from (lex_iff a t).mpr ha]
    exact (run_iff _ _ _ _).mpr ⟨u, hb, by simp⟩

theorem parse_feeds (a b : List Tok) (is : List Item) (q : Pos) :
    parseFrom is q (a ++ .sign '\n' :: .sign '\n' :: b) = parseFrom is q (a ++ .sign '\n' :: b) := by
  induction a generalizing is q with
  | nil =>
    cases q <;> simp [parseFrom, next, keyOf]
  | cons t a ih =>
    simp only [List.cons_append, parseFrom]
    cases next is q t with
    | none => rfl
    | some r => exact ih r.1 r.2

/-- C86: a line with nothing on it but spaces and a comment can be put between any two lines, in an array as well, or taken out. -/
theorem blank_line (a c b : Str) (d : Doc) (hc : Spelled c []) :
    IsDocument (a ++ '\n' :: (c ++ '\n' :: b)) d ↔ IsDocument (a ++ '\n' :: b) d := by
  unfold IsDocument
  refine and_congr_right fun _ => ?_
  simp only [← parse_iff]
  constructor
  · rintro ⟨ts, hs, hp⟩
    obtain ⟨t, u, ha, hu, rfl⟩ := (spelled_line _ _ _).mp hs
    obtain ⟨v, w, hv, hw, rfl⟩ := (spelled_line _ _ _).mp hu
    have hvn : v = [] := by
      have h1 := (lex_iff c v).mpr hv
      rw [(lex_iff c []).mpr hc] at h1
      exact (Option.some.inj h1).symm
    subst hvn
    refine ⟨t ++ .sign '\n' :: w, (spelled_line _ _ _).mpr ⟨t, w, ha, hw, rfl⟩, ?_⟩
    unfold parse at hp ⊢
    rw [← parse_feeds]; exact hp
  · rintro ⟨ts, hs, hp⟩
    obtain ⟨t, u, ha, hu, rfl⟩ := (spelled_line _ _ _).mp hs
    refine ⟨t ++ .sign '\n' :: .sign '\n' :: u, (spelled_line _ _ _).mpr ⟨t, _, ha, (spelled_line _ _ _).mpr ⟨[], u, hc, hu, rfl⟩, rfl⟩, ?_⟩
    unfold parse at hp ⊢
    rw [parse_feeds]; exact hp

/-- The files which the model covers are exactly those of the form described. -/
theorem ruleFile_iff {d : Doc} (hd : Lawful d) : (∃ t, ruleOf d = some t) ↔ IsRuleFile d := by
  constructor
  · rintro ⟨t, h⟩
    unfold ruleOf at h
    split at h
    · rename_i hroot
      cases hc : conversion d with
      | none => rw [hc] at h; cases h
      | some conv =>
        rw [hc] at h
        cases hs : sections [] d.tables with
        | none => simp only [Option.bind_eq_bind, Option.bind_some, hs] at h; cases h
        | some ss =>
          have hss := (sections_isSome d.tables []).mp ⟨ss, hs⟩
          refine ⟨hroot, fun t ht => (hss t ht).1, ?_, fun t ht => (hss t ht).2⟩
          intro u hu he
          cases conv with
          | some conv =>
            obtain ⟨h1, h2⟩ := (conversion_some hd conv).mp hc
            refine ⟨h1 u hu he, ?_⟩
            obtain ⟨p, es⟩ := u
            have hp := h1 _ hu he
            simp only at hp
            subst hp
            have := RuleFile.nodup_unique hd.tables hu h2
            subst this
            intro e hm
            obtain ⟨e', _, rfl⟩ := List.mem_map.mp hm
            exact ⟨_, _, rfl⟩
          | none =>
            exfalso
            unfold conversion at hc
            split at hc
            · cases hc
            · rename_i hany
              cases hf : d.tables.find? (fun t => decide (t.1 = [c%"conversion"])) with
              | none =>
                have hn := List.find?_eq_none.mp hf u hu
                simp only [decide_eq_true_eq] at hn
                apply hany
                rw [List.any_eq_true]
                refine ⟨u, hu, ?_⟩
                simp only [decide_eq_true_eq]
                refine ⟨he, ?_⟩
                cases hp : u.1 with
                | nil => rw [hp] at he; cases he
                | cons x p =>
                  cases p with
                  | nil => rw [hp] at he hn; exact absurd (by simpa using he) hn
                  | cons y p => simp
              | some t =>
                rw [hf] at hc
                simp only [Option.map_eq_some_iff, reduceCtorEq, and_false, exists_false] at hc
    · cases h
  · intro h
    obtain ⟨t, ht, _⟩ := ruleOf_isSome hd h
    exact ⟨t, ht⟩

theorem lawful_of_document {s : Str} {d : Doc} (h : document s = some d) : Lawful d := ((document_iff s d).mp h).1

/-- A text which is a rule file has the form described. -/
theorem ruleFile_of_text {s : Str} {t : RuleText.Toml} (h : (document s).bind ruleOf = some t) :
    ∃ d, IsDocument s d ∧ IsRuleFile d ∧ ruleOf d = some t := by
  cases hd : document s with
  | none => rw [hd] at h; cases h
  | some d =>
    rw [hd] at h
    exact ⟨d, (document_iff s d).mp hd, (ruleFile_iff (lawful_of_document hd)).mp ⟨t, h⟩, h⟩

theorem toml_ext {o : Option RuleText.Toml} {t : RuleText.Toml}
    (h : o.map (fun t => (t.conversion, t.sections)) = some (t.conversion, t.sections)) : o = some t := by
  cases o with
  | none => cases h
  | some u =>
    obtain ⟨c, s⟩ := u
    obtain ⟨c', s'⟩ := t
    simp only [Option.map_some, Option.some.injEq, Prod.mk.injEq] at h
    rw [h.1, h.2]

set_option maxRecDepth 100000 in
set_option synthInstance.maxSize 10000 in
set_option synthInstance.maxHeartbeats 200000 in
/-- C86: the text of /repo/assets/rules/default/rule.toml. -/
theorem default_file : (document Assets.defaultFile).bind ruleOf = some Assets.defaultText :=
  toml_ext (by decide +kernel)

set_option maxRecDepth 100000 in
set_option synthInstance.maxSize 10000 in
set_option synthInstance.maxHeartbeats 200000 in
/-- C86: the text of /repo/assets/rules/azik/rule.toml. -/
theorem azik_file : (document Assets.azikFile).bind ruleOf = some Assets.azikText :=
  toml_ext (by decide +kernel)

set_option maxRecDepth 100000 in
/-- C86: the text of /repo/assets/rules/metadata.toml. -/
theorem metadata_file : (document Assets.metadataFile).bind metadataOf =
    some [(c%"default", c%"Default", c%"default rule", c%"default"), (c%"azik", c%"AZIK", c%"AZIKルール", c%"azik")] := by
  decide +kernel

set_option maxRecDepth 100000 in
/-- C86: the texts of /repo/assets/rule/kana_form.toml and ascii_form.toml give the tables of which the other properties speak. -/
theorem form_files :
    ((document Assets.kanaFormFile).bind kanaForm).map (fun f => (f.katakana, f.jisx0201)) = some (Assets.katakana, Assets.jisx0201) ∧
    ((document Assets.asciiFormFile).bind asciiForm).map (·.zenkakuMap) =
      some (AsciiFormChanger.fromLists Assets.hankaku Assets.zenkaku).zenkakuMap := by
  constructor <;> decide +kernel

/-- The three files of the shipped rules directory are at `dir`, as they are. -/
structure Shipped (read : Str → Option Bytes) (dir : Str) : Prop where
  metadata : read (RuleLoad.push dir c%"metadata.toml") = some (Cskk.Utf8.encode Assets.metadataFile)
  default : read (RuleLoad.push (RuleLoad.push dir c%"default") c%"rule.toml") = some (Cskk.Utf8.encode Assets.defaultFile)
  azik : read (RuleLoad.push (RuleLoad.push dir c%"azik") c%"rule.toml") = some (Cskk.Utf8.encode Assets.azikFile)

theorem shipped_load {read : Str → Option Bytes} {dir : Str} (h : Shipped read dir) :
    RuleLoad.loadRule (filesOf Assets.xkb read) dir c%"default" = some ⟨Assets.defaultCommands, Assets.defaultKana⟩ ∧
      RuleLoad.loadRule (filesOf Assets.xkb read) dir c%"azik" = some ⟨Assets.azikCommands, Assets.azikKana⟩ ∧
      ∀ id, id ≠ c%"default" → id ≠ c%"azik" → RuleLoad.loadRule (filesOf Assets.xkb read) dir id = none := by
  have hm : (filesOf Assets.xkb read).metadata dir = some [(c%"default", c%"default"), (c%"azik", c%"azik")] := by
    show (do
      let d ← fileAt read (RuleLoad.push dir c%"metadata.toml")
      let m ← metadataOf d
      return m.map fun (e : Str × Str × Str × Str) => (e.1, e.2.2.2)) = _
    rw [fileAt_text h.metadata]
    have := metadata_file
    cases hd : document Assets.metadataFile with
    | none => rw [hd] at this; cases this
    | some d =>
      rw [hd] at this
      simp only [Option.bind_some] at this
      simp only [Option.bind_eq_bind, Option.bind_some, this]
      rfl
  have hr : ∀ path s t r, read path = some (Cskk.Utf8.encode s) → (document s).bind ruleOf = some t → RuleText.load Assets.xkb t = .ok (some r) →
      (filesOf Assets.xkb read).rule path = some r := by
    intro path s t r h1 h2 h3
    show ruleAt Assets.xkb read path = some r
    unfold ruleAt
    rw [fileAt_text h1]
    cases hd : document s with
    | none => rw [hd] at h2; cases h2
    | some d =>
      rw [hd] at h2
      simp only [Option.bind_some] at h2
      simp only [Option.bind_eq_bind, Option.bind_some, h2, h3]
  unfold RuleLoad.loadRule
  rw [hm]
  refine ⟨?_, ?_, fun id h1 h2 => ?_⟩
  · exact hr _ _ _ _ h.default default_file RuleFiles.default_text
  · exact hr _ _ _ _ h.azik azik_file RuleFiles.azik_text
  · simp [Ne.symm h1, Ne.symm h2]

/-- **C86.** Where the shipped files are in place, a new context has the commands and conversions of which the other properties speak, `set_rule` with
"azik" puts those of AZIK into effect and with "default" the former ones again, and no other name is a rule. -/
theorem shipped_rules (read : Str → Option Bytes) (dir : Str) (h : Shipped read dir) (im : InputMode) (cm : CompositionMode) (ds : List CskkDict) (c : Ctx) :
    RuleLoad.newContext (filesOf Assets.xkb read) (some dir) im cm ds = some (Ctx.new Assets.defaultCommands Assets.defaultKana im cm ds) ∧
    RuleLoad.setRule (filesOf Assets.xkb read) (some dir) c c%"azik" = ({ c with cmds := Assets.azikCommands, kanaConv := Assets.azikKana }, true) ∧
    RuleLoad.setRule (filesOf Assets.xkb read) (some dir) c c%"default" =
      ({ c with cmds := Assets.defaultCommands, kanaConv := Assets.defaultKana }, true) ∧
    ∀ id, id ≠ c%"default" → id ≠ c%"azik" → RuleLoad.setRule (filesOf Assets.xkb read) (some dir) c id = (c, false) := by
  obtain ⟨h1, h2, h3⟩ := shipped_load h
  refine ⟨?_, ?_, ?_, fun id hd ha => ?_⟩
  · unfold RuleLoad.newContext
    simp only [Option.bind_eq_bind, Option.bind_some, h1]
    rfl
  · unfold RuleLoad.setRule; simp only [Option.bind_some, h2]
  · unfold RuleLoad.setRule; simp only [Option.bind_some, h1]
  · unfold RuleLoad.setRule; simp only [Option.bind_some, h3 id hd ha]

/-- The hypotheses of `text_accepted` and `text_in_effect` are met by the shipped files. -/
theorem shipped_seen : (∃ d, IsDocument Assets.defaultFile d ∧ IsRuleFile d ∧ ruleOf d = some Assets.defaultText) ∧
    ∃ d, IsDocument Assets.azikFile d ∧ IsRuleFile d ∧ ruleOf d = some Assets.azikText :=
  ⟨ruleFile_of_text default_file, ruleFile_of_text azik_file⟩

/-- The hypothesis of `shipped_rules` is met. -/
example : Shipped (fun p =>
    if p = c%"/usr/share/libcskk/rules/metadata.toml" then some (Cskk.Utf8.encode Assets.metadataFile)
    else if p = c%"/usr/share/libcskk/rules/default/rule.toml" then some (Cskk.Utf8.encode Assets.defaultFile)
    else if p = c%"/usr/share/libcskk/rules/azik/rule.toml" then some (Cskk.Utf8.encode Assets.azikFile) else none)
    c%"/usr/share/libcskk/rules" := by
  refine ⟨?_, ?_, ?_⟩
  · rw [if_pos (by decide +kernel)]
  · rw [if_neg (by decide +kernel), if_pos (by decide +kernel)]
  · rw [if_neg (by decide +kernel), if_neg (by decide +kernel), if_pos (by decide +kernel)]

/-- Spaces, quotes around keys, comments and the lines of an array make no difference. -/
example : document c%"[ conversion ] # kana\na=[\"\",\"あ\"]\n" = document c%"\n[\"conversion\"]\n\"a\" = [\n  \"\", # nothing is left\n  \"あ\",\n]" := by
  decide +kernel

example : document c%"[conversion]\na = [\"\", \"あ\"]" = some ⟨[], [([c%"conversion"], [(c%"a", .list [c%"", c%"あ"])])]⟩ := by decide +kernel

/-- Texts with an escape. -/
example : document c%"a = \"x\\\"\\\\\\n\"" = some ⟨[(c%"a", .text c%"x\"\\\n")], []⟩ := by decide +kernel

/-- What is not well-formed is not read: a table twice, a key twice, a missing quote, two entries on a line, an entry which is a table. -/
example : document c%"[a]\n[a]" = none ∧ document c%"[a]\nb = \"\"\n\"b\" = \"\"" = none ∧ document c%"a = \"x" = none ∧
    document c%"a = \"x\" b = \"y\"" = none ∧ document c%"[a]\nb = \"\"\n[a.b]" = none ∧ document c%"a = [\"x\" \"y\"]" = none := by decide +kernel

/-- A comment can be put between lines, in an array as well. -/
example (d : Doc) : IsDocument (c%"a = [\n" ++ c%"\"x\"]") d ↔ IsDocument (c%"a = [\n" ++ (c%"  # あ\n" ++ c%"\"x\"]")) d :=
  (blank_line c%"a = [" c%"  # あ" c%"\"x\"]" d ((lex_iff _ _).mp (by decide +kernel))).symm

end Cskk.Props.TomlText
