import Verif.Model.RuleLoad
import Verif.Props.Ascii
import Verif.Props.Typing

/-!
# C52: finding and loading rules
-/

namespace Cskk.Spec

/-- The directories in which data files are looked for, in order: the user's own one, which is `$XDG_DATA_HOME`, or
`$HOME/.local/share` if this is not set; then those of `$XDG_DATA_DIRS`. -/
def dataDirectories (home dataHome : Option Str) (dirs : List Str) : List Str :=
  (match dataHome, home with
    | some d, _ => [d]
    | none, some h => [h ++ c%"/.local/share"]
    | none, none => []) ++ dirs

/-- `dirs` are the parts of `s` between the colons. -/
def ColonList (dirs : List Str) (s : Str) : Prop := s = List.intercalate [':'] dirs ∧ dirs ≠ [] ∧ ∀ d ∈ dirs, ':' ∉ d

/-- What a character types without any rule: full stops and commas become Japanese ones in kana modes, everything else is itself. -/
def plainText (e : Env) (c : Ctx) (ch : Char) : Str :=
  match c.top.inputMode with
  | .ascii => [ch]
  | .zenkaku => e.asciiForm.adjustChar ch
  | im =>
    match Typing.punctuation c.config.period c.config.comma ch with
    | some w => e.kanaForm.adjust im w
    | none => [ch]

end Cskk.Spec

namespace Cskk.Props.RuleLoad
open Spec Cskk.RuleLoad Typing KanaBuilder

/-! ## Searching -/

theorem split_colon (dirs : List Str) (s : Str) (h : ColonList dirs s) : splitOn ':' s = dirs := by
  obtain ⟨rfl, hne, hd⟩ := h
  have key : ∀ (d : Str), ':' ∉ d → ∀ t, splitOn ':' (d ++ ':' :: t) = d :: splitOn ':' t := by
    intro d
    induction d with
    | nil => intro _ t; simp [splitOn]
    | cons x d ih =>
      intro hn t
      have hx : x ≠ ':' := fun h => hn (by simp [h])
      rw [List.cons_append, splitOn, ih (fun h => hn (by simp [h]))]
      simp [hx]
  have last : ∀ (d : Str), ':' ∉ d → splitOn ':' d = [d] := by
    intro d
    induction d with
    | nil => intro _; rfl
    | cons x d ih =>
      intro hn
      have hx : x ≠ ':' := fun h => hn (by simp [h])
      rw [splitOn, ih (fun h => hn (by simp [h]))]
      simp [hx]
  induction dirs with
  | nil => exact absurd rfl hne
  | cons d dirs ih =>
    cases dirs with
    | nil => simpa [List.intercalate] using last d (hd d (by simp))
    | cons d' dirs =>
      have := ih (by simp) fun x hx => hd x (by simp [hx])
      have he : List.intercalate [':'] (d :: d' :: dirs) = d ++ ':' :: List.intercalate [':'] (d' :: dirs) := by
        simp [List.intercalate, List.intersperse]
      rw [he, key d (hd d (by simp)), this]

theorem firstIn_iff (exist : Str → Bool) (file : Str) (dirs : List Str) (p : Str) :
    firstIn exist file dirs = some p ↔ ∃ before d after, dirs = before ++ d :: after ∧ p = d ++ '/' :: file ∧ exist p = true ∧
      ∀ d' ∈ before, exist (d' ++ '/' :: file) = false := by
  induction dirs with
  | nil => simp [firstIn]
  | cons d dirs ih =>
    rw [firstIn]
    by_cases h : exist (d ++ '/' :: file) = true
    · rw [if_pos h]
      constructor
      · rintro ⟨⟩; exact ⟨[], d, dirs, rfl, rfl, h, by simp⟩
      · rintro ⟨before, d', after, he, rfl, hx, hb⟩
        cases before with
        | nil => cases he; rfl
        | cons b before =>
          cases he
          have := hb d (by simp)
          rw [h] at this; cases this
    · rw [if_neg h, ih]
      have hf : exist (d ++ '/' :: file) = false := by simpa using h
      constructor
      · rintro ⟨before, d', after, rfl, hp, hx, hb⟩
        exact ⟨d :: before, d', after, rfl, hp, hx, by simpa [hf] using hb⟩
      · rintro ⟨before, d', after, he, hp, hx, hb⟩
        cases before with
        | nil => cases he; rw [hp] at hx; rw [hx] at hf; cases hf
        | cons b before => cases he; exact ⟨before, d', after, rfl, hp, hx, fun x hx => hb x (by simp [hx])⟩

theorem search_eq (exist : Str → Bool) (file : Str) (home dataHome dataDirs : Option Str) (dirs : List Str)
    (hd : ColonList dirs (dataDirs.getD c%"/usr/local/share/:/usr/share/")) :
    searchPath exist file home dataHome dataDirs = firstIn exist file (dataDirectories home dataHome dirs) := by
  unfold searchPath dataDirectories
  rw [split_colon dirs _ hd]
  cases dataHome with
  | some d =>
    simp only [List.cons_append, List.nil_append, firstIn]
    by_cases h : exist (d ++ '/' :: file) = true <;> simp [h]
  | none =>
    cases home with
    | none => rfl
    | some h =>
      have he : h ++ c%"/.local/share" ++ '/' :: file = h ++ c%"/.local/share/" ++ file := by simp
      simp only [List.cons_append, List.nil_append, firstIn]
      rw [he]
      by_cases hx : exist (h ++ c%"/.local/share/" ++ file) = true
      · simp only [hx, if_true]
      · simp only [hx, Bool.false_eq_true, if_false]

/-- C52: a data file is found iff some data directory has it, and it is the one in the first such directory. -/
theorem found_is_first (exist : Str → Bool) (file : Str) (home dataHome dataDirs : Option Str) (dirs : List Str)
    (hd : ColonList dirs (dataDirs.getD c%"/usr/local/share/:/usr/share/")) (p : Str) :
    searchPath exist file home dataHome dataDirs = some p ↔
      ∃ before d after, dataDirectories home dataHome dirs = before ++ d :: after ∧ p = d ++ '/' :: file ∧ exist p = true ∧
        ∀ d' ∈ before, exist (d' ++ '/' :: file) = false := by
  rw [search_eq exist file home dataHome dataDirs dirs hd]; exact firstIn_iff ..

/-- C52: … and it is not found iff no data directory has it. -/
theorem not_found_iff (exist : Str → Bool) (file : Str) (home dataHome dataDirs : Option Str) (dirs : List Str)
    (hd : ColonList dirs (dataDirs.getD c%"/usr/local/share/:/usr/share/")) :
    searchPath exist file home dataHome dataDirs = none ↔
      ∀ d ∈ dataDirectories home dataHome dirs, exist (d ++ '/' :: file) = false := by
  rw [search_eq exist file home dataHome dataDirs dirs hd]
  generalize dataDirectories home dataHome dirs = l
  induction l with
  | nil => simp [firstIn]
  | cons d l ih =>
    rw [firstIn]
    cases h : exist (d ++ '/' :: file) <;> simp [h, ih]

/-- C52, exception: a variable which is set to the empty text should count as not set (XDG Base Directory Specification);
here it makes the root directory the user's data directory, and `$HOME/.local/share` is not looked at. -/
theorem empty_variable_hides_home (exist : Str → Bool) (file home : Str) (hr : exist ('/' :: file) = false)
    (hd : exist (c%"/usr/local/share//" ++ file) = false) (hu : exist (c%"/usr/share//" ++ file) = false) :
    searchPath exist file (some home) (some []) none = none := by
  rw [not_found_iff _ _ _ _ _ [c%"/usr/local/share/", c%"/usr/share/"] ⟨by decide, by simp, by decide⟩]
  intro d hd'
  simp only [dataDirectories, List.cons_append, List.nil_append, List.mem_cons, List.not_mem_nil, or_false] at hd'
  rcases hd' with rfl | rfl | rfl
  · exact hr
  · simpa using hd
  · simpa using hu

/-! ## Switching rules -/

/-- C52: switching the rule succeeds iff the metadata of the rules directory list the identifier and its rule file can be loaded; then
the context has that rule, and its levels, dictionaries and settings are as before. -/
theorem set_rule_ok (f : Files) (dir : Str) (c : Ctx) (id : Str) :
    (setRule f (some dir) c id).2 = true ↔
      ∃ rules path r, f.metadata dir = some rules ∧ (rules.find? fun x => decide (x.1 = id)) = some (id, path) ∧
        f.rule (push (push dir path) c%"rule.toml") = some r ∧
        (setRule f (some dir) c id).1 = { c with cmds := r.cmds, kanaConv := r.kana } := by
  unfold setRule loadRule
  simp only [Option.bind_some]
  cases hm : f.metadata dir with
  | none => simp
  | some rules =>
    simp only [Option.bind_eq_bind, Option.bind_some]
    cases hf : rules.find? fun x => decide (x.1 = id) with
    | none => simp [hf]
    | some x =>
      have hx : x.1 = id := by simpa using List.find?_some hf
      obtain ⟨y, path⟩ := x
      cases hx
      simp only [Option.map_some, Option.bind_some]
      cases hr : f.rule (push (push dir path) c%"rule.toml") with
      | none => simp [hf, hr]
      | some r => simp [hf, hr]

/-- C52: if switching the rule fails, nothing of the context changes: the old rule stays in force. -/
theorem set_rule_failed (f : Files) (dir : Option Str) (c : Ctx) (id : Str) (h : (setRule f dir c id).2 = false) :
    (setRule f dir c id).1 = c := by
  unfold setRule at h ⊢
  split
  · rename_i r hr; rw [hr] at h; cases h
  · rfl

/-- C52: rules are found inside the rules directory, unless their path is absolute. -/
theorem rule_path (dir path : Str) (hd : dir ≠ []) (hs : dir.getLast? ≠ some '/') (hp : path ≠ []) (ha : path.head? ≠ some '/')
    (hl : path.getLast? ≠ some '/') : push (push dir path) c%"rule.toml" = dir ++ '/' :: path ++ c%"/rule.toml" := by
  have h1 : push dir path = dir ++ '/' :: path := by
    unfold push
    rw [if_neg ha, if_neg (by simp [hd, hs])]
  rw [h1]
  unfold push
  have h2 : (dir ++ '/' :: path).getLast? ≠ some '/' := by
    rw [List.getLast?_append]
    cases path with
    | nil => exact absurd rfl hp
    | cons x path => 
      rw [List.getLast?_cons_cons]
      cases hq : (x :: path).getLast? with
      | none => simp at hq
      | some y => rw [hq] at hl; simpa using hl
  rw [if_neg (by decide), if_neg (by simp only [not_or]; exact ⟨by simp, h2⟩)]

/-! ## A context without rules -/

/-- C52: a context is always made; it has the default rule if this can be loaded, and otherwise no rule at all. -/
theorem fallback_context (f : Files) (dir : Option Str) (im : InputMode) (cm : CompositionMode) (ds : List CskkDict) :
    (∃ d r, dir = some d ∧ loadRule f d c%"default" = some r ∧ newContext f dir im cm ds = some (Ctx.new r.cmds r.kana im cm ds) ∧
      newWithFallback f dir im cm ds = Ctx.new r.cmds r.kana im cm ds) ∨
    ((∀ d, dir = some d → loadRule f d c%"default" = none) ∧ newContext f dir im cm ds = none ∧
      newWithFallback f dir im cm ds = Ctx.new (fun _ _ => []) (ofTable []) im cm ds) := by
  cases dir with
  | none => right; exact ⟨by simp, rfl, rfl⟩
  | some d =>
    cases h : loadRule f d c%"default" with
    | some r => left; exact ⟨d, r, rfl, h, by simp [newContext, h], by simp [newWithFallback, newContext, h]⟩
    | none => right; exact ⟨by simp [h], by simp [newContext, h], by simp [newWithFallback, newContext, h]; rfl⟩

theorem empty_tables (k : List Keysym) : completed [] k = none ∧ begins [] k = false ∧ flushed [] k = [] := by
  simp [completed, begins, valueOf, flushed, extendable]

/-- One key without a rule. -/
theorem bare_key (e : Env) (c : Ctx) (ev : KeyEvent) (ch : Char) (hk : c.kanaConv = ofTable []) (hc : c.cmds = fun _ _ => [])
    (hm : c.top.mode = .direct) (hp : 0x20 ≤ ch.toNat ∧ ch.toNat ≤ 0x7e) (hev : Key e ev ch) (hpre : c.top.pre = [])
    (hcap : c.top.capital = false) :
    c.processKeyEvent e ev = .ok (c.mapTop fun s => { s with confirmed := s.confirmed ++ plainText e c ch }, true) := by
  have hno : NoCommand c ev := by intro x hx; rw [hc] at hx; cases hx
  have hpr : Printable ev := by unfold Printable; rw [hev.symbol]; exact hp
  by_cases hi : c.top.inputMode = .ascii ∨ c.top.inputMode = .zenkaku
  · rw [Ascii.step_direct e c ev ch hm hi ⟨hpr, hev.modifier, hev.char, hno⟩]
    unfold plainText
    rcases hi with h | h <;> simp [h, Ctx.mapTop]
  · have hr : RomajiMode c := by
      unfold RomajiMode
      simp only [not_or] at hi
      refine ⟨Or.inl hm, ?_⟩
      revert hi
      cases c.top.inputMode <;> simp
    have h0 := empty_tables
    rw [plain_key e c [] ev ch hk hr hev (Or.inr hno)]
    have hplain : plainText e c ch = match Typing.punctuation c.config.period c.config.comma ch with
        | some w => e.kanaForm.adjust c.top.inputMode w
        | none => [ch] := by
      simp only [not_or] at hi
      unfold plainText
      split
      · rename_i h; exact absurd h hi.1
      · rename_i h; exact absurd h hi.2
      · rfl
    rw [hplain]
    have ha : KeyEvent.isAsciiInputtable ev = true := (WillProcess.printable_iff _).mpr hpr
    unfold Ctx.romInput
    simp only [hk, combineRaw, combineLower, nonPartial_eq, (h0 _).1, ite_self]
    have hch : ev.symbolChar e.xkb = some ch := hev.char
    simp only [hch]
    unfold Ctx.symbolInput
    simp only [punctuation_eq]
    cases h2 : punctuation c.config.period c.config.comma ch with
    | some w =>
      simp only [hm, flush_direct e c [] hk]
      simp [directly, hm, Ctx.appendConverted, Ctx.mapTop, State.push, State.pushFor, Ctx.finishSymbol, rendered,
        (h0 _).2.2, hpre, hcap]
    | none =>
      simp only [hk, continue_eq, combineRaw, combineLower, nonPartial_eq, continueLower_eq, List.nil_append, (h0 _).1, (h0 _).2.1,
        Bool.and_false, Bool.false_eq_true, if_false, ha, if_true, hm, flush_direct e c [] hk]
      simp [directly, hm, Ctx.mapTop, State.push, State.pushFor, Ctx.finishSymbol, rendered, (h0 _).2.2, hpre, hcap]

/-- C52: a context without rules is usable for plain text in every input mode: every text of printable ASCII characters is committed,
except that full stops and commas are Japanese ones in the kana modes. -/
theorem bare_context_types (e : Env) (l : List (KeyEvent × Char)) (c : Ctx) (hk : c.kanaConv = ofTable [])
    (hc : c.cmds = fun _ _ => []) (hm : c.top.mode = .direct) (hpre : c.top.pre = []) (hcap : c.top.capital = false)
    (hl : ∀ x ∈ l, (0x20 ≤ x.2.toNat ∧ x.2.toNat ≤ 0x7e) ∧ Key e x.1 x.2) :
    c.processKeyEvents e (l.map Prod.fst) =
      .ok (c.mapTop fun s => { s with confirmed := s.confirmed ++ (l.map Prod.snd).flatMap (plainText e c) }) := by
  induction l generalizing c with
  | nil => simp [Ctx.processKeyEvents, Ctx.mapTop]
  | cons x l ih =>
    have h1 := hl x (by simp)
    rw [List.map_cons, Ascii.pke_cons e c _ x.1 _ true (bare_key e c x.1 x.2 hk hc hm h1.1 h1.2 hpre hcap)]
    rw [ih (c.mapTop fun s => { s with confirmed := s.confirmed ++ plainText e c x.2 }) hk hc hm hpre hcap
      fun y hy => hl y (by simp [hy])]
    have : plainText e (c.mapTop fun s => { s with confirmed := s.confirmed ++ plainText e c x.2 }) = plainText e c := by
      funext ch; rfl
    rw [this]
    simp [Ctx.mapTop]

/-- The hypotheses are met: the fallback context types what is shown. -/
example : ((Ctx.new (fun _ _ => []) (ofTable []) .hiragana .direct []).processKeyEvents (Assets.env ⟨true⟩)
    (typed c%"Hi, ab.")).toOption.map (·.top.confirmed) = some c%"Hi、 ab。" := by decide +kernel

/-- A rules directory with the shipped metadata. -/
def shippedFiles : Files where
  metadata := fun d => if d = c%"/usr/share/libcskk/rules" then some [(c%"azik", c%"azik"), (c%"default", c%"default")] else none
  rule := fun p => if p = c%"/usr/share/libcskk/rules/azik/rule.toml" then some ⟨Assets.azikCommands, Assets.azikKana⟩
    else if p = c%"/usr/share/libcskk/rules/default/rule.toml" then some ⟨Assets.defaultCommands, Assets.defaultKana⟩ else none

example (c : Ctx) : (setRule shippedFiles (some c%"/usr/share/libcskk/rules") c c%"azik").2 = true ∧
    (setRule shippedFiles (some c%"/usr/share/libcskk/rules") c c%"nicola").2 = false ∧
    (setRule shippedFiles none c c%"azik").2 = false := ⟨rfl, rfl, rfl⟩

example : searchPath (fun p => decide (p = c%"/usr/share//libcskk/rule/kana_form.toml")) c%"libcskk/rule/kana_form.toml"
    (some c%"/home/u") none none = some c%"/usr/share//libcskk/rule/kana_form.toml" := by decide +kernel

example : ColonList [c%"/usr/local/share/", c%"/usr/share/"] c%"/usr/local/share/:/usr/share/" := by
  refine ⟨by decide, by simp, by decide⟩

end Cskk.Props.RuleLoad
