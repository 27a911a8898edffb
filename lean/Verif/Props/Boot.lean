import Verif.Spec.Boot
import Verif.Props.CLife

/-!
# C89: from the files of a system to the machine
-/

namespace Cskk.Props.Boot

open Spec.Boot Spec.CLife Spec.Session Spec.CSession Spec.Machine
open Cskk.Boot Cskk.TomlText Cskk.CSession Cskk.Session Cskk.DictFile
open Cskk.Props.Machine (shipped names start fresh)
open Cskk.Props.CSession (Holds)
open Cskk.Spec.UserDict (WellFormed)
open Cskk.Props.UserDict (maps)
open Cskk.Props.TomlText (Shipped shipped_load shipped_rules form_files fileAt_text)
open Spec.Front (Gives)

theorem forms_read {fs : FS} {pl : Places} (h : Installed fs pl) :
    asciiFrom fs pl.ascii = some (Assets.env ⟨true⟩).asciiForm ∧ kanaFrom fs pl.kana = some (Assets.env ⟨true⟩).kanaForm := by
  obtain ⟨hk, ha⟩ := form_files
  obtain ⟨p, h1, h2⟩ := h.ascii
  obtain ⟨q, h3, h4⟩ := h.kana
  constructor
  · rw [h1]
    show (fileAt fs p).bind asciiForm = _
    rw [fileAt_text h2]
    obtain ⟨f, hf, he⟩ := Option.map_eq_some_iff.mp ha
    rw [hf]
    obtain ⟨z⟩ := f
    simp only at he
    subst he
    rfl
  · rw [h3]
    show (fileAt fs q).bind kanaForm = _
    rw [fileAt_text h4]
    obtain ⟨f, hf, he⟩ := Option.map_eq_some_iff.mp hk
    rw [hf]
    obtain ⟨k, j⟩ := f
    simp only [Prod.mk.injEq] at he
    obtain ⟨rfl, rfl⟩ := he
    rfl

/-- **C89.** With the files of the package in place, a program starts iff its dictionaries can be opened, and then in exactly one way: with the commands,
conversions and forms of which all other properties speak. -/
theorem program_starts (pr : Bool) (fs : FS) (pl : Places) (ss : List Source) (h : Installed fs pl) (azik : Bool) (g : Config) (m : InputMode) (e : Env) (c : Ctx) :
    Starts pr fs pl ss azik g m e c ↔ e = Assets.env ⟨pr⟩ ∧ ∃ ds, openAll fs ss = some ds ∧ c = fresh azik g m ds := by
  obtain ⟨d, hd, hs⟩ := h.rules
  obtain ⟨ha, hk⟩ := forms_read h
  have hn : ∀ ds, newProgram ⟨pr⟩ Assets.xkb Assets.keysymName fs pl m .direct ds =
      some (Assets.env ⟨pr⟩, Ctx.new Assets.defaultCommands Assets.defaultKana m .direct ds) := by
    intro ds
    unfold newProgram
    rw [hd, (shipped_rules fs d hs m .direct ds (Ctx.new Assets.defaultCommands Assets.defaultKana m .direct ds)).1, ha, hk]
    rfl
  have hr : ∀ c₀ : Ctx, RuleLoad.setRule (filesOf Assets.xkb fs) pl.rules c₀ (if azik then c%"azik" else c%"default") =
      ({ c₀ with cmds := Machine.commandsOf azik, kanaConv := Machine.kanaOf azik }, true) := by
    intro c₀
    rw [hd]
    obtain ⟨_, h1, h2, _⟩ := shipped_rules fs d hs m .direct [] c₀
    cases azik
    · exact h2
    · exact h1
  constructor
  · rintro ⟨ds, c₀, c₁, h1, h2, h3, rfl⟩
    rw [hn] at h2
    cases h2
    rw [hr] at h3
    cases h3
    exact ⟨rfl, ds, h1, rfl⟩
  · rintro ⟨rfl, ds, h1, rfl⟩
    exact ⟨ds, _, _, h1, hn ds, hr _, rfl⟩

/-- A file which is no user dictionary, nor the backup of one, stays as it is, whatever a program does. -/
theorem others_stay (e : Env) (fs : FS) (ss : List Source) (c : Ctx) (ho : openAll fs ss = some c.dicts) (s : CState) (l : List (Nat × Str)) (t : List (Call × Val))
    (hu : Spec.CSession.Uses e ss ⟨c, fs, ⟨1, []⟩⟩ [] t s l) (p : Str) (hp : ∀ s ∈ ss, s.wanted = .user → p ≠ s.path ∧ p ≠ bak s.path) : s.fs p = fs p := by
  have hfits : Fits ss c.dicts := (Session.openAll_inStep ho).fits
  refine Session.other_files_untouched e ss _ c s.ctx fs s.fs hfits ?_ (CSession.session_refines hu) p hp
  intro ds hm
  obtain ⟨⟨call, v⟩, -, hm⟩ := List.mem_flatMap.mp hm
  cases call with
  | keys text =>
    simp only [acts] at hm
    split at hm
    · obtain ⟨ev, -, h⟩ := List.mem_map.mp hm; cases h
    · cases hm
  | setRule name files dir =>
    simp only [acts] at hm
    split at hm
    · simp only [List.mem_singleton] at hm; cases hm
    · cases hm
  | key _ _ _ => simp only [acts, List.mem_singleton] at hm; cases hm
  | poll => simp only [acts, List.mem_singleton] at hm; cases hm
  | selectAt _ => simp only [acts, List.mem_singleton] at hm; cases hm
  | confirmAt _ => simp only [acts, List.mem_singleton] at hm; cases hm
  | setInputMode _ => simp only [acts, List.mem_singleton] at hm; cases hm
  | setKeywords _ => simp only [acts, List.mem_singleton] at hm; cases hm
  | setPeriod _ => simp only [acts, List.mem_singleton] at hm; cases hm
  | setComma _ => simp only [acts, List.mem_singleton] at hm; cases hm
  | reset => simp only [acts, List.mem_singleton] at hm; cases hm
  | save os => simp only [acts, List.mem_singleton] at hm; cases hm
  | _ => cases hm

/-- **C89.** The files of the package stay as they are, whatever a program does and however its saves fail. -/
theorem files_stay (e : Env) (fs : FS) (pl : Places) (ss : List Source) (h : Installed fs pl) (hsafe : Safe ss pl) (c : Ctx) (ho : openAll fs ss = some c.dicts)
    (s : CState) (l : List (Nat × Str)) (t : List (Call × Val)) (hu : Spec.CSession.Uses e ss ⟨c, fs, ⟨1, []⟩⟩ [] t s l) : Installed s.fs pl := by
  have hsame : ∀ p ∈ paths pl, s.fs p = fs p := fun p hp => others_stay e fs ss c ho s l t hu p (hsafe p hp)
  obtain ⟨d, hd, hs⟩ := h.rules
  obtain ⟨p, h1, h2⟩ := h.ascii
  obtain ⟨q, h3, h4⟩ := h.kana
  have mem : ∀ x ∈ [RuleLoad.push d c%"metadata.toml", RuleLoad.push (RuleLoad.push d c%"default") c%"rule.toml",
      RuleLoad.push (RuleLoad.push d c%"azik") c%"rule.toml", p, q], x ∈ paths pl := by
    intro x hx
    unfold paths
    rw [hd, h1, h3]
    simpa using hx
  refine ⟨⟨d, hd, ⟨?_, ?_, ?_⟩⟩, ⟨p, h1, ?_⟩, ⟨q, h3, ?_⟩⟩
  · rw [hsame _ (mem _ (by simp))]; exact hs.metadata
  · rw [hsame _ (mem _ (by simp))]; exact hs.default
  · rw [hsame _ (mem _ (by simp))]; exact hs.azik
  · rw [hsame _ (mem _ (by simp))]; exact h2
  · rw [hsame _ (mem _ (by simp))]; exact h4

/-- Programs which start from files are the programs of C82. -/
theorem runs_known {pr : Bool} {pl : Places} {ss : List Source} (hsafe : Safe ss pl) {fs fs' : FS} {ps : List Program} (hr : Spec.Boot.Runs pr pl ss fs ps fs')
    (h : Installed fs pl) : Spec.CLife.Runs pr ss fs ps fs' ∧ Installed fs' pl := by
  induction hr with
  | done fs => exact ⟨.done fs, h⟩
  | @program fs e c x s l ps fs' hs hu _ ih =>
    obtain ⟨rfl, ds, ho, rfl⟩ := (program_starts pr fs pl ss h _ _ _ e c).mp hs
    obtain ⟨h1, h2⟩ := ih (files_stay _ fs pl ss h hsafe (fresh x.azik x.config x.mode ds) ho s l _ hu)
    exact ⟨.program ho hu h1, h2⟩

/-- **C89.** A life with programs which start from nothing but the files of the system: the package's and the dictionaries. One program after the other opens the
dictionaries, makes a context, chooses a rule, and makes any calls, keeping the rules of the header; it saves whenever it likes and ends whenever it likes. Then
the next program can start, and any call which the machine knows succeeds and returns what the machine says, which has no files, no rules to read and no C, and
begins with the words it remembers. -/
theorem life_from_files (pr : Bool) (pl : Places) (ss : List Source) (fs fs' : FS) (hi : Installed fs pl) (hsafe : Safe ss pl) (ds ds' : List CskkDict)
    (ho : openAll fs ss = some ds) (hw : ∀ d ∈ ds, WellFormed (maps d)) (ha : Apart ss) (hsa : StaticApart ss) (ht : ∀ s ∈ ss, Persist.Total s.cd)
    (ps : List Program) (hr : Spec.Boot.Runs pr pl ss fs ps fs') (hm : Remembers pr ds ps ds') :
    ∀ (azik : Bool) (g : Config) (m : InputMode), ∃ e c, Starts pr fs' pl ss azik g m e c ∧ Spec.SameWords.AllSame ds' c.dicts ∧
      ∀ (t : List (Call × Val)) (s : CState) (l : List (Nat × Str)) (Z Z' : Seat) (cl : Call) (r : Spec.Front.Reply),
        Spec.CSession.Uses e ss ⟨c, fs', ⟨1, []⟩⟩ [] t s l → Spec.CLife.Follows pr (start azik g m ds') (t.map (·.1)) Z → Allowed l cl → Spec.CLife.Says pr Z cl Z' r →
        ∃ s' v, CSession.step e ss s cl = .ok (s', v) ∧ Gives s'.heap r v ∧ Holds s'.heap (ledger e s.ctx l cl v) := by
  obtain ⟨h1, h2⟩ := runs_known hsafe hr hi
  obtain ⟨dsE, k1, k2, k3⟩ := CLife.c_life pr ss fs fs' ds ds' ho hw ha hsa ht ps h1 hm
  intro azik g m
  refine ⟨_, _, (program_starts pr fs' pl ss h2 azik g m _ _).mpr ⟨rfl, dsE, k1, rfl⟩, k2, ?_⟩
  intro t s l Z Z' cl r hu hf hl hsay
  exact k3 azik g m t s l Z Z' cl r hu hf hl hsay

/-- **C89.** Also later the rule may be changed by its name: the call of `skk_context_set_rule` is what the machine takes for a change of its rule. -/
theorem rule_changed (fs : FS) (pl : Places) (h : Installed fs pl) (azik : Bool) (name : Bytes)
    (hn : cstr name = some (if azik then c%"azik" else c%"default")) :
    ∃ d, pl.rules = some d ∧ Spec.Front.Wants (.setRule name (filesOf Assets.xkb fs) (some d)) (.setRule azik) := by
  obtain ⟨d, hd, hs⟩ := h.rules
  obtain ⟨h1, h2, _⟩ := shipped_load hs
  refine ⟨d, hd, ?_⟩
  cases azik
  · exact .rule false name _ d _ _ hn h1 rfl rfl
  · exact .rule true name _ d _ _ hn h2 rfl rfl

/-! ## The hypotheses are met -/

/-- Where the files of the sample are. -/
def places : Places := ⟨some c%"/r", some c%"/a.toml", some c%"/k.toml"⟩

/-- A system: the package, and the dictionaries of the sample of C65. -/
def disk : FS := fun p =>
  if p = c%"/r/metadata.toml" then some (Cskk.Utf8.encode Assets.metadataFile)
  else if p = c%"/r/default/rule.toml" then some (Cskk.Utf8.encode Assets.defaultFile)
  else if p = c%"/r/azik/rule.toml" then some (Cskk.Utf8.encode Assets.azikFile)
  else if p = c%"/a.toml" then some (Cskk.Utf8.encode Assets.asciiFormFile)
  else if p = c%"/k.toml" then some (Cskk.Utf8.encode Assets.kanaFormFile)
  else Session.files p

theorem disk_installed : Installed disk places := by
  have e1 : RuleLoad.push c%"/r" c%"metadata.toml" = c%"/r/metadata.toml" := by decide +kernel
  have e2 : RuleLoad.push (RuleLoad.push c%"/r" c%"default") c%"rule.toml" = c%"/r/default/rule.toml" := by decide +kernel
  have e3 : RuleLoad.push (RuleLoad.push c%"/r" c%"azik") c%"rule.toml" = c%"/r/azik/rule.toml" := by decide +kernel
  refine ⟨⟨_, rfl, ⟨?_, ?_, ?_⟩⟩, ⟨_, rfl, ?_⟩, ⟨_, rfl, ?_⟩⟩
  · rw [e1]; unfold disk; rw [if_pos rfl]
  · rw [e2]; unfold disk; rw [if_neg (by decide +kernel), if_pos rfl]
  · rw [e3]; unfold disk; rw [if_neg (by decide +kernel), if_neg (by decide +kernel), if_pos rfl]
  · unfold disk
    rw [if_neg (by decide +kernel), if_neg (by decide +kernel), if_neg (by decide +kernel), if_pos rfl]
  · unfold disk
    rw [if_neg (by decide +kernel), if_neg (by decide +kernel), if_neg (by decide +kernel), if_neg (by decide +kernel), if_pos rfl]

theorem disk_safe : Safe Session.sources places := by
  have e : paths places = [c%"/r/metadata.toml", c%"/r/default/rule.toml", c%"/r/azik/rule.toml", c%"/a.toml", c%"/k.toml"] := by decide +kernel
  have h : ((paths places).all fun p => Session.sources.all fun s => decide (p ≠ s.path) && decide (p ≠ bak s.path)) = true := by rw [e]; decide +kernel
  intro p hp s hs _
  have := List.all_eq_true.mp (List.all_eq_true.mp h p hp) s hs
  simpa using this

/-- The first program of the sample of C82 on this system, and a second one which asks for the word. -/
def onDisk : Option (FS × List (Call × Val)) := do
  let (s, _, t) ← CSession.play (Assets.env ⟨true⟩) Session.sources ⟨fresh false Config.default .hiragana (← openAll disk Session.sources), disk, ⟨1, []⟩⟩ [] CLife.whole
  return (s.fs, t)

theorem onDisk_runs : onDisk.isSome = true ∧ openAll disk Session.sources = some Session.openedDicts := by
  constructor <;> decide +kernel

theorem sample_remembers {fs : FS} {s1 : CState} {l1 : List (Nat × Str)} {t1 : List (Call × Val)}
    (p1 : CSession.play (Assets.env ⟨true⟩) Session.sources ⟨fresh false Config.default .hiragana Session.openedDicts, fs, ⟨1, []⟩⟩ [] CLife.whole = some (s1, l1, t1)) :
    Remembers true Session.openedDicts [⟨false, Config.default, .hiragana, t1⟩] CLife.kept := by
  have m1 : ((start false Config.default .hiragana Session.openedDicts).use (shipped true) (Machine.names true) CLife.first).map (fun r => r.1.desk.dicts) = some CLife.kept := by
    decide +kernel
  have m1' : ((start false Config.default .hiragana Session.openedDicts).use (shipped true) (Machine.names true) (CLife.first ++ CLife.firstAfter)).isSome = true := by
    decide +kernel
  obtain ⟨⟨Z1, g1⟩, u1, u2⟩ := Option.map_eq_some_iff.mp m1
  obtain ⟨r1, v1⟩ := Option.isSome_iff_exists.mp m1'
  obtain ⟨Z1', _, _, w1, w2, -⟩ := Life.use_append CLife.first CLife.firstAfter v1
  rw [u1] at w1
  injection w1 with w1
  injection w1 with w1 _
  subst w1
  dsimp only at u2
  have hq : ∀ l : List Spec.Machine.Act, ∀ cl ∈ CLife.calls l, Saveless cl := by
    intro l cl hc os he
    obtain ⟨x, -, hx⟩ := List.mem_map.mp hc
    rw [he] at hx
    cases x <;> cases hx
  refine .saved (before := CLife.calls CLife.first) (after := CLife.calls CLife.firstAfter) (Z := Z1) (Front.play_calls _ p1)
    (CLife.use_follows CLife.first (CLife.wants (by decide +kernel)) u1) ?_
    (hq CLife.firstAfter) (CLife.use_follows CLife.firstAfter (CLife.wants (by decide +kernel)) w2) ?_
  · rw [u2]; exact Life.shelf_writable Life.known_plain.1
  · rw [u2]; exact .done _

theorem sample_good : (∀ d ∈ Session.openedDicts, WellFormed (maps d)) ∧ ∀ s ∈ Session.sources, Persist.Total s.cd := by
  have hod : Session.openedDicts = [⟨true, .user ⟨[], []⟩ false⟩, ⟨true, .static Session.learnt⟩, ⟨false, .empty⟩] := by decide +kernel
  constructor
  · intro d hd
    rw [hod] at hd
    simp only [List.mem_cons, List.not_mem_nil, or_false] at hd
    rcases hd with rfl | rfl | rfl
    · exact Life.empty_plain.wf
    · exact Session.learnt_plain.wf
    · exact Life.empty_plain.wf
  · intro s hm
    have : s = Session.userFile c%"d" ∨ s = ⟨c%"jisyo", Utf8.utf8, true, .static⟩ ∨ s = ⟨[], Utf8.utf8, true, .empty⟩ := by simpa [Session.sources] using hm
    rcases this with rfl | rfl | rfl <;> exact Persist.total_utf8

/-- **The theorem applied.** From the files alone: the first program registers ブック for ほん, saves, and is ended while something else is typed. The next program can
start, and knows the word: whatever it has been used for, as long as the machine follows, the machine's answers are what its calls return. -/
theorem starts_and_remembers : ∃ ps fs', ps.length = 1 ∧ Spec.Boot.Runs true places Session.sources disk ps fs' ∧
    Remembers true Session.openedDicts ps CLife.kept ∧
    ∃ e c, Starts true fs' places Session.sources true Config.default .hiragana e c ∧ Spec.SameWords.AllSame CLife.kept c.dicts := by
  obtain ⟨h1, hopen⟩ := onDisk_runs
  obtain ⟨r, hrun⟩ := Option.isSome_iff_exists.mp h1
  unfold onDisk at hrun
  simp only [Option.bind_eq_bind, Option.bind_eq_some_iff] at hrun
  obtain ⟨d1, o1, ⟨s1, l1, t1⟩, p1, -⟩ := hrun
  rw [hopen] at o1
  injection o1 with o1
  subst o1
  have hr : Spec.Boot.Runs true places Session.sources disk [⟨false, Config.default, .hiragana, t1⟩] s1.fs :=
    .program ((program_starts true disk places Session.sources disk_installed _ _ _ _ _).mpr ⟨rfl, _, hopen, rfl⟩) (CSession.play_uses _ _ _ _ _ _ _ _ p1) (.done _)
  have hm := sample_remembers p1
  have hall := life_from_files true places Session.sources disk s1.fs disk_installed disk_safe Session.openedDicts CLife.kept hopen
    sample_good.1 Session.sources_apart.1 Session.sources_apart.2 sample_good.2 _ hr hm
  obtain ⟨e, c, k1, k2, -⟩ := hall true Config.default .hiragana
  exact ⟨_, _, rfl, hr, hm, e, c, k1, k2⟩

end Cskk.Props.Boot
