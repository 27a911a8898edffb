import Verif.Model.Context

/-!
# Finding and loading rules (`src/env.rs`, `src/rule.rs`, `src/lib.rs`)

The file system is a parameter: which paths exist, what the metadata file of a rules directory says, and what a rule file
says once parsed (the TOML parser and the conversion of its tables, C48, are outside of this file).
-/

namespace Cskk
namespace RuleLoad

/-- env.rs:43-47: the loop over the data directories. -/
def firstIn (exist : Str → Bool) (file : Str) : List Str → Option Str
  | [] => none
  | d :: ds => if exist (d ++ '/' :: file) then some (d ++ '/' :: file) else firstIn exist file ds

/-- env.rs:20-50 `search_path_from_xdg_data_dir`; an environment variable which is not set, or not Unicode, is `none`, and
so is the error. -/
def searchPath (exist : Str → Bool) (file : Str) (home dataHome dataDirs : Option Str) : Option Str :=
  let atHome :=
    match dataHome with
    | some d => if exist (d ++ '/' :: file) then some (d ++ '/' :: file) else none
    | none =>
      match home with
      | some h => if exist (h ++ c%"/.local/share/" ++ file) then some (h ++ c%"/.local/share/" ++ file) else none
      | none => none
  match atHome with
  | some p => some p
  | none => firstIn exist file (splitOn ':' (dataDirs.getD c%"/usr/local/share/:/usr/share/"))

/-- `PathBuf::push`: an absolute path replaces what was there, otherwise one separator is put between. -/
def push (base p : Str) : Str :=
  if p.head? = some '/' then p
  else if base = [] ∨ base.getLast? = some '/' then base ++ p
  else base ++ '/' :: p

/-- A rule after loading (rule.rs:9-14 `CskkRule`), as `KanaBuilder::new` and `ConfigurableCommandHandler::new` use it. -/
structure Rule where
  cmds : CommandRule
  kana : KanaBuilder

/-- Files: the metadata of a rules directory as pairs of identifier and path (rule.rs:16-28, 161-174; `none`: no such file or not
valid), and the rule in a file (rule.rs:125-131; likewise). -/
structure Files where
  metadata : Str → Option (List (Str × Str))
  rule : Str → Option Rule

/-- rule.rs:184-195 `load_rule` after rule.rs:161-174 `load_metadata_from_path`; `none` is the error. -/
def loadRule (f : Files) (dir id : Str) : Option Rule := do
  let rules ← f.metadata dir
  let path ← (rules.find? fun r => decide (r.1 = id)).map (·.2)
  f.rule (push (push dir path) c%"rule.toml")

/-- lib.rs:1462-1466 `set_rule`, 1470-1478 `set_rule_from_directory`, 1480-1486 `set_rule_inner`: `dir` is the rules directory, which
for `set_rule` the crate `xdg` looks for (`none`: not found). The flag is `true` for `Ok`. -/
def setRule (f : Files) (dir : Option Str) (c : Ctx) (id : Str) : Ctx × Bool :=
  match dir.bind fun d => loadRule f d id with
  | some r => ({ c with kanaConv := r.kana, cmds := r.cmds }, true)
  | none => (c, false)

/-- lib.rs:1489-1510 `new`; `none` is the error. -/
def newContext (f : Files) (dir : Option Str) (im : InputMode) (cm : CompositionMode) (ds : List CskkDict) : Option Ctx := do
  let r ← dir.bind fun d => loadRule f d c%"default"
  return Ctx.new r.cmds r.kana im cm ds

/-- lib.rs:1515-1525 `new_with_empty_fallback`, 1533-1553 `new_empty`. -/
def newWithFallback (f : Files) (dir : Option Str) (im : InputMode) (cm : CompositionMode) (ds : List CskkDict) : Ctx :=
  match newContext f dir im cm ds with
  | some c => c
  | none => Ctx.new CommandRule.newEmpty KanaBuilder.newEmpty im cm ds

end RuleLoad
end Cskk
