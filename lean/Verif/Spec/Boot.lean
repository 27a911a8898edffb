import Verif.Model.Boot
import Verif.Spec.CLife
import Verif.Props.TomlLines

/-!
# Programs which start from the files of a system
-/

namespace Cskk.Spec.Boot
open Cskk.Boot Cskk.TomlText Cskk.CSession Cskk.Session Cskk.DictFile
open Cskk.Spec.CLife (Program)

/-- The five files of the package are where they are looked for, as they are in /repo/assets. -/
structure Installed (fs : FS) (pl : Places) : Prop where
  rules : ∃ d, pl.rules = some d ∧ Props.TomlText.Shipped fs d
  ascii : ∃ p, pl.ascii = some p ∧ fs p = some (Cskk.Utf8.encode Assets.asciiFormFile)
  kana : ∃ p, pl.kana = some p ∧ fs p = some (Cskk.Utf8.encode Assets.kanaFormFile)

/-- The paths of these files. -/
def paths (pl : Places) : List Str :=
  (match pl.rules with
    | some d => [RuleLoad.push d c%"metadata.toml", RuleLoad.push (RuleLoad.push d c%"default") c%"rule.toml", RuleLoad.push (RuleLoad.push d c%"azik") c%"rule.toml"]
    | none => []) ++ pl.ascii.toList ++ pl.kana.toList

/-- No user dictionary is kept in one of these files, or has its backup there. -/
def Safe (ss : List Source) (pl : Places) : Prop := ∀ p ∈ paths pl, ∀ s ∈ ss, s.wanted = .user → p ≠ s.path ∧ p ≠ bak s.path

/-- A program starts: it opens the dictionaries, makes a context, chooses a rule by its name and sets the configuration. -/
def Starts (pr : Bool) (fs : FS) (pl : Places) (ss : List Source) (azik : Bool) (g : Config) (m : InputMode) (e : Env) (c : Ctx) : Prop :=
  ∃ ds c₀ c₁, openAll fs ss = some ds ∧ newProgram ⟨pr⟩ Assets.xkb Assets.keysymName fs pl m .direct ds = some (e, c₀) ∧
    RuleLoad.setRule (filesOf Assets.xkb fs) pl.rules c₀ (if azik then c%"azik" else c%"default") = (c₁, true) ∧ c = { c₁ with config := g }

/-- Programs run one after the other; each starts from the files the one before has left, and keeps the rules of the header. -/
inductive Runs (pr : Bool) (pl : Places) (ss : List Source) : FS → List Program → FS → Prop
  | done (fs) : Runs pr pl ss fs [] fs
  | program {fs e c x s l ps fs'} : Starts pr fs pl ss x.azik x.config x.mode e c →
      CSession.Uses e ss ⟨c, fs, ⟨1, []⟩⟩ [] x.calls s l → Runs pr pl ss s.fs ps fs' → Runs pr pl ss fs (x :: ps) fs'

end Cskk.Spec.Boot
