import Verif.Model.Xdg
import Verif.Spec.Boot
import Verif.Props.RuleLoad

/-!
# The directories of data files (XDG Base Directory Specification)
-/

namespace Cskk.Spec.Xdg
open Cskk.Xdg (Vars)
open Cskk.Boot Cskk.CSession Cskk.Session Cskk.DictFile
open Cskk.Spec.Boot (Starts)
open Cskk.Spec.CLife (Program)

/-- A path from the root. -/
def Absolute (d : Str) : Prop := ∃ t, d = '/' :: t

/-- The user's directory: `$XDG_DATA_HOME` if it is a path from the root, otherwise `.local/share` at home. -/
def UserDir (v : Vars) (h : Str) : Prop :=
  (v.dataHome = some h ∧ Absolute h) ∨
  ((∀ d, v.dataHome = some d → ¬ Absolute d) ∧ ∃ u, v.userHome = some u ∧ Absolute u ∧ h = u ++ c%"/.local/share")

/-- The directories of the system: the paths from the root among the entries of `$XDG_DATA_DIRS`; if there is none, the usual two. -/
def SystemDirs (v : Vars) (ds : List Str) : Prop :=
  (∃ s es, v.dataDirs = some s ∧ Spec.ColonList es s ∧ ds = es.filter (fun d => decide (d.head? = some '/')) ∧ ds ≠ []) ∨
  ((∀ s es, v.dataDirs = some s → Spec.ColonList es s → ∀ d ∈ es, ¬ Absolute d) ∧ ds = [c%"/usr/local/share", c%"/usr/share"])

/-- All directories, in the order in which they are looked at. -/
def Dirs (v : Vars) (l : List Str) : Prop := v.userHome ≠ none ∧ ∃ h ds, UserDir v h ∧ SystemDirs v ds ∧ l = h :: ds

/-- A text without repeated slashes: two paths which differ only in them are the same place. -/
def squeeze : Str → Str
  | [] => []
  | [c] => [c]
  | c :: d :: s => if c = '/' ∧ d = '/' then squeeze (d :: s) else c :: squeeze (d :: s)

def SamePath (p q : Str) : Prop := squeeze p = squeeze q

/-- The variables are as the specification wants them: `$HOME` is the home directory, the others are not set, or hold paths from the root. -/
structure Proper (v : Vars) : Prop where
  home : ∃ u, v.userHome = some u ∧ v.home = some u ∧ Absolute u
  dataHome : ∀ d, v.dataHome = some d → Absolute d
  dataDirs : ∀ s, v.dataDirs = some s → ∃ es, Spec.ColonList es s ∧ ∀ d ∈ es, Absolute d

/-- A system of files as operating systems have them: repeated slashes do not matter, and what holds a file exists. -/
structure Tidy (dirs : Str → Bool) (fs : FS) : Prop where
  same : ∀ p q, SamePath p q → dirs p = dirs q ∧ fs p = fs q
  parent : ∀ p q, p ≠ [] → fs (p ++ '/' :: q) ≠ none → Cskk.Xdg.exists_ dirs fs p = true

/-- The package is in the directory `d`, as it is in /repo/assets. -/
structure PackageIn (fs : FS) (d : Str) : Prop where
  metadata : fs (d ++ c%"/libcskk/rules/metadata.toml") = some (Cskk.Utf8.encode Assets.metadataFile)
  default : fs (d ++ c%"/libcskk/rules/default/rule.toml") = some (Cskk.Utf8.encode Assets.defaultFile)
  azik : fs (d ++ c%"/libcskk/rules/azik/rule.toml") = some (Cskk.Utf8.encode Assets.azikFile)
  ascii : fs (d ++ c%"/libcskk/rule/ascii_form.toml") = some (Cskk.Utf8.encode Assets.asciiFormFile)
  kana : fs (d ++ c%"/libcskk/rule/kana_form.toml") = some (Cskk.Utf8.encode Assets.kanaFormFile)

/-- The directory `d` has nothing of what is looked for. -/
def NothingIn (dirs : Str → Bool) (fs : FS) (d : Str) : Prop :=
  Cskk.Xdg.exists_ dirs fs (d ++ c%"/libcskk/rules") = false ∧ Cskk.Xdg.exists_ dirs fs (d ++ c%"/libcskk/rule/ascii_form.toml") = false ∧
    Cskk.Xdg.exists_ dirs fs (d ++ c%"/libcskk/rule/kana_form.toml") = false

/-- No user dictionary has a path which ends like something of the package. -/
def Apart (ss : List Source) : Prop :=
  ∀ s ∈ ss, s.wanted = .user → ∀ f ∈ [c%"libcskk/rules", c%"libcskk/rule/ascii_form.toml", c%"libcskk/rule/kana_form.toml", c%"metadata.toml", c%"rule.toml"],
    ¬ f <:+ s.path

/-- Programs run one after the other; each looks for its files when it starts, in the environment `v`. -/
inductive Runs (pr : Bool) (dirs : Str → Bool) (v : Vars) (ss : List Source) : FS → List Program → FS → Prop
  | done (fs) : Runs pr dirs v ss fs [] fs
  | program {fs e c x s l ps fs'} : Starts pr fs (Cskk.Xdg.places (Cskk.Xdg.exists_ dirs fs) v) ss x.azik x.config x.mode e c →
      CSession.Uses e ss ⟨c, fs, ⟨1, []⟩⟩ [] x.calls s l → Runs pr dirs v ss s.fs ps fs' → Runs pr dirs v ss fs (x :: ps) fs'

end Cskk.Spec.Xdg
