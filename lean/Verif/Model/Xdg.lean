import Verif.Model.Boot

/-!
# Where a program looks for its files: the crate `xdg` (version 2.5.2) and `src/env.rs`

The source of the crate is not in /repo; the model follows its published behaviour: variables whose paths are not absolute are ignored, the user's directory comes
first, and without a home directory there is no search at all.
-/

namespace Cskk
namespace Xdg

/-- The environment of a program. A variable is `none` if it is not set (env.rs:11-14: or not Unicode; the model has no other variables). `userHome` is what
`std::env::home_dir` says: `$HOME`, otherwise the entry of the user data base. -/
structure Vars where
  home : Option Str
  dataHome : Option Str
  dataDirs : Option Str
  userHome : Option Str

/-- `Path::is_absolute`. -/
def isAbsolute (d : Str) : Bool := d.head? = some '/'

/-- rule.rs:146 `BaseDirectories::new`: `XDG_DATA_HOME` if it is absolute, otherwise the default in the home directory. -/
def dataHomeDir (v : Vars) (home : Str) : Str :=
  match v.dataHome with
  | some d => if isAbsolute d then d else RuleLoad.push home c%".local/share"
  | none => RuleLoad.push home c%".local/share"

/-- rule.rs:146 `BaseDirectories::new`: the absolute entries of `XDG_DATA_DIRS`; if there is none, the default. -/
def dataDirList (v : Vars) : List Str :=
  match v.dataDirs with
  | some s =>
    let l := (splitOn ':' s).filter isAbsolute
    if l = [] then [c%"/usr/local/share", c%"/usr/share"] else l
  | none => [c%"/usr/local/share", c%"/usr/share"]

/-- The first of the directories which has the file; the prefix of the crate is the empty path. -/
def firstOf (exist : Str → Bool) (file : Str) : List Str → Option Str
  | [] => none
  | d :: ds =>
    let p := RuleLoad.push (RuleLoad.push d []) file
    if exist p then some p else firstOf exist file ds

/-- rule.rs:146-147 `find_data_file`; `none` is also the error of `BaseDirectories::new`. -/
def findData (exist : Str → Bool) (file : Str) (v : Vars) : Option Str := do
  let home ← v.userHome
  firstOf exist file (dataHomeDir v home :: dataDirList v)

/-- rule.rs:145-152 `load_metadata`, ascii_form_changer.rs:20-21, kana_form_changer.rs:122-123: the places of the files of the package. -/
def places (exist : Str → Bool) (v : Vars) : Boot.Places where
  rules := findData exist c%"libcskk/rules" v
  ascii := RuleLoad.searchPath exist c%"libcskk/rule/ascii_form.toml" v.home v.dataHome v.dataDirs
  kana := RuleLoad.searchPath exist c%"libcskk/rule/kana_form.toml" v.home v.dataHome v.dataDirs

/-- `Path::exists`: a directory or a file. -/
def exists_ (dirs : Str → Bool) (fs : Str → Option Bytes) (p : Str) : Bool := dirs p || (fs p).isSome

end Xdg
end Cskk
