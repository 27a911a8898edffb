import Verif.Model.TomlText

/-!
# The start of a program: a context from the files of the system (`src/lib.rs` `CskkContext::new`)
-/

namespace Cskk
namespace Boot
open TomlText

/-- Where files were found: the rules directory (rule.rs:144-151, the crate `xdg`) and the two tables of forms (env.rs:11-17). -/
structure Places where
  rules : Option Str
  ascii : Option Str
  kana : Option Str

/-- ascii_form_changer.rs:20-35 `default_ascii_form_changer`, `from_file`: without a file the empty text is read. `none`: the program panics (or the file is
outside the part of TOML modelled). -/
def asciiFrom (read : Str → Option Bytes) : Option Str → Option AsciiFormChanger
  | some p => (fileAt read p).bind asciiForm
  | none => (document []).bind asciiForm

/-- kana_form_changer.rs:122-138 `default_kanaform_changer`, `from_file`. -/
def kanaFrom (read : Str → Option Bytes) : Option Str → Option KanaFormChanger
  | some p => (fileAt read p).bind kanaForm
  | none => (document []).bind kanaForm

/-- lib.rs:1489-1510 `CskkContext::new`: the tables of forms (which the model keeps in `Env`, as they never change) and the context. `none`: no context. -/
def newProgram (p : Profile) (x : Xkb) (names : Keysym → Str) (read : Str → Option Bytes) (pl : Places) (im : InputMode) (cm : CompositionMode)
    (ds : List CskkDict) : Option (Env × Ctx) := do
  let c ← RuleLoad.newContext (filesOf x read) pl.rules im cm ds
  let k ← kanaFrom read pl.kana
  let a ← asciiFrom read pl.ascii
  return (⟨p, x, names, k, a⟩, c)

/-- lib.rs:1515-1525 `new_with_empty_fallback`, 1533-1553 `new_empty`: the tables of forms are read in both. `none`: the program panics. -/
def newFallback (p : Profile) (x : Xkb) (names : Keysym → Str) (read : Str → Option Bytes) (pl : Places) (im : InputMode) (cm : CompositionMode)
    (ds : List CskkDict) : Option (Env × Ctx) := do
  let k ← kanaFrom read pl.kana
  let a ← asciiFrom read pl.ascii
  return (⟨p, x, names, k, a⟩, RuleLoad.newWithFallback (filesOf x read) pl.rules im cm ds)

end Boot
end Cskk
