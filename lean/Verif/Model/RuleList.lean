import Verif.Model.TomlText

/-!
# The list of rules (`src/lib.rs` `get_available_rules`, `src/rule.rs`)
-/

namespace Cskk
namespace TomlText

/-- lib.rs:330-333 `get_available_rules`, rule.rs:144-151 `load_metadata`, 161-174, 198-200 `get_rule_list`: identifier, name and description of all rules in a
`BTreeMap`; `dir` is the rules directory which the crate `xdg` finds. -/
def availableRules (read : Str → Option Bytes) (dir : Option Str) : Option (SMap (Str × Str)) := do
  let dir ← dir
  let d ← fileAt read (RuleLoad.push dir c%"metadata.toml")
  let m ← metadataOf d
  return m.foldl (fun s e => SMap.insert s e.1 (e.2.1, e.2.2.1)) []

end TomlText
end Cskk
