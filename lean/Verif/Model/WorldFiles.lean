import Verif.Model.World
import Verif.Model.Session
import Verif.Props.Utf8

/-!
# Several contexts which share dictionaries, and the files of the dictionaries

`save_dictionary` and `reload_dictionary` of a context (lib.rs:731-765) go through its list of `Arc<CskkDictionary>`; other contexts use the same
dictionaries. A dictionary is opened once, from the file named by its place in the list `ss` (dictionary/mod.rs:55-90); a number beyond the list
stands for an empty dictionary (dictionary/mod.rs:84-89). Simplifications as in `Verif.Model.World` and `Verif.Model.Session`.
-/

namespace Cskk
open DictFile Session

/-- A call on one of several contexts. -/
inductive WFOp where
  /-- a call which touches no file -/
  | op (x : WOp)
  /-- lib.rs:731-747 `save_dictionary` of context `i`; `os` are the answers of the operating system -/
  | save (i : Nat) (os : Nat → Outcome)
  /-- lib.rs:749-765 `reload_dictionary` of context `i` -/
  | reload (i : Nat)

namespace World

/-- The file of a dictionary (user_dictionary.rs:17-18, static_dict.rs:8-9). -/
def sourceOf (ss : List Source) (d : Nat) : Source := ss[d]?.getD ⟨[], Props.Utf8.utf8, false, .empty⟩

/-- The dictionaries as they were opened (dictionary/mod.rs:55-90). -/
def shelfOf (ds : List CskkDict) (d : Nat) : CskkDict := ds[d]?.getD ⟨false, .empty⟩

/-- The effect of a call; lib.rs:731-747 for `save`, lib.rs:749-765 for `reload`. -/
def act (e : Env) (ss : List Source) (s : World × FS) : WFOp → R (World × FS)
  | .op x => do
    let w ← s.1.step e x
    return (w, s.2)
  | .save i os =>
    let ids := (s.1.clients i).ids
    let r := saveAll (ids.map (sourceOf ss)) (ids.map s.1.store) os s.2
    .ok ({ s.1 with store := written ids r.1 s.1.store }, r.2)
  | .reload i =>
    let ids := (s.1.clients i).ids
    .ok ({ s.1 with store := written ids (reloadAll s.2 (ids.map (sourceOf ss)) (ids.map s.1.store)) s.1.store }, s.2)

end World
end Cskk
