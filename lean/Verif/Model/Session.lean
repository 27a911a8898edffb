import Verif.Model.SaveFaults
import Verif.Model.Context

/-!
# A context and the files of its dictionaries

`save_dictionary` and `reload_dictionary` of a context (lib.rs:731-765; capi.rs:733-735 `skk_context_save_dictionaries`), opening
dictionaries (dictionary/mod.rs:55-90), and sessions of calls, saves and reloads.

Simplifications: the same dictionary is not listed twice in a context; nobody else uses the files while the session lasts.
-/

namespace Cskk
open DictFile

/-- The kinds of dictionary a program can ask for (dictionary/mod.rs:55-90). -/
inductive Wanted where
  | static | user | empty
  deriving Repr, DecidableEq

/-- What a program asks for when it opens a dictionary: the arguments of `new_static_dict`, `new_user_dict` (dictionary/mod.rs:55-80)
and `new_empty_dict` (84-89). Path and encoding are kept in the dictionary (user_dictionary.rs:17-18, static_dict.rs:8-9) and never
change; the empty dictionary has none. -/
structure Source where
  path : Str
  cd : Codec
  completable : Bool
  wanted : Wanted

namespace Session

/-- dictionary/mod.rs:55-65 `new_static_dict`, 70-80 `new_user_dict`, 84-89 `new_empty_dict`; `none`: the file cannot be opened
(static_dict.rs:18-27, user_dictionary.rs:29-39). -/
def openDict (fs : FS) (og : Source) : Option CskkDict :=
  match og.wanted with
  | .static => (fs og.path).map fun c => ⟨og.completable, .static (load og.cd c)⟩
  | .user => (DictFile.new og.cd og.path fs).map fun d => ⟨og.completable, .user d.maps d.hasChange⟩
  | .empty => some ⟨false, .empty⟩

/-- The dictionaries for a new context, opened one after the other (dictionary/mod.rs:55-90). -/
def openAll (fs : FS) : List Source → Option (List CskkDict)
  | [] => some []
  | og :: ogs => do
    let d ← openDict fs og
    let ds ← openAll fs ogs
    return d :: ds

/-- One round of the loop of lib.rs:731-747: a user dictionary is saved (user_dictionary.rs:67-116), the others use the default
`save_dictionary` of the trait (dictionary/mod.rs:532-534), which does nothing. Errors are only logged. -/
def saveDict (og : Source) (fs : FS) (d : CskkDict) (o : Outcome) : CskkDict × FS :=
  match d.kind with
  | .user m b =>
    let r := saveWith og.cd og.path fs ⟨m, b⟩ o
    ({ d with kind := .user r.1.maps r.1.hasChange }, r.2.1)
  | _ => (d, fs)

/-- lib.rs:731-747 `save_dictionary`: one dictionary after the other; `os` are the answers of the operating system. -/
def saveAll : List Source → List CskkDict → (Nat → Outcome) → FS → List CskkDict × FS
  | og :: ogs, d :: ds, os, fs =>
    let r := saveDict og fs d (os 0)
    let r' := saveAll ogs ds (fun i => os (i + 1)) r.2
    (r.1 :: r'.1, r'.2)
  | _, ds, _, fs => (ds, fs)

/-- One round of the loop of lib.rs:749-765 (file_dictionary.rs:23-27; when the file cannot be opened the error is logged and
nothing changes). -/
def reloadDict (fs : FS) (og : Source) (d : CskkDict) : CskkDict :=
  match d.kind with
  | .user m b => let r := reload og.cd og.path fs ⟨m, b⟩; { d with kind := .user r.maps r.hasChange }
  | .static m => let r := reload og.cd og.path fs ⟨m, false⟩; { d with kind := .static r.maps }
  | .empty => d

/-- lib.rs:749-765 `reload_dictionary`. -/
def reloadAll (fs : FS) (ogs : List Source) (ds : List CskkDict) : List CskkDict := List.zipWith (reloadDict fs) ogs ds

/-- What a program does with a context. -/
inductive Act where
  /-- any call of the API -/
  | call (op : Op)
  /-- lib.rs:731 `save_dictionary` -/
  | save (os : Nat → Outcome)
  /-- lib.rs:749 `reload_dictionary` -/
  | reload

/-- The effect of one call (lib.rs:731-765 for `save` and `reload`). -/
def act (e : Env) (ogs : List Source) (s : Ctx × FS) : Act → R (Ctx × FS)
  | .call op => do
    let c ← s.1.step e op
    return (c, s.2)
  | .save os => let r := saveAll ogs s.1.dicts os s.2; .ok ({ s.1 with dicts := r.1 }, r.2)
  | .reload => .ok ({ s.1 with dicts := reloadAll s.2 ogs s.1.dicts }, s.2)

/-- The effect of several calls. -/
def actAll (e : Env) (ogs : List Source) : Ctx × FS → List Act → R (Ctx × FS)
  | s, [] => .ok s
  | s, a :: as => do
    let s' ← act e ogs s a
    actAll e ogs s' as

end Session
end Cskk
