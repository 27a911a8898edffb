import Verif.Model.Session
import Verif.Spec.Persist

/-!
# What a user expects of saving, reloading and restarting with several dictionaries
-/

namespace Cskk.Spec.Session
open Cskk Cskk.DictFile Cskk.Session

/-- The kind of a dictionary. -/
def kindOf (d : CskkDict) : Wanted :=
  match d.kind with
  | .static _ => .static
  | .user _ _ => .user
  | .empty => .empty

/-- The dictionaries are of the kinds the program asked for. -/
def Fits (ss : List Source) (ds : List CskkDict) : Prop := ds.map kindOf = ss.map (·.wanted)

/-- The files and backups of the writable dictionaries are all different. -/
def Apart (ss : List Source) : Prop :=
  ∀ (i j : Nat) (a b : Source), i ≠ j → ss[i]? = some a → ss[j]? = some b → a.wanted = .user → b.wanted = .user →
    a.path ≠ b.path ∧ a.path ≠ bak b.path

/-- The file of no read-only dictionary is the file or the backup of a writable one. -/
def StaticApart (ss : List Source) : Prop :=
  ∀ a ∈ ss, ∀ b ∈ ss, a.wanted = .static → b.wanted = .user → a.path ≠ b.path ∧ a.path ≠ bak b.path

/-- There are unsaved changes. -/
def Unsaved (d : CskkDict) : Prop := ∃ m, d.kind = .user m true

/-- The acts of a session: any calls of the API except giving the context other dictionaries, reloads, and saves during which
no file is lost between moving it to its backup and creating it again. -/
def Ordinary : Act → Prop
  | .call (.setDictionaries _) => False
  | .call _ => True
  | .save os => ∀ i, os i ≠ .createFails
  | .reload => True

/-- A dictionary is in step with its file. A read-only dictionary is what its file says; so is a user dictionary without unsaved
changes, which was loaded from the file as it is now or saved as it is now. A user dictionary has a file. -/
structure InStep (fs : FS) (s : Source) (d : CskkDict) : Prop where
  completable : d.completable = if s.wanted = .empty then false else s.completable
  static : ∀ m, d.kind = .static m → ∃ bs, fs s.path = some bs ∧ m = load s.cd bs
  saved : ∀ m, d.kind = .user m false → ∃ bs, fs s.path = some bs ∧ (m = load s.cd bs ∨ saveBytes s.cd m = some bs)
  file : kindOf d = .user → ∃ bs, fs s.path = some bs

/-- All dictionaries of a context are, and they are of the kinds the program asked for. -/
structure AllInStep (ss : List Source) (fs : FS) (ds : List CskkDict) : Prop where
  fits : Fits ss ds
  each : ∀ (i : Nat) s d, ss[i]? = some s → ds[i]? = some d → InStep fs s d

end Cskk.Spec.Session
