import Verif.Model.DictFile

/-!
# Saving when the disk misbehaves

`save_dictionary` with every way in which the operating system can answer (user_dictionary.rs:67-116), and the events in
the life of one user dictionary: edits, saves, reloads and restarts of the program.
-/

namespace Cskk
namespace DictFile

/-- How the operating system answers during one save. -/
inductive Outcome where
  /-- `rename` fails and has no effect (user_dictionary.rs:69 `?`) -/
  | renameFails
  /-- `File::create` fails: the file is not there any more (user_dictionary.rs:70 `?`) -/
  | createFails
  /-- a `write_all` or the `flush` fails after `n` bytes have reached the file (user_dictionary.rs:88, 95, 100, 106, 110 `?`) -/
  | stops (n : Nat)
  /-- everything succeeds -/
  | completes
  deriving Repr, DecidableEq

/-- `save_dictionary` (user_dictionary.rs:67-116) for every outcome. A section header that cannot be encoded ends the
save like a failed write (both headers are ASCII, which every supported encoding can encode). -/
def saveWith (cd : Codec) (path : Str) (fs : FS) (d : UserDict) (o : Outcome) : UserDict × FS × Option Bool :=
  if d.hasChange then
    if o = .renameFails then (d, fs, none)
    else
      match (FsOp.rename path (bak path)).run fs with
      | none => (d, fs, none)
      | some fs1 =>
        if o = .createFails then (d, fs1, none)
        else
          match saveBytes cd d.maps with
          | none => (d, fun p => if p = path then some [] else fs1 p, none)
          | some bs =>
            match o with
            | .stops n => (d, fun p => if p = path then some (bs.take n) else fs1 p, none)
            | _ => ({ d with hasChange := false }, fun p => if p = path then some bs else fs1 p, some true)
  else (d, fs, some false)

/-- What can happen to a user dictionary. `restart` is the end of the program (with or without a crash) and a new
`skk_user_dict_new` of the same path. -/
inductive LifeEvent where
  | confirm (c : Candidate)
  | purge (k : CompositeKey) (c : Candidate)
  | save (o : Outcome)
  | reload
  | restart

/-- One event: `select_candidate` (user_dictionary.rs:118-141), `purge_candidate` (143-160), `save_dictionary` (67-116),
`reload` (file_dictionary.rs:23-27; its error is ignored, so a missing file changes nothing) and, after the program has
ended, `UserDictionary::new` (user_dictionary.rs:29-39). When the file is missing there is no dictionary after the
restart; the model then keeps the old one, and the theorems exclude this case. -/
def live (cd : Codec) (path : Str) (st : UserDict × FS) : LifeEvent → UserDict × FS
  | .confirm c => (⟨st.1.maps.select c, true⟩, st.2)
  | .purge k c => (⟨st.1.maps.purge k c, true⟩, st.2)
  | .save o => let r := saveWith cd path st.2 st.1 o; (r.1, r.2.1)
  | .reload => (reload cd path st.2 st.1, st.2)
  | .restart => ((DictFile.new cd path st.2).getD st.1, st.2)

end DictFile
end Cskk
