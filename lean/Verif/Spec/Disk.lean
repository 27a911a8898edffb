import Verif.Model.Disk

/-!
# What threads sharing dictionaries may expect of the files
-/

namespace Cskk.Spec.Disk
open Cskk.Disk DictFile

/-- The dictionary is writable. -/
def Writable (d : CskkDict) : Prop := ∃ m b, d.kind = .user m b

/-- There is no unsaved change. -/
def Clean (d : CskkDict) : Prop := ∀ m, d.kind ≠ .user m true

/-- The dictionary has a file. -/
def Stored (d : CskkDict) : Prop := d.kind ≠ .empty

/-- The file and the backup of a writable dictionary belong to no other dictionary. -/
def Apart (S : Nat → Source) (ds : Nat → CskkDict) : Prop :=
  ∀ d e, d ≠ e → Writable (ds d) → Stored (ds e) → (S e).path ≠ (S d).path ∧ (S e).path ≠ bak (S d).path

/-- What is written is the words: the section headers can be encoded. -/
def Encodes (S : Nat → Source) : Prop := ∀ d m, (saveBytes (S d).cd m).isSome

/-- A dictionary and the contents of its file after a job, if nothing fails. -/
def after (og : Source) (x : CskkDict × Bytes) : Job → CskkDict × Bytes
  | .look => x
  | .confirm c => (x.1.confirm c, x.2)
  | .purge k c => (x.1.purge k c, x.2)
  | .reload =>
    match x.1.kind with
    | .user _ b => ({ x.1 with kind := .user (load og.cd x.2) b }, x.2)
    | .static _ => ({ x.1 with kind := .static (load og.cd x.2) }, x.2)
    | .empty => x
  | .save =>
    match x.1.kind with
    | .user m true => ({ x.1 with kind := .user m false }, (saveBytes og.cd m).getD [])
    | _ => x

/-- A dictionary and the contents of its file after the jobs of a list, done one after the other. -/
def oneByOne (S : Nat → Source) (d : Nat) (x : CskkDict × Bytes) : List (Nat × Nat × Job) → CskkDict × Bytes
  | [] => x
  | (_, e, j) :: l => oneByOne S d (if e = d then after (S d) x j else x) l

/-- What is left to do of a thread. -/
def left : Thread → List (Nat × Job)
  | .at l => l
  | .holds d j l => (d, j) :: l
  | .renamed d l => (d, .save) :: l
  | .writing d _ _ l => (d, .save) :: l

/-- No call of the operating system fails. -/
def Smooth (s : List (Nat × Answer)) : Prop := ∀ x ∈ s, ∃ n, x.2 = .good n

/-- The job changes words. -/
def Changes : Job → Prop
  | .confirm _ => True
  | .purge _ _ => True
  | _ => False

/-- Every change of dictionary `d` is followed by a save. -/
def Saves (d : Nat) : List (Nat × Job) → Prop
  | [] => True
  | (e, j) :: l => (e = d → Changes j → (d, .save) ∈ l) ∧ Saves d l

/-- The file has what the dictionary has: it is what is written for the words, or it was read. -/
def InStep (og : Source) (fs : FS) (d : CskkDict) : Prop :=
  match d.kind with
  | .user m _ => ∃ bs, fs og.path = some bs ∧ (saveBytes og.cd m = some bs ∨ m = load og.cd bs)
  | .static m => ∃ bs, fs og.path = some bs ∧ m = load og.cd bs
  | .empty => True

end Cskk.Spec.Disk
