import Verif.Spec.UserDict
import Verif.Spec.DictText
import Verif.Model.SaveFaults

/-!
# What a user expects of a user dictionary over its whole life

An abstract dictionary is a table: for each side (with or without okurigana), reading and okurigana group, a list of
words. Its life is described without files' contents, entries, recency order or bytes.
-/

namespace Cskk.Spec.Persist
open Cskk.DictFile Cskk.Spec.DictText

/-- Side, reading and okurigana group to words. -/
abbrev Words := Bool → Str → Str → List DictCand

/-- The empty dictionary. -/
def noWords : Words := fun _ _ _ => []

/-- Putting a word in front of a list: a new word is added, a known one changes places with the first. -/
def promote (c : Candidate) (l : List DictCand) : List DictCand :=
  match l.takeWhile (fun d => decide (d.kouho ≠ c.kouho)), l.dropWhile (fun d => decide (d.kouho ≠ c.kouho)) with
  | _, [] => ⟨c.kouho, c.annotation⟩ :: l
  | [], _ => l
  | first :: before, d :: after => d :: (before ++ first :: after)

/-- The table after a candidate was confirmed. -/
def confirmed (t : Words) (c : Candidate) : Words := fun o midashi g =>
  if o = c.okuri ∧ midashi = c.midashi ∧ (g = [] ∨ c.strictOkuri = some g) then promote c (t o midashi g)
  else t o midashi g

/-- The table after a candidate was purged while it was shown for the key `k`. -/
def purged (t : Words) (k : CompositeKey) (c : Candidate) : Words := fun o midashi g =>
  if o = c.okuri ∧ midashi = c.midashi ∧ (g = [] ∨ k.okuri = some g) then
    (t o midashi g).filter fun d => decide (d.kouho ≠ c.kouho)
  else t o midashi g

/-- What a file is worth to the user. -/
inductive File where
  | missing
  | damaged
  | holds (t : Words)

/-- The abstract life: the words in memory, whether there are unsaved changes, the file and its backup. -/
structure Life where
  mem : Words
  unsaved : Bool
  file : File
  backup : File

/-- What each event should do. -/
def expect (s : Life) : LifeEvent → Life
  | .confirm c => { s with mem := confirmed s.mem c, unsaved := true }
  | .purge k c => { s with mem := purged s.mem k c, unsaved := true }
  | .save o =>
    if s.unsaved = false then s else
    match s.file, o with
    | .missing, _ => s
    | _, .renameFails => s
    | f, .createFails => { s with file := .missing, backup := f }
    | f, .stops _ => { s with file := .damaged, backup := f }
    | f, .completes => { s with unsaved := false, file := .holds s.mem, backup := f }
  | .reload =>
    match s.file with
    | .holds t => { s with mem := t }
    | _ => s
  | .restart =>
    match s.file with
    | .holds t => { s with mem := t, unsaved := false }
    | _ => s

/-- A reading that can stand at the start of a line. -/
def PlainReading (m : Str) : Prop := m ≠ [] ∧ ' ' ∉ m ∧ '\n' ∉ m ∧ '/' ∉ m ∧ ';' ∉ m

/-- A reading as okuri-ari entries have it: it ends, but does not begin, with one of the letters a to z. -/
def OkuriAriReading (m : Str) : Prop :=
  (∃ x, m.getLast? = some x ∧ 'a'.toNat ≤ x.toNat ∧ x.toNat ≤ 'z'.toNat) ∧
  (∀ x, m.head? = some x → ¬ ('a'.toNat ≤ x.toNat ∧ x.toNat ≤ 'z'.toNat))

/-- The table of a dictionary in memory. -/
def words (m : DictMaps) : Words := fun o midashi g => (UserDict.listed m o midashi g).getD []

/-- A file is what the table of the abstract life says. -/
def Agrees (cd : Codec) : File → Option Bytes → Prop
  | .missing, f => f = none
  | .damaged, f => f.isSome
  | .holds t, f => ∃ bs, f = some bs ∧ words (load cd bs) = t

/-- A group of words that the file format can carry. -/
structure PlainGroup (okuri : Bool) (g : Str) (l : List DictCand) : Prop where
  words : ∀ c ∈ l, CandOk c
  nashi : okuri = false → g = []
  ari : okuri = true → l ≠ [] ∧ (∀ x ∈ g, OkuriKana x) ∧ ∀ c ∈ l, ¬ ∀ x ∈ c.kouho, OkuriKana x

/-- An entry that the file format can carry, whatever happens to the order of its words. -/
structure PlainEntry (okuri : Bool) (e : DictEntry) : Prop where
  reading : PlainReading e.midashi
  ari : okuri = true → OkuriAriReading e.midashi
  some : ∃ g l, SMap.get e.cands g = Option.some l
  groups : ∀ g l, SMap.get e.cands g = Option.some l → PlainGroup okuri g l

/-- A dictionary that the file format can carry. The empty dictionary is one. -/
structure PlainDict (m : DictMaps) : Prop where
  wf : UserDict.WellFormed m
  entries : ∀ o, ∀ e ∈ UserDict.side m o, PlainEntry o e.2

/-- Candidates whose word the file format can carry on either side. -/
structure PlainCandidate (c : Candidate) : Prop where
  reading : PlainReading c.midashi
  word : CandOk ⟨c.kouho, c.annotation⟩
  nashi : c.okuri = false → c.strictOkuri = none
  ari : c.okuri = true → OkuriAriReading c.midashi ∧ (¬ ∀ x ∈ c.kouho, OkuriKana x) ∧
    ∀ g, c.strictOkuri = some g → ∀ x ∈ g, OkuriKana x

/-- When the expectation speaks about an event. Confirmed candidates are plain; a purge does not take the last word of an
okuri-ari group (the file format has no way to write such a group); a damaged or missing file is not loaded. -/
def Covered (s : Life) : LifeEvent → Prop
  | .confirm c => PlainCandidate c
  | .purge k c => c.okuri = true → ∀ g, g = [] ∨ k.okuri = some g → s.mem true c.midashi g ≠ [] → purged s.mem k c true c.midashi g ≠ []
  | .save _ => True
  | .reload => s.file = .missing ∨ ∃ t, s.file = .holds t
  | .restart => ∃ t, s.file = .holds t

/-- A history all of whose events are covered. -/
def AllCovered : Life → List LifeEvent → Prop
  | _, [] => True
  | s, e :: es => Covered s e ∧ AllCovered (expect s e) es

/-- The effect of an event on the table when only the user's edits count. -/
def edit (t : Words) : LifeEvent → Words
  | .confirm c => confirmed t c
  | .purge k c => purged t k c
  | _ => t

/-- An orderly history: edits as in `Covered`, saves with any outcome at any time, and reloads and restarts only while
there are no unsaved changes (in particular directly after a successful save). -/
def Orderly : Life → List LifeEvent → Prop
  | _, [] => True
  | s, e :: es =>
    (match e with
     | .reload | .restart => s.unsaved = false
     | e => Covered s e) ∧ Orderly (expect s e) es

/-- The life of a dictionary that has just been opened. -/
def opened (t : Words) (backup : File) : Life := ⟨t, false, .holds t, backup⟩

end Cskk.Spec.Persist
