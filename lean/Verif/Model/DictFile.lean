import Verif.Model.Dictionary

/-!
# Loading and saving dictionary files (`src/dictionary/file_dictionary.rs`, `user_dictionary.rs`)

A file is a sequence of bytes. The text encoding (crate `encoding_rs`) is a parameter `Codec`; the only thing assumed
of it is that decoding what was encoded gives the text back, for texts that start with `;` (as every saved file does).
The file system is a partial map from paths to contents; `std::fs::rename`, `File::create` and writes are its steps.
-/

namespace Cskk
open Spec

/-- Bytes. -/
abbrev Bytes := List UInt8

/-- An `encoding_rs` encoding: `enc` is `encode_string` of user_dictionary.rs:190-217 (`none` is its error for a text that
cannot be encoded), `dec` the decoding reader of file_dictionary.rs:92-96. -/
structure Codec where
  enc : Str → Option Bytes
  dec : Bytes → Str
  round : ∀ (parts : List Str) (bs : List Bytes), parts.mapM enc = some bs → parts.flatten.head? = some ';' →
    dec bs.flatten = parts.flatten

namespace DictFile

/-! ## Loading -/

/-- `BufRead::lines`: the pieces between line breaks; a trailing line break does not start another line; one carriage
return before a line break is dropped. `cur` is the reversed current piece. -/
def linesAux : Str → Str → List Str
  | [], [] => []
  | c :: cur, [] => [(c :: cur).reverse]
  | cur, '\n' :: s => stripCr cur :: linesAux [] s
  | cur, c :: s => linesAux (c :: cur) s
where
  /-- The piece, without a final carriage return. -/
  stripCr : Str → Str
    | '\r' :: cur => cur.reverse
    | cur => cur.reverse

/-- `reader.lines()` (file_dictionary.rs:102). -/
def lines (s : Str) : List Str := linesAux [] s

/-- `str::contains`. -/
def contains (pat : Str) : Str → Bool
  | [] => pat.isEmpty
  | c :: cs => pat.isPrefixOf (c :: cs) || contains pat cs

/-- State of the loop of `load_dictionary`: `DictionaryLoadMode` (`true` is `OkuriAri`) and the two maps. -/
structure LoadState where
  ariMode : Bool
  maps : DictMaps
  deriving Repr, DecidableEq

/-- file_dictionary.rs:101 and 97-98: the state before the first line. -/
def loadInit : LoadState := ⟨true, ⟨[], []⟩⟩

/-- The body of the loop of file_dictionary.rs:102-137; `none` is a line that could not be read (`Err`). -/
def loadLine (st : LoadState) : Option Str → LoadState
  | none => st
  | some line =>
    if line.head? = some ';' then
      if contains c%";; okuri-ari entries" line then { st with ariMode := true }
      else if contains c%";; okuri-nasi entries" line then { st with ariMode := false }
      else st
    else
      match DictEntry.fromLine line with
      | none => st
      | some e =>
        if st.ariMode && e.hasOkuri then { st with maps := { st.maps with ari := st.maps.ari.push e.midashi e } }
        else { st with maps := { st.maps with nashi := st.maps.nashi.push e.midashi e } }

/-- The loop of `load_dictionary` (file_dictionary.rs:102-137). -/
def loadLines (ls : List (Option Str)) : DictMaps := (ls.foldl loadLine loadInit).maps

/-- file_dictionary.rs:87-142 `load_dictionary` on the contents of the file (all of whose lines are readable). -/
def load (cd : Codec) (contents : Bytes) : DictMaps := loadLines ((lines (cd.dec contents)).map some)

/-! ## Saving -/

/-- One entry with its line break, if it can be encoded (user_dictionary.rs:91-97, 102-108). -/
def entryPart (cd : Codec) (e : DictEntry) : Option Str :=
  let s := DictEntry.toLine e ++ c%"\n"
  if (cd.enc s).isSome then some s else none

/-- The texts written by `save_dictionary` (user_dictionary.rs:87-110), in order. -/
def saveParts (cd : Codec) (m : DictMaps) : List Str :=
  [c%";; okuri-ari entries.\n"] ++ m.ari.filterMap (fun e => entryPart cd e.2) ++
  [c%";; okuri-nasi entries.\n"] ++ m.nashi.filterMap (fun e => entryPart cd e.2)

/-- The bytes of a complete save; `none` when a section header cannot be encoded (user_dictionary.rs:87, 99 `?`). -/
def saveBytes (cd : Codec) (m : DictMaps) : Option Bytes := ((saveParts cd m).mapM cd.enc).map List.flatten

/-- File system state. -/
abbrev FS := Str → Option Bytes

/-- File system steps. -/
inductive FsOp where
  | rename (src dst : Str)
  | create (path : Str)
  | append (path : Str) (bs : Bytes)
  deriving Repr, DecidableEq

namespace FsOp
/-- Effect of a step that succeeds; `none`: the step fails without effect (source or file missing). -/
def run (fs : FS) : FsOp → Option FS
  | .rename src dst =>
    match fs src with
    | none => none
    | some c => some fun p => if p = dst then some c else if p = src then none else fs p
  | .create path => some fun p => if p = path then some [] else fs p
  | .append path bs =>
    match fs path with
    | none => none
    | some c => some fun p => if p = path then some (c ++ bs) else fs p
end FsOp

/-- Steps until the first failing one. -/
def runOps (fs : FS) : List FsOp → FS
  | [] => fs
  | o :: os =>
    match o.run fs with
    | none => fs
    | some fs' => runOps fs' os

/-- `format!("{}.BAK", path)` (user_dictionary.rs:69). -/
def bak (path : Str) : Str := path ++ c%".BAK"

/-- The file system steps of `save_dictionary` (user_dictionary.rs:67-116) when the `BufWriter` passes the bytes on in the
pieces `chunks` (any division of the bytes). -/
def saveOps (path : Str) (chunks : List Bytes) : List FsOp :=
  [.rename path (bak path), .create path] ++ chunks.map (.append path)

/-- A user dictionary in memory (user_dictionary.rs:15-24). -/
structure UserDict where
  maps : DictMaps
  hasChange : Bool
  deriving Repr, DecidableEq

/-- `save_dictionary` (user_dictionary.rs:67-116) when no write fails: new dictionary, new file system and the result
(`some b` is `Ok(b)`, `none` is `Err`). If a section header cannot be encoded the file is left with a part of the text;
the model leaves it empty (both headers are ASCII, which every supported encoding can encode). -/
def save (cd : Codec) (path : Str) (fs : FS) (d : UserDict) : UserDict × FS × Option Bool :=
  if d.hasChange then
    match (FsOp.rename path (bak path)).run fs with
    | none => (d, fs, none)
    | some fs1 =>
      match saveBytes cd d.maps with
      | some bs => ({ d with hasChange := false }, fun p => if p = path then some bs else fs1 p, some true)
      | none => (d, fun p => if p = path then some [] else fs1 p, none)
  else (d, fs, some false)

/-- `UserDictionary::new` (user_dictionary.rs:29-39); `none` when the file cannot be opened. -/
def new (cd : Codec) (path : Str) (fs : FS) : Option UserDict :=
  (fs path).map fun c => ⟨load cd c, false⟩

/-- `reload` (file_dictionary.rs:23-27): the change flag is not touched. -/
def reload (cd : Codec) (path : Str) (fs : FS) (d : UserDict) : UserDict :=
  match fs path with
  | none => d
  | some c => { d with maps := load cd c }

end DictFile
end Cskk
