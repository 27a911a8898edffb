import Verif.Model.SaveFaults
import Verif.Model.Utf8

/-!
# Encoding labels

A dictionary is opened with the name of an encoding, any string. Loading looks it up with `Encoding::for_label_no_replacement`
(file_dictionary.rs:92) and reads the bytes as they are when there is no such encoding; saving looks it up with
`Encoding::for_label` (user_dictionary.rs:73-75), uses the encoder of the *output encoding* (UTF-8 for UTF-16 and the `replacement`
encoding) and panics when there is no such encoding, after the file was moved to its backup and created again, and under the lock of
the dictionary (lib.rs:735), which is poisoned by the panic.

The table of labels of `encoding_rs` is a parameter. Here no file begins with a byte order mark (`encoding_rs_io` looks for one); `Model/Bom.lean` has them.
-/

namespace Cskk
namespace Label
open DictFile

/-- What the code uses of an `encoding_rs::Encoding`: whether it is the `replacement` encoding, `encode_string` with the encoder made by
`new_encoder` (user_dictionary.rs:73-75, 190-217) and the decoding reader (file_dictionary.rs:93-95). -/
structure Encoding where
  replacement : Bool
  enc : Str → Option Bytes
  dec : Bytes → Str

/-- `Encoding::for_label` (user_dictionary.rs:73). -/
abbrev Labels := Str → Option Encoding

/-- `BufRead::lines` on bytes before they are checked to be UTF-8 (file_dictionary.rs:102); `cur` is the reversed current piece. -/
def byteLinesAux : Bytes → Bytes → List Bytes
  | [], [] => []
  | c :: cur, [] => [(c :: cur).reverse]
  | cur, b :: s => if b = 0x0A then stripCr cur :: byteLinesAux [] s else byteLinesAux (b :: cur) s
where
  /-- The piece, without a final carriage return. -/
  stripCr : Bytes → Bytes
    | b :: cur => if b = 0x0D then cur.reverse else (b :: cur).reverse
    | [] => []

/-- The text of a line, `none` if it is not UTF-8 (`Err` in file_dictionary.rs:133-135): it is UTF-8 if it is the encoding of a text. -/
def strict (l : Bytes) : Option Str := if Utf8.encode (Utf8.decode l) = l then some (Utf8.decode l) else none

/-- file_dictionary.rs:92-102: the lines of the file. Without an encoding the bytes are passed on as they are. -/
def readLines (ls : Labels) (label : Str) (contents : Bytes) : List (Option Str) :=
  match ls label with
  | some e => if e.replacement then (byteLinesAux [] contents).map strict else (lines (e.dec contents)).map some
  | none => (byteLinesAux [] contents).map strict

/-- file_dictionary.rs:87-142 `load_dictionary` with a label. -/
def load (ls : Labels) (label : Str) (contents : Bytes) : DictMaps := loadLines (readLines ls label contents)

/-- A user dictionary behind its lock (user_dictionary.rs:15-24, dictionary/mod.rs:39-42). -/
structure LDict where
  path : Str
  label : Str
  maps : DictMaps
  hasChange : Bool
  poisoned : Bool
  deriving Repr, DecidableEq

/-- user_dictionary.rs:29-39 `new`; `none` when the file cannot be opened. -/
def new (ls : Labels) (path label : Str) (fs : FS) : Option LDict :=
  (fs path).map fun c => ⟨path, label, load ls label c, false, false⟩

/-- One entry with its line break, if it can be encoded (user_dictionary.rs:91-97, 102-108). -/
def entryPart (e : Encoding) (d : DictEntry) : Option Str :=
  let s := DictEntry.toLine d ++ c%"\n"
  if (e.enc s).isSome then some s else none

/-- The bytes of a complete save (user_dictionary.rs:87-110). -/
def saveBytes (e : Encoding) (m : DictMaps) : Option Bytes :=
  (([c%";; okuri-ari entries.\n"] ++ m.ari.filterMap (fun d => entryPart e d.2) ++
    [c%";; okuri-nasi entries.\n"] ++ m.nashi.filterMap (fun d => entryPart e d.2)).mapM e.enc).map List.flatten

/-- How a save ends. -/
inductive Saved where
  | ok (written : Bool)
  | err
  | panic
  deriving Repr, DecidableEq

/-- lib.rs:735 (the lock) and user_dictionary.rs:67-116 `save_dictionary`, when no operation of the disk fails except renaming a
missing file. -/
def save (ls : Labels) (fs : FS) (d : LDict) : LDict × FS × Saved :=
  if d.poisoned then (d, fs, .panic)
  else if d.hasChange then
    match (FsOp.rename d.path (bak d.path)).run fs with
    | none => (d, fs, .err)
    | some fs1 =>
      match ls d.label with
      | none => ({ d with poisoned := true }, fun p => if p = d.path then some [] else fs1 p, .panic)
      | some e =>
        match saveBytes e d.maps with
        | some bs => ({ d with hasChange := false }, fun p => if p = d.path then some bs else fs1 p, .ok true)
        | none => (d, fun p => if p = d.path then some [] else fs1 p, .err)
  else (d, fs, .ok false)

/-- A word is confirmed (dictionary/mod.rs:102, user_dictionary.rs:118-141); `none` is the panic of `lock().unwrap()`. -/
def confirm (d : LDict) (c : Candidate) : Option LDict :=
  if d.poisoned then none else some { d with maps := d.maps.select c, hasChange := true }

/-- A reading is looked up (dictionary/mod.rs:297, user_dictionary.rs:43-51); `none` is a panic. -/
def lookup (d : LDict) (k : CompositeKey) : Option (Option DictEntry) :=
  if d.poisoned then none else (d.maps.lookup k).toOption

/-! ## UTF-16 -/

/-- The code units of UTF-16LE (WHATWG §14.2); a lone last byte is an error, here the unit 0xDC00, which is one too. -/
def units : Bytes → List Nat
  | [] => []
  | [_] => [0xDC00]
  | a :: b :: s => (a.toNat + 256 * b.toNat) :: units s

/-- The characters of code units (WHATWG §14.2); surrogates that are not paired are replaced. -/
def fromUnits : List Nat → Str
  | [] => []
  | [u] => [if 0xD800 ≤ u ∧ u ≤ 0xDFFF then Utf8.replacement else Char.ofNat u]
  | u :: v :: us =>
    if 0xD800 ≤ u ∧ u ≤ 0xDBFF ∧ 0xDC00 ≤ v ∧ v ≤ 0xDFFF then
      Char.ofNat (0x10000 + (u - 0xD800) * 1024 + (v - 0xDC00)) :: fromUnits us
    else if 0xD800 ≤ u ∧ u ≤ 0xDFFF then Utf8.replacement :: fromUnits (v :: us)
    else Char.ofNat u :: fromUnits (v :: us)

/-- `encoding_rs::UTF_16LE` (labels `utf-16`, `utf-16le` and others): it decodes UTF-16, but the encoder made by `new_encoder`
(user_dictionary.rs:75) is that of its output encoding, UTF-8. -/
def utf16le : Encoding := ⟨false, fun s => some (Utf8.encode s), fun bs => fromUnits (units bs)⟩

end Label
end Cskk
