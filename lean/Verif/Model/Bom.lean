import Verif.Model.Label
import Verif.Model.Utf8

/-!
# Byte order marks

The reader of `encoding_rs_io` (file_dictionary.rs:93-95): with an encoding it decodes with that encoding, without its mark at the start of the file
(`new_decoder_with_bom_removal`); without an encoding it looks for a mark at the start of the file, and decodes what follows with the encoding of the
mark. Without encoding and mark the bytes are passed on as they are.
-/

namespace Cskk
namespace Bom
open DictFile Label

/-- The mark of UTF-8 (WHATWG encoding §6). -/
def mark8 : Bytes := [0xEF, 0xBB, 0xBF]

/-- The mark of UTF-16LE. -/
def mark16le : Bytes := [0xFF, 0xFE]

/-- The mark of UTF-16BE. -/
def mark16be : Bytes := [0xFE, 0xFF]

/-- The bytes without the mark, if they begin with it. -/
def strip (mark bs : Bytes) : Bytes := if mark.isPrefixOf bs then bs.drop mark.length else bs

/-- An encoding with its mark (file_dictionary.rs:92-95); encodings without a mark have the empty one. -/
def marked (e : Encoding) (mark : Bytes) : Encoding := { e with dec := fun bs => e.dec (strip mark bs) }

/-- The bytes of the code units of UTF-16BE in the order of UTF-16LE; a lone last byte stays. -/
def swap : Bytes → Bytes
  | a :: b :: s => b :: a :: swap s
  | s => s

/-- file_dictionary.rs:93-102 without an encoding: the lines of the file. -/
def sniffed (contents : Bytes) : List (Option Str) :=
  if mark8.isPrefixOf contents then (lines (Utf8.decode (contents.drop 3))).map some
  else if mark16le.isPrefixOf contents then (lines (utf16le.dec (contents.drop 2))).map some
  else if mark16be.isPrefixOf contents then (lines (utf16le.dec (swap (contents.drop 2)))).map some
  else (byteLinesAux [] contents).map strict

/-- file_dictionary.rs:92-102: the lines of the file. The encodings in `ls` look for their own mark (`marked`). -/
def readLines (ls : Labels) (label : Str) (contents : Bytes) : List (Option Str) :=
  match ls label with
  | some e => if e.replacement then sniffed contents else (lines (e.dec contents)).map some
  | none => sniffed contents

/-- file_dictionary.rs:87-142 `load_dictionary` with a label. -/
def load (ls : Labels) (label : Str) (contents : Bytes) : DictMaps := loadLines (readLines ls label contents)

end Bom
end Cskk
