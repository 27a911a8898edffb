import Verif.Model.DictFile

/-!
# UTF-8

The encoding `"utf-8"` of dictionaries: `encoding_rs`'s encoder (user_dictionary.rs:190-217 `encode_string`) and the decoding reader of
file_dictionary.rs:92-96, which replaces malformed sequences. The decoder is the one of the WHATWG Encoding Standard (§8.1.1), which `encoding_rs`
implements.

A byte order mark at the start of the file is decoded to U+FEFF here; `encoding_rs_io` removes it (`Model/Bom.lean`).
-/

namespace Cskk.Utf8

/-- The UTF-8 bytes of a character. -/
def encodeChar (c : Char) : Bytes :=
  let n := c.toNat
  if n < 0x80 then [UInt8.ofNat n]
  else if n < 0x800 then [UInt8.ofNat (0xC0 + n / 64), UInt8.ofNat (0x80 + n % 64)]
  else if n < 0x10000 then [UInt8.ofNat (0xE0 + n / 4096), UInt8.ofNat (0x80 + n / 64 % 64), UInt8.ofNat (0x80 + n % 64)]
  else [UInt8.ofNat (0xF0 + n / 262144), UInt8.ofNat (0x80 + n / 4096 % 64), UInt8.ofNat (0x80 + n / 64 % 64),
    UInt8.ofNat (0x80 + n % 64)]

/-- `encode_string` for UTF-8, which cannot fail (user_dictionary.rs:190-217). -/
def encode (s : Str) : Bytes := s.flatMap encodeChar

/-- One call of `Encoder::encode_from_utf8_to_vec_without_replacement` on a buffer with room for `cap` bytes: the bytes written, which are those of
as many characters as fit, and the rest of the text. -/
def encodeInto : Nat → Str → Bytes × Str
  | _, [] => ([], [])
  | cap, c :: s =>
    if (encodeChar c).length ≤ cap then
      let r := encodeInto (cap - (encodeChar c).length) s
      (encodeChar c ++ r.1, r.2)
    else ([], c :: s)

/-- The loop of `encode_string` (user_dictionary.rs:190-217); `cap` is the capacity of `tmp_buf` (1024). Every round but the last one consumes something,
so `fuel` is never exhausted if it exceeds the length of the text. -/
def encodeLoop (cap : Nat) : Nat → Str → Bytes → Option Bytes
  | 0, _, _ => none
  | fuel + 1, s, acc =>
    let r := encodeInto cap s
    if r.2.length = s.length then none
    else if r.2.isEmpty then some (acc ++ r.1)
    else encodeLoop cap fuel r.2 (acc ++ r.1)

/-- user_dictionary.rs:190-217 `encode_string` for UTF-8; `none` is `Err`. -/
def encodeString (cap : Nat) (s : Str) : Option Bytes := encodeLoop cap (s.length + 1) s []

/-- The state of the decoder: number of bytes still needed, the code point so far, and the range of the next byte (WHATWG §8.1.1:
UTF-8 bytes needed minus bytes seen, code point, lower and upper boundary). -/
structure State where
  need : Nat
  cp : Nat
  lo : Nat
  hi : Nat
  deriving Repr, DecidableEq

/-- Between characters. -/
def idle : State := ⟨0, 0, 0x80, 0xBF⟩

/-- U+FFFD REPLACEMENT CHARACTER. -/
def replacement : Char := '\uFFFD'

/-- A byte between characters (WHATWG §8.1.1 step 3). -/
def first (b : Nat) : Str × State :=
  if b < 0x80 then ([Char.ofNat b], idle)
  else if 0xC2 ≤ b ∧ b ≤ 0xDF then ([], ⟨1, b - 0xC0, 0x80, 0xBF⟩)
  else if 0xE0 ≤ b ∧ b ≤ 0xEF then ([], ⟨2, b - 0xE0, if b = 0xE0 then 0xA0 else 0x80, if b = 0xED then 0x9F else 0xBF⟩)
  else if 0xF0 ≤ b ∧ b ≤ 0xF4 then ([], ⟨3, b - 0xF0, if b = 0xF0 then 0x90 else 0x80, if b = 0xF4 then 0x8F else 0xBF⟩)
  else ([replacement], idle)

/-- The next byte (WHATWG §8.1.1 steps 4-11): a byte which does not continue the character ends it with a replacement character and is
looked at again. -/
def step (st : State) (b : Nat) : Str × State :=
  if st.need = 0 then first b
  else if st.lo ≤ b ∧ b ≤ st.hi then
    let cp := st.cp * 64 + (b - 0x80)
    if st.need = 1 then ([Char.ofNat cp], idle) else ([], ⟨st.need - 1, cp, 0x80, 0xBF⟩)
  else
    let r := first b
    (replacement :: r.1, r.2)

/-- The end of the file (WHATWG §8.1.1 steps 1-2). -/
def finish (st : State) : Str := if st.need = 0 then [] else [replacement]

/-- Decoding from a state. -/
def decodeFrom (st : State) : Bytes → Str
  | [] => finish st
  | b :: bs => (step st b.toNat).1 ++ decodeFrom (step st b.toNat).2 bs

/-- The text of a file. -/
def decode (bs : Bytes) : Str := decodeFrom idle bs

end Cskk.Utf8
