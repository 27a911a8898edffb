import Verif.Model.Label

/-!
# EUC-JP

The encoding most SKK dictionaries are in: `encoding_rs`'s EUC-JP encoder, used by `encode_string` (user_dictionary.rs:190-217), and its decoder, used by
the reader of file_dictionary.rs:92-96. Both are those of the WHATWG Encoding Standard (§12.1), which `encoding_rs` implements. The tables of JIS X
0208 and JIS X 0212 are parameters, of which only this is assumed: what the encoder's table says about a character, the decoder's table says too.

Simplification: a byte order mark at the start of the file is not treated specially.
-/

namespace Cskk.EucJp

/-- The indexes jis0208 and jis0212 of WHATWG §5: from characters to a row and a cell (1 to 94) and back. -/
structure Jis where
  /-- the first pointer of a character in jis0208 -/
  index : Char → Option (Nat × Nat)
  /-- jis0208 -/
  char : Nat → Nat → Option Char
  /-- jis0212 -/
  char2 : Nat → Nat → Option Char
  inverse : ∀ c r k, index c = some (r, k) → char r k = some c ∧ 1 ≤ r ∧ r ≤ 94 ∧ 1 ≤ k ∧ k ≤ 94
  /-- no index has a character that is ASCII -/
  highChar : ∀ r k c, char r k = some c → 0x80 ≤ c.toNat
  /-- no index has a character that is ASCII -/
  highChar2 : ∀ r k c, char2 r k = some c → 0x80 ≤ c.toNat

/-- The EUC-JP encoder on one character (WHATWG §12.1.2); `none` is `EncoderResult::Unmappable` (user_dictionary.rs:203-205). -/
def encodeChar (J : Jis) (c : Char) : Option Bytes :=
  let n := c.toNat
  if n < 0x80 then some [UInt8.ofNat n]
  else if n = 0xA5 then some [0x5C]
  else if n = 0x203E then some [0x7E]
  else if 0xFF61 ≤ n ∧ n ≤ 0xFF9F then some [0x8E, UInt8.ofNat (n - 0xFF61 + 0xA1)]
  else
    let c := if n = 0x2212 then Char.ofNat 0xFF0D else c
    (J.index c).map fun p => [UInt8.ofNat (p.1 + 0xA0), UInt8.ofNat (p.2 + 0xA0)]

/-- `encode_string` (user_dictionary.rs:190-217) for EUC-JP: an unmappable character makes the whole text fail. -/
def encode (J : Jis) (s : Str) : Option Bytes := (s.mapM (encodeChar J)).map List.flatten

/-- The state of the decoder (WHATWG §12.1.1): the lead byte, if any, and whether 0x8F came before it. -/
structure State where
  lead : Nat
  jis0212 : Bool
  deriving Repr, DecidableEq

/-- Between characters. -/
def idle : State := ⟨0, false⟩

/-- A byte between characters (WHATWG §12.1.1 steps 6-8). -/
def first (b : Nat) : Str × State :=
  if b < 0x80 then ([Char.ofNat b], idle)
  else if b = 0x8E ∨ b = 0x8F ∨ (0xA1 ≤ b ∧ b ≤ 0xFE) then ([], ⟨b, false⟩)
  else ([Utf8.replacement], idle)

/-- The next byte (WHATWG §12.1.1 steps 3-5). -/
def step (J : Jis) (st : State) (b : Nat) : Str × State :=
  if st.lead = 0 then first b
  else if st.lead = 0x8E ∧ 0xA1 ≤ b ∧ b ≤ 0xDF then ([Char.ofNat (0xFF61 - 0xA1 + b)], idle)
  else if st.lead = 0x8F ∧ 0xA1 ≤ b ∧ b ≤ 0xFE then ([], ⟨b, true⟩)
  else
    match (if 0xA1 ≤ st.lead ∧ st.lead ≤ 0xFE ∧ 0xA1 ≤ b ∧ b ≤ 0xFE then
        (if st.jis0212 then J.char2 else J.char) (st.lead - 0xA0) (b - 0xA0) else none) with
    | some c => ([c], idle)
    | none => if b < 0x80 then ([Utf8.replacement, Char.ofNat b], idle) else ([Utf8.replacement], idle)

/-- The end of the file (WHATWG §12.1.1 steps 1-2). -/
def finish (st : State) : Str := if st.lead = 0 then [] else [Utf8.replacement]

/-- Decoding from a state. -/
def decodeFrom (J : Jis) (st : State) : Bytes → Str
  | [] => finish st
  | b :: bs => (step J st b.toNat).1 ++ decodeFrom J (step J st b.toNat).2 bs

/-- The text of a file. -/
def decode (J : Jis) (bs : Bytes) : Str := decodeFrom J idle bs

/-- `encoding_rs::EUC_JP` (labels `euc-jp`, `x-euc-jp`, `cseucpkdfmtjapanese`) as it is used by user_dictionary.rs:73-75 and file_dictionary.rs:92-96. -/
def encoding (J : Jis) : Label.Encoding := ⟨false, encode J, decode J⟩

end Cskk.EucJp
