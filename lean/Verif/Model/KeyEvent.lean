import Verif.Model.Basic

/-!
# Key events (`src/keyevent.rs`)

`xkb::Keysym` is `u32`, modelled by `Nat`.  The functions of libxkbcommon (`keysym_from_name`, `keysym_to_utf8`)
are external: they are fields of the parameter `Xkb`.
-/

namespace Cskk

/-- `xkb::Keysym` (a `u32`). -/
abbrev Keysym := Nat

/-- The functions of libxkbcommon used by the library (external, arbitrary):
`fromName` is `keysym_from_name(_, KEYSYM_NO_FLAGS)`, `toChar` is `keysym_to_utf8(_).chars().next()`. -/
structure Xkb where
  fromName : Str → Keysym
  toChar : Keysym → Option Char

/-- xkbcommon-keysyms.h constants used in the code. -/
def KEY_NoSymbol : Keysym := 0
def KEY_VoidSymbol : Keysym := 0xffffff
def KEY_space : Keysym := 0x20
def KEY_asciitilde : Keysym := 0x7e
def KEY_A : Keysym := 0x41
def KEY_Z : Keysym := 0x5a
def KEY_ISO_Left_Tab : Keysym := 0xfe20
def KEY_Tab : Keysym := 0xff09

/-- `SkkKeyModifier` (src/keyevent.rs:21-57), a 32 bit flag set. -/
abbrev Modifier := BitVec 32

namespace Modifier
def NONE : Modifier := 0
def SHIFT : Modifier := 1#32
def CAPS_LOCK : Modifier := 1#32 <<< 1
def CONTROL : Modifier := 1#32 <<< 2
def ALT : Modifier := 1#32 <<< 3
def NUM_LOCK : Modifier := 1#32 <<< 4
def HYPER : Modifier := 1#32 <<< 5
def SUPER : Modifier := 1#32 <<< 6
def MOD5 : Modifier := 1#32 <<< 7
def MOUSE_PRESSED : Modifier := 1#32 <<< 8
def L_SHIFT : Modifier := 1#32 <<< 22
def R_SHIFT : Modifier := 1#32 <<< 23
def USLEEP : Modifier := 1#32 <<< 24
def SUPER2 : Modifier := 1#32 <<< 26
def HYPER2 : Modifier := 1#32 <<< 27
def META : Modifier := 1#32 <<< 28
def RELEASE : Modifier := 1#32 <<< 30
def REPEAT : Modifier := 1#32 <<< 31
/-- src/keyevent.rs:53-56 -/
def NON_DUMMY_MASK : Modifier :=
  SHIFT ||| CAPS_LOCK ||| CONTROL ||| ALT ||| NUM_LOCK ||| HYPER ||| SUPER ||| MOUSE_PRESSED |||
    SUPER2 ||| HYPER2 ||| META ||| REPEAT
/-- bitflags' `all()`: the union of all declared flags. -/
def ALL : Modifier := NON_DUMMY_MASK ||| MOD5 ||| L_SHIFT ||| R_SHIFT ||| USLEEP ||| RELEASE
/-- bitflags' `from_bits_truncate` (every declared bit is a flag of its own). -/
def fromBitsTruncate (b : BitVec 32) : Modifier := b &&& ALL
/-- bitflags' `contains`. -/
def contains (a b : Modifier) : Bool := a &&& b == b
/-- bitflags' `difference`. -/
def difference (a b : Modifier) : Modifier := a &&& ~~~b
/-- bitflags' `set(flag, value)`. -/
def set (a b : Modifier) (v : Bool) : Modifier := if v then a ||| b else a &&& ~~~b
end Modifier

/-- `CskkKeyEvent` (src/keyevent.rs:78-81). -/
structure KeyEvent where
  symbol : Keysym
  modifiers : Modifier
  deriving Repr, DecidableEq

namespace KeyEvent
open Modifier

/-- src/keyevent.rs:97-116 `from_fcitx_keyevent`. -/
def fromFcitx (keysym : Keysym) (raw : BitVec 32) (isRelease : Bool) : KeyEvent :=
  let m := fromBitsTruncate raw
  let m := m &&& NON_DUMMY_MASK
  let m := if isRelease then set m RELEASE true else m
  let keysym := if keysym = KEY_ISO_Left_Tab then KEY_Tab else keysym
  { symbol := keysym, modifiers := m }

/-- src/keyevent.rs:123-138 `from_keysym_with_flags`. -/
def fromKeysymWithFlags (keysym : Keysym) (ctrl shift alt : Bool) : KeyEvent :=
  { symbol := keysym, modifiers := set (set (set NONE CONTROL ctrl) SHIFT shift) ALT alt }

/-- src/keyevent.rs:174-177 `is_ascii_inputtable`. -/
def isAsciiInputtable (k : KeyEvent) : Bool := KEY_space ≤ k.symbol && k.symbol ≤ KEY_asciitilde

/-- src/keyevent.rs:182-184 `is_upper`. -/
def isUpper (k : KeyEvent) : Bool := KEY_A ≤ k.symbol && k.symbol ≤ KEY_Z

/-- src/keyevent.rs:190-197 `to_lower`. -/
def toLower (k : KeyEvent) : KeyEvent := if k.isUpper then { k with symbol := k.symbol + 0x20 } else k

/-- src/keyevent.rs:202-204 `is_modifierless_input`. -/
def isModifierlessInput (k : KeyEvent) : Bool := difference k.modifiers SHIFT == 0

/-- src/keyevent.rs:217-219 `get_symbol_char`. -/
def symbolChar (x : Xkb) (k : KeyEvent) : Option Char := x.toChar k.symbol

end KeyEvent

/-! ## Rust string helpers used by the parser -/

/-- `char::is_whitespace` (Unicode White_Space). -/
def isWs (c : Char) : Bool :=
  let n := c.toNat
  (9 ≤ n && n ≤ 13) || n == 0x20 || n == 0x85 || n == 0xA0 || n == 0x1680 || (0x2000 ≤ n && n ≤ 0x200A) ||
    n == 0x2028 || n == 0x2029 || n == 0x202F || n == 0x205F || n == 0x3000

/-- `str::trim_end`. -/
def trimEnd (s : Str) : Str := (s.reverse.dropWhile isWs).reverse
/-- `str::trim`. -/
def trim (s : Str) : Str := trimEnd (s.dropWhile isWs)

/-- `str::split(' ')`: always at least one piece. -/
def splitOn (d : Char) : Str → List Str
  | [] => [[]]
  | c :: cs =>
    if c = d then [] :: splitOn d cs
    else match splitOn d cs with
      | [] => [[c]]
      | w :: ws => (c :: w) :: ws

/-- `str::len`: length in UTF-8 bytes. -/
def utf8Len : Str → Nat
  | [] => 0
  | c :: cs => c.utf8Size + utf8Len cs

namespace KeyEvent
open Modifier

/-- `&key[0..2]`: the two-byte prefix and the rest, or the panic when byte 2 is not a char boundary
(the caller has checked `key.len() > 2`). -/
def splitTwoBytes : Str → R (Str × Str)
  | a :: cs =>
    if a.utf8Size = 2 then .ok ([a], cs)
    else if a.utf8Size = 1 then
      match cs with
      | b :: cs' => if b.utf8Size = 1 then .ok ([a, b], cs') else .error .index
      | [] => .error .index
    else .error .index
  | [] => .error .index

/-- One word of the parenthesised form (src/keyevent.rs:299-325). -/
def parenWord (x : Xkb) (st : Modifier × Keysym) (w : Str) : Modifier × Keysym :=
  if w = c%"control" then (set st.1 CONTROL true, st.2)
  else if w = c%"meta" then (set st.1 META true, st.2)
  else if w = c%"alt" then (set st.1 ALT true, st.2)
  else if w = c%"lshift" then (set (set st.1 L_SHIFT true) SHIFT true, st.2)
  else if w = c%"rshift" then (set (set st.1 R_SHIFT true) SHIFT true, st.2)
  else if w = c%"shift" then (set st.1 SHIFT true, st.2)
  else (st.1, x.fromName w)

/-- The short-prefix form (src/keyevent.rs:328-350): modifiers and key name. -/
def shortForm (key : Str) : R (Modifier × Str) :=
  if utf8Len key > 2 then
    match splitTwoBytes key with
    | .error e => .error e
    | .ok (p, rest) =>
      if p = c%"C-" then .ok (set NONE CONTROL true, rest)
      else if p = c%"M-" then .ok (set NONE META true, rest)
      else if p = c%"A-" then .ok (set NONE ALT true, rest)
      else if p = c%"G-" then .ok (set NONE MOD5 true, rest)
      else .ok (NONE, key)
  else .ok (NONE, key)

/-- src/keyevent.rs:291-364 `FromStr::from_str`. `.ok none` is `Err(ParseError)`. -/
def fromStr (x : Xkb) (s : Str) : R (Option KeyEvent) :=
  let key := trim s
  let r : R (Modifier × Keysym) :=
    if key.head? = some '(' ∧ key.getLast? = some ')' then
      let inner := ((key.dropWhile (· == '(')).reverse.dropWhile (· == ')')).reverse
      .ok ((splitOn ' ' inner).foldl (parenWord x) (NONE, KEY_VoidSymbol))
    else
      match shortForm key with
      | .error e => .error e
      | .ok (m, name) => .ok (m, x.fromName name)
  match r with
  | .error e => .error e
  | .ok (m, keysym) =>
    if keysym = KEY_VoidSymbol then .ok none
    else if keysym = KEY_NoSymbol then .ok none
    else .ok (some { symbol := keysym, modifiers := m })

/-- src/keyevent.rs:151-169 `keysyms_from_str`. -/
def keysymsFromStr (x : Xkb) (s : Str) : List Keysym :=
  (splitOn ' ' s).flatMap fun word =>
    let word := trim word
    let k := x.fromName word
    if k = KEY_NoSymbol then
      (word.map fun c => x.fromName [c]).filter (· != KEY_NoSymbol)
    else [k]

/-- src/keyevent.rs:274-285 `next_tok`, together with the remaining string `&keys[tok.len()..]` (line 256). -/
def nextTok (keys : Str) : Option (Str × Str) :=
  if keys.head? = some '(' then
    match keys.dropWhile (· != ')') with
    | [] => none
    | _ :: rest => some (keys.takeWhile (· != ')') ++ [')'], rest)
  else some (keys.takeWhile (· != ' '), keys.dropWhile (· != ' '))

/-- src/keyevent.rs:241-262 `deserialize_seq_inner`; `.ok none` is `Err`. The recursion is bounded by `fuel`
(the Rust function recurses freely; `Props/KeyEvent.lean` proves that `s.length + 1` always suffices). -/
def deserializeAux (x : Xkb) : Nat → Str → List KeyEvent → R (Option (List KeyEvent))
  | 0, _, _ => .ok none
  | fuel + 1, keys, cur =>
    let keys := trim keys
    if keys = [] then .ok (some cur)
    else match nextTok keys with
      | none => .ok none
      | some (tok, left) =>
        match fromStr x tok with
        | .error e => .error e
        | .ok none => .ok none
        | .ok (some ev) => deserializeAux x fuel left (cur ++ [ev])

/-- src/keyevent.rs:237-239 `deserialize_seq`. -/
def deserializeSeq (x : Xkb) (s : Str) : R (Option (List KeyEvent)) := deserializeAux x (s.length + 1) s []

end KeyEvent
end Cskk
