import Verif.Model.Modes

/-!
# Character form changers (`src/form_changer/ascii_form_changer.rs`, `kana_form_changer.rs`)

A `BTreeMap<String, String>` that is only read is an association list looked up from the front; `insert` conses
(so that a later insertion for the same key wins).  Reading the TOML files is not modelled: the parsed tables are
the inputs.
-/

namespace Cskk

/-- `BTreeMap::get` on an association list. -/
def assocGet (m : List (Str × Str)) (k : Str) : Option Str := (m.find? (·.1 = k)).map (·.2)

/-- `AsciiFormChanger` (ascii_form_changer.rs:7-9). -/
structure AsciiFormChanger where
  zenkakuMap : List (Str × Str)

namespace AsciiFormChanger

/-- ascii_form_changer.rs:37-53 `from_string`, from the parsed lists on. -/
def fromLists (hankaku zenkaku : List Str) : AsciiFormChanger :=
  if zenkaku.length ≠ hankaku.length then ⟨[]⟩
  else ⟨(hankaku.zip zenkaku).foldl (fun m kv => kv :: m) []⟩

/-- ascii_form_changer.rs:55-61 `adjust_ascii_char`. -/
def adjustChar (f : AsciiFormChanger) (c : Char) : Str :=
  match assocGet f.zenkakuMap [c] with
  | some z => z
  | none => [c]

/-- ascii_form_changer.rs:63-73 `adjust_ascii_string`. -/
def adjustString (f : AsciiFormChanger) (s : Str) : Str :=
  s.foldl (fun result c =>
    match assocGet f.zenkakuMap [c] with
    | some z => result ++ z
    | none => result ++ [c]) []

end AsciiFormChanger

/-- `KanaFormChanger` (kana_form_changer.rs:7-12); the two `*_key_maxlen` fields are computed from the tables. -/
structure KanaFormChanger where
  katakana : List (Str × Str)
  jisx0201 : List (Str × Str)

namespace KanaFormChanger

/-- kana_form_changer.rs:143-154: longest key in characters, 0 if there is none. -/
def keyMaxlen (m : List (Str × Str)) : Nat := (m.map (·.1.length)).foldl max 0

/-- The loop `for i in (1..max_len + 1).rev()` (kana_form_changer.rs:221-231): the first `i`, counting down,
whose prefix is a key. -/
def findPrefix (m : List (Str × Str)) (s : Str) : Nat → Option (Str × Str)
  | 0 => none
  | i + 1 =>
    match assocGet m (s.take (i + 1)) with
    | some r => some (r, s.drop (i + 1))
    | none => findPrefix m s i

/-- kana_form_changer.rs:211-239 `adjust_kana_string_inner_recur`; `fuel` bounds the recursion (the string gets
shorter in each call, `Props/Forms.lean` shows that its length suffices). -/
def adjustAux (m : List (Str × Str)) (maxLen : Nat) : Nat → Str → Str → Str
  | 0, _, adjusted => adjusted
  | fuel + 1, s, adjusted =>
    match s with
    | [] => adjusted
    | c :: cs =>
      match findPrefix m (c :: cs) maxLen with
      | some (r, rest) => adjustAux m maxLen fuel rest (adjusted ++ r)
      | none => adjustAux m maxLen fuel cs (adjusted ++ [c])

/-- kana_form_changer.rs:190-208 `adjust_kana_string`. -/
def adjust (f : KanaFormChanger) (im : InputMode) (kana : Str) : Str :=
  match im with
  | .katakana => adjustAux f.katakana (keyMaxlen f.katakana) kana.length kana []
  | .hankakuKatakana => adjustAux f.jisx0201 (keyMaxlen f.jisx0201) kana.length kana []
  | _ => kana

/-- kana_form_changer.rs:34-120 `KANA_ROM_MAP`, one group per consonant. -/
def kanaRomMap : List (List Char × Char) :=
  [(c%"あ", 'a'), (c%"い", 'i'), (c%"う", 'u'), (c%"え", 'e'), (c%"お", 'o'), (c%"かきくけこ", 'k'),
   (c%"さしすせそ", 's'), (c%"たちつてとっ", 't'), (c%"なにぬねのん", 'n'), (c%"はひふへほ", 'h'),
   (c%"まみむめも", 'm'), (c%"やゆよ", 'y'), (c%"らりるれろ", 'r'), (c%"わを", 'w'),
   (c%"ゐゑぁぃぅぇぉゃゅょゎ", 'x'), (c%"がぎぐげご", 'g'), (c%"ざじずぜぞ", 'z'), (c%"だぢづでど", 'd'),
   (c%"ばびぶべぼ", 'b'), (c%"ぱぴぷぺぽ", 'p')]

/-- kana_form_changer.rs:245-247 `kana_to_okuri_prefix`. -/
def okuriPrefix (c : Char) : Option Char := (kanaRomMap.find? (fun g => g.1.contains c)).map (·.2)

end KanaFormChanger
end Cskk
