import Verif.Model.Basic

/-!
# Model of `src/form_changer/numeric_form_changer.rs` and of the numeric part of `src/dictionary/mod.rs`
-/

namespace Cskk

/-- First code points of the 68 runs of ten decimal digits of Unicode 15 (general category Nd), which is what
`\d` matches in the `regex` crate 1.9.1. External fact, part of the trusted base. -/
def ndZeros : List Nat :=
  [0x30, 0x660, 0x6F0, 0x7C0, 0x966, 0x9E6, 0xA66, 0xAE6, 0xB66, 0xBE6, 0xC66, 0xCE6, 0xD66, 0xDE6, 0xE50, 0xED0,
   0xF20, 0x1040, 0x1090, 0x17E0, 0x1810, 0x1946, 0x19D0, 0x1A80, 0x1A90, 0x1B50, 0x1BB0, 0x1C40, 0x1C50, 0xA620,
   0xA8D0, 0xA900, 0xA9D0, 0xA9F0, 0xAA50, 0xABF0, 0xFF10, 0x104A0, 0x10D30, 0x11066, 0x110F0, 0x11136, 0x111D0,
   0x112F0, 0x11450, 0x114D0, 0x11650, 0x116C0, 0x11730, 0x118E0, 0x11950, 0x11C50, 0x11D50, 0x11DA0, 0x11F50,
   0x16A60, 0x16AC0, 0x16B50, 0x1D7CE, 0x1D7D8, 0x1D7E2, 0x1D7EC, 0x1D7F6, 0x1E140, 0x1E2F0, 0x1E4F0, 0x1E950,
   0x1FBF0]

/-- Regex class `\d` (Unicode). -/
def isNd (c : Char) : Bool := ndZeros.any fun z => decide (z ≤ c.toNat) && decide (c.toNat < z + 10)

/-- ASCII digit. -/
def isAsciiDigit (c : Char) : Bool := decide (0x30 ≤ c.toNat) && decide (c.toNat ≤ 0x39)

/-- `Regex::new(r"\d+").find_iter(s)`: maximal runs, left to right (`numeric_form_changer.rs:4`,
`dictionary/mod.rs:323`). `acc` is the run being read. -/
def digitRunsAux (acc : Str) : Str → List Str
  | [] => if acc.isEmpty then [] else [acc]
  | c :: cs =>
    if isNd c then digitRunsAux (acc ++ [c]) cs
    else if acc.isEmpty then digitRunsAux [] cs else acc :: digitRunsAux [] cs

/-- All matches of `\d+`. -/
def digitRuns (s : Str) : List Str := digitRunsAux [] s

/-- `str::replacen(pat, rep, 1)` for a non-empty pattern. -/
def replaceFirst (pat rep : Str) : Str → Str
  | [] => []
  | c :: cs => if pat.isPrefixOf (c :: cs) then rep ++ (c :: cs).drop pat.length else c :: replaceFirst pat rep cs

/-- `str::replace(pat, rep)` for a pattern consisting of one character. -/
def replaceChar (pat : Char) (rep : Str) (s : Str) : Str := s.flatMap fun c => if c = pat then rep else [c]

/-- The successive `replace` loop over a table of one-character patterns. -/
def replaceTable (tbl : List (Char × Char)) (s : Str) : Str :=
  tbl.foldl (fun s e => replaceChar e.1 [e.2] s) s

namespace Numeric

/-- `numeric_form_changer.rs:7` -/
def digitChars : List Char := ['0', '1', '2', '3', '4', '5', '6', '7', '8', '9']
/-- `numeric_form_changer.rs:8-9` -/
def zenkakuChars : List Char := ['０', '１', '２', '３', '４', '５', '６', '７', '８', '９']
/-- `numeric_form_changer.rs:10-11` -/
def kanjiDigits : List Char := ['〇', '一', '二', '三', '四', '五', '六', '七', '八', '九']
/-- `numeric_form_changer.rs:13` -/
def kurai : List Str := [[], ['万'], ['億'], ['兆'], ['京']]
/-- `numeric_form_changer.rs:15-18` -/
def kanjiNums : List Char :=
  ['〇', '一', '二', '三', '四', '五', '六', '七', '八', '九', '十', '百', '千', '万', '億', '兆', '京']
/-- `numeric_form_changer.rs:20-23` -/
def daiji : List Char :=
  ['零', '壱', '弐', '参', '四', '伍', '六', '七', '八', '九', '拾', '百', '阡', '萬', '億', '兆', '京']
/-- `numeric_form_changer.rs:25-28` -/
def legalDaiji : List Char :=
  ['〇', '壱', '弐', '参', '四', '五', '六', '七', '八', '九', '拾', '百', '千', '万', '億', '兆', '京']

/-- `numeric_form_changer.rs:30-36` `numeric_to_kanji_each`. -/
def kanjiEach (s : Str) : Str := replaceTable (digitChars.zip kanjiDigits) s

/-- `numeric_form_changer.rs:141-147` `numeric_to_zenkaku`. -/
def zenkaku (s : Str) : Str := replaceTable (digitChars.zip zenkakuChars) s

/-- `numeric_form_changer.rs:96-101`: least significant digit first, `k` digits. -/
def keta : Nat → Nat → List Nat
  | 0, _ => []
  | k + 1, n => n % 10 :: keta k (n / 10)

/-- `numeric_form_changer.rs:110-116` (and 117-123, 124-130): one of 千, 百, 十. -/
def unitPart (explicitOne : Bool) (n : Nat) (u : Char) : Str :=
  if n ≠ 0 then (if n ≠ 1 || explicitOne then [kanjiDigits.getD n '〇'] else []) ++ [u] else []

/-- `numeric_form_changer.rs:105-136`: body of the loop for one group of four digits `d3 d2 d1 d0`. -/
def groupPart (explicitOne : Bool) (d3 d2 d1 d0 : Nat) (ku : Str) : Str :=
  if !(d0 == 0 && d1 == 0 && d2 == 0 && d3 == 0) then
    unitPart explicitOne d3 '千' ++ unitPart explicitOne d2 '百' ++ unitPart explicitOne d1 '十' ++
      (if d0 ≠ 0 then [kanjiDigits.getD d0 '〇'] else []) ++ ku
  else []

/-- `numeric_form_changer.rs:103-138`: groups from the most significant one (index 4) down to index 0. -/
def groupsPart (explicitOne : Bool) (kt : List Nat) : List Nat → Str
  | [] => []
  | i :: is =>
    groupPart explicitOne (kt.getD (i * 4 + 3) 0) (kt.getD (i * 4 + 2) 0) (kt.getD (i * 4 + 1) 0) (kt.getD (i * 4) 0)
      (kurai.getD i []) ++ groupsPart explicitOne kt is

/-- `numeric_form_changer.rs:87-139` `format_number_kuraidori_nashi_kanji`; `n` is a `u64`. -/
def formatKanji (n : Nat) (explicitOne : Bool) : Str :=
  if n ≥ 10000000000000000000 then c%"数字が大きすぎます"
  else if n = 0 then ['〇']
  else groupsPart explicitOne (keta 20 n) [4, 3, 2, 1, 0]

/-- Value of a string of ASCII digits. -/
def asciiVal (s : Str) : Nat := s.foldl (fun a c => a * 10 + (c.toNat - 0x30)) 0

/-- `str::parse::<u64>()` on a non-empty match of `\d+`: only ASCII digits are accepted, `none` on overflow. -/
def parseU64 (s : Str) : Option Nat :=
  if s.all isAsciiDigit && !s.isEmpty then
    if asciiVal s < 2 ^ 64 then some (asciiVal s) else none
  else none

/-- Replace the first match of `\d+` in `s` by `f match` (`Regex::find` + `replace_range`,
`numeric_form_changer.rs:42-51` and `63-75`). -/
def replaceFirstRun (f : Str → R Str) (s : Str) : R Str :=
  let pre := s.takeWhile fun c => !isNd c
  let rest := s.dropWhile fun c => !isNd c
  let run := rest.takeWhile isNd
  if run.isEmpty then .ok s
  else do
    let r ← f run
    return pre ++ r ++ rest.dropWhile isNd

/-- `numeric_form_changer.rs:41-52` `numeric_to_simple_kanji_as_number`; `parse().unwrap()` panics. -/
def simpleKanji (s : Str) : R Str :=
  replaceFirstRun (fun run => match parseU64 run with
    | some n => .ok (formatKanji n false)
    | none => .error .unwrap) s

/-- `numeric_form_changer.rs:57-77` `numeric_to_daiji_as_number`. -/
def daijiNum (s : Str) (legal : Bool) : R Str :=
  replaceFirstRun (fun run => match parseU64 run with
    | some n => .ok (replaceTable (kanjiNums.zip (if legal then legalDaiji else daiji)) (formatKanji n true))
    | none => .error .unwrap) s

/-- Length in bytes of the UTF-8 encoding of a character. -/
def utf8Len (c : Char) : Nat :=
  if c.toNat < 0x80 then 1 else if c.toNat < 0x800 then 2 else if c.toNat < 0x10000 then 3 else 4

/-- `numeric_form_changer.rs:160-168`: the loop with its counter. -/
def sepLoop (len : Nat) : Nat → Str → Str
  | _, [] => []
  | cnt, c :: cs => c :: ((if cnt % 3 == 2 && cnt < len then [','] else []) ++ sepLoop len (cnt + 1) cs)

/-- `numeric_form_changer.rs:152-171` `numeric_to_thousand_separator`; `num_len` is a byte length. -/
def thousandSep (s : Str) : Str :=
  let rest := s.dropWhile fun c => !isNd c
  let run := rest.takeWhile isNd
  if run.isEmpty then []
  else
    let len := (run.map utf8Len).sum
    if len < 4 then run else sepLoop len (3 - len % 3) run

/-- `dictionary/mod.rs:330-344` `to_composite_to_numeric_dict_key`, on the reading only (the okuri is copied). -/
def numericKey (s : Str) : Str × List Str :=
  let runs := digitRuns s
  (runs.foldl (fun k r => replaceFirst r ['#'] k) s, runs)

/-- Regex class `[0123458]` (`dictionary/mod.rs:368`, `398`). -/
def isMarkerDigit (c : Char) : Bool :=
  c == '0' || c == '1' || c == '2' || c == '3' || c == '4' || c == '5' || c == '8'

/-- `Regex::new(r"#[0123458]").find_iter(s)`: the digits of the markers, left to right. -/
def markers : Str → List Char
  | '#' :: d :: cs => if isMarkerDigit d then d :: markers cs else markers (d :: cs)
  | _ :: cs => markers cs
  | [] => []

/-- `dictionary/mod.rs:354-356` `numeric_string_count`. -/
def numericStringCount (s : Str) : Nat := (digitRuns s).length

/-- `dictionary/mod.rs:366-371` `numeric_entry_count`. -/
def numericEntryCount (s : Str) : Nat := (markers s).length

/-- The texts one marker can stand for: the arms of the match in `dictionary/mod.rs:403-490`. `lookup` is the
re-lookup of `#4` (`get_all_candidates_inner(_, _, true)`, the kouho texts). -/
def markerTexts (lookup : Str → List Str) (d : Char) (num : Str) : R (List Str) :=
  if d = '0' then .ok [num]
  else if d = '1' then .ok [zenkaku num]
  else if d = '2' then .ok [kanjiEach num]
  else if d = '3' then do let t ← simpleKanji num; return [t]
  else if d = '4' then .ok (lookup num)
  else if d = '5' then do let a ← daijiNum num false; let b ← daijiNum num true; return [a, b]
  else .ok [thousandSep num]

/-- `dictionary/mod.rs:400-493`: one marker after the other; `numbers` are the remaining numbers. For the
`#3`/`#5` markers the code converts inside the loop over the current texts, so nothing is converted (and
nothing panics) when there are no current texts. -/
def replaceLoop (lookup : Str → List Str) : List Char → List Str → List Str → R (List Str)
  | d :: ds, num :: nums, texts => do
    if texts.isEmpty then replaceLoop lookup ds nums []
    else
      let reps ← markerTexts lookup d num
      replaceLoop lookup ds nums (texts.flatMap fun t => reps.map fun r => replaceFirst ['#', d] r t)
  | _, _, texts => .ok texts

/-- `dictionary/mod.rs:392-494` `replace_numeric_string`. -/
def replaceNumericString (lookup : Str → List Str) (kouho : Str) (numbers : List Str) : R (List Str) :=
  replaceLoop lookup (markers kouho) numbers [kouho]

end Numeric
end Cskk
