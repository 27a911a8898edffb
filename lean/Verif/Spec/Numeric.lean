import Verif.Model.Basic

/-!
# Specifications for numeric conversion, independent of the model's conversion functions
-/

namespace Cskk.Spec.Numeric

/-- Value of a list of digits, most significant first. -/
def decVal : List Nat → Nat
  | [] => 0
  | d :: ds => d * 10 ^ ds.length + decVal ds

/-- Value of an ASCII digit. -/
def asciiDigit (c : Char) : Option Nat :=
  if 0x30 ≤ c.toNat ∧ c.toNat ≤ 0x39 then some (c.toNat - 0x30) else none

/-- `s` is a non-empty ASCII decimal numeral denoting `n`. -/
def Denotes (s : Str) (n : Nat) : Prop := s ≠ [] ∧ ∃ ds, s.mapM asciiDigit = some ds ∧ decVal ds = n

/-! ## Reading kanji numerals -/

/-- Kanji digits, plain and formal. -/
def kanjiDigit : Char → Option Nat
  | '〇' | '零' => some 0
  | '一' | '壱' => some 1
  | '二' | '弐' => some 2
  | '三' | '参' => some 3
  | '四' => some 4
  | '五' | '伍' => some 5
  | '六' => some 6
  | '七' => some 7
  | '八' => some 8
  | '九' => some 9
  | _ => none

/-- Units inside a group of four digits. -/
def smallUnit : Char → Option Nat
  | '十' | '拾' => some 10
  | '百' => some 100
  | '千' | '阡' => some 1000
  | _ => none

/-- Units of groups of four digits. -/
def bigUnit : Char → Option Nat
  | '万' | '萬' => some (10 ^ 4)
  | '億' => some (10 ^ 8)
  | '兆' => some (10 ^ 12)
  | '京' => some (10 ^ 16)
  | _ => none

/-- Reader state: value of the finished groups, value of the current group, a digit just read, and the units
which the next small (big) unit has to be smaller than. -/
structure Reader where
  total : Nat
  group : Nat
  digit : Option Nat
  small : Nat
  big : Nat
  deriving Repr, DecidableEq

/-- Read one character; `none` when the numeral is not well formed (two digits in a row, units not decreasing,
empty group). -/
def Reader.step (r : Reader) (c : Char) : Option Reader :=
  match kanjiDigit c with
  | some d => if r.digit.isNone then some { r with digit := some d } else none
  | none =>
    match smallUnit c with
    | some u =>
      if u < r.small ∧ r.digit ≠ some 0 then
        some { r with group := r.group + r.digit.getD 1 * u, digit := none, small := u }
      else none
    | none =>
      match bigUnit c with
      | some u =>
        if u < r.big ∧ 0 < r.group + r.digit.getD 0 then
          some { total := r.total + (r.group + r.digit.getD 0) * u, group := 0, digit := none, small := 10 ^ 4, big := u }
        else none
      | none => none

/-- Read a whole text. -/
def Reader.run (r : Reader) : Str → Option Reader
  | [] => some r
  | c :: cs => (r.step c).bind fun r' => r'.run cs

/-- The number a kanji numeral denotes; `none` for texts that are not numerals. -/
def readKanji (s : Str) : Option Nat :=
  match s with
  | [] => none
  | _ => (Reader.run ⟨0, 0, none, 10 ^ 4, 10 ^ 20⟩ s).map fun r => r.total + r.group + r.digit.getD 0

/-! ## Style of kanji numerals -/

/-- In `s` every 千/百/十 (or formal variant) directly follows a non-zero digit: 一 is never omitted. -/
def ExplicitOnes (s : Str) : Prop :=
  ∀ pre u post, s = pre ++ u :: post → (smallUnit u).isSome →
    ∃ pre' c d, pre = pre' ++ [c] ∧ kanjiDigit c = some d ∧ 0 < d

/-- In `s` no 一 (or 壱) directly precedes 千/百/十. -/
def OmitsOnes (s : Str) : Prop :=
  ∀ pre c u post, s = pre ++ c :: u :: post → (smallUnit u).isSome → kanjiDigit c ≠ some 1

/-- Characters of ordinary kanji numerals. -/
def plainNumerals : Str := c%"〇一二三四五六七八九十百千万億兆京"

/-- Characters of formal numerals (大字) as in ddskk. -/
def formalNumerals : Str := c%"零壱弐参四伍六七八九拾百阡萬億兆京"

/-- Characters of the formal numerals which present law prescribes. -/
def legalNumerals : Str := c%"〇壱弐参四五六七八九拾百千万億兆京"

/-! ## Digit by digit -/

/-- `t` is `s` with every ASCII digit replaced by its full-width form. -/
def FullWidthDigits (s t : Str) : Prop :=
  t.length = s.length ∧ ∀ (i : Nat) (c : Char), s[i]? = some c → ∃ d, t[i]? = some d ∧
    ((asciiDigit c).isSome → d.toNat = c.toNat + 0xFEE0) ∧ (asciiDigit c = none → d = c)

/-- `t` is `s` with every ASCII digit replaced by the ordinary kanji of the same value. -/
def KanjiDigits (s t : Str) : Prop :=
  t.length = s.length ∧ ∀ (i : Nat) (c : Char), s[i]? = some c → ∃ d, t[i]? = some d ∧
    (∀ k, asciiDigit c = some k → kanjiDigit d = some k ∧ d ∈ plainNumerals) ∧ (asciiDigit c = none → d = c)

/-! ## Thousands separators -/

/-- A comma after every third character, counted from the left, even at the end. -/
def commaAfterThree : Str → Str
  | a :: b :: c :: s => a :: b :: c :: ',' :: commaAfterThree s
  | s => s

/-- `t` is `s` cut into groups of three counted from the right, joined by commas. -/
def ThousandGrouped (s t : Str) : Prop :=
  ∃ (g : Str) (gs : List Str), s = g ++ gs.flatten ∧ 1 ≤ g.length ∧ g.length ≤ 3 ∧ (∀ x ∈ gs, x.length = 3) ∧
    t = g ++ gs.flatMap fun x => ',' :: x

/-! ## Numeric readings -/

/-- Replace every maximal run of digits by one `#`; `inRun` tells whether the previous character was a digit. -/
def hashRuns (isDigit : Char → Bool) (inRun : Bool) : Str → Str
  | [] => []
  | c :: cs =>
    if isDigit c then (if inRun then hashRuns isDigit true cs else '#' :: hashRuns isDigit true cs)
    else c :: hashRuns isDigit false cs

/-- `s` decomposes into non-digit pieces and the maximal digit runs `runs`:
`s = n₀ r₁ n₁ r₂ n₂ … rₖ nₖ` with the inner `nᵢ` non-empty. -/
inductive RunSplit (isDigit : Char → Bool) : Str → List Str → Prop
  | none (n : Str) : (∀ c ∈ n, isDigit c = false) → RunSplit isDigit n []
  | run (n r s : Str) (rs : List Str) : (∀ c ∈ n, isDigit c = false) → r ≠ [] → (∀ c ∈ r, isDigit c = true) →
      (∀ c, s.head? = some c → isDigit c = false) → RunSplit isDigit s rs →
      RunSplit isDigit (n ++ r ++ s) (r :: rs)

/-! ## Numeric templates -/

/-- A template: literal text or a marker `#d`. -/
inductive Piece where
  | lit (c : Char)
  | mark (d : Char)
  deriving Repr, DecidableEq

/-- The text of a template. -/
def Piece.text : Piece → Str
  | .lit c => [c]
  | .mark d => ['#', d]

/-- All fillings of a template: the `k`-th marker is replaced by any text that `conv` offers for the `k`-th
number; markers without a number stay. -/
def fill (conv : Char → Str → List Str) : List Piece → List Str → List Str
  | [], _ => [[]]
  | .lit c :: ps, ns => (fill conv ps ns).map (c :: ·)
  | .mark d :: ps, n :: ns => (conv d n).flatMap fun t => (fill conv ps ns).map (t ++ ·)
  | .mark d :: ps, [] => (fill conv ps []).map (['#', d] ++ ·)

end Cskk.Spec.Numeric
