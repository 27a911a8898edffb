import Verif.Model.Numeric

/-!
# `(concat "…")` escaping in dictionary files (`src/dictionary/dictentry.rs:178-265`)

The three regular expressions are modelled by hand-written matchers with the leftmost, greedy semantics of the
`regex` crate (`.` does not match a newline).
-/

namespace Cskk
namespace LispFun

/-- The characters of the current line, up to a newline. -/
def lineOf (s : Str) : Str := s.takeWhile (· != '\n')

/-- Index just after the last `)` of `s`, if any. -/
def afterLastParen (s : Str) : Option Nat :=
  let r := s.reverse.dropWhile (· != ')')
  if r.isEmpty then none else some r.length

/-- Length of the match of `\(concat .*\)` at the beginning of `s`, if there is one. -/
def concatMatchLen (s : Str) : Option Nat :=
  if c%"(concat ".isPrefixOf s then
    (afterLastParen (lineOf (s.drop 8))).map (8 + ·)
  else none

/-- `CONCAT_REGEX.find_iter(entry)`: the matched texts (`skip` characters are inside the previous match). -/
def concatMatches : Nat → Str → List Str
  | _, [] => []
  | skip + 1, _ :: cs => concatMatches skip cs
  | 0, c :: cs =>
    match concatMatchLen (c :: cs) with
    | some n => (c :: cs).take n :: concatMatches (n - 1) cs
    | none => concatMatches 0 cs

/-- Octal digit. -/
def isOctal (c : Char) : Bool := decide ('0'.toNat ≤ c.toNat) && decide (c.toNat ≤ '7'.toNat)

/-- Length of the match of `\\[01234567]{1,3}\\?` at the beginning of `s`, if there is one. -/
def octalMatchLen : Str → Option Nat
  | '\\' :: cs =>
    let ds := (cs.take 3).takeWhile isOctal
    if ds.isEmpty then none
    else match cs.drop ds.length with
      | '\\' :: _ => some (1 + ds.length + 1)
      | _ => some (1 + ds.length)
  | _ => none

/-- `OCTAL_REGEX.find_iter(s)`: the matched texts. -/
def octalMatches : Nat → Str → List Str
  | _, [] => []
  | skip + 1, _ :: cs => octalMatches skip cs
  | 0, c :: cs =>
    match octalMatchLen (c :: cs) with
    | some n => (c :: cs).take n :: octalMatches (n - 1) cs
    | none => octalMatches 0 cs

/-- Value of the octal digits of a match (dictentry.rs:222-228); at most `0o777`, so `char::from_u32` succeeds. -/
def octalChar (m : Str) : Char :=
  Char.ofNat ((m.filter isOctal).foldl (fun a c => a * 8 + (c.toNat - 48)) 0)

/-- `ESCAPE_REGEX.replace_all(_, $1)` for `\\([^0-7])`. -/
def unescape : Str → Str
  | '\\' :: c :: cs => if isOctal c then '\\' :: unescape (c :: cs) else c :: unescape cs
  | c :: cs => c :: unescape cs
  | [] => []

/-- `trim_start_matches(pat)` for a non-empty string pattern. -/
def trimStartStr (pat : Str) : Nat → Str → Str
  | 0, s => s
  | n + 1, s => if pat.isPrefixOf s && !pat.isEmpty then trimStartStr pat n (s.drop pat.length) else s

/-- `trim_end_matches(c)`. -/
def trimEndChar (c : Char) (s : Str) : Str := (s.reverse.dropWhile (· == c)).reverse

/-- `strip_prefix('"').unwrap_or(self)`. -/
def stripQuoteStart : Str → Str
  | '"' :: cs => cs
  | s => s

/-- `strip_suffix('"').unwrap_or(self)`. -/
def stripQuoteEnd (s : Str) : Str :=
  if s.getLast? = some '"' then s.dropLast else s

/-- The text between the quotes of a match (dictentry.rs:209-216). -/
def concatBody (m : Str) : Str :=
  let f := trimStartStr c%"(concat" m.length m
  let f := f.dropWhile (· == ' ')
  let f := trimEndChar ')' f
  let f := trimEndChar ' ' f
  stripQuoteEnd (stripQuoteStart f)

/-- The replacement of one match (dictentry.rs:217-243); `none` is the `bail!` for an empty body. -/
def concatReplacement (m : Str) : Option Str :=
  let body := concatBody m
  if body.isEmpty then none
  else
    let replaced := (octalMatches 0 body).foldl (fun s om => replaceFirst om [octalChar om] s) body
    some (unescape replaced)

/-- dictentry.rs:186-252 `process_lisp_fun` / `process_lisp_fun_inner`: on an error the text is returned unchanged. -/
def process (entry : Str) : Str :=
  let ms := concatMatches 0 entry
  match ms.mapM concatReplacement with
  | none => entry
  | some reps => (ms.zip reps).foldl (fun s mr => replaceFirst mr.1 mr.2 s) entry

/-- dictentry.rs:255-265 `escape_dictionary_string`. -/
def escape (entry : Str) : Str :=
  if entry.contains ';' || entry.contains '/' then
    let s := replaceChar '/' c%"\\057" entry
    let s := replaceChar ';' c%"\\073" s
    let s := replaceChar '"' c%"\\\"" s
    c%"(concat \"" ++ s ++ c%"\")"
  else entry

end LispFun
end Cskk
