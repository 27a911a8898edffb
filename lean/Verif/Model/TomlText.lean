import Verif.Model.RuleText
import Verif.Model.Label

/-!
# The text of a TOML file (crate `toml`, as `src/rule.rs` and `src/form_changer/*.rs` use it)

The crate is not part of the repository: `toml::from_str` is modelled by hand, from TOML 1.0, for the part of the language which the files of
/repo/assets use: tables `[a.b]`, entries `key = "text"` and `key = ["text", …]` (an array may go over several lines), keys bare or
quoted, comments, and the escapes of one character in texts. For every other text (other types of values, dotted keys in entries, inline
tables, arrays of tables, `'…'` and multi-line texts, `\u`, carriage returns) the functions below give `none`, whether or not the text is valid TOML:
nothing is said about these files. Within this part, what is not valid TOML (a table or a key twice) is `none` as well.
-/

namespace Cskk
namespace TomlText

/-- The symbols of the text: a bare word, a text in quotes, or one of the characters `[ ] . = ,` and the end of a line. -/
inductive Tok
  | word (w : Str)
  | text (w : Str)
  | sign (c : Char)
  deriving DecidableEq, Repr

/-- The values of an entry. -/
inductive Value
  | text (s : Str)
  | list (l : List Str)
  deriving DecidableEq, Repr

/-- What the lines say. -/
inductive Item
  | header (path : List Str)
  | entry (key : Str) (v : Value)
  deriving DecidableEq, Repr

/-- The entries before the first header, and the tables. -/
structure Doc where
  root : List (Str × Value)
  tables : List (List Str × List (Str × Value))
  deriving DecidableEq, Repr

/-- TOML 1.0 "Keys": bare keys may only contain ASCII letters, ASCII digits, underscores, and dashes. -/
def bare (c : Char) : Bool := c.isAlphanum || c == '_' || c == '-'

/-- TOML 1.0 "Comment", "String": control characters other than tab are not permitted. -/
def printable (c : Char) : Bool := c == '\t' || (decide (0x20 ≤ c.toNat) && decide (c.toNat ≠ 0x7F))

/-- The characters which stand for themselves. -/
def signs : List Char := ['[', ']', '.', '=', ',', '\n']

/-- TOML 1.0 "String": the escapes of one character. -/
def escapes : List (Char × Char) :=
  [('b', '\x08'), ('t', '\t'), ('n', '\n'), ('f', '\x0c'), ('r', '\r'), ('"', '"'), ('\\', '\\')]

/-- Where the reader of symbols is: between symbols, in a word, in a text, behind a backslash in a text, in a comment (the symbol so far
in reverse). -/
inductive At
  | out
  | word (w : Str)
  | text (w : Str)
  | esc (w : Str)
  | comment
  deriving DecidableEq, Repr

/-- A character between symbols (crate `toml`). -/
def start (ts : List Tok) (c : Char) : Option (List Tok × At) :=
  if c = ' ' ∨ c = '\t' then some (ts, .out)
  else if c = '#' then some (ts, .comment)
  else if c = '"' then some (ts, .text [])
  else if c ∈ signs then some (.sign c :: ts, .out)
  else if bare c then some (ts, .word [c])
  else none

/-- The next character (crate `toml`). -/
def step (ts : List Tok) (q : At) (c : Char) : Option (List Tok × At) :=
  match q with
  | .out => start ts c
  | .word w => if bare c then some (ts, .word (c :: w)) else start (.word w.reverse :: ts) c
  | .text w =>
    if c = '"' then some (.text w.reverse :: ts, .out)
    else if c = '\\' then some (ts, .esc w)
    else if printable c then some (ts, .text (c :: w))
    else none
  | .esc w => (escapes.find? fun p => decide (p.1 = c)).map fun p => (ts, .text (p.2 :: w))
  | .comment => if c = '\n' then some (.sign c :: ts, .out) else if printable c then some (ts, .comment) else none

/-- The end of the text. -/
def finish (ts : List Tok) : At → Option (List Tok)
  | .out | .comment => some ts.reverse
  | .word w => some (.word w.reverse :: ts).reverse
  | .text _ | .esc _ => none

/-- All characters, one by one. -/
def run (ts : List Tok) (q : At) : Str → Option (List Tok)
  | [] => finish ts q
  | c :: l =>
    match step ts q c with
    | none => none
    | some r => run r.1 r.2 l

/-- The symbols of a text. -/
def lex (s : Str) : Option (List Tok) := run [] .out s

/-- Where the reader of lines is: at the beginning of a line; in a header before a name and behind one; behind the key of an entry; behind its `=`; in
an array, behind `[` or a comma and behind a text; at the end of a line. -/
inductive Pos
  | bol
  | headKey (path : List Str)
  | headDot (path : List Str)
  | key (k : Str)
  | value (k : Str)
  | item (k : Str) (l : List Str)
  | comma (k : Str) (l : List Str)
  | eol
  deriving DecidableEq, Repr

/-- A key, bare or quoted. -/
def keyOf : Tok → Option Str
  | .word w => some w
  | .text w => some w
  | .sign _ => none

/-- The next symbol (crate `toml`). -/
def next (is : List Item) (q : Pos) (t : Tok) : Option (List Item × Pos) :=
  match q with
  | .bol =>
    if t = .sign '\n' then some (is, .bol)
    else if t = .sign '[' then some (is, .headKey [])
    else (keyOf t).map fun k => (is, .key k)
  | .headKey p => (keyOf t).map fun k => (is, .headDot (k :: p))
  | .headDot p =>
    if t = .sign '.' then some (is, .headKey p)
    else if t = .sign ']' then some (.header p.reverse :: is, .eol)
    else none
  | .key k => if t = .sign '=' then some (is, .value k) else none
  | .value k =>
    match t with
    | .text w => some (.entry k (.text w) :: is, .eol)
    | t => if t = .sign '[' then some (is, .item k []) else none
  | .item k l =>
    match t with
    | .text w => some (is, .comma k (w :: l))
    | t =>
      if t = .sign '\n' then some (is, .item k l)
      else if t = .sign ']' then some (.entry k (.list l.reverse) :: is, .eol)
      else none
  | .comma k l =>
    if t = .sign '\n' then some (is, .comma k l)
    else if t = .sign ',' then some (is, .item k l)
    else if t = .sign ']' then some (.entry k (.list l.reverse) :: is, .eol)
    else none
  | .eol => if t = .sign '\n' then some (is, .bol) else none

/-- All symbols, one by one. -/
def parseFrom (is : List Item) (q : Pos) : List Tok → Option (List Item)
  | [] => if q = .bol ∨ q = .eol then some is.reverse else none
  | t :: ts =>
    match next is q t with
    | none => none
    | some r => parseFrom r.1 r.2 ts

/-- What the lines of a file say. -/
def parse (ts : List Tok) : Option (List Item) := parseFrom [] .bol ts

/-- The entries behind a header belong to its table. -/
def group : List Item → List (Str × Value) × List (List Str × List (Str × Value))
  | [] => ([], [])
  | .entry k v :: is => ((k, v) :: (group is).1, (group is).2)
  | .header p :: is => ([], (p, (group is).1) :: (group is).2)

/-- No two are equal. -/
def distinct {α : Type} [DecidableEq α] : List α → Bool
  | [] => true
  | a :: l => !l.contains a && distinct l

/-- TOML 1.0 "Keys", "Table": a key or a table cannot be defined more than once, and a key with a value is not a table. -/
def lawful (d : Doc) : Bool :=
  distinct (d.tables.map (·.1)) &&
    (([], d.root) :: d.tables).all fun t =>
      distinct (t.2.map (·.1)) && d.tables.all fun u => t.2.all fun e => !(t.1 ++ [e.1]).isPrefixOf u.1

/-- `toml::from_str` up to the types of the values. -/
def document (s : Str) : Option Doc := do
  let ts ← lex s
  let is ← parse ts
  let d : Doc := ⟨(group is).1, (group is).2⟩
  if lawful d then some d else none

/-- The array of an entry. -/
def listOf : Value → Option (List Str)
  | .list l => some l
  | .text _ => none

/-- The text of an entry. -/
def textOf : Value → Option Str
  | .text s => some s
  | .list _ => none

/-- The entries of a table which all are arrays. -/
def lists : List (Str × Value) → Option (List (Str × List Str))
  | [] => some []
  | (k, v) :: es => do
    let l ← listOf v
    let ls ← lists es
    return (k, l) :: ls

/-- The entries of a table which all are texts. -/
def texts : List (Str × Value) → Option (List (Str × Str))
  | [] => some []
  | (k, v) :: es => do
    let t ← textOf v
    let ts ← texts es
    return (k, t) :: ts

/-- rule.rs:10-11 `HashMap<String, (String, String)>`: arrays of two texts. -/
def pairs : List (Str × List Str) → Option (List (Str × Str × Str))
  | [] => some []
  | (k, [a, b]) :: es => (pairs es).map ((k, a, b) :: ·)
  | _ :: _ => none

/-- A table of tables: the table is put at the end of its section. -/
def addTable (ss : List (Str × List (Str × List (Str × List Str)))) (s t : Str) (es : List (Str × List Str)) :
    List (Str × List (Str × List (Str × List Str))) :=
  match ss with
  | [] => [(s, [(t, es)])]
  | (s', ts) :: ss => if s' = s then (s', ts ++ [(t, es)]) :: ss else (s', ts) :: addTable ss s t es

/-- rule.rs:9-14, 30-91: the tables of a rule file. Tables with an unknown first name are ignored (the annotation `flatten`). `[section]` without
entries adds nothing; `[section]` with entries, and longer paths in a known section, are outside of the model. -/
def sections (ss : List (Str × List (Str × List (Str × List Str)))) : List (List Str × List (Str × Value)) →
    Option (List (Str × List (Str × List (Str × List Str))))
  | [] => some ss
  | (p, es) :: ds =>
    match p with
    | [] => none
    | s :: p =>
      match RuleText.sectionMode s with
      | none => sections ss ds
      | some _ =>
        match p with
        | [] => if es = [] then sections ss ds else none
        | [t] =>
          match lists es with
          | none => none
          | some ls => sections (addTable ss s t ls) ds
        | _ => none

/-- rule.rs:10-11: the table `conversion`; `some none`: there is none. (`[conversion.x]` is outside of the model; entries before the first
header are as well.) -/
def conversion (d : Doc) : Option (Option (List (Str × Str × Str))) :=
  if d.tables.any fun t => decide (t.1.head? = some c%"conversion" ∧ 2 ≤ t.1.length) then none
  else
    match d.tables.find? fun t => decide (t.1 = [c%"conversion"]) with
    | none => some none
    | some t => ((lists t.2).bind pairs).map some

/-- rule.rs:125-131: `toml::from_str::<CskkRule>`, up to the texts of keys and instructions. -/
def ruleOf (d : Doc) : Option RuleText.Toml :=
  if d.root = [] then do
    let conv ← conversion d
    let ss ← sections [] d.tables
    return ⟨conv, ss⟩
  else none

/-- rule.rs:22-28 `CskkRuleMetadataEntry`: the three fields; others are ignored. -/
def metadataEntry (id : Str) (es : List (Str × Str)) : Option (Str × Str × Str × Str) := do
  let name ← assocGet es c%"name"
  let description ← assocGet es c%"description"
  let path ← assocGet es c%"path"
  return (id, name, description, path)

/-- rule.rs:161-174: `toml::from_str::<BTreeMap<String, CskkRuleMetadataEntry>>`: identifier, name, description and path, in the order of
the file (the map is only looked up here). Entries which are not texts and tables in tables are outside of the model. -/
def metadataTables : List (List Str × List (Str × Value)) → Option (List (Str × Str × Str × Str))
  | [] => some []
  | ([id], es) :: ds => do
    let ts ← texts es
    let e ← metadataEntry id ts
    let r ← metadataTables ds
    return e :: r
  | _ :: _ => none

/-- The same for a document. -/
def metadataOf (d : Doc) : Option (List (Str × Str × Str × Str)) := if d.root = [] then metadataTables d.tables else none

/-- `File::open`, `read_to_string` and `toml::from_str`: `read` gives the bytes of a file, if there is one. -/
def fileAt (read : Str → Option Bytes) (path : Str) : Option Doc := do
  let bs ← read path
  let s ← Label.strict bs
  document s

/-- rule.rs:125-131 `load_rule_file`. A key on which the reader of keys panics (C60) is an error here. -/
def ruleAt (x : Xkb) (read : Str → Option Bytes) (path : Str) : Option RuleLoad.Rule := do
  let d ← fileAt read path
  let t ← ruleOf d
  match RuleText.load x t with
  | .ok r => r
  | .error _ => none

/-- rule.rs:161-174 `load_metadata_from_path`, rule.rs:125-131 `load_rule_file`. -/
def filesOf (x : Xkb) (read : Str → Option Bytes) : RuleLoad.Files where
  metadata dir := do
    let d ← fileAt read (RuleLoad.push dir c%"metadata.toml")
    let m ← metadataOf d
    return m.map fun e => (e.1, e.2.2.2)
  rule := ruleAt x read

/-- A field `Vec<String>` with `#[serde(default)]`. -/
def listField (d : Doc) (name : Str) : Option (List Str) :=
  match d.root.find? fun e => decide (e.1 = name) with
  | none => some []
  | some e => listOf e.2

/-- ascii_form_changer.rs:11-17, 37-53 `from_string`. -/
def asciiForm (d : Doc) : Option AsciiFormChanger :=
  if d.tables = [] then do
    let h ← listField d c%"hankaku"
    let z ← listField d c%"zenkaku"
    return AsciiFormChanger.fromLists h z
  else none

/-- A field `BTreeMap<String, String>` with `#[serde(default)]`. -/
def tableField (d : Doc) (name : Str) : Option (List (Str × Str)) :=
  match d.tables.find? fun t => decide (t.1 = [name]) with
  | none => some []
  | some t => texts t.2

/-- kana_form_changer.rs:14-20, 141-160 `from_string`. -/
def kanaForm (d : Doc) : Option KanaFormChanger :=
  if d.root = [] ∧ d.tables.all (fun t => decide (t.1.length = 1)) then do
    let k ← tableField d c%"katakana"
    let j ← tableField d c%"jisx0201"
    return ⟨k, j⟩
  else none

end TomlText
end Cskk
