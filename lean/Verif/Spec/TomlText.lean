import Verif.Model.TomlText
import Verif.Spec.RuleText

/-!
# What the text of a TOML file says

A grammar of the part of TOML 1.0 which the shipped files use, and what a rule file written in it should mean.
-/

namespace Cskk.Spec.TomlText

open Cskk.TomlText (Tok Value Item Doc)

/-- Letters, digits, underscores and dashes of ASCII. -/
def Bare (c : Char) : Prop :=
  ('a' ≤ c ∧ c ≤ 'z') ∨ ('A' ≤ c ∧ c ≤ 'Z') ∨ ('0' ≤ c ∧ c ≤ '9') ∨ c = '_' ∨ c = '-'

/-- Not a control character (a tab counts as none). -/
def Printable (c : Char) : Prop := c = '\t' ∨ (' ' ≤ c ∧ c ≠ '\x7f')

/-- A character behind a backslash, and what both mean. -/
inductive Escape : Char → Char → Prop
  | backspace : Escape 'b' '\x08'
  | tab : Escape 't' '\t'
  | feed : Escape 'n' '\n'
  | form : Escape 'f' '\x0c'
  | ret : Escape 'r' '\r'
  | quote : Escape '"' '"'
  | backslash : Escape '\\' '\\'

/-- What is between the quotes, and the text it means. -/
inductive Quoted : Str → Str → Prop
  | nil : Quoted [] []
  | char (c : Char) (q w : Str) : Printable c → c ≠ '"' → c ≠ '\\' → Quoted q w → Quoted (c :: q) (c :: w)
  | esc (e c : Char) (q w : Str) : Escape e c → Quoted q w → Quoted ('\\' :: e :: q) (c :: w)

/-- The text is written with these symbols: spaces and comments do not count, a word ends where no further character could belong to it. -/
inductive Spelled : Str → List Tok → Prop
  | done : Spelled [] []
  | space (c : Char) (l : Str) (ts : List Tok) : c = ' ' ∨ c = '\t' → Spelled l ts → Spelled (c :: l) ts
  | comment (w l line : Str) (ts : List Tok) : line = '#' :: (w ++ l) → (∀ c ∈ w, Printable c) → l = [] ∨ l.head? = some '\n' →
      Spelled l ts → Spelled line ts
  | sign (c : Char) (l : Str) (ts : List Tok) : c = '[' ∨ c = ']' ∨ c = '.' ∨ c = '=' ∨ c = ',' ∨ c = '\n' → Spelled l ts →
      Spelled (c :: l) (.sign c :: ts)
  | text (q w l line : Str) (ts : List Tok) : line = '"' :: (q ++ '"' :: l) → Quoted q w → Spelled l ts →
      Spelled line (.text w :: ts)
  | word (w l line : Str) (ts : List Tok) : line = w ++ l → w ≠ [] → (∀ c ∈ w, Bare c) → (∀ c ∈ l.head?, ¬ Bare c) → Spelled l ts →
      Spelled line (.word w :: ts)

/-- A key, bare or quoted. -/
inductive IsName : Tok → Str → Prop
  | word (w : Str) : IsName (.word w) w
  | text (w : Str) : IsName (.text w) w

/-- Names with points between them. -/
inductive Path : List Tok → List Str → Prop
  | one (t : Tok) (k : Str) : IsName t k → Path [t] [k]
  | more (t : Tok) (k : Str) (ts : List Tok) (ks : List Str) : IsName t k → Path ts ks → Path (t :: .sign '.' :: ts) (k :: ks)

/-- Line feeds, which do not count in an array. -/
def Feeds (ts : List Tok) : Prop := ∀ t ∈ ts, t = .sign '\n'

/-- Texts with commas between them; there may be a comma behind the last one. -/
inductive Elements : List Tok → List Str → Prop
  | none (f : List Tok) : Feeds f → Elements f []
  | last (f g : List Tok) (w : Str) : Feeds f → Feeds g → Elements (f ++ .text w :: g) [w]
  | more (f g ts : List Tok) (w : Str) (ws : List Str) : Feeds f → Feeds g → Elements ts ws →
      Elements (f ++ .text w :: (g ++ .sign ',' :: ts)) (w :: ws)

/-- A header `[a.b]`, or an entry `key = "text"` or `key = ["text", …]`. -/
inductive Says : List Tok → Item → Prop
  | header (ts : List Tok) (p : List Str) : Path ts p → Says (.sign '[' :: (ts ++ [.sign ']'])) (.header p)
  | text (t : Tok) (k w : Str) : IsName t k → Says [t, .sign '=', .text w] (.entry k (.text w))
  | list (t : Tok) (k : Str) (ts : List Tok) (l : List Str) : IsName t k → Elements ts l →
      Says (t :: .sign '=' :: .sign '[' :: (ts ++ [.sign ']'])) (.entry k (.list l))

/-- The statements of a file, each on lines of its own. -/
inductive Statements : List Tok → List Item → Prop
  | done : Statements [] []
  | blank (ts : List Tok) (is : List Item) : Statements ts is → Statements (.sign '\n' :: ts) is
  | more (ts rest : List Tok) (i : Item) (is : List Item) : Says ts i → rest = [] ∨ rest.head? = some (.sign '\n') →
      Statements rest is → Statements (ts ++ rest) (i :: is)

/-- The entries of a document: those before the first header, then table by table. -/
def entryItems (es : List (Str × Value)) : List Item := es.map fun e => .entry e.1 e.2

def items (d : Doc) : List Item := entryItems d.root ++ d.tables.flatMap fun t => .header t.1 :: entryItems t.2

/-- TOML: no table twice, no key twice in a table, and nothing that is an entry is a table as well. -/
structure Lawful (d : Doc) : Prop where
  tables : (d.tables.map (·.1)).Nodup
  root : (d.root.map (·.1)).Nodup
  keys : ∀ t ∈ d.tables, (t.2.map (·.1)).Nodup
  rootEntries : ∀ e ∈ d.root, ∀ u ∈ d.tables, u.1.head? ≠ some e.1
  entries : ∀ t ∈ d.tables, ∀ e ∈ t.2, ∀ u ∈ d.tables, ¬ (t.1 ++ [e.1]) <+: u.1

/-- The text says this document. -/
def IsDocument (s : Str) (d : Doc) : Prop := Lawful d ∧ ∃ ts, Spelled s ts ∧ Statements ts (items d)

/-- A rule file in the form which the model covers: nothing before the first header; `[conversion]` once, with pairs of texts, and no table in it;
the tables of the sections with commands have arrays of texts. -/
structure IsRuleFile (d : Doc) : Prop where
  root : d.root = []
  named : ∀ t ∈ d.tables, t.1 ≠ []
  conversion : ∀ t ∈ d.tables, t.1.head? = some c%"conversion" → t.1 = [c%"conversion"] ∧ ∀ e ∈ t.2, ∃ a b, e.2 = .list [a, b]
  sections : ∀ t ∈ d.tables, ∀ m s, RuleText.sectionName m = some s → t.1.head? = some s →
    (t.1 = [s] ∧ t.2 = []) ∨ ((∃ n, t.1 = [s, n]) ∧ ∀ e ∈ t.2, ∃ l, e.2 = .list l)

/-- The entry `key = ["text", …]` of the table `[section.mode]`. -/
def HasEntry (d : Doc) (m : CompositionMode) (im : InputMode) (es : List (Str × List Str)) : Prop :=
  ∃ s, RuleText.sectionName m = some s ∧ ([s, RuleText.tableName im], es.map fun e => (e.1, Value.list e.2)) ∈ d.tables

end Cskk.Spec.TomlText

namespace Cskk.Spec.TomlText

open Cskk.TomlText (Value Doc)

/-- The table `[id]` of a metadata file has these three entries. -/
def Describes (d : Doc) (id name description path : Str) : Prop :=
  ∃ es, ([id], es) ∈ d.tables ∧ (c%"name", Value.text name) ∈ es ∧ (c%"description", Value.text description) ∈ es ∧ (c%"path", Value.text path) ∈ es

/-- A metadata file: nothing but tables `[id]` with texts, and each has a name, a description and a path. -/
structure IsMetadata (d : Doc) : Prop where
  root : d.root = []
  tables : ∀ t ∈ d.tables, (∃ id, t.1 = [id]) ∧ (∀ e ∈ t.2, ∃ s, e.2 = .text s) ∧
    ∀ k ∈ [c%"name", c%"description", c%"path"], ∃ e ∈ t.2, e.1 = k

end Cskk.Spec.TomlText
