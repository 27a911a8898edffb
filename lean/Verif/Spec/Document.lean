import Verif.Spec.Teach
import Verif.Spec.ModeKeys
import Verif.Model.Dictionary

/-!
# Writing a text

What a text is which is written piece by piece: kana, words that are converted, with and without okurigana, and passages in Latin letters.
-/

namespace Cskk.Spec.Document
open Typing Teach

/-- What the rule says: the romaji table, the printable keys which are commands in each mode, those which are commands while a word is shown,
and the key which switches between hiragana and katakana. -/
structure Layout where
  tbl : List (List Keysym × Conv)
  commands : CompositionMode → List Char
  shown : List Char
  toggle : Char

/-- A text in progress: what is written, the kana mode, what the dictionaries know, and the word which is shown with its okurigana, if any. -/
structure Page where
  text : Str
  mode : InputMode
  dicts : List CskkDict
  chosen : Option (Candidate × Str)

/-- The shown word becomes part of the text, and the dictionaries remember that it was chosen. -/
def Page.settled (form : InputMode → Str → Str) (p : Page) : Page :=
  match p.chosen with
  | none => p
  | some (x, o) => ⟨p.text ++ (x.output ++ form p.mode o), p.mode, p.dicts.map fun (d : CskkDict) => d.confirm x, none⟩

/-- The pieces of a text. -/
inductive Passage where
  /-- romaji without capital letters -/
  | kana (t : Str)
  /-- a capital letter and more romaji, and then space as often as it takes to come to the word number `n` (from 0) -/
  | word (up : Char) (t : Str) (n : Nat)
  /-- the same with okurigana after a second capital letter; the first word is shown without a space -/
  | okuri (up : Char) (t : Str) (up' : Char) (t' : Str) (n : Nat)
  /-- Ctrl-j -/
  | confirm
  /-- hiragana to katakana, or back -/
  | toggle
  /-- `l`, Latin letters, Ctrl-j -/
  | latin (t : Str)
  deriving Repr, DecidableEq

/-- The keys typed for a piece. -/
def Passage.keys (L : Layout) : Passage → List KeyEvent
  | .kana t => typed t
  | .word up t n => typed (up :: t) ++ List.replicate (n + 1) ⟨0x20, 0⟩
  | .okuri up t up' t' n => typed (up :: t ++ up' :: t') ++ List.replicate n ⟨0x20, 0⟩
  | .confirm => [⟨0x6a, 4⟩]
  | .toggle => [⟨L.toggle.toNat, 0⟩]
  | .latin t => ⟨0x6c, 0⟩ :: (typed t ++ [⟨0x6a, 4⟩])

/-- Typing may go on with `ch`: no word is shown, or `ch` is no command while one is. -/
def GoesOn (L : Layout) (p : Page) (ch : Char) : Prop := p.chosen = none ∨ ch ∉ L.shown

/-- The small letter of a capital letter. -/
def small (up : Char) : Char := Char.ofNat (up.toNat + 0x20)

/-- A capital letter as words begin with: not a command in mode `m`, and its small letter begins romaji. -/
def Initial (L : Layout) (m : CompositionMode) (up : Char) : Prop :=
  0x41 ≤ up.toNat ∧ up.toNat ≤ 0x5a ∧ up ≠ 'U' ∧ up ∉ L.commands m ∧ begins L.tbl [up.toNat + 0x20] = true

/-- The page `p'` is what writing a piece makes of `p`. -/
inductive Writes (L : Layout) (g : Config) (form : InputMode → Str → Str) : Page → Passage → Page → Prop where
  /-- kana, after the shown word if there is one; no key is left pending -/
  | kana (p : Page) (ch : Char) (t : Str) (out : List Piece) (hp : ∀ x ∈ ch :: t, Plain x ∧ x ∉ L.commands .direct)
      (ht : typeText L.tbl g.period g.comma ⟨[], [], false⟩ (ch :: t) = ⟨out, [], false⟩) (ho : GoesOn L p ch) :
      Writes L g form p (.kana (ch :: t)) { p.settled form with text := (p.settled form).text ++ rendered (form p.mode) out }
  /-- a word: the one with number `n` of those the dictionaries have for the reading -/
  | word (p : Page) (up : Char) (t r : Str) (n : Nat) (cs : List Candidate) (x : Candidate) (hw : WordKeys L.tbl L.commands g up t r)
      (hl : unspelled L.tbl g.period g.comma (small up :: t) = []) (ho : GoesOn L p up)
      (hcs : Dicts.getAll (p.settled form).dicts ⟨r, none⟩ = .ok cs) (hx : cs[n]? = some x) :
      Writes L g form p (.word up t n) { p.settled form with chosen := some (x, []) }
  /-- a word with okurigana `w` -/
  | okuri (p : Page) (up : Char) (t : Str) (up' : Char) (t' : Str) (n : Nat) (ws : List Str) (w : Str) (cs : List Candidate) (x : Candidate)
      (hi : Initial L .direct up) (hp : ∀ y ∈ t, Plain y ∧ y ∉ L.commands .preComposition) (hs : Spells L.tbl [] (small up :: t) ws)
      (hq : ∀ v, v <+: ws → ∀ kw ∈ g.keywords, kw <:+ v.flatten → kw = v.flatten) (hr : ws.flatten ≠ [])
      (hi' : Initial L .preComposition up') (hn : completed L.tbl [up'.toNat + 0x20] = none)
      (hp' : ∀ y ∈ t', Plain y ∧ y ∉ L.commands .preCompositionOkurigana) (hs' : Okuri L.tbl [up'.toNat + 0x20] t' w) (hw : w ≠ [])
      (ho : GoesOn L p up) (hcs : Dicts.getAll (p.settled form).dicts ⟨ws.flatten, some w⟩ = .ok cs) (hx : cs[n]? = some x) :
      Writes L g form p (.okuri up t up' t' n) { p.settled form with chosen := some (x, w) }
  /-- the shown word is taken -/
  | confirm (p : Page) (x : Candidate × Str) (h : p.chosen = some x) : Writes L g form p .confirm (p.settled form)
  /-- the other kana mode -/
  | toggle (p : Page) (h : p.chosen = none) : Writes L g form p .toggle { p with mode := ModeKeys.ModeKey.target .kana p.mode }
  /-- Latin letters, as they are; after them one is in hiragana -/
  | latin (p : Page) (t : Str) (h : p.chosen = none) (ht : ∀ ch ∈ t, 0x20 ≤ ch.toNat ∧ ch.toNat ≤ 0x7e) :
      Writes L g form p (.latin t) { p with text := p.text ++ t, mode := .hiragana }

/-- A whole text. -/
inductive WritesAll (L : Layout) (g : Config) (form : InputMode → Str → Str) : Page → List Passage → Page → Prop where
  | nil (p : Page) : WritesAll L g form p [] p
  | cons {p q r : Page} {x : Passage} {xs : List Passage} (h : Writes L g form p x q) (hs : WritesAll L g form q xs r) :
      WritesAll L g form p (x :: xs) r

end Cskk.Spec.Document
