import Verif.Spec.Document

/-!
# What one may want to write

Kana, katakana, words of the dictionaries, and Latin letters; nothing is said here about keys.
-/

namespace Cskk.Spec.Wishes

/-- The hiragana ぁ … ゖ and the long vowel mark. -/
def Hiragana (ch : Char) : Prop := (0x3041 ≤ ch.toNat ∧ ch.toNat ≤ 0x3096) ∨ ch = 'ー'

/-- The katakana of a hiragana. -/
def katakana (ch : Char) : Char := if ch = 'ー' then ch else Char.ofNat (ch.toNat + 0x60)

/-- The kana which cannot be used: anywhere, and as the okurigana. -/
structure Limits where
  never : Str
  okuri : Str

/-- With the default rule every hiragana can be used; okurigana does not begin with ー. -/
def defaultLimits : Limits := ⟨[], c%"ー"⟩

/-- AZIK's table has no entries for ゐ, ゑ, ゕ and ゖ. -/
def azikLimits : Limits := ⟨c%"ゐゑゕゖ", c%"ー"⟩

def Usable (m : Limits) (ch : Char) : Prop := Hiragana ch ∧ ch ∉ m.never

inductive Wish where
  /-- hiragana -/
  | hiragana (w : Str)
  /-- katakana, given by the hiragana -/
  | katakana (w : Str)
  /-- the word number `n` (from 0) of those the dictionaries have for the reading `r` -/
  | word (r : Str) (n : Nat)
  /-- the same for a reading and the first kana of the okurigana -/
  | okuri (r : Str) (k : Char) (n : Nat)
  /-- the word number `n` of those the dictionaries have for the Latin letters `t` -/
  | short (t : Str) (n : Nat)
  /-- printable ASCII characters -/
  | latin (t : Str)
  deriving Repr, DecidableEq

/-- What is written, and what the dictionaries know. -/
structure Sheet where
  text : Str
  dicts : List CskkDict

/-- A reading which can be typed: of hiragana, and no keyword which starts the conversion ends a beginning of it, unless it is all of it. -/
structure Readable (m : Limits) (g : Config) (r : Str) : Prop where
  kana : ∀ ch ∈ r, Usable m ch
  ne : r ≠ []
  quiet : ∀ v, v <+: r → ∀ kw ∈ g.keywords, kw <:+ v → kw = v

/-- Writing what is wanted: it is appended, and the dictionaries learn which word was chosen. -/
inductive Grants (m : Limits) (g : Config) : Sheet → Wish → Sheet → Prop where
  | hiragana (s : Sheet) (w : Str) (h : ∀ ch ∈ w, Usable m ch) : Grants m g s (.hiragana w) ⟨s.text ++ w, s.dicts⟩
  | katakana (s : Sheet) (w : Str) (h : ∀ ch ∈ w, Usable m ch) : Grants m g s (.katakana w) ⟨s.text ++ w.map katakana, s.dicts⟩
  | word (s : Sheet) (r : Str) (n : Nat) (cs : List Candidate) (x : Candidate) (h : Readable m g r)
      (hcs : Dicts.getAll s.dicts ⟨r, none⟩ = .ok cs) (hx : cs[n]? = some x) :
      Grants m g s (.word r n) ⟨s.text ++ x.output, s.dicts.map fun (d : CskkDict) => d.confirm x⟩
  | okuri (s : Sheet) (r : Str) (k : Char) (n : Nat) (cs : List Candidate) (x : Candidate) (h : Readable m g r) (hk : Usable m k) (ho : k ∉ m.okuri)
      (hcs : Dicts.getAll s.dicts ⟨r, some [k]⟩ = .ok cs) (hx : cs[n]? = some x) :
      Grants m g s (.okuri r k n) ⟨s.text ++ (x.output ++ [k]), s.dicts.map fun (d : CskkDict) => d.confirm x⟩
  | short (s : Sheet) (t : Str) (n : Nat) (cs : List Candidate) (x : Candidate) (h : ∀ ch ∈ t, 0x20 < ch.toNat ∧ ch.toNat ≤ 0x7e)
      (hcs : Dicts.getAll s.dicts ⟨t, none⟩ = .ok cs) (hx : cs[n]? = some x) :
      Grants m g s (.short t n) ⟨s.text ++ x.output, s.dicts.map fun (d : CskkDict) => d.confirm x⟩
  | latin (s : Sheet) (t : Str) (h : ∀ ch ∈ t, 0x20 ≤ ch.toNat ∧ ch.toNat ≤ 0x7e) : Grants m g s (.latin t) ⟨s.text ++ t, s.dicts⟩

/-- A whole text. -/
inductive GrantsAll (m : Limits) (g : Config) : Sheet → List Wish → Sheet → Prop where
  | nil (s : Sheet) : GrantsAll m g s [] s
  | cons {s t u : Sheet} {x : Wish} {xs : List Wish} (h : Grants m g s x t) (hs : GrantsAll m g t xs u) : GrantsAll m g s (x :: xs) u

end Cskk.Spec.Wishes
