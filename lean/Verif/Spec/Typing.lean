import Verif.Spec.Keys

/-!
# Romaji typing, on the list of entries of the romaji table

The keys typed since the last kana are *pending*. Which keys are pending and which kana were written is said here by
scanning the list of entries; the program walks a trie.
-/

namespace Cskk.Spec.Typing

/-- The value of the last entry for the key sequence `k`. -/
def valueOf (tbl : List (List Keysym × Conv)) (k : List Keysym) : Option Conv :=
  (tbl.reverse.find? fun x => decide (x.1 = k)).map (·.2)

/-- Some entry starts with `k`. -/
def begins (tbl : List (List Keysym × Conv)) (k : List Keysym) : Bool := tbl.any fun x => k.isPrefixOf x.1

/-- Some entry starts with `k` and is longer. -/
def extendable (tbl : List (List Keysym × Conv)) (k : List Keysym) : Bool :=
  tbl.any fun x => k.isPrefixOf x.1 && !decide (x.1 = k)

/-- The value of `k` if `k` is an entry which no longer entry extends: the kana is written at once. -/
def completed (tbl : List (List Keysym × Conv)) (k : List Keysym) : Option Conv :=
  if extendable tbl k then none else valueOf tbl k

/-- The Japanese punctuation for a full stop or comma, in the configured style. -/
def punctuation (ps : PeriodStyle) (cs : CommaStyle) (ch : Char) : Option Str :=
  if ch = '.' then some (if ps = .ja then ['。'] else ['．'])
  else if ch = ',' then some (if cs = .ja then ['、'] else ['，'])
  else none

/-- What typing writes: kana, which appear in the form of the input mode, or a character of the keyboard as it is. -/
inductive Piece where
  | kana (w : Str)
  | char (ch : Char)
  deriving Repr, DecidableEq

/-- The kana of pending keys which are an entry. -/
def flushed (tbl : List (List Keysym × Conv)) (pending : List Keysym) : List Piece :=
  match valueOf tbl pending with
  | some v => [.kana v.1]
  | none => []

/-- Typing in progress: what was written, the pending keys, and whether the latter were begun with a capital letter. -/
structure Typing where
  out : List Piece
  pending : List Keysym
  shift : Bool
  deriving Repr, DecidableEq

/-- One typed character other than a capital letter. -/
def typeKey (tbl : List (List Keysym × Conv)) (ps : PeriodStyle) (cs : CommaStyle) (s : Typing) (ch : Char) : Typing :=
  match completed tbl (s.pending ++ [ch.toNat]) with
  | some (w, carry) => ⟨s.out ++ [.kana w], carry, s.shift && !carry.isEmpty⟩
  | none =>
    match punctuation ps cs ch with
    | some w => ⟨s.out ++ flushed tbl s.pending ++ [.kana w], [], false⟩
    | none =>
      if begins tbl (s.pending ++ [ch.toNat]) then ⟨s.out, s.pending ++ [ch.toNat], s.shift⟩
      else
        match completed tbl [ch.toNat] with
        | some (w, carry) => ⟨s.out ++ [.kana w], carry, s.shift && !carry.isEmpty⟩
        | none =>
          if begins tbl [ch.toNat] then ⟨s.out ++ flushed tbl s.pending, [ch.toNat], false⟩
          else ⟨s.out ++ flushed tbl s.pending ++ [.char ch], [], false⟩

/-- A whole text. -/
def typeText (tbl : List (List Keysym × Conv)) (ps : PeriodStyle) (cs : CommaStyle) (s : Typing) (t : Str) : Typing :=
  t.foldl (typeKey tbl ps cs) s

/-- What was written, as it appears if kana appear as `f` says. -/
def rendered (f : Str → Str) : List Piece → Str
  | [] => []
  | .kana w :: l => f w ++ rendered f l
  | .char ch :: l => ch :: rendered f l

/-- The printable ASCII characters except the capital letters. -/
def Plain (ch : Char) : Prop := 0x20 ≤ ch.toNat ∧ ch.toNat ≤ 0x7e ∧ ¬ (0x41 ≤ ch.toNat ∧ ch.toNat ≤ 0x5a)

instance (ch : Char) : Decidable (Plain ch) := inferInstanceAs (Decidable (_ ∧ _ ∧ _))

/-- `t` spells the kana `ws`, if the keys `u` are pending: the text is cut into pieces. A piece is an entry of the table
together with what is pending, of which no entry is a proper extension, and leaves its carry-over pending (as `kk` does,
which is `っ` and then `k`); or it is an entry (such as `n`) after which a key follows with which no entry goes on and
which itself only begins one. -/
inductive Spells (tbl : List (List Keysym × Conv)) : List Keysym → Str → List Str → Prop where
  | done : Spells tbl [] [] []
  | piece (u : List Keysym) (p t : Str) (w : Str) (carry : List Keysym) (ws : List Str) (hp : p ≠ [])
      (hv : valueOf tbl (u ++ p.map Char.toNat) = some (w, carry)) (hx : extendable tbl (u ++ p.map Char.toNat) = false)
      (hd : ∀ ch ∈ p.dropLast, ch ≠ '.' ∧ ch ≠ ',') (ht : Spells tbl carry t ws) : Spells tbl u (p ++ t) (w :: ws)
  | short (u : List Keysym) (p t : Str) (ch : Char) (w : Str) (carry : List Keysym) (ws : List Str)
      (hv : valueOf tbl (u ++ p.map Char.toNat) = some (w, carry))
      (hx : p ≠ [] → extendable tbl (u ++ p.map Char.toNat) = true)
      (hb : begins tbl (u ++ p.map Char.toNat ++ [ch.toNat]) = false)
      (hd : ∀ ch ∈ p, ch ≠ '.' ∧ ch ≠ ',')
      (hc : begins tbl [ch.toNat] = true) (hc' : completed tbl [ch.toNat] = none) (hn : ch ≠ '.' ∧ ch ≠ ',')
      (ht : Spells tbl [] (ch :: t) ws) : Spells tbl u (p ++ ch :: t) (w :: ws)

/-- `t` spells the okurigana `w`, if the keys `u` are pending: pieces which leave a carry-over (っ), and a last one which
does not. -/
inductive Okuri (tbl : List (List Keysym × Conv)) : List Keysym → Str → Str → Prop where
  | last (u : List Keysym) (p w : Str) (hp : p ≠ []) (hv : valueOf tbl (u ++ p.map Char.toNat) = some (w, []))
      (hx : extendable tbl (u ++ p.map Char.toNat) = false) (hd : ∀ ch ∈ p.dropLast, ch ≠ '.' ∧ ch ≠ ',') : Okuri tbl u p w
  | more (u : List Keysym) (p t w w' : Str) (carry : List Keysym) (hp : p ≠ [])
      (hv : valueOf tbl (u ++ p.map Char.toNat) = some (w, carry))
      (hx : extendable tbl (u ++ p.map Char.toNat) = false) (hd : ∀ ch ∈ p.dropLast, ch ≠ '.' ∧ ch ≠ ',')
      (hcr : carry ≠ []) (ht : Okuri tbl carry t w') : Okuri tbl u (p ++ t) (w ++ w')

end Cskk.Spec.Typing
