import Verif.Model.Basic

/-!
# How Emacs Lisp writes a string

Old SKK dictionaries write words with `/` and `;` in them as `(concat "…")`.
-/

namespace Cskk.Spec.Concat

/-- The pieces of a written string. -/
inductive Piece where
  /-- a character as it is -/
  | plain (c : Char)
  /-- a backslash and a character -/
  | quoted (c : Char)
  /-- a backslash and octal digits; `closed`: a backslash ends them -/
  | octal (ds : List (Fin 8)) (closed : Bool)
  deriving Repr, DecidableEq

/-- An octal digit. -/
def digit (d : Fin 8) : Char := Char.ofNat (48 + d.val)

/-- The number of octal digits. -/
def number (ds : List (Fin 8)) : Nat := ds.foldl (fun n d => n * 8 + d.val) 0

/-- As it is written. -/
def Piece.text : Piece → Str
  | .plain c => [c]
  | .quoted c => ['\\', c]
  | .octal ds closed => '\\' :: ds.map digit ++ if closed then ['\\'] else []

/-- What it means. -/
def Piece.value : Piece → Char
  | .plain c | .quoted c => c
  | .octal ds _ => Char.ofNat (number ds)

/-- The piece begins with an octal digit. -/
def Piece.startsDigit : Piece → Bool
  | .plain c => (List.finRange 8).any fun d => decide (c = digit d)
  | _ => false

def Piece.isOctal : Piece → Bool
  | .octal .. => true
  | _ => false

/-- Nothing is ambiguous: there is no backslash among the meant characters, one to three octal digits, no digit is quoted; and digits which are not closed are
followed neither by other digits (unless there are three), nor by another number. -/
def clear : List Piece → Bool
  | [] => true
  | .plain c :: r => decide (c ≠ '\\') && clear r
  | .quoted c :: r => decide (c ≠ '\\') && !(Piece.plain c).startsDigit && clear r
  | .octal ds closed :: r =>
    decide (1 ≤ ds.length ∧ ds.length ≤ 3) && decide ((Piece.octal ds closed).value ≠ '\\') &&
      (closed || (!(r.head?.map Piece.isOctal).getD false && (decide (ds.length = 3) || !(r.head?.map Piece.startsDigit).getD false))) && clear r

/-- The written string. -/
def written (ps : List Piece) : Str := (ps.map Piece.text).flatten

/-- The meant string. -/
def meant (ps : List Piece) : Str := ps.map Piece.value

/-- A text in a dictionary: as it is, or as `(concat "…")`. -/
inductive Form where
  | plain (w : Str)
  | concat (ps : List Piece)
  deriving Repr, DecidableEq

def Form.text : Form → Str
  | .plain w => w
  | .concat ps => c%"(concat \"" ++ written ps ++ c%"\")"

def Form.value : Form → Str
  | .plain w => w
  | .concat ps => meant ps

def Form.Fine : Form → Prop
  | .plain w => ¬ c%"(concat " <:+: w
  | .concat ps => ps ≠ [] ∧ clear ps = true ∧ '\n' ∉ written ps

end Cskk.Spec.Concat
