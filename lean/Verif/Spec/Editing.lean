import Verif.Spec.Typing
import Verif.Spec.Teach

/-!
# Typing with corrections

Typing where BackSpace is one of the keys: a small editor of one line.
-/

namespace Cskk.Spec.Editing
open Typing

/-- A key: a printable character, or BackSpace. -/
inductive Stroke where
  | char (ch : Char)
  | back
  deriving Repr, DecidableEq

/-- The key event. -/
def Stroke.key : Stroke → KeyEvent
  | .char ch => ⟨ch.toNat, 0⟩
  | .back => ⟨0xff08, 0⟩

/-- Typing a text without corrections. -/
def chars (t : Str) : List Stroke := t.map .char

/-- The line: what is written, the keys which are no kana yet, and whether a capital letter is among what is pending. -/
structure Draft where
  text : Str
  pending : List Keysym
  shift : Bool
  deriving Repr, DecidableEq

/-- A character is typed as in C45, the kana are written in the form `f`; BackSpace takes the last pending key away, or, if there is none, the last
character of the text. -/
def Draft.press (tbl : List (List Keysym × Conv)) (g : Config) (f : Str → Str) (d : Draft) : Stroke → Draft
  | .char ch =>
    let s := typeKey tbl g.period g.comma ⟨[], d.pending, d.shift⟩ ch
    ⟨d.text ++ rendered f s.out, s.pending, s.shift⟩
  | .back => if d.pending = [] then { d with text := d.text.dropLast } else { d with pending := d.pending.dropLast }

/-- Many keys. -/
def Draft.presses (tbl : List (List Keysym × Conv)) (g : Config) (f : Str → Str) (d : Draft) (l : List Stroke) : Draft :=
  l.foldl (Draft.press tbl g f) d

/-- Nothing is left on the line. -/
def Draft.Empty (d : Draft) : Prop := d.text = [] ∧ d.pending = []

instance (d : Draft) : Decidable d.Empty := inferInstanceAs (Decidable (_ ∧ _))

/-- The reading is edited and stays one: BackSpace is not pressed when nothing is left, and no character makes the reading end with a keyword that
starts the conversion. -/
def Draft.Stays (tbl : List (List Keysym × Conv)) (g : Config) (d : Draft) : List Stroke → Prop
  | [] => True
  | s :: l => (match s with
      | .back => ¬ d.Empty
      | .char _ => ∀ kw ∈ g.keywords, kw <:+ (d.press tbl g id s).text → kw = (d.press tbl g id s).text) ∧ (d.press tbl g id s).Stays tbl g l

/-- The line with the pending keys flushed, as the conversion key does it (`n` becomes ん; keys which are no kana are left out). -/
def Draft.reading (tbl : List (List Keysym × Conv)) (d : Draft) : Str := d.text ++ rendered id (flushed tbl d.pending)

/-- The keys of the line are characters without capital letters, none of them a command in mode `m`, and BackSpace. -/
def Plainly (ks : CompositionMode → List Char) (m : CompositionMode) (l : List Stroke) : Prop := ∀ ch, .char ch ∈ l → Plain ch ∧ ch ∉ ks m

/-- The pending keys which flushing leaves. -/
def Draft.left (tbl : List (List Keysym × Conv)) (d : Draft) : List Keysym :=
  match valueOf tbl d.pending with
  | some v => v.2
  | none => d.pending

/-- The line after the capital letter which begins a word: its small letter is typed. -/
def begun (tbl : List (List Keysym × Conv)) (g : Config) (up : Char) : Draft :=
  (⟨[], [], true⟩ : Draft).press tbl g id (.char (Char.ofNat (up.toNat + 0x20)))

/-- The keys of a word which is typed with corrections: a capital letter and then characters and BackSpaces; the reading stays one; `d` is the line at
the end. -/
structure Corrected (tbl : List (List Keysym × Conv)) (ks : CompositionMode → List Char) (g : Config) (up : Char) (l : List Stroke) (d : Draft) : Prop where
  capital : 0x41 ≤ up.toNat ∧ up.toNat ≤ 0x5a ∧ up ≠ 'U' ∧ up ∉ ks .direct
  begins : begins tbl [up.toNat + 0x20] = true
  plain : Plainly ks .preComposition l
  stays : (⟨[], [], true⟩ : Draft).Stays tbl g (.char (Char.ofNat (up.toNat + 0x20)) :: l)
  line : (begun tbl g up).presses tbl g id l = d

end Cskk.Spec.Editing
