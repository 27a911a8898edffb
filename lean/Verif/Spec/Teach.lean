import Verif.Spec.Typing
import Verif.Spec.Registration
import Verif.Spec.Session

/-!
# Teaching a word and getting it back
-/

namespace Cskk.Spec.Teach
open Typing

/-- The kana which a typed text stands for when it is converted: what was written, and the kana of the keys still pending (as the `n` of
`hon`). -/
def spelled (tbl : List (List Keysym × Conv)) (ps : PeriodStyle) (cs : CommaStyle) (t : Str) : Str :=
  let s := typeText tbl ps cs ⟨[], [], true⟩ t
  rendered id (s.out ++ flushed tbl s.pending)

/-- The keys which are left over when a typed text is converted: neither written nor kana by themselves. -/
def unspelled (tbl : List (List Keysym × Conv)) (ps : PeriodStyle) (cs : CommaStyle) (t : Str) : List Keysym :=
  let s := typeText tbl ps cs ⟨[], [], true⟩ t
  match valueOf tbl s.pending with
  | some v => v.2
  | none => s.pending

/-- No keyword starts a conversion while `t` is typed: none is the end of what is written so far, unless it is all of it. -/
def Calm (tbl : List (List Keysym × Conv)) (g : Config) (t : Str) : Prop :=
  ∀ q, q <+: t → ∀ kw ∈ g.keywords, kw <:+ rendered id (typeText tbl g.period g.comma ⟨[], [], true⟩ q).out →
    kw = rendered id (typeText tbl g.period g.comma ⟨[], [], true⟩ q).out

/-- The keys `up :: t`, a capital letter and then printable characters without commands and capital letters, are a word with the reading `r`
under the romaji table `tbl` with the command characters `ks`. -/
structure WordKeys (tbl : List (List Keysym × Conv)) (ks : CompositionMode → List Char) (g : Config) (up : Char) (t r : Str) : Prop where
  capital : 0x41 ≤ up.toNat ∧ up.toNat ≤ 0x5a ∧ up ≠ 'U' ∧ up ∉ ks .direct
  begins : begins tbl [up.toNat + 0x20] = true
  plain : ∀ ch ∈ t, Plain ch ∧ ch ∉ ks .preComposition
  calm : Calm tbl g (Char.ofNat (up.toNat + 0x20) :: t)
  reading : spelled tbl g.period g.comma (Char.ofNat (up.toNat + 0x20) :: t) = r

/-- The candidate made of a word registered for a reading. -/
def taught (r w : Str) : Candidate := ⟨r, none, false, w, none, w⟩

end Cskk.Spec.Teach
