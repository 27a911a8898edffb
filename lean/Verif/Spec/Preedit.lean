import Verif.Model.State

/-!
# How the parts of the detailed preedit are spelled
-/

namespace Cskk.Spec

/-- The text of one level: committed text, mark, reading or word, okurigana, pending keys. -/
def spell : StateInfo → Str
  | .direct confirmed pending => confirmed ++ pending.getD []
  | .preComposition confirmed reading _ pending => confirmed ++ '▽' :: (reading ++ pending.getD [])
  | .preCompositionOkurigana confirmed reading okuri pending =>
    confirmed ++ '▽' :: (reading ++ '*' :: (okuri.getD [] ++ pending.getD []))
  | .compositionSelection confirmed word okuri _ => confirmed ++ '▼' :: (word ++ okuri.getD [])
  | .register _ reading none post => '▼' :: (reading ++ post.getD [])
  | .register _ reading (some okuri) post => '▼' :: (reading ++ '*' :: (okuri ++ post.getD []))
  | .complete confirmed _ _ word okuri _ => confirmed ++ '■' :: (word ++ okuri.getD [])

/-- Whether the level waits for a registration. -/
def waits : StateInfo → Bool
  | .register .. => true
  | _ => false

/-- All levels, outermost first: what follows a level which waits for a registration stands in brackets. -/
def render : List StateInfo → Str
  | [] => []
  | i :: rest => if waits i then spell i ++ '【' :: (render rest ++ ['】']) else spell i ++ render rest

/-- Nested texts: each text but the last is followed by the bracketed rest. -/
def nest : List Str → Str
  | [] => []
  | [t] => t
  | t :: ts => t ++ '【' :: (nest ts ++ ['】'])

end Cskk.Spec
