import Verif.Spec.Persist

/-!
# What a dictionary file makes of the readings of words with okurigana

In a file the words with okurigana have readings which end with the letter their okurigana begin with (`うごk`). The engine registers words with okurigana under the reading
without the letter.
-/

namespace Cskk.Spec.Strays
open Cskk.DictFile Cskk.Spec.Persist

open Classical in
/-- The words after they were saved and read again. -/
noncomputable def refiled (t : Words) : Words := fun okuri reading g =>
  if okuri = true then (if OkuriAriReading reading then t true reading g else [])
  else if OkuriAriReading reading ∨ ∃ g', t false reading g' ≠ [] then t false reading g
  else t true reading g

end Cskk.Spec.Strays
