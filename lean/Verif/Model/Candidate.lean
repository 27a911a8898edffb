import Verif.Model.Forms

/-!
# Candidates and composite keys (`src/dictionary/candidate.rs`, `dictionary_candidate.rs`, `composite_key.rs`)
-/

namespace Cskk

/-- `CompositeKey` (src/dictionary/composite_key.rs:6-10). -/
structure CompositeKey where
  toComposite : Str
  okuri : Option Str
  deriving Repr, DecidableEq

namespace CompositeKey

/-- composite_key.rs:28-30 `has_okuri`. -/
def hasOkuri (k : CompositeKey) : Bool := k.okuri.isSome

/-- composite_key.rs:33-48 `get_dict_key`; `chars().next().unwrap()` panics for `Some("")`. -/
def getDictKey (k : CompositeKey) : R Str :=
  match k.okuri with
  | none => .ok k.toComposite
  | some [] => .error .unwrap
  | some (c :: _) =>
    match KanaFormChanger.okuriPrefix c with
    | some o => .ok (k.toComposite ++ [o])
    | none => .ok k.toComposite

/-- `CompositeKey::new("", None)`. -/
def empty : CompositeKey := ⟨[], none⟩

end CompositeKey

/-- `DictionaryCandidate` (src/dictionary/dictionary_candidate.rs:12-17). -/
structure DictCand where
  kouho : Str
  annotation : Option Str
  deriving Repr, DecidableEq

/-- `Candidate` (src/dictionary/candidate.rs:7-19). -/
structure Candidate where
  midashi : Str
  strictOkuri : Option Str
  okuri : Bool
  kouho : Str
  annotation : Option Str
  output : Str
  deriving Repr, DecidableEq

namespace Candidate

/-- candidate.rs:22-31 `Candidate::default`. -/
def default : Candidate := ⟨c%"エラー", none, false, c%"エラー", none, c%"エラー"⟩

/-- candidate.rs:65-77 `from_dictionary_candidate`. -/
def fromDictionaryCandidate (k : CompositeKey) (d : DictCand) : R Candidate := do
  let midashi ← k.getDictKey
  return ⟨midashi, k.okuri, k.hasOkuri, d.kouho, d.annotation, d.kouho⟩

end Candidate

namespace DictCand
/-- dictionary_candidate.rs:36-44 `from_candidate`. -/
def fromCandidate (c : Candidate) : DictCand := ⟨c.kouho, c.annotation⟩
end DictCand

end Cskk
