import Verif.Model.Dictionary

/-!
# Specification vocabulary for dictionary contents

What a dictionary lists, in terms of finite maps only.
-/

namespace Cskk.Spec.UserDict

/-- The okuri-ari or the okuri-nashi side of a dictionary. -/
def side (m : DictMaps) (okuri : Bool) : Recency DictEntry := if okuri then m.ari else m.nashi

/-- The words a dictionary lists under a reading, in the group for okurigana `g` (`""` is the general group). -/
def listed (m : DictMaps) (okuri : Bool) (midashi g : Str) : Option (List DictCand) :=
  ((side m okuri).find midashi).bind fun e => SMap.get e.cands g

/-- A list contains a word. -/
def HasWord (l : List DictCand) (w : Str) : Prop := ∃ d ∈ l, d.kouho = w

/-- `new` is `old` with the word of `c` in front: an entry of the list with that word has become the first one and all
entries are kept exactly once; or the list did not have the word and `c` was added in front of it. -/
inductive MovedToFront (c : Candidate) : List DictCand → List DictCand → Prop
  | known {old d rest} : HasWord old c.kouho → d.kouho = c.kouho → (d :: rest).Perm old → MovedToFront c old (d :: rest)
  | added {old} : ¬ HasWord old c.kouho → MovedToFront c old (⟨c.kouho, c.annotation⟩ :: old)

/-- The groups a candidate is recorded in: the general one and, if there is one, that of its exact okurigana. -/
def recordedIn (strict : Option Str) (g : Str) : Prop := g = [] ∨ strict = some g

/-- A well-formed dictionary: entries stored under their reading, every reading once, groups in `BTreeMap` order, and no
group lists a word twice. -/
structure WellFormed (m : DictMaps) : Prop where
  keys : ∀ o, ((side m o).map (·.1)).Nodup
  reading : ∀ o, ∀ e ∈ side m o, e.2.midashi = e.1
  sorted : ∀ o, ∀ e ∈ side m o, e.2.cands.Pairwise fun a b => strLt a.1 b.1 = true
  distinct : ∀ o, ∀ e ∈ side m o, ∀ g ∈ e.2.cands, (g.2.map (·.kouho)).Nodup

end Cskk.Spec.UserDict
