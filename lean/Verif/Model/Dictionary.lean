import Verif.Model.DictEntry
import Verif.Spec.Recency

/-!
# Dictionaries (`src/dictionary/mod.rs`, `file_dictionary.rs`, `user_dictionary.rs`, `static_dict.rs`, `empty_dict.rs`)

`LruOrderedMap<String, DictEntry>` is represented by its abstraction `Spec.Recency DictEntry` (most recently used
first); `Props/LruMap.lean` proves that the pointer implementation refines it. A `Mutex` is only ever locked for the
duration of one call and is not modelled.
-/

namespace Cskk
open Spec

/-- `DictionaryEntries` (file_dictionary.rs:11-14), also the two maps inside a user or static dictionary. -/
structure DictMaps where
  ari : Recency DictEntry
  nashi : Recency DictEntry
  deriving Repr, DecidableEq

/-- `CskkDictionaryType` (dictionary/mod.rs:31-35) with the fields of `StaticFileDict` and `UserDictionary`
(user_dictionary.rs:15-24). File path and encoding are constants of the dictionary and live in `Model/DictFile.lean`. -/
inductive DictKind where
  | static (m : DictMaps)
  | user (m : DictMaps) (hasChange : Bool)
  | empty
  deriving Repr, DecidableEq

/-- `CskkDictionary` (dictionary/mod.rs:39-42). -/
structure CskkDict where
  completable : Bool
  kind : DictKind
  deriving Repr, DecidableEq

namespace DictMaps

/-- user_dictionary.rs:43-51 and static_dict.rs:33-41 `lookup`. -/
def lookup (m : DictMaps) (k : CompositeKey) : R (Option DictEntry) := do
  let key ← k.getDictKey
  return if k.hasOkuri then m.ari.find key else m.nashi.find key

/-- One step of an insertion sort by key. -/
def insertByKey (e : Str × DictEntry) : List (Str × DictEntry) → List (Str × DictEntry)
  | [] => [e]
  | x :: xs => if strLt x.1 e.1 then x :: insertByKey e xs else e :: x :: xs

/-- `iter_sorted`: the entries in ascending key order (`Props.Lru.container_refines`). -/
def sortedView (l : Recency DictEntry) : List (Str × DictEntry) := l.foldr insertByKey []

/-- file_dictionary.rs:34-78 `complete`: `skip_while` and `take_while` on the sorted entries. The key is computed by
the closures, hence only if the map has an entry. -/
def complete (m : DictMaps) (k : CompositeKey) : R (List DictEntry) :=
  match sortedView (if k.hasOkuri then m.ari else m.nashi) with
  | [] => .ok []
  | x :: xs => do
    let key ← k.getDictKey
    return (((x :: xs).dropWhile fun e => !key.isPrefixOf e.1).takeWhile fun e => key.isPrefixOf e.1).map (·.2)

/-- Replace one of the two maps. -/
def update (m : DictMaps) (okuri : Bool) (f : Recency DictEntry → Recency DictEntry) : DictMaps :=
  if okuri then { m with ari := f m.ari } else { m with nashi := f m.nashi }

/-- user_dictionary.rs:118-141 `select_candidate` (without the change flag). -/
def select (m : DictMaps) (c : Candidate) : DictMaps :=
  m.update c.okuri fun d =>
    match d.find c.midashi with
    | some _ => d.touch c.midashi fun e => e.prioritize c
    | none => d.push c.midashi (DictEntry.new c.midashi c)

/-- user_dictionary.rs:143-160 `purge_candidate` (without the change flag). -/
def purge (m : DictMaps) (k : CompositeKey) (c : Candidate) : DictMaps :=
  m.update c.okuri fun d => d.touch c.midashi fun e => e.removeMatching k c

end DictMaps

namespace CskkDict

/-- dictionary/mod.rs:92-107 `confirm_candidate`; read-only dictionaries use the default `select_candidate` of the
trait (mod.rs:539-541). -/
def confirm (d : CskkDict) (c : Candidate) : CskkDict :=
  match d.kind with
  | .user m _ => { d with kind := .user (m.select c) true }
  | _ => d

/-- dictionary/mod.rs:112-130 `purge_candidate`. -/
def purge (d : CskkDict) (k : CompositeKey) (c : Candidate) : CskkDict :=
  match d.kind with
  | .user m _ => { d with kind := .user (m.purge k c) true }
  | _ => d

/-- The three `lookup` implementations. -/
def lookup (d : CskkDict) (k : CompositeKey) : R (Option DictEntry) :=
  match d.kind with
  | .static m => m.lookup k
  | .user m _ => m.lookup k
  | .empty => .ok none

/-- The three `complete` implementations. -/
def complete (d : CskkDict) (k : CompositeKey) : R (List DictEntry) :=
  match d.kind with
  | .static m => m.complete k
  | .user m _ => m.complete k
  | .empty => .ok []

end CskkDict

namespace Dicts

/-! ## Removing duplicates -/

/-- The derived `Ord` of `Option<String>`: `None` first. -/
def optLt : Option Str → Option Str → Bool
  | none, none => false
  | none, some _ => true
  | some _, none => false
  | some a, some b => strLt a b

/-- The derived `Ord` of `DictionaryCandidate` (dictionary_candidate.rs:12-17). -/
def candLt (a b : DictCand) : Bool :=
  strLt a.kouho b.kouho || (decide (a.kouho = b.kouho) && optLt a.annotation b.annotation)

/-- One step of an insertion sort. -/
def insertSorted {T} (lt : T → T → Bool) (e : T) : List T → List T
  | [] => [e]
  | x :: xs => if lt x e then x :: insertSorted lt e xs else e :: x :: xs

/-- `sort_unstable`: for a total order on values the sorted list is unique. -/
def sort {T} (lt : T → T → Bool) (l : List T) : List T := l.foldr (insertSorted lt) []

/-- `Vec::dedup_by` with equality of a key: drops an element whose key equals that of the last kept one. -/
def dedupBy {T} (key : T → Str) : List T → List T
  | [] => []
  | x :: xs =>
    match dedupBy key xs with
    | [] => [x]
    | y :: ys => if key x = key y then x :: ys else x :: y :: ys

/-- Index of the last element equal to `c` (`matched_index` after the inner loop). -/
def lastIdx {T} [DecidableEq T] (c : T) : List T → Option Nat
  | [] => none
  | x :: xs =>
    match lastIdx c xs with
    | some i => some (i + 1)
    | none => if x = c then some 0 else none

/-- One round of the outer loop of dictionary/mod.rs:267-278. -/
def dedupStep {T} [DecidableEq T] (st : List T × List T) (c : T) : List T × List T :=
  let (result, deduped) := st
  (result ++ deduped.filter (fun d => decide (d = c)),
   match lastIdx c deduped with
   | some i => deduped.eraseIdx i
   | none => deduped)

/-- dictionary/mod.rs:246-281 `dedup_candidates`. -/
def dedup {T} [DecidableEq T] (lt : T → T → Bool) (key : T → Str) (l : List T) : List T :=
  if l.isEmpty then []
  else (l.foldl dedupStep ([], (dedupBy key (sort lt l).reverse).reverse)).1

/-! ## Candidates for a key -/

/-- The body of the loop of dictionary/mod.rs:297-317 for one dictionary. -/
def candsOf (e : Option DictEntry) (k : CompositeKey) : List DictCand :=
  match e with
  | none => []
  | some e =>
    (if k.hasOkuri then (e.getCandidates k.okuri).getD [] else []) ++ (e.getCandidates none).getD []

/-- dictionary/mod.rs:290-320 `get_candidates_in_order`. -/
def inOrder (ds : List CskkDict) (k : CompositeKey) : R (List DictCand) :=
  match ds with
  | [] => .ok []
  | d :: ds => do
    let e ← d.lookup k
    let rest ← inOrder ds k
    return candsOf e k ++ rest

/-- dictionary/mod.rs:209-216: the exact matches of `get_all_candidates_inner`. -/
def exact (ds : List CskkDict) (k : CompositeKey) : R (List Candidate) := do
  let cs ← inOrder ds k
  (dedup candLt (·.kouho) cs).mapM (Candidate.fromDictionaryCandidate k)

/-- `get_all_candidates_inner(dictionaries, CompositeKey::new(number, None), true)`: used for `#4`. Without okurigana
the lookup cannot panic, so the error case is not reachable. -/
def relookup (ds : List CskkDict) (number : Str) : List Str :=
  match exact ds ⟨number, none⟩ with
  | .ok cs => cs.map (·.kouho)
  | .error _ => []

/-- dictionary/mod.rs:374-389 `replace_numeric_match`. -/
def replaceNumericMatch (ds : List CskkDict) (numbers : List Str) (c : Candidate) : R (List Candidate) := do
  let outs ← Numeric.replaceNumericString (relookup ds) c.kouho numbers
  return outs.map fun o => { c with output := o }

/-- dictionary/mod.rs:133-138, 202-241 `get_all_candidates`. -/
def getAll (ds : List CskkDict) (k : CompositeKey) : R (List Candidate) := do
  let ex ← exact ds k
  let (key, numbers) := Numeric.numericKey k.toComposite
  let replaced : CompositeKey := ⟨key, k.okuri⟩
  if replaced = k then return ex
  else do
    let num ← exact ds replaced
    let parts ← num.mapM (replaceNumericMatch ds numbers)
    return ex ++ parts.flatten

/-! ## Completion -/

/-- `CompletionCandidate` (dictionary_candidate.rs:77-84). -/
structure CompletionCand where
  midashi : Str
  okuri : Option Str
  kouho : Str
  annotation : Option Str
  deriving Repr, DecidableEq

/-- The derived `Ord` of `CompletionCandidate`: lexicographic in the order of the fields. -/
def completionLt (a b : CompletionCand) : Bool :=
  strLt a.midashi b.midashi || (decide (a.midashi = b.midashi) &&
    (optLt a.okuri b.okuri || (decide (a.okuri = b.okuri) &&
      (strLt a.kouho b.kouho || (decide (a.kouho = b.kouho) && optLt a.annotation b.annotation)))))

/-- The inner loop of dictionary/mod.rs:178-190 for one dictionary. -/
def completionsOf (es : List DictEntry) (k : CompositeKey) : List CompletionCand :=
  es.flatMap fun e => ((e.getCandidates k.okuri).getD []).map fun c => ⟨e.midashi, k.okuri, c.kouho, c.annotation⟩

/-- dictionary/mod.rs:164-196 `get_all_complete_inner`. -/
def completeInner (ds : List CskkDict) (k : CompositeKey) : R (List CompletionCand) :=
  match ds with
  | [] => .ok []
  | d :: ds => do
    let es ← if d.completable then d.complete k else .ok []
    let rest ← completeInner ds k
    return completionsOf es k ++ rest

/-- candidate.rs:82-93 `from_completion_candidate`. -/
def fromCompletion (c : CompletionCand) : Candidate :=
  ⟨c.midashi, c.okuri, c.okuri.isSome, c.kouho, c.annotation, c.kouho⟩

/-- dictionary/mod.rs:145-156 `get_all_complete`. -/
def getAllComplete (ds : List CskkDict) (k : CompositeKey) : R (List Candidate) := do
  let cs ← completeInner ds k
  return (dedup completionLt (·.kouho) cs).map fromCompletion

end Dicts
end Cskk
