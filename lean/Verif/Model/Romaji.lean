import Verif.Model.KeyEvent
import Verif.Model.Modes

/-!
# Romaji conversion (`src/kana_builder.rs`) on the trie of the `sequence_trie` crate
-/

namespace Cskk

/-- `(Converted, CarryOver)` (src/kana_builder.rs:10-11). -/
abbrev Conv := Str × List Keysym

/-- `sequence_trie::SequenceTrie` 0.3.6: an optional value and a map of children.
The children `HashMap` is an association list with at most one entry per key. -/
inductive Trie where
  | node (value : Option Conv) (children : List (Keysym × Trie))

namespace Trie

/-- `SequenceTrie::new()`. -/
def empty : Trie := .node none []

/-- `children.get(k)`. -/
def childGet (k : Keysym) : List (Keysym × Trie) → Option Trie
  | [] => none
  | (k', t) :: cs => if k' = k then some t else childGet k cs

/-- `children.entry(k).or_insert_with(new)` replaced by `t`. -/
def childSet (k : Keysym) (t : Trie) : List (Keysym × Trie) → List (Keysym × Trie)
  | [] => [(k, t)]
  | (k', t') :: cs => if k' = k then (k, t) :: cs else (k', t') :: childSet k t cs

/-- `SequenceTrie::insert(key, value)`. -/
def insert : List Keysym → Conv → Trie → Trie
  | [], v, .node _ cs => .node (some v) cs
  | k :: ks, v, .node val cs => .node val (childSet k (insert ks v ((childGet k cs).getD empty)) cs)

/-- `SequenceTrie::get_node(key)`. -/
def getNode : List Keysym → Trie → Option Trie
  | [], t => some t
  | k :: ks, .node _ cs =>
    match childGet k cs with
    | none => none
    | some t => getNode ks t

/-- `SequenceTrie::value()`. -/
def value : Trie → Option Conv
  | .node v _ => v

/-- `SequenceTrie::is_leaf()`. -/
def isLeaf : Trie → Bool
  | .node _ cs => cs.isEmpty

/-- `SequenceTrie::get(key)`. -/
def get (key : List Keysym) (t : Trie) : Option Conv := (getNode key t).bind value

end Trie

/-- `KanaBuilder` (src/kana_builder.rs:21-23). -/
structure KanaBuilder where
  processMap : Trie

namespace KanaBuilder

/-- src/kana_builder.rs:186-190 `new_empty`. -/
def newEmpty : KanaBuilder := ⟨Trie.empty⟩

/-- The loop of src/kana_builder.rs:167-176 on the converted key sequences. -/
def ofTable (tbl : List (List Keysym × Conv)) : KanaBuilder :=
  ⟨tbl.foldl (fun t e => t.insert e.1 e.2) Trie.empty⟩

/-- src/kana_builder.rs:166-177 `converter_from_hashmap`; `map` is the rule's `HashMap` in its (unspecified)
iteration order: `(key, (carry, converted))`. -/
def fromRule (x : Xkb) (map : List (Str × (Str × Str))) : KanaBuilder :=
  ofTable (map.map fun e => (KeyEvent.keysymsFromStr x e.1, (e.2.2, KeyEvent.keysymsFromStr x e.2.1)))

/-- src/kana_builder.rs:120-126 `uncapitalize`. -/
def uncapitalize (k : Keysym) : Keysym := if KEY_A ≤ k ∧ k ≤ KEY_Z then k + 0x20 else k

/-- src/kana_builder.rs:100-105 `combine_lower`. -/
def combineLower (ev : KeyEvent) (unprocessed : List Keysym) : List Keysym :=
  unprocessed ++ [uncapitalize ev.symbol]

/-- src/kana_builder.rs:112-117 `combine_raw`. -/
def combineRaw (ev : KeyEvent) (unprocessed : List Keysym) : List Keysym := unprocessed ++ [ev.symbol]

/-- src/kana_builder.rs:132-134 `can_continue`. -/
def canContinue (b : KanaBuilder) (ev : KeyEvent) (unprocessed : List Keysym) : Bool :=
  (Trie.getNode (combineRaw ev unprocessed) b.processMap).isSome

/-- src/kana_builder.rs:140-146 `can_continue_lower`. -/
def canContinueLower (b : KanaBuilder) (ev : KeyEvent) (unprocessed : List Keysym) : Bool :=
  (Trie.getNode (combineLower ev unprocessed) b.processMap).isSome

/-- src/kana_builder.rs:36-54 `next_unprocessed_state`. -/
def nextUnprocessedState (b : KanaBuilder) (ev : KeyEvent) (unprocessed : List Keysym) : List Keysym :=
  if b.canContinue ev unprocessed then combineRaw ev unprocessed
  else if b.canContinueLower ev unprocessed then combineLower ev unprocessed
  else if b.canContinue ev [] then [ev.symbol]
  else []

/-- src/kana_builder.rs:57-59 `convert_greedy`. -/
def convertGreedy (b : KanaBuilder) (kana : List Keysym) : Option Conv := Trie.get kana b.processMap

/-- src/kana_builder.rs:62-69 `convert_non_partial`. -/
def convertNonPartial (b : KanaBuilder) (kana : List Keysym) : Option Conv :=
  match Trie.getNode kana b.processMap with
  | some node => if node.isLeaf then node.value else none
  | none => none

/-- src/kana_builder.rs:74-93 `convert_periods`. -/
def convertPeriods (c : Char) (ps : PeriodStyle) (cs : CommaStyle) : Option Str :=
  if c = '.' then
    match ps with
    | .ja => some c%"。"
    | .en => some c%"．"
  else if c = ',' then
    match cs with
    | .ja => some c%"、"
    | .en => some c%"，"
  else none

end KanaBuilder
end Cskk
