import Verif.Model.DictParser
import Verif.Model.LispFun

/-! # Dictionary entries (`src/dictionary/dictentry.rs`, `dictionary_candidate.rs`) -/

namespace Cskk

/-- `DictEntry` (dictentry.rs:11-19). -/
structure DictEntry where
  midashi : Str
  hasOkuri : Bool
  cands : SMap (List DictCand)
  deriving Repr, DecidableEq

/-- `Vec::swap(0, i)`. -/
def swapFirst {α} (l : List α) (i : Nat) : List α :=
  match l, l[i]? with
  | x :: _, some y => (l.set i x).set 0 y
  | _, _ => l

namespace DictEntry

/-- dictentry.rs:27-46 `new`. -/
def new (midashi : Str) (c : Candidate) : DictEntry :=
  let m : SMap (List DictCand) := match c.strictOkuri with
    | some o => SMap.insert [] o [DictCand.fromCandidate c]
    | none => []
  { midashi := midashi, hasOkuri := c.okuri, cands := SMap.insert m [] [DictCand.fromCandidate c] }

/-- dictentry.rs:60-87 `prioritize_candidate_for_okuri`. -/
def prioritizeForOkuri (e : DictEntry) (okuri : Str) (c : Candidate) : DictEntry :=
  match SMap.get e.cands okuri with
  | some cs =>
    match cs.findIdx? (fun it => decide (it.kouho = c.kouho)) with
    | some i => { e with cands := SMap.insert e.cands okuri (swapFirst cs i) }
    | none => { e with cands := SMap.insert e.cands okuri (DictCand.fromCandidate c :: cs) }
  | none => { e with cands := SMap.insert e.cands okuri [DictCand.fromCandidate c] }

/-- dictentry.rs:51-57 `prioritize_candidate`. -/
def prioritize (e : DictEntry) (c : Candidate) : DictEntry :=
  let e := match c.strictOkuri with
    | some o => e.prioritizeForOkuri o c
    | none => e
  e.prioritizeForOkuri [] c

/-- dictentry.rs:106-115 `remove_candidate_for_okuri`. -/
def removeForOkuri (e : DictEntry) (okuri : Str) (c : Candidate) : DictEntry :=
  match SMap.get e.cands okuri with
  | some cs =>
    match cs.findIdx? (fun it => decide (it.kouho = c.kouho)) with
    | some i => { e with cands := SMap.insert e.cands okuri (cs.eraseIdx i) }
    | none => e
  | none => e

/-- dictentry.rs:94-104 `remove_matching_candidate`. -/
def removeMatching (e : DictEntry) (k : CompositeKey) (c : Candidate) : DictEntry :=
  let e := match k.okuri with
    | some o => e.removeForOkuri o c
    | none => e
  e.removeForOkuri [] c

/-- dictentry.rs:119-128 `get_candidates`. -/
def getCandidates (e : DictEntry) (strictOkuri : Option Str) : Option (List DictCand) :=
  match strictOkuri with
  | some o => SMap.get e.cands o
  | none => SMap.get e.cands []

/-- `'a'..='z'` (dictentry.rs:146-149). -/
def isAlphabet (c : Char) : Bool := decide ('a'.toNat ≤ c.toNat) && decide (c.toNat ≤ 'z'.toNat)

/-- `!midashi.starts_with(alphabet) && midashi.ends_with(alphabet)` (dictentry.rs:150). -/
def looksOkuriAri (midashi : Str) : Bool :=
  !(midashi.head?.any isAlphabet) && midashi.getLast?.any isAlphabet

/-- dictionary_candidate.rs:20-32 `from_candidate_prototype`. -/
def candFromProto (p : DictParser.CandidateProto) : DictCand :=
  ⟨LispFun.process p.kouho, p.annotation.map LispFun.process⟩

/-- dictentry.rs:162-176 `candidates_from_prototype`. -/
def candsFromProto (m : SMap (List DictParser.CandidateProto)) : SMap (List DictCand) :=
  m.foldl (fun r e => SMap.insert r e.1 (e.2.map candFromProto)) []

/-- dictentry.rs:134-160 `from_skkjisyo_line`, `from_dict_entry_prototype`; `none` is the parse error. -/
def fromLine (line : Str) : Option DictEntry :=
  match DictParser.entry line with
  | none => none
  | some (m, cs) =>
    let midashi := LispFun.process m
    some { midashi := midashi, hasOkuri := looksOkuriAri midashi, cands := candsFromProto cs }

/-- dictionary_candidate.rs:47-64 `Display for DictionaryCandidate`. -/
def showCand (c : DictCand) : Str :=
  match c.annotation with
  | some a => LispFun.escape c.kouho ++ c%";" ++ LispFun.escape a
  | none => LispFun.escape c.kouho

/-- Body of the loop of dictentry.rs:279-290. -/
def showGroup (g : Str × List DictCand) : Str :=
  (if g.1.isEmpty then [] else c%"/[" ++ g.1) ++
  (g.2.flatMap fun c => c%"/" ++ showCand c) ++
  (if g.1.isEmpty then [] else c%"/]")

/-- dictentry.rs:273-293 `Display for DictEntry`. -/
def toLine (e : DictEntry) : Str :=
  LispFun.escape e.midashi ++ c%" " ++ e.cands.flatMap showGroup ++ c%"/"

end DictEntry
end Cskk
