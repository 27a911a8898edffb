import Verif.Model.Candidate

/-!
# The dictionary line parser (`src/dictionary/dictionary_parser.rs`) on the nom 7 combinators

A parser takes the input and returns the rest and a value, `none` is nom's recoverable `Err::Error`
(the `complete` combinators used never return `Incomplete` or `Failure`).
-/

namespace Cskk
namespace Parse

/-- nom's `IResult<&str, α>`. -/
abbrev P (α : Type) := Str → Option (Str × α)

/-- nom `char(c)`. -/
def char (c : Char) : P Char
  | d :: s => if d = c then some (s, c) else none
  | [] => none

/-- nom `take_while1(p)`. -/
def takeWhile1 (p : Char → Bool) : P Str := fun s =>
  let t := s.takeWhile p
  if t.isEmpty then none else some (s.dropWhile p, t)

/-- nom `take_till1(p)`. -/
def takeTill1 (p : Char → Bool) : P Str := takeWhile1 fun c => !p c

/-- nom `map`. -/
def pmap {α β} (p : P α) (f : α → β) : P β := fun s => (p s).map fun r => (r.1, f r.2)

/-- nom `opt`. -/
def opt {α} (p : P α) : P (Option α) := fun s =>
  match p s with
  | some (s', a) => some (s', some a)
  | none => some (s, none)

/-- nom `alt((p, q))`. -/
def alt {α} (p q : P α) : P α := fun s => (p s).or (q s)

/-- nom `all_consuming(p)`. -/
def allConsuming {α} (p : P α) : P α := fun s =>
  match p s with
  | some ([], a) => some ([], a)
  | _ => none

/-- Repetition part of nom `many1`; a parser that consumes nothing is an error. `fuel` bounds the iterations
(each consumes input, so the input length suffices). -/
def manyAux {α} (p : P α) : Nat → List α → P (List α)
  | 0, acc, s => some (s, acc)
  | fuel + 1, acc, s =>
    match p s with
    | none => some (s, acc)
    | some (s', a) => if s'.length = s.length then none else manyAux p fuel (acc ++ [a]) s'

/-- nom `many1(p)`. -/
def many1 {α} (p : P α) : P (List α) := fun s =>
  match p s with
  | none => none
  | some (s', a) => manyAux p s'.length [a] s'

/-- One round of nom's `permutation` for two parsers: the first parser that has not succeeded yet and succeeds now. -/
def perm2Step {α β} (p : P α) (q : P β) (st : Str × Option α × Option β) : Option (Str × Option α × Option β) :=
  let (s, a, b) := st
  (if a.isNone then (p s).map fun r => (r.1, some r.2, b) else none).or
  (if b.isNone then (q s).map fun r => (r.1, a, some r.2) else none)

/-- nom `permutation((p, q))`: every round applies one more parser; an error when none of the remaining applies. -/
def perm2 {α β} (p : P α) (q : P β) : P (α × β) := fun s => do
  let st ← perm2Step p q (s, none, none)
  let st ← perm2Step p q st
  match st with
  | (s, some a, some b) => some (s, (a, b))
  | _ => none

/-- One round of nom's `permutation` for three parsers. -/
def perm3Step {α β γ} (p : P α) (q : P β) (r : P γ) (st : Str × Option α × Option β × Option γ) :
    Option (Str × Option α × Option β × Option γ) :=
  let (s, a, b, c) := st
  (if a.isNone then (p s).map fun x => (x.1, some x.2, b, c) else none).or
  ((if b.isNone then (q s).map fun x => (x.1, a, some x.2, c) else none).or
   (if c.isNone then (r s).map fun x => (x.1, a, b, some x.2) else none))

/-- nom `permutation((p, q, r))`. -/
def perm3 {α β γ} (p : P α) (q : P β) (r : P γ) : P (α × β × γ) := fun s => do
  let st ← perm3Step p q r (s, none, none, none)
  let st ← perm3Step p q r st
  let st ← perm3Step p q r st
  match st with
  | (s, some a, some b, some c) => some (s, (a, b, c))
  | _ => none

/-- State of a five-fold permutation. -/
abbrev St5 (α β γ δ ε : Type) := Str × Option α × Option β × Option γ × Option δ × Option ε

/-- One round of nom's `permutation` for five parsers. -/
def perm5Step {α β γ δ ε} (p : P α) (q : P β) (r : P γ) (t : P δ) (u : P ε) (st : St5 α β γ δ ε) :
    Option (St5 α β γ δ ε) :=
  let (s, a, b, c, d, e) := st
  (if a.isNone then (p s).map fun x => (x.1, some x.2, b, c, d, e) else none).or
  ((if b.isNone then (q s).map fun x => (x.1, a, some x.2, c, d, e) else none).or
   ((if c.isNone then (r s).map fun x => (x.1, a, b, some x.2, d, e) else none).or
    ((if d.isNone then (t s).map fun x => (x.1, a, b, c, some x.2, e) else none).or
     (if e.isNone then (u s).map fun x => (x.1, a, b, c, d, some x.2) else none))))

/-- nom `permutation((p, q, r, t, u))`. -/
def perm5 {α β γ δ ε} (p : P α) (q : P β) (r : P γ) (t : P δ) (u : P ε) : P (α × β × γ × δ × ε) := fun s => do
  let st ← perm5Step p q r t u (s, none, none, none, none, none)
  let st ← perm5Step p q r t u st
  let st ← perm5Step p q r t u st
  let st ← perm5Step p q r t u st
  let st ← perm5Step p q r t u st
  match st with
  | (s, some a, some b, some c, some d, some e) => some (s, (a, b, c, d, e))
  | _ => none

end Parse

/-! ## Ordered string maps -/

/-- `BTreeMap<String, V>`: entries with strictly increasing keys. -/
abbrev SMap (V : Type) := List (Str × V)

namespace SMap
variable {V : Type}

/-- `BTreeMap::get`. -/
def get (m : SMap V) (k : Str) : Option V := (m.find? (·.1 = k)).map (·.2)

/-- `BTreeMap::insert` (replaces an existing value). -/
def insert (m : SMap V) (k : Str) (v : V) : SMap V :=
  match m with
  | [] => [(k, v)]
  | (k', v') :: m' =>
    if k = k' then (k, v) :: m'
    else if strLt k k' then (k, v) :: (k', v') :: m'
    else (k', v') :: insert m' k v

end SMap

namespace DictParser
open Parse

/-- `CandidatePrototype` (dictionary_parser.rs:26-30) has the same shape as `DictCand` (raw texts). -/
abbrev CandidateProto := DictCand

/-- dictionary_parser.rs:145-147. -/
def isCandIllegal (c : Char) : Bool := c == '/' || c == ';' || c == '[' || c == ']'

/-- dictionary_parser.rs:149-151. -/
def isAnnotationIllegal (c : Char) : Bool := c == '/' || c == ';'

/-- `('ぁ'..'ゖ').contains(&c)` (dictionary_parser.rs:102): an exclusive range, U+3041 to U+3095. -/
def isOkuriKana (c : Char) : Bool := decide ('ぁ'.toNat ≤ c.toNat) && decide (c.toNat < 'ゖ'.toNat)

/-- dictionary_parser.rs:117-142 `no_strict_okuri_candidate`. -/
def noStrictOkuriCandidate : P CandidateProto := fun s =>
  match takeTill1 isCandIllegal s with
  | none => none
  | some (i, cand) =>
    match opt (perm2 (char ';') (takeTill1 isAnnotationIllegal)) i with
    | none => none
    | some (i', some (_, a)) => some (i', ⟨cand, some a⟩)
    | some (i', none) => some (i', ⟨cand, none⟩)

/-- dictionary_parser.rs:98-113 `strict_okuri_candidates`. -/
def strictOkuriCandidates : P (SMap (List CandidateProto)) := fun s =>
  match perm5 (char '[') (takeWhile1 isOkuriKana) (char '/')
      (many1 (pmap (perm2 noStrictOkuriCandidate (char '/')) (·.1))) (char ']') s with
  | none => none
  | some (i, (_, okuri, _, cands, _)) => some (i, SMap.insert [] okuri cands)

/-- dictionary_parser.rs:82-95 `candidate`. -/
def candidate : P (SMap (List CandidateProto)) := fun s =>
  match perm2 (alt strictOkuriCandidates (pmap noStrictOkuriCandidate fun c => SMap.insert [] [] [c])) (char '/') s with
  | none => none
  | some (i, (r, _)) => some (i, r)

/-- The merging loop of dictionary_parser.rs:65-75: append to the list of the same okuri or insert a new one. -/
def mergeOne (result : SMap (List CandidateProto)) (e : Str × List CandidateProto) : SMap (List CandidateProto) :=
  match SMap.get result e.1 with
  | some cs => SMap.insert result e.1 (cs ++ e.2)
  | none => SMap.insert result e.1 e.2

/-- dictionary_parser.rs:61-78 `candidates`. -/
def candidates : P (SMap (List CandidateProto)) := fun s =>
  match allConsuming (perm2 (char '/') (many1 candidate)) s with
  | none => none
  | some (_, (_, parsed)) => some ([], parsed.foldl (fun r m => m.foldl mergeOne r) [])

/-- dictionary_parser.rs:55-58 `midashi`. -/
def midashi : P Str := takeTill1 (· == ' ')

/-- dictionary_parser.rs:39-53 `entry`. -/
def entry (s : Str) : Option (Str × SMap (List CandidateProto)) :=
  match allConsuming (perm3 midashi (takeWhile1 (· == ' ')) candidates) s with
  | none => none
  | some (_, (m, _, cs)) => some (m, cs)

end DictParser
end Cskk
