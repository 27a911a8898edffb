import Verif.Model.CSession
import Verif.Props.CApi

/-!
# What a C program may rely on

The meaning of every C call in terms of the Rust API, and the strings which the program holds.
-/

namespace Cskk.Spec.CSession
open Cskk.CSession Cskk.CApi DictFile

/-- What a call does, as calls of the Rust API; a call which only asks does nothing. -/
def acts (e : Env) : Call → List Session.Act
  | .key k m r => [.call (.key (KeyEvent.fromFcitx k m r))]
  | .keys text =>
    match (cstr text).map (KeyEvent.deserializeSeq e.xkb) with
    | some (.ok (some evs)) => evs.map fun ev => .call (.key ev)
    | _ => []
  | .poll => [.call .poll]
  | .selectAt i => [.call (.selectAt i)]
  | .confirmAt i => [.call (.confirmAt i)]
  | .setInputMode m => [.call (.setInputMode m)]
  | .setRule name files dir =>
    match (cstr name).bind fun n => dir.bind fun d => RuleLoad.loadRule files d n with
    | some r => [.call (.setRule r.cmds r.kana)]
    | none => []
  | .setKeywords array =>
    -- a NULL in the first place stands for no array; texts which are not UTF-8 are left out
    [.call (.setKeywords (if array.head? = some none then [] else array.filterMap fun b => b.bind cstr))]
  | .setPeriod p => [.call (.setPeriod p)]
  | .setComma p => [.call (.setComma p)]
  | .reset => [.call .reset]
  | .save os => [.save os]
  | _ => []

/-- The text of the string which a call of the Rust API returns. -/
def text (e : Env) (c : Ctx) : Call → Option Str
  | .poll => some (c.pollOutput.2.getD [])
  | .preedit => some (c.preedit e)
  | .toComposite => some c.top.compositeKey.toComposite
  | .version => some versionText
  | _ => none

/-- A text with a NUL inside becomes an empty C string. -/
def cText (s : Str) : Str := if '\x00' ∈ s then [] else s

/-- A pointer for an optional text. -/
def opt (a : Nat) : Option Str → List (Nat × Str)
  | none => []
  | some s => [(a, cText s)]

/-- The strings of one level of a preedit in detail. -/
def pointers : StateInfo → StateInfoFfi → List (Nat × Str)
  | .direct c u, .direct pc pu => (pc, cText c) :: opt pu u
  | .preComposition c k o u, .preComposition pc pk po pu => (pc, cText c) :: (pk, cText k) :: (opt po o ++ opt pu u)
  | .preCompositionOkurigana c k o u, .preCompositionOkurigana pc pk po pu =>
    (pc, cText c) :: (pk, cText k) :: (opt po o ++ opt pu u)
  | .compositionSelection c x o a, .compositionSelection pc px po pa => (pc, cText c) :: (px, cText x) :: (opt po o ++ opt pa a)
  | .register c k o x, .register pc pk po px => (pc, cText c) :: (pk, cText k) :: (opt po o ++ opt px x)
  | .complete c o m d _ a, .complete pc po _ pm pd _ pa =>
    (pc, cText c) :: (po, cText o) :: (pm, cText m) :: (pd, cText d) :: opt pa a
  | _, _ => []

/-- The strings which a call hands to the program: address and text. -/
def handed (e : Env) (c : Ctx) (call : Call) (v : Val) : List (Nat × Str) :=
  match call, v with
  | .detail, .infos fs => ((c.preeditDetail e).zip fs).flatMap fun p => pointers p.1 p.2
  | .candidates _ _ offset, .slots buf n => (buf.take n.toNat).zip ((c.candidates.drop offset).map (·.output))
  | _, .ptr a => if a = 0 then [] else [(a, (text e c call).getD [])]
  | _, _ => []

/-- The strings which the program gives back with a call. -/
def returned : Call → List Nat
  | .freeString a => if a = 0 then [] else [a]
  | .freeDetail fs => fs.flatMap fun f => (dropFields f).filter fun a => decide (a ≠ 0)
  | .freeCandidates (some buf) size => buf.take size
  | _ => []

/-- The strings in the hands of the program after a call. -/
def ledger (e : Env) (c : Ctx) (l : List (Nat × Str)) (call : Call) (v : Val) : List (Nat × Str) :=
  handed e c call v ++ l.filter fun p => decide (p.1 ∉ returned call)

/-- The rules for the program: give back only what is in its hands, each string once; arrays are as long as it says, and no NULL behind a
keyword. -/
def Allowed (l : List (Nat × Str)) (call : Call) : Prop :=
  (returned call).Nodup ∧ (∀ a ∈ returned call, a ∈ l.map (·.1)) ∧
  match call with
  | .candidates buf size _ => size ≤ buf.length ∧ size < 2 ^ 31
  | .freeCandidates (some buf) size => size ≤ buf.length
  | .setKeywords array => array.head? = some none ∨ none ∉ array
  | _ => True

/-- The texts of a level which must not hold a NUL. -/
def fragile : StateInfo → List Str
  | .direct _ u => u.toList
  | .preComposition _ _ _ u => u.toList
  | .preCompositionOkurigana _ _ _ u => u.toList
  | .compositionSelection c x _ _ => [c, x]
  | .register _ _ _ x => x.toList
  | .complete c o m d _ a => [c, o, m, d] ++ a.toList

/-- When the process is aborted. -/
def Dies (e : Env) (c : Ctx) : Call → Prop
  | .key k m r => ∃ p, c.processKeyEvent e (KeyEvent.fromFcitx k m r) = .error p
  | .keys text => ∃ t, cstr text = some t ∧
    ∀ evs, KeyEvent.deserializeSeq e.xkb t = .ok (some evs) → ∃ p, c.processKeyEvents e evs = .error p
  | .detail => ∃ i ∈ c.preeditDetail e, ∃ t ∈ fragile i, '\x00' ∈ t
  | _ => False

/-- A program which keeps the rules: from a state and the strings it holds to a later state and the strings it holds then, with the calls and
their results. -/
inductive Uses (e : Env) (ogs : List Source) : CState → List (Nat × Str) → List (Call × Val) → CState → List (Nat × Str) → Prop
  | done (s l) : Uses e ogs s l [] s l
  | call {s l s' s'' l' call v t} : Allowed l call → step e ogs s call = .ok (s', v) →
      Uses e ogs s' (ledger e s.ctx l call v) t s'' l' → Uses e ogs s l ((call, v) :: t) s'' l'

/-- The answers of the calls which return no strings, in terms of the Rust API; of the others, whether there is an answer at all. -/
def Answers (e : Env) (c : Ctx) (call : Call) (v : Val) : Prop :=
  match call with
  | .key k m r => ∃ c', ∃ b, c.processKeyEvent e (KeyEvent.fromFcitx k m r) = .ok (c', b) ∧ v = .bool b
  | .keys t => v = .bool (cstr t).isSome
  | .underline => v = .ints 0 0
  | .count => c.candidateCount < 2 ^ 32 → v = .int c.candidateCount
  | .cursor => c.candidateCount < 2 ^ 31 → (c.candidateCount = 0 ∧ v = .int (-1)) ∨
      (c.candidateCount ≠ 0 ∧ (c.top.cands.cursor < c.candidateCount → v = .int c.top.cands.cursor))
  | .selectAt i => v = .bool (c.selectCandidateAt i).2
  | .confirmAt i => v = .bool (c.confirmCandidateAt e i).2
  | .getInputMode => v = .inputMode c.top.inputMode
  | .getCompositionMode => v = .compositionMode c.top.mode
  | .setRule name files dir =>
    v = .int (if ((cstr name).bind fun n => dir.bind fun d => RuleLoad.loadRule files d n).isSome then 0 else -1)
  | .detail => ∃ fs, v = .infos fs ∧ fs.length = c.depth
  | .candidates _ size offset => ∃ buf n, v = .slots buf n ∧
      (((∀ w ∈ ((c.candidates.drop offset).take size).map (·.output), '\x00' ∉ w) ∧ n = min size (c.candidateCount - offset)) ∨
       ((∃ w ∈ ((c.candidates.drop offset).take size).map (·.output), '\x00' ∈ w) ∧ n = -1))
  | .poll | .preedit | .toComposite | .version =>
    ∃ a, v = .ptr a ∧ (a = 0 ↔ '\x00' ∈ (text e c call).getD [])
  | _ => v = .unit

end Cskk.Spec.CSession
