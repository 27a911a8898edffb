import Verif.Spec.CLife

/-!
# A careful user

The file format of the dictionaries cannot carry every word. What a user, who sees the machine of `Spec/Machine.lean`, has to mind, so that all words which were learnt
can be saved.
-/

namespace Cskk.Spec.Careful
open Cskk Machine Spec.Persist Spec.DictText Spec.Session

/-- Enter. -/
def Enters (k : Key) : Prop := k = .enter ∨ k = .ctrl 'm'

/-- The key which erases the shown word from the dictionaries. -/
def Erases (k : Key) : Prop := k = .char 'X' ∨ k = .shifted 'X'

/-- The okurigana which are asked for are hiragana. -/
def Proper (a : Asked) : Prop := a.strict = true → ∀ x ∈ a.tail, OkuriKana x

/-- Where the word `x`, shown for `k`, has okurigana, another word stays in each group of `d` it is erased from. -/
def Spares (d : CskkDict) (k : CompositeKey) (x : Candidate) : Prop :=
  x.okuri = true → ∀ g, g = [] ∨ k.okuri = some g → words (Props.UserDict.maps d) true x.midashi g ≠ [] →
    ∃ y ∈ words (Props.UserDict.maps d) true x.midashi g, y.kouho ≠ x.kouho

/-- The user registers only for readings without okurigana or full stop, which can stand in a line of a dictionary, and only words a dictionary can hold; chooses words with
okurigana only if these are hiragana; and does not erase the last word with given okurigana. -/
def Careful (D : Desk) : Act → Prop
  | .key k =>
    match D.phase with
    | .direct _ _ => Enters k → D.written ≠ [] → ∀ W, D.waiting.head? = some W → W.asked.tail = [] ∧ PlainReading W.asked.stem ∧ CandOk ⟨D.written, none⟩
    | .choosing a words i => Proper a ∧ (Erases k → ∀ x, words[i]? = some x → ∀ d ∈ D.dicts, kindOf d = .user → Spares d a.key x)
    | _ => True
  | .confirm _ =>
    match D.phase with
    | .choosing a _ _ => Proper a
    | _ => True
  | _ => True

/-- All words of all dictionaries are such as a dictionary file can hold. -/
def AllPlain (ds : List CskkDict) : Prop := ∀ d ∈ ds, PlainDict (Props.UserDict.maps d)

/-- The user is careful all the time, keeps the dictionaries, and no file is lost. -/
def Prudent (pr : Bool) : Seat → List Life.Event → Prop
  | _, [] => True
  | Z, .act x :: l => Life.Keeps x ∧ Careful Z.desk x ∧ ∀ r, Z.act (Props.Machine.shipped pr) x = some r → Prudent pr r.1 l
  | Z, .save os :: l => (∀ i, os i ≠ .createFails) ∧ Prudent pr Z l
  | Z, .refresh :: l => Prudent pr Z l

/-- What the machine, to which files mean nothing, says about events. -/
def tells (pr : Bool) (Z : Seat) : List Life.Event → Option (Seat × List (Answer × View))
  | [] => some (Z, [])
  | .act x :: l => (Z.act (Props.Machine.shipped pr) x).bind fun r =>
    (tells pr r.1 l).map fun q => (q.1, (r.2, r.1.desk.view (Props.Machine.shipped pr r.1.azik r.1.config) (Props.Machine.names pr)) :: q.2)
  | .save _ :: l => tells pr Z l
  | .refresh :: l => tells pr Z l

/-- What it says about a life. -/
def tellsLife (pr : Bool) (ds : List CskkDict) : List Life.Chapter → Option (List CskkDict × List (List (Answer × View)))
  | [] => some (ds, [])
  | x :: l => (tells pr (Props.Machine.start x.azik x.config x.mode ds) x.events).bind fun r =>
    (tellsLife pr r.1.desk.dicts l).map fun q => (q.1, r.2 :: q.2)

/-- The user is careful all their life. -/
def PrudentLife (pr : Bool) (ds : List CskkDict) : List Life.Chapter → Prop
  | [] => True
  | x :: l => Prudent pr (Props.Machine.start x.azik x.config x.mode ds) x.events ∧
    ∀ r, tells pr (Props.Machine.start x.azik x.config x.mode ds) x.events = some r → PrudentLife pr r.1.desk.dicts l

/-- The user minds this call of a C program. -/
def Minds (pr : Bool) (Z : Seat) (cl : CSession.Call) : Prop :=
  (∀ x, Front.Wants cl x → Careful Z.desk x) ∧
  ∀ bytes t (ks : List Key), cl = .keys bytes → CSession.cstr bytes = some t → KeyEvent.deserializeSeq (Assets.env ⟨pr⟩).xkb t = .ok (some (ks.map Key.event)) →
    Prudent pr Z (ks.map fun k => .act (.key k))

/-- The user is careful all the time. -/
def Heeds (pr : Bool) : Seat → List CSession.Call → Prop
  | _, [] => True
  | Z, cl :: l => Minds pr Z cl ∧ ∀ Z' r, CLife.Says pr Z cl Z' r → Heeds pr Z' l

/-- What the machine remembers of programs (`CLife.Remembers`) of a user who is careful until they save. -/
inductive Recalls (pr : Bool) : List CskkDict → List CLife.Program → List CskkDict → Prop
  | done (ds) : Recalls pr ds [] ds
  | saved {ds : List CskkDict} {x : CLife.Program} {before after : List CSession.Call} {Z Z' ps ds'} :
      x.calls.map (·.1) = before ++ .save (fun _ => .completes) :: after → CLife.Follows pr (Props.Machine.start x.azik x.config x.mode ds) before Z →
      Heeds pr (Props.Machine.start x.azik x.config x.mode ds) before → (∀ cl ∈ after, CLife.Saveless cl) → CLife.Follows pr Z after Z' →
      Recalls pr Z.desk.dicts ps ds' → Recalls pr ds (x :: ps) ds'
  | lost {ds : List CskkDict} {x : CLife.Program} {Z ps ds'} : (∀ cl ∈ x.calls.map (·.1), CLife.Saveless cl) →
      CLife.Follows pr (Props.Machine.start x.azik x.config x.mode ds) (x.calls.map (·.1)) Z → Recalls pr ds ps ds' → Recalls pr ds (x :: ps) ds'

end Cskk.Spec.Careful
