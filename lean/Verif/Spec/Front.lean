import Verif.Spec.MachineSeen
import Verif.Spec.CDetail
import Verif.Spec.CSession

/-!
# A C program and the SKK machine

What the calls of the C API mean for the machine of `Spec/Machine.lean` and the dictionary files, and what a C program reads in the result of a call.
-/

namespace Cskk.Spec.Front
open Machine Cskk.CSession Cskk.DictFile

/-- The act which a call is. A keyword is a text in UTF-8; the rule files which are found are those of the default rule or those of the AZIK rule. -/
inductive Wants : Call → Act → Prop
  | key (k : Key) (sym : Keysym) (mods : BitVec 32) (release : Bool) : KeyEvent.fromFcitx sym mods release = k.event → Wants (.key sym mods release) (.key k)
  | poll : Wants .poll .poll
  | select (i : Int) : Wants (.selectAt i) (.select i)
  | confirm (i : Nat) : Wants (.confirmAt i) (.confirm i)
  | mode (m : InputMode) : Wants (.setInputMode m) (.setMode m)
  | reset : Wants .reset .reset
  | period (p : PeriodStyle) : Wants (.setPeriod p) (.setPeriod p)
  | comma (p : CommaStyle) : Wants (.setComma p) (.setComma p)
  | keywords (array : List (Option Bytes)) (l : List Str) : array.map (fun b => b.bind cstr) = l.map some → Wants (.setKeywords array) (.setKeywords l)
  | rule (azik : Bool) (name : Bytes) (files : RuleLoad.Files) (dir n : Str) (r : RuleLoad.Rule) : cstr name = some n → RuleLoad.loadRule files dir n = some r →
      r.cmds = (if azik then Assets.azikCommands else Assets.defaultCommands) → r.kana = (if azik then Assets.azikKana else Assets.defaultKana) →
      Wants (.setRule name files (some dir)) (.setRule azik)

/-- What a call says. -/
inductive Reply where
  | answer (a : Answer)
  /-- the rule is in use -/
  | loaded
  | text (w : Str)
  | number (n : Int)
  | mode (m : InputMode)
  | doing (m : CompositionMode)
  | words (l : List Str)
  /-- two numbers -/
  | pair (i j : Int)
  /-- the levels, from the lowest on -/
  | levels (l : List StateInfo)

/-- What the machine makes of a call, and what the call says. `ogs` are the files of the dictionaries. -/
inductive Says (e : Env) (rules : Bool → Config → Setup) (names : List Keysym → Str) (ogs : List Source) : Seat × FS → Call → Seat × FS → Reply → Prop
  | act {call x Z Z' fs ans} : Wants call x → Z.act rules x = some (Z', ans) →
      Says e rules names ogs (Z, fs) call (Z', fs) (match x with | .setRule _ => .loaded | _ => .answer ans)
  /-- several keys, written as a text -/
  | keys {bytes : Bytes} {t : Str} {ks : List Key} {Z Z' got fs} : cstr bytes = some t → KeyEvent.deserializeSeq e.xkb t = .ok (some (ks.map Key.event)) →
      Z.use rules names (ks.map .key) = some (Z', got) → Says e rules names ogs (Z, fs) (.keys bytes) (Z', fs) (.answer (.taken true))
  | line {Z fs} : Says e rules names ogs (Z, fs) .preedit (Z, fs) (.text (Z.desk.view (rules Z.azik Z.config) names).line)
  | mode {Z fs} : Says e rules names ogs (Z, fs) .getInputMode (Z, fs) (.mode Z.desk.mode)
  | doing {Z fs} : Says e rules names ogs (Z, fs) .getCompositionMode (Z, fs) (.doing Z.desk.phase.doing)
  | count {Z fs} : Z.desk.phase.list.1.length < 2 ^ 32 → Says e rules names ogs (Z, fs) .count (Z, fs) (.number Z.desk.phase.list.1.length)
  | cursor {Z fs} {i : Nat} : Z.desk.phase.list.2 = some i → i < 2 ^ 31 → Says e rules names ogs (Z, fs) .cursor (Z, fs) (.number i)
  | nowhere {Z fs} : Z.desk.phase.list.2 = none → Says e rules names ogs (Z, fs) .cursor (Z, fs) (.number (-1))
  | words {Z fs buf size offset} : Says e rules names ogs (Z, fs) (.candidates buf size offset) (Z, fs)
      (.words (((Z.desk.phase.list.1.drop offset).take size).map (·.output)))
  /-- the reading which is to be converted -/
  | reads {Z fs} : Says e rules names ogs (Z, fs) .toComposite (Z, fs) (.text Z.desk.phase.reads)
  /-- nothing is ever underlined -/
  | underline {Z fs} : Says e rules names ogs (Z, fs) .underline (Z, fs) (.pair 0 0)
  | version {Z fs} : Says e rules names ogs (Z, fs) .version (Z, fs) (.text c%"3.1.2")
  /-- the details (the machine knows nothing of texts with a NUL) -/
  | detail {Z fs} : (∀ i ∈ Z.desk.detail (rules Z.azik Z.config) names, ∀ t ∈ textsOf i, '\x00' ∉ t) →
      Says e rules names ogs (Z, fs) .detail (Z, fs) (.levels (Z.desk.detail (rules Z.azik Z.config) names))
  | save {Z fs os} : Says e rules names ogs (Z, fs) (.save os)
      ({ Z with desk := { Z.desk with dicts := (Session.saveAll ogs Z.desk.dicts os fs).1 } }, (Session.saveAll ogs Z.desk.dicts os fs).2) (.answer .nothing)
  | freeString {Z fs a} : Says e rules names ogs (Z, fs) (.freeString a) (Z, fs) (.answer .nothing)
  | freeDetail {Z fs l} : Says e rules names ogs (Z, fs) (.freeDetail l) (Z, fs) (.answer .nothing)
  | freeCandidates {Z fs buf size} : Says e rules names ogs (Z, fs) (.freeCandidates buf size) (Z, fs) (.answer .nothing)

/-- What the machine makes of several calls. -/
inductive Follows (e : Env) (rules : Bool → Config → Setup) (names : List Keysym → Str) (ogs : List Source) : Seat × FS → List Call → Seat × FS → Prop
  | done (p) : Follows e rules names ogs p [] p
  | call {p call p' r l p''} : Says e rules names ogs p call p' r → Follows e rules names ogs p' l p'' → Follows e rules names ogs p (call :: l) p''

/-- At this address is this text; NULL stands for a text with a NUL in it. -/
def Reads (h : CHeap) (a : Nat) (w : Str) : Prop := if '\x00' ∈ w then a = 0 else a ≠ 0 ∧ h.read a = some w

/-- The value which the program gets says this. -/
def Gives (h : CHeap) : Reply → Val → Prop
  | .answer .nothing, v => v = .unit
  | .answer (.taken b), v => v = .bool b
  | .answer (.text w), v | .text w, v => ∃ a, v = .ptr a ∧ Reads h a w
  | .loaded, v => v = .int 0
  | .number n, v => v = .int n
  | .mode m, v => v = .inputMode m
  | .doing m, v => v = .compositionMode m
  | .pair i j, v => v = .ints i j
  | .levels is, v => ∃ fs, v = .infos fs ∧ All2 (Describes h) is fs
  | .words l, v => ∃ buf n, v = .slots buf n ∧
    if ∃ w ∈ l, '\x00' ∈ w then n = -1 else n = l.length ∧ ∀ (i : Nat) (w : Str), l[i]? = some w → ∃ a, buf[i]? = some a ∧ h.read a = some w

end Cskk.Spec.Front
